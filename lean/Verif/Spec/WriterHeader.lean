import Verif.Model.WriterHeader
import Verif.Spec.Writer
import Verif.Spec.Header
import Verif.Spec.Units
import Mathlib.Algebra.Field.Defs

/-!
# A written file, read back
-/

namespace Verif.Spec
open Verif.WriterHeader Verif.Header

/-- The physical size of a box given to the writer, in base units. -/
def boxPhysical {K : Type} [Field K] (b : Box K) : Option (List K) :=
  b.vals.map (fun l => l.map (fun x => x * b.unit * if b.comoving then b.scale else 1))

/-- The physical size of what a reader has under `boxsize`, in base units. -/
def readPhysical {K D : Type} [Field K] : Option (Val K D) → Option (List K)
  | some (.cosmo (.array l) _ e (.scalar a) comoving _) => some (l.map (fun x => x * if comoving then a ^ e else 1))
  | _ => none

/-- The entries of the header that the writer makes. -/
def ownEntries : List String :=
  ["BoxSize", "NumPart_Total", "NumPart_Total_HighWord", "Flag_Entropy_ICs", "Dimension", "Scale-factor", "NumFilesPerSnapshot",
    "NumPart_ThisFile", "MassTable"]

end Verif.Spec
