import Verif.Spec.MaskedImage
import Verif.Model.MaskedImage

/-! Datasets that fit the cells of their file, and storage that can be read. -/

namespace Verif.Spec
open Verif Verif.Accel Verif.Mask Verif.MaskedImage

variable {K : Type} [Field K] [LinearOrder K] [FloorRing K] {m : Nat}

/-- The four datasets of an image belong to key `k` of the file: they have the length of the header, and each particle lies inside a
cell that holds its row. -/
structure FieldsFit (f : File K m) (F : Fields K) (k : Fin m) : Prop where
  wf : WF f
  cells : ∀ k, f.cells k ≠ []
  wide : ∀ c ∈ f.cells k, ∀ d, c.lo d < c.hi d
  len : F.xs.length = f.rows k ∧ F.ms.length = f.rows k ∧ F.hs.length = f.rows k ∧ F.flags.length = f.rows k
  inside : ∀ (i : Nat) (p : Scatter.Part K × Bool), (assemble F)[i]? = some p →
    ∃ c ∈ f.cells k, Holds c i ∧ ∀ d, c.lo d ≤ place3 p.1 d ∧ place3 p.1 d ≤ c.hi d

/-- Stored on this machine, with chunks of at least one row. -/
def AllLocal (lay : Fin 4 → Layout) : Prop := ∀ n, lay n ≠ .remote ∧ ∀ c, lay n = .chunked c → 0 < c

end Verif.Spec
