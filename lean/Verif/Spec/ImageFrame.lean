import Verif.Model.Frame

/-!
# The same particles in another unit of length (specification)

`s` is the ratio of the two units, or of the two frames: comoving and physical lengths differ by the scale factor.
-/

namespace Verif.ImageFrame
open Verif Verif.Scatter Verif.Frame

section
variable {K : Type} [Field K]

/-- The same particle: all lengths are `s` times as large, the quantity painted is unchanged. -/
def rescale (s : K) (p : Scatter.Part K × Bool) : Scatter.Part K × Bool :=
  ({ p.1 with x := s * p.1.x, y := s * p.1.y, z := s * p.1.z, h := s * p.1.h }, p.2)

/-- The same box. -/
def boxTimes (s : K) (box : K × K × K) : K × K × K := (s * box.1, s * box.2.1, s * box.2.2)

/-- The same region. -/
def regionTimes (s : K) (region : Option (List K)) : Option (List K) := region.map fun l => l.map fun v => s * v

/-- A projection does not look at the depth of the particles. -/
def Flat (scatter : Nat → K → K → List (Scatter.Part K) → Except Err (Int × Int → K)) : Prop :=
  ∀ (res : Nat) (bx by_ : K) (f : Scatter.Part K → K) (ps : List (Scatter.Part K)),
    scatter res bx by_ (ps.map fun p => { p with z := f p }) = scatter res bx by_ ps

end

end Verif.ImageFrame
