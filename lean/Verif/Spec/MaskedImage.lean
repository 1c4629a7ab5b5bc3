import Verif.Spec.Mask
import Verif.Spec.Frame
import Verif.Model.Scatter

/-! When a mask keeps everything that an image shows. -/

namespace Verif.Spec
open Verif Verif.Mask

variable {K : Type} [Field K] [LinearOrder K]

/-- The interval asked for along an axis is at least as long as the box. -/
def WholeAxis (L lower upper : K) : Prop := L ≤ wrapUpper L lower upper - lower ∨ L < |upper - lower|

/-- The interval of a mask along an axis of length `L` contains, up to whole boxes, the interval from `a` to `b` widened by
`H` on both sides. -/
def Covers (L lower upper a b H : K) : Prop :=
  WholeAxis L lower upper ∨ ∃ s : ℤ, (lower < a + s * L ∧ lower + H ≤ a + s * L) ∧
    (b + s * L < wrapUpper L lower upper ∧ b + s * L + H ≤ wrapUpper L lower upper)

/-- Position of a particle as a triple. -/
def place3 (p : Scatter.Part K) : Fin 3 → K := fun d => if d = 0 then p.x else if d = 1 then p.y else p.z

/-- The interval of the mask along the line of sight contains the depth of the image. -/
def CoversDepth (L lower upper : K) (depth : Option (K × K)) : Prop :=
  match depth with
  | none => WholeAxis L lower upper
  | some r => Covers L lower upper r.1 r.2 0

end Verif.Spec
