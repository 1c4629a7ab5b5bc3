import Verif.Model.FactorOps

/-!
# What the operators of factors should do
-/

namespace Verif.Spec
open Verif.Cosmo Verif.FactorOps

/-- The object is not a factor. -/
def Alien (x : Obj) : Prop := ∀ f, x ≠ .factor f

/-- The operator applied to the numbers `a ^ k` and `a ^ l`. -/
noncomputable def onNumbers : Arith → ℝ → ℝ → ℝ
  | .add, x, _ => x
  | .sub, x, _ => x
  | .mul, x, y => x * y
  | .div, x, y => x / y

end Verif.Spec
