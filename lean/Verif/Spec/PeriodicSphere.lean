import Mathlib.Data.Real.Basic

/-!
# Distances in a periodic box
-/

namespace Verif.Spec

/-- `e` is the distance of `x` from the nearest periodic copy of `c`, in a box of the length `L`. -/
def NearestCopy (L x c e : ℝ) : Prop := (∃ k : ℤ, e = |x - (c + k * L)|) ∧ ∀ k : ℤ, e ≤ |x - (c + k * L)|

end Verif.Spec
