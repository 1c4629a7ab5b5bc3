import Verif.Model.Accel
import Mathlib.Algebra.Order.Field.Basic

/-!
# Cuts that a user makes after reading, in rounded arithmetic
-/

namespace Verif.Spec

/-- `np.sum((x - centre) ** 2)` for a position, every result rounded. -/
def roundedSquare {K : Type} [Field K] (fl : K → K) (centre x : Fin 3 → K) : K :=
  fl (fl (fl (fl (x 0 - centre 0) * fl (x 0 - centre 0)) + fl (fl (x 1 - centre 1) * fl (x 1 - centre 1))) +
    fl (fl (x 2 - centre 2) * fl (x 2 - centre 2)))

/-- `np.sum((x - centre) ** 2) < radius ** 2`, every result rounded. -/
def RoundedSphere {K : Type} [Field K] [LinearOrder K] (fl : K → K) (centre : Fin 3 → K) (radius : K) (x : Fin 3 → K) : Prop :=
  roundedSquare fl centre x < fl (radius * radius)

/-- A rounding function that never exchanges two numbers and leaves rounded numbers as they are. -/
structure OrderKeeping {K : Type} [Field K] [LinearOrder K] (fl : K → K) : Prop where
  mono : ∀ x y : K, x ≤ y → fl x ≤ fl y
  twice : ∀ x : K, fl (fl x) = fl x
  zero : fl 0 = 0

end Verif.Spec
