import Verif.Model.Accel
import Mathlib.Data.Matrix.Mul
import Mathlib.Data.Real.Basic

/-! # The matrix whose entries are stored row after row -/

namespace Verif.Spec

/-- The matrix with `n` rows and `l` columns that is stored row after row in the list. -/
def matrixOf (n l : Nat) (v : List ℝ) : Matrix (Fin n) (Fin l) ℝ := fun i j => v.getD (i.val * l + j.val) 0

/-- The vector that is stored in the list. -/
def vectorOf (n : Nat) (v : List ℝ) : Fin n → ℝ := fun i => v.getD i.val 0

end Verif.Spec
