import Verif.Model.LinearAlgebra
import Mathlib.Algebra.Order.BigOperators.Group.Finset

/-!
# What eigenvalues and least squares solutions are
-/

namespace Verif.Spec
open Verif

/-- `w i` is an eigenvalue of `M` with the eigenvector in column `i` of `V`. -/
def Eigen {n : ℕ} (M : Matrix (Fin n) (Fin n) ℝ) (w : Fin n → ℝ) (V : Matrix (Fin n) (Fin n) ℝ) : Prop :=
  ∀ i, M.mulVec (fun j => V j i) = fun j => w i * V j i

/-- The sum of the squares of `M x - b`. -/
noncomputable def misfit {m n : ℕ} (M : Matrix (Fin m) (Fin n) ℝ) (b : Fin m → ℝ) (x : Fin n → ℝ) : ℝ :=
  ∑ i, (M.mulVec x i - b i) ^ 2

/-- `x` makes the misfit least. -/
def LeastSquares {m n : ℕ} (M : Matrix (Fin m) (Fin n) ℝ) (b : Fin m → ℝ) (x : Fin n → ℝ) : Prop :=
  ∀ y, misfit M b x ≤ misfit M b y

/-- `s i` is a singular value of `M`: not negative, and its square an eigenvalue of `Mᵀ M`. -/
def Singular {m n : ℕ} (M : Matrix (Fin m) (Fin n) ℝ) (s : Fin n → ℝ) : Prop :=
  ∀ i, 0 ≤ s i ∧ ∃ v : Fin n → ℝ, v ≠ 0 ∧ (M.transpose * M).mulVec v = fun j => s i ^ 2 * v j

end Verif.Spec
