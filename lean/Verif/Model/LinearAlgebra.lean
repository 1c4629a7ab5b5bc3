import Verif.Model.CosmoFunctions
import Mathlib.LinearAlgebra.Matrix.NonsingularInverse

/-!
# Model of `np.linalg` on cosmology arrays, `swiftsimio/_array_functions.py`

A matrix is its elements row by row. The numbers of `solve`, `inv`, `det`, `trace`, `dot` and `norm` are their mathematical
values; eigenvalues, eigenvectors and least squares solutions are whatever LAPACK returns (a function of the numbers).
-/

namespace Verif.Cosmo
open Verif

/-- The matrix with the elements `l` row by row. -/
def mat (m n : ℕ) (l : List ℝ) : Matrix (Fin m) (Fin n) ℝ := fun i j => l.getD (i.val * n + j.val) 0

/-- The vector with the elements `l`. -/
def vec (n : ℕ) (l : List ℝ) : Fin n → ℝ := fun i => l.getD i.val 0

/-- The elements of a matrix row by row. -/
def flat {m n : ℕ} (M : Matrix (Fin m) (Fin n) ℝ) : List ℝ := (List.ofFn fun i => List.ofFn (M i)).flatten

/-- `np.linalg.solve` on numbers: `LinAlgError` (a subclass of ValueError) for a singular matrix. -/
noncomputable def solveNum (n : ℕ) (u v : List ℝ) : Except Err (List ℝ) :=
  if (mat n n u).det = 0 then .error .value
  else .ok (List.ofFn ((mat n n u)⁻¹.mulVec (vec n v)))

/-- `_divide_cosmo_factor(cfs[1], cfs[0])`, _array_functions.py:574-597, as used in 1887, 1902 and 1910. -/
noncomputable def divRule (c0 c1 : Option CF) : Except Err (Option CF) := handle .divide [c1, c0] []

/-- `np.linalg.solve`, _array_functions.py:1899-1904 (and `tensorsolve`, 1907-1912, which is `solve` after reshaping). -/
noncomputable def linalgSolve (n : ℕ) (x y : Opd) : Except Err Arr := wrap2 divRule (solveNum n) x y

/-- `np.linalg.inv`, _array_functions.py:1323-1325 (and `tensorinv`, 1326-1328, which is `inv` after reshaping). -/
noncomputable def linalgInv (n : ℕ) (x : Arr) : Except Err Arr :=
  if (mat n n x.val).det = 0 then .error .value
  else wrap1 recip (fun l => flat (mat n n l)⁻¹) x

/-- `np.linalg.det` of one matrix, _array_functions.py:1843-1848. -/
noncomputable def linalgDet (n : ℕ) (x : Arr) : Except Err Arr :=
  wrap1 (fun c => powerCF c none (n : ℝ)) (fun l => [(mat n n l).det]) x

/-- `np.trace`, _array_functions.py:1830. -/
noncomputable def linalgTrace (n : ℕ) (x : Arr) : Except Err Arr := wrap1 keep (fun l => [(mat n n l).trace]) x

/-- `np.dot` of two matrices, _array_functions.py:1296 (and `tensordot` over one axis, 2174-2176, and the method `dot`,
objects.py:1402). -/
noncomputable def linalgDot (m n p : ℕ) (x y : Opd) : Except Err Arr :=
  wrap2 mul2 (fun u v => .ok (flat (mat m n u * mat n p v))) x y

/-- `np.linalg.norm(x, ord=p)` of a vector for a positive `p`, _array_functions.py:1575-1577. -/
noncomputable def linalgNorm (p : ℝ) (x : Arr) : Except Err Arr :=
  wrap1 keep (fun l => [((l.map (fun v => |v| ^ p)).sum) ^ (1 / p)]) x

/-- `np.linalg.norm(x, ord=np.inf)`. -/
noncomputable def linalgNormMax (x : Arr) : Except Err Arr :=
  wrap1 keep (fun l => [(l.map (fun v => |v|)).foldl max 0]) x

open Classical in
/-- `np.linalg.norm(x, ord=0)`: the number of elements that are not zero. -/
noncomputable def linalgNormZero (x : Arr) : Except Err Arr :=
  wrap1 keep (fun l => [((l.filter (fun v => v ≠ 0)).length : ℝ)]) x

/-- `np.linalg.eig`, `eigh`, _array_functions.py:1915-1928 (and `eigvals`, `eigvalsh`, 1931-1936, the first part): the
eigenvalues get the factor of the matrix, the eigenvectors are returned as they are. -/
noncomputable def linalgEig (vals vecs : List ℝ → List ℝ) (x : Arr) : Except Err (Arr × List ℝ) :=
  match prepare true [.cosmo x] [] with
  | .error e => .error e
  | .ok p => match p.args with
    | [y] => .ok ({ val := vals y.vals, comoving := p.comoving, cf := x.cf, vt := p.vt }, vecs y.vals)
    | _ => .error .runtime

/-- What `np.linalg.lstsq` returns, without the rank. -/
structure Lstsq where
  x : Arr
  residuals : Arr
  singular : Arr

/-- `np.linalg.lstsq`, _array_functions.py:1884-1896; `sol`, `resid` and `sing` are the numbers. -/
noncomputable def linalgLstsq (sol resid : List ℝ → List ℝ → List ℝ) (sing : List ℝ → List ℝ) (a b : Arr) :
    Except Err Lstsq :=
  match prepare true [.cosmo a, .cosmo b] [] with
  | .error e => .error e
  | .ok p => match divRule a.cf b.cf, powerCF b.cf none 2, p.args with
    | .ok c, .ok r, [u, v] =>
      .ok ⟨⟨sol u.vals v.vals, p.comoving, c, p.vt⟩, ⟨resid u.vals v.vals, p.comoving, r, p.vt⟩,
        ⟨sing u.vals, p.comoving, a.cf, p.vt⟩⟩
    | .error e, _, _ => .error e
    | _, .error e, _ => .error e
    | _, _, _ => .error .runtime

end Verif.Cosmo
