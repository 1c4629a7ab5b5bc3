import Verif.Model.ShapedFormulas

/-!
# Matrix products of arrays with several dimensions (swiftsimio/objects.py)

`x @ y` for a matrix `x` and a matrix or vector `y`; products of vectors with matrices and of stacks of matrices are not
modelled. The values are in the order of the memory, as in `Model/ShapedFormulas.lean`.
-/

namespace Verif.Shaped
open Verif Verif.Cosmo Verif.Formulas

/-- The shape of a matrix product. -/
def matmulShape : List Nat → List Nat → Except Err (List Nat)
  | [n, k], [k', l] => if k = k' then .ok [n, l] else .error .value
  | [n, k], [k'] => if k = k' then .ok [n] else .error .value
  | _, _ => .error .value

/-- The numbers of a matrix product of arrays with the shapes `s` and `t`, which numpy evaluates, objects.py:2211-2213. -/
noncomputable def numMatmul (s t : List Nat) : List (List ℝ) → Except Err (List ℝ)
  | [x, y] => match s, t with
    | [n, k], [k', l] => if k = k' then .ok ((List.range (n * l)).map fun i =>
        ((List.range k).map fun j => x.getD (i / l * k + j) 0 * y.getD (j * l + i % l) 0).sum) else .error .value
    | [n, k], [k'] => if k = k' then .ok ((List.range n).map fun i =>
        ((List.range k).map fun j => x.getD (i * k + j) 0 * y.getD j 0).sum) else .error .value
    | _, _ => .error .value
  | _ => .error .typeErr

/-- The values of a matrix product: numpy's if both arrays are bare. The factors are multiplied, objects.py:1068. -/
noncomputable def operateMatmul (s t : List Nat) : Opd → Opd → Except Err Opd
  | .plain u, .plain v => (numMatmul s t [u, v]).map .plain
  | o, p => (Cosmo.ufunc .matmul (numMatmul s t) [o, p]).map .cosmo

/-- `x @ y` and `np.matmul(x, y)`, objects.py:2152-2244. -/
noncomputable def matmul (x y : Value) : Except Err Value :=
  (operateMatmul x.shape y.shape x.val y.val).bind fun r => (matmulShape x.shape y.shape).map fun s => ⟨s, r⟩

end Verif.Shaped
