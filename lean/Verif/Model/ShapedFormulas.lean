import Verif.Model.Formulas

/-!
# Formulas of arrays with several dimensions (swiftsimio/objects.py)

The arrays of `Model/Cosmo.lean` are lists of values. Here such a list has a shape: it has the values in the order of the memory, the last
index varies fastest. Positions in the list are found by numpy with strides. Frames, scale factors and factors are as in
`Model/Formulas.lean`. Axes and indices are not negative; slices and masks of rows are lists of indices (`take`).
-/

namespace Verif.Shaped
open Verif Verif.Cosmo Verif.Formulas

/-- The number of values of an array with the shape. -/
def count : List Nat → Nat
  | [] => 1
  | n :: s => n * count s

/-- Leading dimensions of length one, numpy broadcasting. -/
def pad (l : Nat) (s : List Nat) : List Nat := List.replicate (l - s.length) 1 ++ s

/-- The shape of the result of an operation on two arrays with the same number of dimensions. -/
def joinPadded : List Nat → List Nat → Except Err (List Nat)
  | m :: s, n :: t => (joinPadded s t).bind fun r =>
      if m = n then .ok (m :: r) else if m = 1 then .ok (n :: r) else if n = 1 then .ok (m :: r) else .error .value
  | _, _ => .ok []

/-- The shape of the result of an operation on two arrays. -/
def join (s t : List Nat) : Except Err (List Nat) :=
  joinPadded (pad (max s.length t.length) s) (pad (max s.length t.length) t)

/-- The position in an array with the (padded) shape `s` of the value that is used at the position `i` of a result with the shape `r`:
dimensions of length one have the stride zero. -/
def source : List Nat → List Nat → Nat → Nat
  | m :: s, _ :: r, i => (if m = 1 then 0 else i / count r) * count s + source s r (i % count r)
  | _, _, _ => 0

/-- The numbers of an operation on two arrays with the shapes `s` and `t`, which a ufunc evaluates, objects.py:2211-2213. -/
def numShaped {β : Type} (f : ℝ → ℝ → β) (s t : List Nat) : List (List ℝ) → Except Err (List β)
  | [x, y] => (join s t).map fun r => (List.range (count r)).map fun i =>
      f (x.getD (source (pad r.length s) r i) 0) (y.getD (source (pad r.length t) r i) 0)
  | _ => .error .typeErr

/-- The position of the value `j` of an axis of length `n` with `inner` values in the dimensions behind it, for the position `i` without
that axis. -/
def onAxis (n inner i j : Nat) : Nat := ((i / inner) * n + j) * inner + i % inner

/-- `x.sum(axis=k)` and other reductions along an axis. -/
noncomputable def reduceAxis (g : List ℝ → ℝ) (k : Nat) (s : List Nat) (x : List ℝ) : List ℝ :=
  (List.range (count (s.eraseIdx k))).map fun i =>
    g ((List.range (s.getD k 0)).map fun j => x.getD (onAxis (s.getD k 0) (count (s.drop (k + 1))) i j) 0)

/-- `x[:, j]`, the index `j` at the axis `k`. -/
noncomputable def selectAxis (j k : Nat) (s : List Nat) (x : List ℝ) : List ℝ :=
  (List.range (count (s.eraseIdx k))).map fun i => x.getD (onAxis (s.getD k 0) (count (s.drop (k + 1))) i j) 0

/-- `x[js]`, a list of indices at the axis `k`. -/
noncomputable def takeAxis (js : List Nat) (k : Nat) (s : List Nat) (x : List ℝ) : List ℝ :=
  (List.range (count (s.set k js.length))).map fun i =>
    x.getD ((i / count (s.drop (k + 1)) / js.length * s.getD k 0 + js.getD (i / count (s.drop (k + 1)) % js.length) 0) * count (s.drop (k + 1)) +
      i % count (s.drop (k + 1))) 0

/-- The indices of the position `i`. -/
def unravel : List Nat → Nat → List Nat
  | [], _ => []
  | _ :: s, i => i / count s :: unravel s (i % count s)

/-- The position of indices: the sum of the indices times the strides. -/
def ravel : List Nat → List Nat → Nat
  | _ :: s, i :: l => i * count s + ravel s l
  | _, _ => 0

/-- `x.T`, objects.py:1406. -/
noncomputable def transposed (s : List Nat) (x : List ℝ) : List ℝ :=
  (List.range (count s.reverse)).map fun i => x.getD (ravel s (unravel s.reverse i).reverse) 0

/-- An array with a shape. -/
structure Value where
  shape : List Nat
  val : Opd

/-- A formula of arrays with shapes. -/
inductive Expr
  | var (i : Nat)
  | nums (s : List Nat) (v : List ℝ)
  | two (f : Bin) (e e' : Expr)
  | one (f : Un) (e : Expr)
  | pow (e : Expr) (q : ℝ)
  | total (g : List ℝ → ℝ) (e : Expr)
  | reduce (g : List ℝ → ℝ) (k : Nat) (e : Expr)
  | select (j k : Nat) (e : Expr)
  | take (js : List Nat) (k : Nat) (e : Expr)
  | newaxis (k : Nat) (e : Expr)
  | reshape (s : List Nat) (e : Expr)
  | transpose (e : Expr)
  | physical (e : Expr)
  | comoving (e : Expr)

/-- The values of an operation on two arrays with the shapes `s` and `t`: numpy's if both are bare. -/
noncomputable def operate (f : Bin) (s t : List Nat) : Opd → Opd → Except Err Opd
  | .plain u, .plain v => (numShaped f.fn s t [u, v]).map .plain
  | o, p => (ufunc f.ufunc (numShaped f.fn s t) [o, p]).map .cosmo

/-- An operation on two arrays with shapes, objects.py:2152-2244. -/
noncomputable def apply2 (f : Bin) (x y : Value) : Except Err Value :=
  (operate f x.shape y.shape x.val y.val).bind fun r => (join x.shape y.shape).map fun s => ⟨s, r⟩

/-- An operation that gives an array of the same shape. -/
def keep (g : Opd → Except Err Opd) (x : Value) : Except Err Value := (g x.val).map fun r => ⟨x.shape, r⟩

/-- A method, function or index that passes on the attributes, objects.py:1377-1406; it is refused if there is no
such axis or index or the number of values is another one. -/
def reshaped (err : Err) (ok : List Nat → Bool) (t : List Nat → List Nat) (g : List Nat → List ℝ → List ℝ) (x : Value) : Except Err Value :=
  if ok x.shape then (applyWhole (g x.shape) x.val).map fun r => ⟨t x.shape, r⟩ else .error err

/-- The value of a formula. -/
noncomputable def eval (shapes : Nat → List Nat) (env : Nat → Arr) : Expr → Except Err Value
  | .var i => .ok ⟨shapes i, .cosmo (env i)⟩
  | .nums s v => .ok ⟨s, .plain v⟩
  | .two f e e' => (eval shapes env e).bind fun x => (eval shapes env e').bind fun y => apply2 f x y
  | .one f e => (eval shapes env e).bind (keep (apply1 f))
  | .pow e q => (eval shapes env e).bind (keep (applyPow q))
  | .total g e => (eval shapes env e).bind (reshaped .index (fun _ => true) (fun _ => []) (fun _ x => [g x]))
  | .reduce g k e => (eval shapes env e).bind (reshaped .index (fun s => k < s.length) (·.eraseIdx k) (reduceAxis g k))
  | .select j k e => (eval shapes env e).bind
      (reshaped .index (fun s => k < s.length && j < s.getD k 0) (·.eraseIdx k) (selectAxis j k))
  | .take js k e => (eval shapes env e).bind
      (reshaped .index (fun s => k < s.length && js.all (· < s.getD k 0)) (·.set k js.length) (takeAxis js k))
  | .newaxis k e => (eval shapes env e).bind (reshaped .index (fun s => k ≤ s.length) (·.insertIdx k 1) (fun _ x => x))
  | .reshape t e => (eval shapes env e).bind (reshaped .value (fun s => count t == count s) (fun _ => t) (fun _ x => x))
  | .transpose e => (eval shapes env e).bind (reshaped .index (fun _ => true) List.reverse transposed)
  | .physical e => (eval shapes env e).bind (keep (applyTo true))
  | .comoving e => (eval shapes env e).bind (keep (applyTo false))

end Verif.Shaped
