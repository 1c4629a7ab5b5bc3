import Verif.Model.ShapedFormulas
import Verif.Model.CosmoFunctions
import Verif.Model.Programs

/-!
# Conditions and selections for arrays with several dimensions (swiftsimio/objects.py, swiftsimio/_array_functions.py)

`x[r < 1]`, `np.where(r < 1, x, y)` and scripts that give names to such results. Comparisons give bare boolean arrays; `&`, `|` and `~` of
boolean arrays are numpy's. Only results with a cosmology get names; formulas of bare arrays alone are written in full.
-/

namespace Verif.Selections
open Verif Verif.Cosmo Verif.Formulas Verif.Shaped
open Verif.Programs (Cmp)

/-- A boolean array: a shape and the values in the order of the memory. -/
structure Flags where
  shape : List Nat
  val : List Bool

/-- A condition. -/
inductive Cond
  | cmp (c : Cmp) (s t : Shaped.Expr)
  | and (c d : Cond)
  | or (c d : Cond)
  | not (c : Cond)

open Classical in
/-- The values of `x < y` and the other comparisons, objects.py:1006-1011 and 2152-2244: the comparison is numpy's if both arrays are bare. -/
noncomputable def compareValues (c : Cmp) (s t : List Nat) : Opd → Opd → Except Err (List Bool)
  | .plain v, .plain w => numShaped (fun p q => decide (c.rel p q)) s t [v, w]
  | o, p => ufuncBool c.ufunc (numShaped (fun p q => decide (c.rel p q)) s t) [o, p]

/-- `x < y` and the other comparisons. -/
noncomputable def compared (c : Cmp) (x y : Value) : Except Err Flags :=
  (compareValues c x.shape y.shape x.val y.val).bind fun r => (join x.shape y.shape).map fun s => ⟨s, r⟩

/-- `b & c` and `b | c`, with numpy's broadcasting. -/
def zipFlags (f : Bool → Bool → Bool) (b c : Flags) : Except Err Flags :=
  (join b.shape c.shape).map fun r => ⟨r, (List.range (count r)).map fun i =>
    f (b.val.getD (source (pad r.length b.shape) r i) false) (c.val.getD (source (pad r.length c.shape) r i) false)⟩

/-- The value of a condition. -/
noncomputable def evalCond (shapes : Nat → List Nat) (env : Nat → Arr) : Cond → Except Err Flags
  | .cmp c s t => (eval shapes env s).bind fun x => (eval shapes env t).bind fun y => compared c x y
  | .and c d => (evalCond shapes env c).bind fun x => (evalCond shapes env d).bind fun y => zipFlags (· && ·) x y
  | .or c d => (evalCond shapes env c).bind fun x => (evalCond shapes env d).bind fun y => zipFlags (· || ·) x y
  | .not c => (evalCond shapes env c).map fun x => ⟨x.shape, x.val.map (!·)⟩

/-- The values of `x[b]`: for each true value of the mask the `inner` values of the dimensions behind those of the mask. -/
noncomputable def pick (b : List Bool) (inner : Nat) (x : List ℝ) : List ℝ :=
  ((List.range b.length).filter (b.getD · false)).flatMap fun p => (List.range inner).map fun j => x.getD (p * inner + j) 0

/-- `x[b]` with a boolean array, which passes on the attributes, objects.py:1284-1299: the lengths of the mask have to be the first lengths of
`x`. -/
noncomputable def masked (b : Flags) (x : Value) : Except Err Value :=
  if b.shape = x.shape.take b.shape.length then
    (applyWhole (pick b.val (count (x.shape.drop b.shape.length))) x.val).map fun r => ⟨b.val.count true :: x.shape.drop b.shape.length, r⟩
  else .error .index

/-- The shape of `np.where(b, x, y)`. -/
def join3 (b s t : List Nat) : Except Err (List Nat) := (join s t).bind (join b)

/-- The values of `np.where(b, x, y)`. -/
noncomputable def numWhere (b : Flags) (s t : List Nat) (u v : List ℝ) : Except Err (List ℝ) :=
  (join3 b.shape s t).map fun r => (List.range (count r)).map fun i =>
    if b.val.getD (source (pad r.length b.shape) r i) false then u.getD (source (pad r.length s) r i) 0 else v.getD (source (pad r.length t) r i) 0

/-- `np.where(b, x, y)`, _array_functions.py:2123-2134, with a bare condition; numpy's if all are bare. -/
noncomputable def whereValues (b : Flags) (s t : List Nat) : Opd → Opd → Except Err Opd
  | .plain u, .plain v => (numWhere b s t u v).map .plain
  | o, p => (wrap2 preserve2 (numWhere b s t) o p).map .cosmo

/-- `np.where(b, x, y)`. -/
noncomputable def chosen (b : Flags) (x y : Value) : Except Err Value :=
  (whereValues b x.shape y.shape x.val y.val).bind fun r => (join3 b.shape x.shape y.shape).map fun s => ⟨s, r⟩

/-- What a line of a script computes: a formula, `e[c]`, or `np.where(c, e, e')`. -/
inductive Step
  | formula (e : Shaped.Expr)
  | select (e : Shaped.Expr) (c : Cond)
  | choose (c : Cond) (e e' : Shaped.Expr)

/-- The value of a line. In `e[c]` the array is evaluated before the mask. -/
noncomputable def evalStep (shapes : Nat → List Nat) (env : Nat → Arr) : Step → Except Err Value
  | .formula e => eval shapes env e
  | .select e c => (eval shapes env e).bind fun x => (evalCond shapes env c).bind fun b => masked b x
  | .choose c e e' => (evalCond shapes env c).bind fun b => (eval shapes env e).bind fun x => (eval shapes env e').bind fun y => chosen b x y

/-- The arrays that the variables name. -/
structure State where
  shapes : Nat → List Nat
  env : Nat → Arr

/-- `x_i = …`; bare results are not modelled. -/
def State.put (s : State) (i : Nat) (x : Value) : Except Err State :=
  match x.val with
  | .plain _ => .error .notImpl
  | .cosmo z => .ok ⟨Function.update s.shapes i x.shape, Function.update s.env i z⟩

/-- Running a script line by line. -/
noncomputable def run : List (Nat × Step) → State → Except Err State
  | [], s => .ok s
  | (i, d) :: l, s => ((evalStep s.shapes s.env d).bind (s.put i)).bind (run l)

end Verif.Selections
