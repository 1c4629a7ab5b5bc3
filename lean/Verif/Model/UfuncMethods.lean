import Verif.Model.Memory
import Verif.Model.CosmoFunctions

/-!
# Model of ufuncs with an output array and of their `reduce` method (swiftsimio/objects.py)

In-place operators (`x += y`, `x *= y`, ...) are ufuncs whose `out` is the left operand. Units are left out. Matrices are flat
lists, row by row.
-/

namespace Verif.Memory
open Verif Verif.Cosmo

/-- `np.add(x, y, out=z)` and the like, `__array_ufunc__`, objects.py:2188-2244 (and `__unyt_ufunc_finalize__`, 2066-2150, with
the same code): the numbers are written into the cells of the array `k` and its attributes are replaced by those of the
result. `out` is a tuple without attributes for `_prepare_array_func_args`. numpy refuses an output of another shape before it
writes. -/
noncomputable def ufuncOut (h : Heap) (u : Ufunc) (num : List (List ℝ) → Except Err (List ℝ)) (args : List Opd) (k : Nat) :
    Heap × Option Err :=
  match h.objs[k]? with
  | none => (h, some .index)
  | some o => match ufunc u num args with
    | .error e => (h, some e)
    | .ok z => if z.val.length = o.cells.length then (store h k o z, none) else (h, some .value)

/-- An operand taken from the heap: an array or bare numbers. -/
inductive Ref
  | obj (i : Nat)
  | bare (v : List ℝ)

/-- The operand that a reference stands for. -/
def Ref.get (h : Heap) : Ref → Option Opd
  | .obj i => (h.objs[i]?).map (fun o => .cosmo (o.arr h.mem))
  | .bare v => some (.plain v)

/-- `x op= y` for the array `i`. -/
noncomputable def inplace (h : Heap) (u : Ufunc) (f : ℝ → ℝ → ℝ) (i : Nat) (y : Ref) : Heap × Option Err :=
  match Ref.get h (.obj i), y.get h with
  | some x, some y => ufuncOut h u (num2 f) [x, y] i
  | _, _ => (h, some .index)

end Verif.Memory

namespace Verif.Cosmo
open Verif

/-- The `axis` of a call of `reduce`. -/
inductive Axis
  | absent
  | all
  | one (i : Nat)
  | several (l : List Nat)
  deriving DecidableEq, Repr

/-- `inputs[0].shape[kwargs["axis"]]` or `inputs[0].size`, objects.py:2195-2203, for a matrix with `r` rows and `c` columns. -/
def Axis.count (r c : Nat) : Axis → Except Err Nat
  | .absent => .ok (r * c)
  | .all => .ok (r * c)
  | .one 0 => .ok r
  | .one 1 => .ok c
  | .one _ => .error .index
  | .several _ => .error .typeErr

/-- The factor of the result of `ufunc.reduce`, objects.py:2193-2210; `POWER_MAPPING` of unyt is `n` for `multiply` and
`2 - n` for `divide`. -/
noncomputable def reduceCF (u : Ufunc) (r c : Nat) (ax : Axis) (f : Option CF) : Except Err (Option CF) :=
  match u with
  | .multiply => match ax.count r c with
    | .error e => .error e
    | .ok n => powerCF f none n
  | .divide => match ax.count r c with
    | .error e => .error e
    | .ok n => powerCF f none (2 - n)
  | u => handle (registry u) [f] []

/-- The elements that are combined, by the place of the result: numpy reduces the first axis if none is given. -/
def Axis.lines (r c : Nat) : Axis → Except Err (List (List Nat))
  | .absent => .ok ((List.range c).map (fun j => (List.range r).map (fun i => i * c + j)))
  | .all => .ok [List.range (r * c)]
  | .one 0 => .ok ((List.range c).map (fun j => (List.range r).map (fun i => i * c + j)))
  | .one 1 => .ok ((List.range r).map (fun i => (List.range c).map (fun j => i * c + j)))
  | .one _ => .error .index
  | .several _ => .error .notImpl

/-- `ufunc.reduce(x, axis)` for a matrix; `g` combines the elements of a line. -/
noncomputable def reduceCall (u : Ufunc) (g : List ℝ → ℝ) (r c : Nat) (ax : Axis) (x : Arr) : Except Err Arr :=
  match prepare true [.cosmo x] [] with
  | .error e => .error e
  | .ok p => match reduceCF u r c ax x.cf with
    | .error e => .error e
    | .ok f => match ax.lines r c with
      | .error e => .error e
      | .ok ls => match p.args with
        | [y] => .ok { val := ls.map (fun l => g (l.map (fun i => y.vals.getD i 0))), comoving := p.comoving, cf := f, vt := p.vt }
        | _ => .error .runtime

/-- What `divide.reduce` does with a line. -/
noncomputable def quotient : List ℝ → ℝ
  | [] => 1
  | x :: l => l.foldl (· / ·) x

end Verif.Cosmo
