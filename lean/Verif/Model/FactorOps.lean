import Verif.Model.Values

/-!
# Model of the operators of `cosmo_factor` with any Python object (swiftsimio/objects.py)

`Verif/Model/Cosmo.lean` has the methods for two factors. Here an operand can be anything, on either side, as in an expression of Python.
Arrays of numpy, which have operators of their own, and `**` are not modelled here.
-/

namespace Verif.FactorOps
open Verif Verif.Cosmo

/-- An operand: a factor, a number of Python, or another object that has no operator `/` (`None`, a text, a list). -/
inductive Obj
  | factor (f : CF)
  | number
  | thing

/-- The operators that give a factor. -/
inductive Arith
  | add
  | sub
  | mul
  | div
  deriving DecidableEq, Repr

/-- The operators that give a truth value. -/
inductive Rel
  | lt
  | gt
  | le
  | ge
  | eq
  | ne
  deriving DecidableEq, Repr

/-- `__add__`, `__sub__`, `__mul__`, `__truediv__`, objects.py:362-532: something else than a factor is a ValueError. -/
noncomputable def method (op : Arith) (f : CF) : Obj → Except Err CF
  | .factor g => match op with
    | .add => f.add g
    | .sub => f.add g
    | .mul => f.mul g
    | .div => f.div g
  | _ => .error .value

/-- `__radd__`, `__rsub__`, `__rmul__`, `__rtruediv__`, objects.py:534-634; `none` is NotImplemented. The last one calls
`b.__truediv__(self)`, which a number answers with NotImplemented and other objects do not have. -/
noncomputable def reflected (op : Arith) (f : CF) (b : Obj) : Except Err (Option CF) :=
  match op with
  | .add => (method .add f b).map some
  | .sub => (method .sub f b).map some
  | .mul => (method .mul f b).map some
  | .div => match b with
    | .factor g => (method .div g (.factor f)).map some
    | .number => .ok none
    | .thing => .error .attribute

/-- `x + y` and so on: the method of the left operand; if that is not a factor it does not know factors, and the reflected method of
the right one is called. NotImplemented becomes a TypeError. -/
noncomputable def arith (op : Arith) (x y : Obj) : Except Err CF :=
  match x, y with
  | .factor f, y => method op f y
  | x, .factor g => match reflected op g x with
    | .error e => .error e
    | .ok none => .error .typeErr
    | .ok (some r) => .ok r
  | _, _ => .error .typeErr

/-- `__lt__`, `__gt__`, `__le__`, `__ge__`, `__eq__`, objects.py:654-797, and `__ne__`, objects.py:799-825. -/
noncomputable def relMethod (r : Rel) (f : CF) : Obj → Except Err Prop
  | .factor g => match r with
    | .lt => CF.compare (· < ·) f g
    | .gt => CF.compare (· > ·) f g
    | .le => CF.compare (· ≤ ·) f g
    | .ge => CF.compare (· ≥ ·) f g
    | .eq => .ok (f.same g)
    | .ne => .ok (¬ f.same g)
  | _ => .error .value

/-- The comparison of the right operand that Python uses if the left one does not know it. -/
def Rel.swap : Rel → Rel
  | .lt => .gt
  | .gt => .lt
  | .le => .ge
  | .ge => .le
  | .eq => .eq
  | .ne => .ne

/-- `x < y` and so on. -/
noncomputable def rel (r : Rel) (x y : Obj) : Except Err Prop :=
  match x, y with
  | .factor f, y => relMethod r f y
  | x, .factor g => relMethod r.swap g x
  | _, _ => .error .typeErr

/-- `sum(l)` and `math.prod(l)` of Python: the start is the number 0 or 1. -/
noncomputable def total (op : Arith) (l : List CF) : Except Err Obj :=
  l.foldlM (fun acc f => (arith op acc (.factor f)).map .factor) .number

open Classical in
/-- `max(l)` with `r = .gt` and `min(l)` with `r = .lt`, after the first element. -/
noncomputable def extremeFrom (r : Rel) : CF → List CF → Except Err CF
  | best, [] => .ok best
  | best, f :: fs => match rel r (.factor f) (.factor best) with
    | .error e => .error e
    | .ok p => if p then extremeFrom r f fs else extremeFrom r best fs

/-- `max(l)` and `min(l)`: no elements are a ValueError. -/
noncomputable def extreme (r : Rel) : List CF → Except Err CF
  | [] => .error .value
  | f :: fs => extremeFrom r f fs

open Classical in
/-- `f in l`: the elements are compared with `f` one after the other. -/
noncomputable def contains (f : CF) : List Obj → Except Err Bool
  | [] => .ok false
  | x :: xs => match rel .eq x (.factor f) with
    | .error e => .error e
    | .ok p => if p then .ok true else contains f xs

end Verif.FactorOps
