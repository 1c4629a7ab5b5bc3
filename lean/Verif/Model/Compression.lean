import Verif.Model.Basic

/-!
# Model of the `compression` of arrays (swiftsimio/objects.py, swiftsimio/_array_functions.py)

The compression is a text or None when an array is made; operations store pairs in it.
-/

namespace Verif.Compression
open Verif

/-- A value of the attribute: None, a text, or the pair `(hasattr(…), getattr(…))`. -/
inductive Comp
  | none
  | text (s : List Char)
  | pair (has : Bool) (c : Comp)
  deriving DecidableEq, Repr

/-- An argument: an object without the attribute, or an array with it. -/
inductive Arg
  | bare
  | array (c : Comp)
  deriving DecidableEq, Repr

/-- `(hasattr(arg, "compression"), getattr(arg, "compression", None))`, _array_functions.py:903-905 and 912-915. -/
def Arg.entry : Arg → Bool × Comp
  | .bare => (false, .none)
  | .array c => (true, c)

/-- `ret_comp`, _array_functions.py:963-968: with one value in the set of pairs, the first pair; positional arguments come before
keyword arguments. -/
def retComp (args : List Arg) : Comp :=
  match args.map Arg.entry with
  | [] => .none
  | p :: l => if l.all (fun q => decide (q = p)) then .pair p.1 p.2 else .none

/-- Values made by arrays. `op` is a ufunc without a `method` other than `__call__` or a wrapped numpy function whose result is an array
(objects.py:2152-2244, _array_functions.py:1050-1059), with positional and keyword arguments together; `keep` is a copy, view, slice,
conversion or one of the methods that pass the attributes on (objects.py:1298, 1374-1403; _array_functions.py:167); `list` is
`cosmo_array([…])` (objects.py:1225-1249), `again` is `cosmo_array(x, …)` for an array `x` (objects.py:1205-1207), both with the keyword
argument `compression` or without. -/
inductive Ex
  | bare
  | array (c : Option (List Char))
  | keep (e : Ex)
  | op (args : List Ex)
  | list (args : List Ex) (c : Option (List Char))
  | again (e : Ex) (c : Option (List Char))

/-- A text or None as a value of the attribute. -/
def Comp.of : Option (List Char) → Comp
  | .none => .none
  | some s => .text s

/-- The value of an expression. -/
def eval : Ex → Arg
  | .bare => .bare
  | .array c => .array (Comp.of c)
  | .keep e => eval e
  | .op args => .array (retComp (args.map eval))
  | .list args c => match c with
    | .none => .array (retComp (args.map eval))
    | some s => .array (.text s)
  | .again e c => match c with
    | .none => eval e
    | some s => .array (.text s)

/-- `comps` and `ret_comp` of `np.block`, _array_functions.py:1637 and 1656-1659: the pairs of the single items. -/
def blockComp (items : List Arg) : Comp :=
  match items.map (fun a => retComp [a]) with
  | [] => .none
  | p :: l => if l.all (fun q => decide (q = p)) then p else .none

end Verif.Compression
