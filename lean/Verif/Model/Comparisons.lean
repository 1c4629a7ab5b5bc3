import Verif.Model.ArraySets

/-!
# Model of comparisons with any object (swiftsimio/_array_functions.py, `_comparison_cosmo_factor`)

`Model/Cosmo.lean` and `Model/ArraySets.lean` have the operands of comparisons as arrays and numbers, and leave out the warnings. Here are
the other objects that can be compared with an array, and the test for zeros that decides about the warning.
-/

namespace Verif.Comparisons
open Verif Verif.Cosmo

/-- An object that is compared: an array or a number with or without the attributes of the package, the object `False`, a list or tuple
of numbers, or a text. -/
inductive Operand
  | opd (o : Opd)
  | false
  | sequence (v : List ℝ)
  | text

/-- What numpy makes of it where it is a number; a text is none. -/
def Operand.opd? : Operand → Opd
  | .opd o => o
  | .false => .plain [0]
  | .sequence v => .plain v
  | .text => .plain []

open Classical in
/-- `not getattr(input, "value", input).any()` for what can be iterated, otherwise `not value and input is not False`,
_array_functions.py:824-841: lists, tuples and texts can be iterated and have no `any`. -/
noncomputable def Operand.isZero : Operand → Except Err Bool
  | .opd o => .ok (o.vals.all fun v => decide (v = 0))
  | .false => .ok Bool.false
  | .sequence _ => .error .attribute
  | .text => .error .attribute

/-- `_return_without_cosmo_factor` with two factors, _array_functions.py:714-740: whether a warning is issued. -/
noncomputable def warns (c d : Option CF) (zero : Bool) : Except Err Bool :=
  match c, d with
  | some f, some g => if f.same g then .ok false else .error .value
  | none, none => .ok false
  | _, _ => .ok (!zero)

/-- `_comparison_cosmo_factor`, _array_functions.py:793-843. -/
noncomputable def comparisonFactor (c d : Option CF) (x y : Operand) : Except Err Bool :=
  match x.isZero with
  | .error e => .error e
  | .ok z => match y.isZero with
    | .error e => .error e
    | .ok w => warns c d (z || w)

/-- A comparison: one of the ufuncs that have this handler (objects.py:1034-1042, 2188-2213), or a function wrapped by
`_default_comparison_wrapper`, _array_functions.py:1173-1221 (`isin`, `array_equal`, `isclose`, ...); `num` evaluates the numbers. The
result and whether there was a warning. -/
noncomputable def compared {β : Type} (num : List (List ℝ) → Except Err β) (x y : Operand) : Except Err (β × Bool) :=
  match prepare true [x.opd?, y.opd?] [] with
  | .error e => .error e
  | .ok p => match comparisonFactor x.opd?.cf y.opd?.cf x y with
    | .error e => .error e
    | .ok w => match num (p.args.map Opd.vals) with
      | .error e => .error e
      | .ok r => .ok (r, w)

end Verif.Comparisons
