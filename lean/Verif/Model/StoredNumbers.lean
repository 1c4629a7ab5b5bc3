import Verif.Model.Binary

/-!
# Frames of arrays of stored numbers (swiftsimio/objects.py)

What the conversions between comoving and physical do to the numbers that an array holds in memory: integers of four or eight bytes
or binary floating point numbers. `Verif.Model.Cosmo` has the same conversions with exact arithmetic and without the type of the
numbers. The units are those of the array (the argument `units` is left out); `Verif.Model.Units` has their arithmetic.
-/

namespace Verif.Stored
open Verif Verif.Binary

/-- The type of the numbers of an array: integers or floating point numbers, of eight (`wide`) or four bytes. -/
inductive DType
  | int (wide : Bool)
  | float (wide : Bool)
  deriving DecidableEq

/-- A `cosmo_array`: its numbers, `cosmo_factor.a_factor`, `comoving` and `valid_transform`. -/
structure Arr where
  dtype : DType
  vals : List ℚ
  factor : Option ℚ
  comoving : Option Bool
  vt : Bool
  deriving DecidableEq

/-- `values *= number` and `values /= number` on the buffer of the array: the operation is done in the type of the array with the
number rounded to it; numpy refuses to store the result in an array of integers (`UFuncTypeError`, a `TypeError`), and to operate
with `None`. -/
def inPlace (f : ℚ → ℚ → ℚ) (t : DType) (vals : List ℚ) (number : Option ℚ) : Except Err (List ℚ) :=
  match t, number with
  | _, none => .error .typeErr
  | .int _, some _ => .error .typeErr
  | .float w, some q => .ok (vals.map fun v => rnd (digits w) (f v (rnd (digits w) q)))

/-- `self.in_units(self.units)` of unyt: a new array of floating point numbers of as many bytes, times a conversion factor that is
one; the attributes are copied, objects.py:1378. -/
def inUnits (x : Arr) : Arr :=
  match x.dtype with
  | .int w => { x with dtype := .float w, vals := x.vals.map (rnd (digits w)) }
  | .float _ => x

/-- `convert_to_comoving()`, objects.py:1448-1456. -/
def convertToComoving (x : Arr) : Except Err Arr :=
  if x.comoving = some true then .ok x
  else if x.vt = false ∨ x.comoving = none then .error .invalidConversion
  else (inPlace (· / ·) x.dtype x.vals x.factor).map fun v => { x with vals := v, comoving := some true }

/-- `convert_to_physical()`, objects.py:1496-1505. -/
def convertToPhysical (x : Arr) : Except Err Arr :=
  match x.comoving with
  | none => .error .invalidConversion
  | some false => .ok x
  | some true => (inPlace (· * ·) x.dtype x.vals x.factor).map fun v => { x with vals := v, comoving := some false }

/-- `to_physical()`, objects.py:1540-1547. -/
def toPhysical (x : Arr) : Except Err Arr :=
  if x.vt = false ∧ x.comoving = some true then .error .invalidConversion else convertToPhysical (inUnits x)

/-- `to_comoving()`, objects.py:1582-1589. -/
def toComoving (x : Arr) : Except Err Arr :=
  if x.vt = false ∧ x.comoving ≠ some false then .error .invalidConversion else convertToComoving (inUnits x)

/-- `to(comoving=frame)`, objects.py:1653-1676: without units the array is copied. -/
def toFrame (x : Arr) (frame : Option Bool) : Except Err Arr :=
  match frame with
  | none => .ok x
  | some c =>
    if x.vt = false ∧ x.comoving ≠ some c then .error .invalidConversion
    else if c then convertToComoving x else convertToPhysical x

end Verif.Stored
