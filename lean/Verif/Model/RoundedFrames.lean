import Verif.Model.Basic
import Mathlib.Algebra.Field.Basic

/-!
# Model of the frame conversions of arrays with rounding (swiftsimio/objects.py)

The numbers are those of the format of the array; `fl` rounds a product or a quotient to it. The factor is the number that
`cosmo_factor.a_factor` returns (objects.py:330-343), rounded or not. Equivalences are left out.
-/

namespace Verif.RoundedFrames

variable {K : Type} [Field K]

/-- An array with its numbers, `comoving`, `cosmo_factor.a_factor` and `valid_transform`. -/
structure Stored (K : Type) where
  numbers : List K
  comoving : Option Bool
  factor : K
  valid : Bool

/-- `convert_to_comoving`, objects.py:1446-1456: the array after the call and what was raised. -/
def convertToComoving (fl : K → K) (x : Stored K) : Stored K × Option Err :=
  if x.comoving = some true then (x, none)
  else if x.valid = false ∨ x.comoving = none then (x, some .invalidConversion)
  else ({ x with numbers := x.numbers.map fun v => fl (v / x.factor), comoving := some true }, none)

/-- `convert_to_physical`, objects.py:1494-1505. -/
def convertToPhysical (fl : K → K) (x : Stored K) : Stored K × Option Err :=
  match x.comoving with
  | none => (x, some .invalidConversion)
  | some false => (x, none)
  | some true => ({ x with numbers := x.numbers.map fun v => fl (v * x.factor), comoving := some false }, none)

/-- What a method that converts a copy returns or raises. -/
def ofCopy (r : Stored K × Option Err) : Except Err (Stored K) :=
  match r.2 with
  | none => .ok r.1
  | some e => .error e

/-- `to_physical()` without units, objects.py:1540-1547: a copy is converted. -/
def toPhysical (fl : K → K) (x : Stored K) : Except Err (Stored K) :=
  if x.valid = false ∧ x.comoving = some true then .error .invalidConversion else ofCopy (convertToPhysical fl x)

/-- `to_comoving()` without units, objects.py:1582-1589. -/
def toComoving (fl : K → K) (x : Stored K) : Except Err (Stored K) :=
  if x.valid = false ∧ x.comoving ≠ some false then .error .invalidConversion else ofCopy (convertToComoving fl x)

/-- `in_units`, which unyt does by one product with the number `s` of new units in an old one (objects.py:1542-1544). -/
def inUnits (fl : K → K) (s : K) (x : Stored K) : Stored K := { x with numbers := x.numbers.map fun v => fl (v * s) }

/-- `to_physical(units)`, objects.py:1540-1547: the guard, the units, then the frame. -/
def toPhysicalIn (fl : K → K) (s : K) (x : Stored K) : Except Err (Stored K) :=
  if x.valid = false ∧ x.comoving = some true then .error .invalidConversion else ofCopy (convertToPhysical fl (inUnits fl s x))

/-- `to_comoving(units)`, objects.py:1582-1589. -/
def toComovingIn (fl : K → K) (s : K) (x : Stored K) : Except Err (Stored K) :=
  if x.valid = false ∧ x.comoving ≠ some false then .error .invalidConversion else ofCopy (convertToComoving fl (inUnits fl s x))

/-- The numbers that a comparison of two arrays that can be transformed sees, _array_functions.py:916-945: if the frames differ, the physical array is
replaced by a comoving copy. -/
def compared (fl : K → K) (x y : Stored K) : Except Err (List K × List K) :=
  match x.comoving, y.comoving with
  | none, none => .ok (x.numbers, y.numbers)
  | none, some _ => .error .value
  | some _, none => .error .value
  | some true, some false => (toComoving fl y).map fun y' => (x.numbers, y'.numbers)
  | some false, some true => (toComoving fl x).map fun x' => (x'.numbers, y.numbers)
  | some _, some _ => .ok (x.numbers, y.numbers)

end Verif.RoundedFrames
