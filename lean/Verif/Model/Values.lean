import Verif.Model.Cosmo

/-!
# Model of bare values, pickles, products with units and comparisons of factors (swiftsimio/objects.py)

A unit is its size in the base unit of its dimension; units of other dimensions and equivalences are not modelled.
-/

namespace Verif.Cosmo
open Verif

/-- A `cosmo_array` with its unit and its `compression`. -/
@[ext] structure Full where
  arr : Arr
  unit : ℝ
  compression : Option (List Char)

/-- `super().to(units)` of unyt with the attributes copied, objects.py:1660-1668 and `_copy_cosmo_array_attributes_if_present`,
_array_functions.py:131-168. -/
noncomputable def Full.inUnits (u : ℝ) (x : Full) : Full :=
  { x with arr := { x.arr with val := x.arr.val.map (fun v => v * (x.unit / u)) }, unit := u }

/-- The units of the result of `to`: those asked for, or those of the array. -/
noncomputable def Full.maybeUnits (x : Full) : Option ℝ → Full
  | none => x
  | some u => x.inUnits u

/-- `to(units, comoving=c)`, objects.py:1591-1676. -/
noncomputable def Full.to (u : Option ℝ) (c : Option Bool) (x : Full) : Except Err Full :=
  if c ≠ none ∧ x.arr.vt = false ∧ c ≠ x.arr.comoving then .error .invalidConversion
  else
    let y := x.maybeUnits u
    match c with
    | some true => y.arr.convertToComoving.map (fun z => { y with arr := z })
    | some false => y.arr.convertToPhysical.map (fun z => { y with arr := z })
    | none => .ok y

/-- `to_value(units, comoving=c)`, objects.py:1678-1743. -/
noncomputable def Full.toValue (u : Option ℝ) (c : Option Bool) (x : Full) : Except Err (List ℝ) :=
  (x.to u c).map (fun y => y.arr.val)

/-- `to_physical_value(units)`, objects.py:1745-1785. -/
noncomputable def Full.toPhysicalValue (u : ℝ) (x : Full) : Except Err (List ℝ) := x.toValue (some u) (some false)

/-- `to_comoving_value(units)`, objects.py:1787-1827. -/
noncomputable def Full.toComovingValue (u : ℝ) (x : Full) : Except Err (List ℝ) := x.toValue (some u) (some true)

/-- `self.cosmo_factor.a_factor == 1.0`: `None == 1.0` is False. -/
noncomputable def Arr.factorIsOne (x : Arr) : Except Err Bool :=
  match x.cf with
  | none => .error .attribute
  | some f => .ok (decide (f.aFactor = some 1))

/-- `compatible_with_comoving`, objects.py:1829-1842. -/
noncomputable def Arr.compatibleWithComoving (x : Arr) : Except Err Bool :=
  if x.comoving = some true then .ok true else x.factorIsOne

/-- `compatible_with_physical`, objects.py:1844-1857: `not None` is True. -/
noncomputable def Arr.compatibleWithPhysical (x : Arr) : Except Err Bool :=
  if x.comoving ≠ some true then .ok true else x.factorIsOne

/-- An element of the state tuple of a pickle: the tuple of swiftsimio, that of unyt and the numbers of numpy. -/
inductive Item
  | cosmo (cf : Option CF) (comoving : Option Bool) (compression : Option (List Char)) (vt : Bool)
  | unyt (unit : ℝ)
  | numpy (val : List ℝ)

/-- The state made by `__reduce__` of unyt. -/
def Full.unytState (x : Full) : List Item := [.unyt x.unit, .numpy x.arr.val]

/-- `__reduce__`, objects.py:1330-1356: the cosmology is put in front of the state of unyt. -/
def Full.reduce (x : Full) : List Item :=
  .cosmo x.arr.cf x.arr.comoving x.compression x.arr.vt :: x.unytState

/-- `__setstate__` of unyt, on an array that was just made. -/
def unytSetstate (x : Full) : List Item → Except Err Full
  | [.unyt u, .numpy v] => .ok { x with unit := u, arr := { x.arr with val := v } }
  | _ => .error .typeErr

/-- `__setstate__`, objects.py:1358-1373. -/
def Full.setstate (x : Full) (s : List Item) : Except Err Full :=
  match unytSetstate x s.tail with
  | .error e => .error e
  | .ok y => match s with
    | .cosmo cf cm co vt :: _ => .ok { y with arr := { y.arr with cf := cf, comoving := cm, vt := vt }, compression := co }
    | _ => .error .value

/-- `x * unit`, `__mul__`, objects.py:2311-2341: unyt multiplies the unit, the attributes are copied. -/
noncomputable def Full.timesUnit (x : Full) (u : ℝ) : Full := { x with unit := x.unit * u }

/-- The comparisons `<`, `>`, `<=`, `>=` of factors, objects.py:654-756; comparing with `None` is a TypeError. -/
noncomputable def CF.compare (r : ℝ → ℝ → Prop) (f g : CF) : Except Err Prop :=
  match f.aFactor, g.aFactor with
  | some x, some y => .ok (r x y)
  | _, _ => .error .typeErr

end Verif.Cosmo
