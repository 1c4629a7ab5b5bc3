import Verif.Model.Cosmo

/-!
# Model of the ways to make a `cosmo_array` or `cosmo_quantity` (swiftsimio/objects.py)

Units, data types, names and compression are left out.
-/

namespace Verif.Cosmo
open Verif

/-- The keyword arguments of the constructors: `comoving`, `cosmo_factor`, `scale_factor`, `scale_exponent` and
`valid_transform` (True if it is not given). -/
structure Kw where
  comoving : Option Bool := none
  cf : Option CF := none
  sf : Option ℝ := none
  expo : Option ℝ := none
  vt : Bool := true

/-- `_parse_cosmo_factor_args`, objects.py:842-905. `a**None` raises TypeError. -/
noncomputable def parse (cf : Option CF) (sf expo : Option ℝ) : Except Err (Option CF) :=
  match cf, sf, expo with
  | none, none, none => .ok none
  | some f, none, none => .ok (some f)
  | some _, some _, none => .error .typeErr
  | some f, sf, some k => if CF.same ⟨some k, sf⟩ f then .ok (some f) else .error .value
  | none, some a, some k => .ok (some (CF.create a k))
  | none, some _, none => .error .value
  | none, none, some _ => .error .value

/-- `cosmo_array(values, …)` for an `ndarray`, objects.py:1198-1209 and 1260-1282. -/
noncomputable def newPlain (v : List ℝ) (w : Kw) : Except Err Arr :=
  match parse w.cf w.sf w.expo with
  | .error e => .error e
  | .ok c => Arr.verify
      { val := v, comoving := w.comoving, cf := some (c.getD CF.null), vt := if w.comoving.isSome then w.vt else false }

/-- `cosmo_array(x, …)` for a `cosmo_array`, objects.py:1161-1196: the argument `cosmo_factor` is replaced by the factor of
`x`. -/
noncomputable def newFrom (x : Arr) (w : Kw) : Except Err Arr :=
  match x.cf with
  | none => .error .value
  | some f => match parse (if CF.same f CF.null then none else some f) w.sf w.expo with
    | .error e => .error e
    | .ok c =>
      let y := { x with cf := c.or x.cf }
      match (match w.comoving with
        | some true => y.convertToComoving
        | some false => y.convertToPhysical
        | none => .ok y) with
      | .error e => .error e
      | .ok z => Arr.verify { z with vt := w.vt }

/-- The attributes that a `cosmo_quantity` takes from its argument, objects.py:2495-2516. -/
def Kw.fill (w : Kw) (x : Opd) : Kw :=
  let cm := match x with
    | .plain _ => w.comoving
    | .cosmo y => w.comoving.or y.comoving
  { w with cf := w.cf.or x.cf, comoving := cm, vt := if cm.isSome then w.vt else false }

/-- `cosmo_quantity(x, …)`, objects.py:2402-2545: attributes that are not given are taken from `x`, the bare value of `x` is
given to the constructor of `cosmo_array`. -/
noncomputable def newQuantity (x : Opd) (w : Kw) : Except Err Arr :=
  match newPlain x.vals (w.fill x) with
  | .error e => .error e
  | .ok y => if 1 < y.val.length then .error .runtime else .ok y

/-- `cosmo_array(values, bypass_validation=True, …)`, objects.py:1140-1159: `cosmo_factor` is the argument, not the class. -/
noncomputable def newBypass (v : List ℝ) (w : Kw) : Except Err Arr :=
  match w.sf with
  | none => .ok ⟨v, w.comoving, some (w.cf.getD CF.null), w.vt⟩
  | some a => match w.cf, w.expo with
    | none, _ => .error .attribute
    | some _, none => .error .typeErr
    | some _, some k => .ok ⟨v, w.comoving, some (CF.create a k), w.vt⟩

/-- `from_astropy` and `from_pint`, objects.py:1859-1918 and 1920-1979: `valid_transform` is assigned to the attribute
`valid_trasform`; the attribute `valid_transform` is True by `__array_finalize__`, objects.py:1299. -/
def fromOther (v : List ℝ) (w : Kw) : Arr := ⟨v, w.comoving, some (w.cf.getD CF.null), true⟩

end Verif.Cosmo
