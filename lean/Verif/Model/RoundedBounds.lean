import Verif.Model.Mask

/-!
# Model of `constrain_property` with rounding (swiftsimio/masks.py)

`Verif.Model.PropertyBounds` has the frames and units of `constrain_property` with real numbers. Here the same comparisons are made with the
numbers of the computer: each conversion is one operation that is rounded, and comparisons are exact. Fields and bounds may be stored in
different precisions, so there are two rounding functions; numpy compares in the larger precision without changing either number. Bounds that
are refused (C102) are left out, and so are fields and bounds that cannot be converted.
-/

namespace Verif.RoundedBounds
open Verif Verif.Mask

variable {K : Type} [Field K] [LinearOrder K] {m : Nat}

/-- A field in the file: its frame, its factor `a ** exponent`, and its numbers (masks.py:529-549). -/
structure Column (K : Type) where
  comoving : Bool
  factor : K
  numbers : List K

/-- A bound: its number, frame and factor, and the conversion factor of unyt from its unit to that of the field, `none` if they are the same
unit. -/
structure Bound (K : Type) where
  value : K
  comoving : Bool
  factor : K
  unit : Option K

/-- A number of the field in a comparison: in the frame of the file, but if it is physical and the bound is comoving, then
`values /= cosmo_factor.a_factor` (_array_functions.py:934-951, objects.py:1454-1455). -/
def dataNumber (fl : K → K) (c : Column K) (q : Bound K) (v : K) : K := if !c.comoving && q.comoving then fl (v / c.factor) else v

/-- The bound in a comparison: converted to comoving if it is physical and the field is comoving (the same places), then converted to the unit
of the field by unyt (objects.py:2152-2244). -/
def boundNumber (fl : K → K) (c : Column K) (q : Bound K) : K :=
  let v := if c.comoving && !q.comoving then fl (q.value / q.factor) else q.value
  match q.unit with
  | none => v
  | some s => fl (v * s)

/-- The new mask (masks.py:538-552). -/
def newMask (flx flq : K → K) (c : Column K) (lower upper : Bound K) (current : List Bool) : List Bool :=
  maskedAssign current ((compress current c.numbers).map fun v =>
    decide (dataNumber flx c lower v > boundNumber flq c lower) && decide (dataNumber flx c upper v ≤ boundNumber flq c upper))

/-- `constrain_property`, masks.py:475-556. -/
def constrainProperty (flx flq : K → K) (f : File K m) (disk : String → String → Option (Column K)) (s0 : State m) (group quantity : String)
    (lower upper : Bound K) : State m × Option Err :=
  let s := toBool f s0
  match f.group group, disk group quantity with
  | some k, some c => match s.rep with
    | .bools bs => ({ s with rep := .bools (fun k' => if k' = k then newMask flx flq c lower upper (bs k) else bs k') }, none)
    | .ranges _ => (s, some .typeErr)  -- not reachable: `toBool` returns booleans
  | _, _ => (s, some .key)

/-- The arguments of a call of `constrain_property`. -/
structure Call (K : Type) where
  group : String
  quantity : String
  lower : Bound K
  upper : Bound K

/-- The method with the decorator that remembers the kind of constraint, masks.py:38-60 and 475-556. -/
def property (flx flq : K → K) (f : File K m) (disk : String → String → Option (Column K)) (s : State m) (c : Call K) : State m × Option Err :=
  decorate .property (constrainProperty flx flq f disk s c.group c.quantity c.lower c.upper)

/-- A mask after further calls; the user catches what is raised and carries on. -/
def properties (flx flq : K → K) (f : File K m) (disk : String → String → Option (Column K)) (s : State m) (calls : List (Call K)) : State m :=
  calls.foldl (fun s c => (property flx flq f disk s c).1) s

end Verif.RoundedBounds
