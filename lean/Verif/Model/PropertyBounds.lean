import Verif.Model.Mask
import Verif.Model.Attributes
import Verif.Model.Constructors

/-!
# Model of `constrain_property` with units and frames (swiftsimio/masks.py)

`Model/Mask.lean` has the numbers of a field in the unit and frame of the bounds. Here the field is as it is in the file and the bounds
are quantities with their own units, frames and factors. Bounds have the dimensions of the field: for others, unyt raises. Bounds
without units are not modelled (the documentation asks for quantities).
-/

namespace Verif.PropertyBounds
open Verif Verif.Mask Verif.Cosmo Verif.Attributes

/-- The numbers of a dataset in a file: one for each row, or several. -/
inductive Numbers
  | column (l : List ℝ)
  | table (rows : List (List ℝ))

/-- A dataset in a file. -/
structure OnDisk where
  attrs : Attrs
  numbers : Numbers

/-- A `cosmo_quantity` and the size of its unit in cgs. -/
structure Bound where
  value : ℝ
  comoving : Option Bool
  cf : Option CF
  vt : Bool
  size : ℝ

/-- The bound as an array with one number. -/
def Bound.arr (q : Bound) : Arr := ⟨[q.value], q.comoving, q.cf, q.vt⟩

/-- `np.take(h5file[handle], np.where(current_mask)[0], axis=0)`, masks.py:534, all numbers one after the other. -/
def Numbers.take (current : List Bool) : Numbers → List ℝ
  | .column l => compress current l
  | .table rows => (compress current rows).flatten

/-- The array that is compared, masks.py:523-526 and 540-546: `valid_transform` is not given, so it is True whatever the file says. -/
noncomputable def maskArray (b : Base) (sf : ℝ) (a : Attrs) (v : List ℝ) : Except Err Attributes.Field :=
  (newPlain v { comoving := some (!(a.physical.getD 0 == 1)), cf := some (CF.create sf (a.aScale.getD 0)) }).map
    fun x => ⟨x, a.dims, (readField b sf (a, v)).size⟩

/-- The numbers of a comparison: unyt converts the second operand to the unit of the first. -/
noncomputable def inFirstUnit (r : ℝ → ℝ → Bool) (x : Attributes.Field) (q : Bound) : List (List ℝ) → Except Err (List Bool)
  | [xs, ys] => bcast2 r xs (ys.map fun y => y * (q.size / x.size))
  | _ => .error .typeErr

/-- `data > lower` and `data <= upper` (objects.py:2152-2244). -/
noncomputable def compareWith (u : Ufunc) (r : ℝ → ℝ → Bool) (x : Attributes.Field) (q : Bound) : Except Err (List Bool) :=
  ufuncBool u (inFirstUnit r x q) [.cosmo x.arr, .cosmo q.arr]

/-- `x > y`. -/
noncomputable def above (x y : ℝ) : Bool := decide (x > y)

/-- `x <= y`. -/
noncomputable def atMost (x y : ℝ) : Bool := decide (x ≤ y)

/-- masks.py:523-549: the new mask; an array of several numbers for each row cannot be assigned. -/
noncomputable def newMask (b : Base) (sf : ℝ) (d : OnDisk) (lower upper : Bound) (current : List Bool) : Except Err (List Bool) :=
  match maskArray b sf d.attrs (d.numbers.take current) with
  | .error e => .error e
  | .ok x => match compareWith .greater above x lower with
    | .error e => .error e
    | .ok l => match compareWith .lessEqual atMost x upper with
      | .error e => .error e
      | .ok u => match d.numbers with
        | .table _ => .error .typeErr
        | .column _ => .ok (maskedAssign current (List.zipWith (· && ·) l u))

variable {m : Nat}

/-- `constrain_property`, masks.py:475-552, without the decorator. -/
noncomputable def constrainProperty (f : File ℝ m) (b : Base) (sf : ℝ) (disk : String → String → Option OnDisk) (s0 : State m)
    (group quantity : String) (lower upper : Bound) : State m × Option Err :=
  let s := toBool f s0
  match f.group group, disk group quantity with
  | some k, some d => match s.rep with
    | .bools bs => match newMask b sf d lower upper (bs k) with
      | .ok new => ({ s with rep := .bools (fun k' => if k' = k then new else bs k') }, none)
      | .error e => (s, some e)
    | .ranges _ => (s, some .typeErr)  -- not reachable: `toBool` returns booleans
  | _, _ => (s, some .key)

end Verif.PropertyBounds
