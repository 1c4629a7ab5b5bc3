import Verif.Model.Basic
import Mathlib.Data.Int.Log
import Mathlib.Analysis.SpecialFunctions.Log.Base
import Mathlib.Algebra.Ring.Parity

/-!
# Model of the units of a file (swiftsimio/metadata/unit/unit_types.py, metadata/objects.py)

A unit is its size in cgs, a real number. Binary rounding of floats is not modelled.
-/

namespace Verif.Units
open Verif

/-- Round to an integer, half to even. -/
noncomputable def roundEven (x : ℝ) : Int :=
  if x - ⌊x⌋ < 1 / 2 then ⌊x⌋ else if 1 / 2 < x - ⌊x⌋ then ⌊x⌋ + 1 else if Even ⌊x⌋ then ⌊x⌋ else ⌊x⌋ + 1

/-- `float("%.5g" % x)`: five significant decimal digits. -/
noncomputable def sig5 (x : ℝ) : ℝ :=
  if x = 0 then 0 else
    let q : ℝ := (10 : ℝ) ^ (Int.log 10 |x| - 4)
    roundEven (x / q) * q

/-- `min(l, key=f)` as position in the list: the first smallest element; an empty list raises ValueError. -/
noncomputable def argmin (f : ℝ → ℝ) : List ℝ → Except Err Nat
  | [] => .error .value
  | a :: l => .ok (l.zipIdx.foldl (fun (b : ℝ × Nat) (c : ℝ × Nat) => if f c.1 < f b.1 then (c.1, c.2 + 1) else b) (a, 0)).2

/-- `find_nearest_base_unit`, metadata/unit/unit_types.py:34-74, as the position of the unit in the table and the number in
that unit. -/
noncomputable def findNearest (bases : List ℝ) (unit : ℝ) : Except Err (Nat × ℝ) := do
  let i ← argmin (fun x => |Real.logb 10 (x / unit)|) bases
  return (i, sig5 (unit / bases[i]?.getD 0))

/-- The five kinds of base units. -/
inductive Dim
  | mass
  | length
  | time
  | current
  | temperature
  deriving DecidableEq, Repr

/-- `unit_names_to_unyt`, metadata/unit/unit_types.py:6-12. -/
def unitNames : List (String × Dim) :=
  [("Unit mass in cgs (U_M)", .mass), ("Unit length in cgs (U_L)", .length), ("Unit time in cgs (U_t)", .time),
    ("Unit current in cgs (U_I)", .current), ("Unit temperature in cgs (U_T)", .temperature)]

/-- The dictionary built from the attributes of `Units`, metadata/objects.py:802-807: an attribute that is not one of the five
raises KeyError. -/
noncomputable def unitDict (attrs : List (String × ℝ)) : Except Err (List (Dim × ℝ)) :=
  attrs.mapM (fun a => match unitNames.lookup a.1 with
    | some d => .ok (d, a.2)
    | none => .error .key)

/-- One of the five lookups, metadata/objects.py:810-824. -/
noncomputable def loadUnit (table : Dim → List ℝ) (attrs : List (String × ℝ)) (d : Dim) : Except Err (Nat × ℝ) := do
  let u ← unitDict attrs
  match u.lookup d with
  | some v => findNearest (table d) v
  | none => .error .key

end Verif.Units
