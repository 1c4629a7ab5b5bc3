import Verif.Model.Formulas

/-!
# Formulas of `cosmo_array`s with units (swiftsimio/objects.py)

The same operations as in `Model/Formulas.lean`, with the units that unyt keeps beside the numbers. A unit is its size in base units and
its dimensions, a vector of real exponents; names of units and offsets (degrees Celsius) are left out. What unyt does with the numbers and
units is not in the repository and is assumed as documented: sums convert their second operand to the unit of the first one, operands
that are zero everywhere take the unit of the other one, products and powers act on units. UnitOperationError is a ValueError;
UnitConversionError is `value` too, as in `Model/Refusals.lean`.
-/

namespace Verif.UnitFormulas
open Verif Verif.Cosmo Verif.Formulas

/-- A unit: `base_value` and `dimensions`. -/
@[ext] structure U (D : Type) where
  size : ℝ
  dim : D

variable {D : Type} [AddCommGroup D] [Module ℝ D]

/-- `dimensionless`. -/
def U.one : U D := ⟨1, 0⟩

/-- The product of two units. -/
noncomputable def U.mul (u v : U D) : U D := ⟨u.size * v.size, u.dim + v.dim⟩

/-- Their quotient. -/
noncomputable def U.div (u v : U D) : U D := ⟨u.size / v.size, u.dim - v.dim⟩

/-- A power. -/
noncomputable def U.pow (u : U D) (q : ℝ) : U D := ⟨u.size ^ q, q • u.dim⟩

open Classical in
/-- unyt on two arrays whose units must agree (`add`, `subtract`, `maximum`, `remainder`, ...), called by objects.py:2211-2213. -/
noncomputable def likeUnits (fn : ℝ → ℝ → ℝ) (u v : U D) : List (List ℝ) → Except Err (List ℝ × U D)
  | [x, y] =>
    if u = v then (bcast2 fn x y).map (·, u)
    else if ∀ t ∈ x, t = 0 then (bcast2 fn x y).map (·, v)
    else if ∀ t ∈ y, t = 0 then (bcast2 fn x y).map (·, u)
    else if u.dim ≠ v.dim then .error .value
    else (bcast2 fn x (y.map (· * (v.size / u.size)))).map (·, u)
  | _ => .error .typeErr

/-- unyt on a product. -/
noncomputable def mulUnits (u v : U D) : List (List ℝ) → Except Err (List ℝ × U D)
  | [x, y] => (bcast2 (· * ·) x y).map (·, u.mul v)
  | _ => .error .typeErr

open Classical in
/-- unyt on a quotient: the ratio of two units of the same dimensions is multiplied into the numbers. -/
noncomputable def divUnits (u v : U D) : List (List ℝ) → Except Err (List ℝ × U D)
  | [x, y] =>
    if u.dim = v.dim ∧ u.dim ≠ 0 then (bcast2 (· / ·) x y).map (fun w => (w.map (· * (u.size / v.size)), U.one))
    else (bcast2 (· / ·) x y).map (·, u.div v)
  | _ => .error .typeErr

/-- unyt on two arrays. -/
noncomputable def units2 (f : Bin) (u v : U D) : List (List ℝ) → Except Err (List ℝ × U D) :=
  match f with
  | .multiply => mulUnits u v
  | .divide => divUnits u v
  | f => likeUnits f.fn u v

/-- The unit of an operation on one array. -/
noncomputable def unit1 (f : Un) (u : U D) : U D :=
  match f with
  | .negative => u
  | .absolute => u
  | .sqrt => u.pow (1 / 2)
  | .square => u.pow 2
  | .cbrt => u.pow (1 / 3)
  | .reciprocal => u.pow (-1)

/-- `__array_ufunc__`, objects.py:2152-2244: the frames and the factor are those of `Cosmo.ufunc`; unyt (`super().__array_ufunc__`,
2211-2213) gets the numbers after the frames have been made equal and returns numbers and a unit. -/
noncomputable def ufuncUnits (u : Ufunc) (num : List (List ℝ) → Except Err (List ℝ × U D)) (args : List Opd) : Except Err (Arr × U D) :=
  match prepare true args [] with
  | .error e => .error e
  | .ok p => match handle (registry u) p.cfs args with
    | .error e => .error e
    | .ok c => match num (p.args.map Opd.vals) with
      | .error e => .error e
      | .ok w => .ok ({ val := w.1, comoving := p.comoving, cf := c, vt := p.vt }, w.2)

/-- A value: numbers, with or without a cosmology, and their unit. Bare numbers have no unit. -/
abbrev Val (D : Type) := Opd × U D

/-- A formula: as `Formulas.Expr`, with conversions of units (`x.to(unit)`) and products with units (`x * unit`, `unit * x`). -/
inductive UExpr (D : Type)
  | var (i : Nat)
  | nums (v : List ℝ)
  | two (f : Bin) (s t : UExpr D)
  | one (f : Un) (s : UExpr D)
  | pow (s : UExpr D) (q : ℝ)
  | whole (f : List ℝ → List ℝ) (s : UExpr D)
  | physical (s : UExpr D)
  | comoving (s : UExpr D)
  | convert (u : U D) (s : UExpr D)
  | times (u : U D) (s : UExpr D)

/-- An operation on two values, objects.py:2152-2244. -/
noncomputable def apply2U (f : Bin) : Val D → Val D → Except Err (Val D)
  | (.plain v, _), (.plain w, _) => (num2 f.fn [v, w]).map (fun r => (.plain r, U.one))
  | (o, u), (p, v) => (ufuncUnits f.ufunc (units2 f u v) [o, p]).map (fun z => (.cosmo z.1, z.2))

/-- An operation on one value. -/
noncomputable def apply1U (f : Un) : Val D → Except Err (Val D)
  | (.plain v, _) => .ok (.plain (v.map f.fn), U.one)
  | (.cosmo x, u) => (ufuncUnits f.ufunc (fun l => (num1 f.fn l).map (·, unit1 f u)) [.cosmo x]).map (fun z => (.cosmo z.1, z.2))

/-- `x ** q`. -/
noncomputable def applyPowU (q : ℝ) : Val D → Except Err (Val D)
  | (.plain v, _) => .ok (.plain (v.map (· ^ q)), U.one)
  | (.cosmo x, u) =>
    (ufuncUnits .power (fun l => (num2 (· ^ ·) l).map (·, u.pow q)) [.cosmo x, .plain [q]]).map (fun z => (.cosmo z.1, z.2))

open Classical in
/-- `x.to(unit)`, objects.py:1652-1676: the numbers are rescaled and the attributes kept. -/
noncomputable def applyToUnit (u : U D) : Val D → Except Err (Val D)
  | (.plain _, _) => .error .attribute
  | (.cosmo x, v) => if v.dim ≠ u.dim then .error .value else .ok (.cosmo (propagate (List.map (· * (v.size / u.size))) x), u)

/-- `x * unit` and `unit * x`, objects.py:2311-2366: only the unit changes. Bare numbers become a `unyt_array`, which is not modelled. -/
noncomputable def applyTimes (u : U D) : Val D → Except Err (Val D)
  | (.plain _, _) => .error .notImpl
  | (.cosmo x, v) => .ok (.cosmo x, u.mul v)

/-- The value of a formula. -/
noncomputable def evalU (env : Nat → Arr × U D) : UExpr D → Except Err (Val D)
  | .var i => .ok (.cosmo (env i).1, (env i).2)
  | .nums v => .ok (.plain v, U.one)
  | .two f s t => (evalU env s).bind fun x => (evalU env t).bind fun y => apply2U f x y
  | .one f s => (evalU env s).bind (apply1U f)
  | .pow s q => (evalU env s).bind (applyPowU q)
  | .whole f s => (evalU env s).bind (fun x => (applyWhole f x.1).map (·, x.2))
  | .physical s => (evalU env s).bind (fun x => (applyTo true x.1).map (·, x.2))
  | .comoving s => (evalU env s).bind (fun x => (applyTo false x.1).map (·, x.2))
  | .convert u s => (evalU env s).bind (applyToUnit u)
  | .times u s => (evalU env s).bind (applyTimes u)

open Classical in
/-- unyt on a comparison: as sums, but numbers are compared as they are if one side has no dimensions. -/
noncomputable def compareUnits {β : Type} (r : ℝ → ℝ → β) (u v : U D) : List (List ℝ) → Except Err (List β)
  | [x, y] =>
    if u = v ∨ (∀ t ∈ x, t = 0) ∨ (∀ t ∈ y, t = 0) ∨ u.dim = 0 ∨ v.dim = 0 then bcast2 r x y
    else if u.dim ≠ v.dim then .error .value
    else bcast2 r x (y.map (· * (v.size / u.size)))
  | _ => .error .typeErr

/-- `s < t` and the other comparisons, objects.py:2152-2244. -/
noncomputable def compareU {β : Type} (c : Ufunc) (r : ℝ → ℝ → β) (env : Nat → Arr × U D) (s t : UExpr D) :
    Except Err (List β) :=
  (evalU env s).bind fun x => (evalU env t).bind fun y => match x, y with
    | (.plain v, _), (.plain w, _) => num2 r [v, w]
    | (o, u), (p, v) => ufuncBool c (compareUnits r u v) [o, p]

end Verif.UnitFormulas
