import Verif.Model.RoundedBounds

/-!
# What C144 says about bounds with rounding
-/

namespace Verif.Spec
open Verif Verif.RoundedBounds

/-- The bound has the frame and the unit of the field. -/
def AsStored {K : Type} (c : Column K) (q : Bound K) : Prop := q.comoving = c.comoving ∧ q.unit = none

/-- Two bounds in the same frame and unit, the second at least as large. -/
def BelowBound {K : Type} [LinearOrder K] (q q' : Bound K) : Prop :=
  q.comoving = q'.comoving ∧ q.factor = q'.factor ∧ q.unit = q'.unit ∧ q.value ≤ q'.value

/-- Factors and conversion factors are positive. -/
def PositiveBound {K : Type} [Field K] [LinearOrder K] (q : Bound K) : Prop := 0 < q.factor ∧ ∀ s, q.unit = some s → 0 < s

/-- Rounding changes the number at most by the part `ε` of it. -/
def RelErr {K : Type} [Field K] [LinearOrder K] (fl : K → K) (ε x : K) : Prop := |fl x - x| ≤ ε * |x|

/-- The number of a field in the frame of the comparison, without rounding. -/
def exactData {K : Type} [Field K] (c : Column K) (q : Bound K) (v : K) : K :=
  match c.comoving, q.comoving with
  | false, true => v / c.factor
  | _, _ => v

/-- The number of a bound in the frame of the comparison and the unit of the field, without rounding. -/
def exactBound {K : Type} [Field K] (c : Column K) (q : Bound K) : K :=
  (match c.comoving, q.comoving with
    | true, false => q.value / q.factor
    | _, _ => q.value) * q.unit.getD 1

end Verif.Spec
