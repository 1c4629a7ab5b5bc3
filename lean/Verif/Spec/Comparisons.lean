import Verif.Model.Comparisons

/-!
# Specification of comparisons with any object
-/

namespace Verif.Spec
open Verif Verif.Cosmo Verif.Comparisons

/-- Does the object carry a factor? -/
def HasFactor : Operand → Prop
  | .opd (.cosmo x) => x.cf ≠ none
  | _ => False

/-- Every number of the object is zero. -/
def AllZero : Operand → Prop
  | .opd (.plain v) => ∀ t ∈ v, t = 0
  | .opd (.cosmo x) => ∀ t ∈ x.val, t = 0
  | _ => False

/-- Objects whose numbers can be iterated by Python only. -/
def IsSequence : Operand → Prop
  | .sequence _ => True
  | .text => True
  | _ => False

/-- A relation that only depends on the signs if one side is zero. -/
def SignOnly (r : ℝ → ℝ → Prop) : Prop := ∀ s v : ℝ, 0 < s → (r 0 (v * s) ↔ r 0 v) ∧ (r (v * s) 0 ↔ r v 0)

end Verif.Spec
