import Mathlib.Data.Rat.Floor

/-! What is said about numbers of limited precision. -/

namespace Verif.Spec.Binary

/-- Numbers with at most `p` binary digits: `Rep 53` are the numbers of double precision, `Rep 24` those of single
precision (without limits of the exponent). -/
def Rep (p : ℕ) (q : ℚ) : Prop := ∃ m e : ℤ, |m| ≤ 2 ^ p ∧ q = m * 2 ^ e

/-- The cell along one axis that contains the position `x` in a box of length `b` that is repeated along the axis and
divided in `res` cells. -/
def cellOf (res : ℕ) (b x : ℚ) : ℤ := ⌊(x / b - ⌊x / b⌋) * res⌋

end Verif.Spec.Binary
