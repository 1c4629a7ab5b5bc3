import Mathlib.Data.Real.Basic
import Mathlib.Algebra.Order.Round
import Mathlib.Data.Real.Archimedean

/-!
# Hue, saturation and value

The colour of a hue, a saturation and a value in closed form, without cases on the sixth of the colour circle.
-/

namespace Verif.Spec

/-- How much of the saturation is taken off at a place of the colour circle, whose length is six: none from four to six, all from
one to three, in proportion between. -/
noncomputable def wedge (x : ℝ) : ℝ := max 0 (min 1 (min (6 * Int.fract (x / 6)) (4 - 6 * Int.fract (x / 6))))

/-- The colour of hue `h`, saturation `s` and value `v`. -/
noncomputable def colourOf (h s v : ℝ) : ℝ × ℝ × ℝ :=
  (v - v * s * wedge (5 + 6 * h), v - v * s * wedge (3 + 6 * h), v - v * s * wedge (1 + 6 * h))

/-- `h`, `s`, `v` are hue, saturation and value of a colour. Black has no saturation, grey no hue: these are zero. -/
def IsHsv (rgb hsv : ℝ × ℝ × ℝ) : Prop :=
  0 ≤ hsv.1 ∧ hsv.1 < 1 ∧ 0 ≤ hsv.2.1 ∧ hsv.2.1 ≤ 1 ∧ 0 ≤ hsv.2.2 ∧ (hsv.2.2 = 0 → hsv.2.1 = 0) ∧ (hsv.2.1 = 0 → hsv.1 = 0) ∧
    colourOf hsv.1 hsv.2.1 hsv.2.2 = rgb

end Verif.Spec
