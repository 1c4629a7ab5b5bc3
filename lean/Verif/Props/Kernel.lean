import Verif.Model.Kernel
import Verif.Props.Image
import Verif.Props.Renormalised
import Mathlib.Analysis.SpecialFunctions.Integrals.Basic
import Mathlib.Analysis.Real.Pi.Bounds

/-!
# C49: the smoothing kernels (`swiftsimio/visualisation/projection_backends/kernels.py`, `slice_backends/sph.py`)
-/

set_option linter.unusedSectionVars false

namespace Verif.Props
open Verif Verif.Spec Verif.Kernel

section
variable {K : Type} [Field K] [LinearOrder K] [IsStrictOrderedRing K]

private theorem constant2_pos : (0 : K) < constant2 := by unfold constant2; norm_num

private theorem constant3_pos : (0 : K) < constant3 := by unfold constant3; norm_num

private theorem profile_pos {q : K} (h0 : 0 ≤ q) (h1 : q < 1) : 0 < profile q := by
  unfold profile
  have : 0 < 1 - q := by linarith
  exact lt_max_of_lt_left (by positivity)

private theorem profile_nonneg (q : K) : 0 ≤ profile q := le_max_right _ _

private theorem profile_anti {a b : K} (ha : 0 ≤ a) (hab : a ≤ b) (hb : b < 1) : profile b ≤ profile a := by
  unfold profile
  have hb0 : 0 ≤ 1 - b := by linarith
  refine max_le_max ?_ le_rfl
  obtain ⟨u, hu⟩ : ∃ u, u = 1 - a := ⟨_, rfl⟩
  obtain ⟨v, hv⟩ : ∃ v, v = 1 - b := ⟨_, rfl⟩
  rw [← hu, ← hv, show 1 + 4 * a = 5 - 4 * u by rw [hu]; ring, show 1 + 4 * b = 5 - 4 * v by rw [hv]; ring]
  have h0 : 0 ≤ v := by rw [hv]; exact hb0
  have h1 : v ≤ u := by rw [hv, hu]; linarith
  have h2 : u ≤ 1 := by rw [hu]; linarith
  have h3 : 0 ≤ u := h0.trans h1
  have e : u * u * (u * u) * (5 - 4 * u) - v * v * (v * v) * (5 - 4 * v) =
      (u - v) * (5 * (u ^ 3 + u ^ 2 * v + u * v ^ 2 + v ^ 3) - 4 * (u ^ 4 + u ^ 3 * v + u ^ 2 * v ^ 2 + u * v ^ 3 + v ^ 4)) := by
    ring
  have k1 : u ^ 4 ≤ u ^ 3 := pow_le_pow_of_le_one h3 h2 (by norm_num)
  have k2 : u ^ 3 * v ≤ u ^ 2 * v := mul_le_mul_of_nonneg_right (pow_le_pow_of_le_one h3 h2 (by norm_num)) h0
  have k3 : u ^ 2 * v ^ 2 ≤ u * v ^ 2 := mul_le_mul_of_nonneg_right (by nlinarith) (by positivity)
  have k4 : u * v ^ 3 ≤ v ^ 3 := by
    have : 0 ≤ v ^ 3 := by positivity
    nlinarith
  have k5 : v ^ 4 ≤ v ^ 3 := pow_le_pow_of_le_one h0 (h1.trans h2) (by norm_num)
  have k6 : v ^ 3 ≤ u ^ 3 := pow_le_pow_left₀ h0 h1 3
  have k7 : v ^ 3 ≤ u ^ 2 * v := by
    have : v ^ 2 ≤ u ^ 2 := pow_le_pow_left₀ h0 h1 2
    nlinarith
  have k8 : v ^ 3 ≤ u * v ^ 2 := by
    have : 0 ≤ v ^ 2 := by positivity
    nlinarith
  have : 0 ≤ (u - v) * (5 * (u ^ 3 + u ^ 2 * v + u * v ^ 2 + v ^ 3) - 4 * (u ^ 4 + u ^ 3 * v + u ^ 2 * v ^ 2 + u * v ^ 3 + v ^ 4)) :=
    mul_nonneg (by linarith) (by linarith)
  linarith

/-- What the claim asks of a kernel that takes the distance and the radius. -/
structure GoodKernel (k : K → K → K) : Prop where
  /-- zero at and beyond the radius -/
  support : ∀ r H, 0 < H → H ≤ r → k r H = 0
  /-- positive inside -/
  positive : ∀ r H, 0 < H → 0 ≤ r → r < H → 0 < k r H
  /-- no increase with distance -/
  antitone : ∀ r s H, 0 < H → 0 ≤ r → r ≤ s → k s H ≤ k r H

private theorem good_of_profile {k : K → K → K} (c : K → K) (hc : ∀ H, 0 < H → 0 < c H)
    (hk : ∀ r H, k r H = if r * (1 / H) < 1 then profile (r * (1 / H)) * c H else 0) : GoodKernel k := by
  have lt_iff : ∀ {r H : K}, 0 < H → (r * (1 / H) < 1 ↔ r < H) := by
    intro r H hH
    rw [mul_one_div, div_lt_one hH]
  have pos : ∀ r H, 0 < H → 0 ≤ r → r < H → 0 < k r H := by
    intro r H hH h0 h1
    rw [hk, if_pos ((lt_iff hH).2 h1)]
    exact mul_pos (profile_pos (mul_nonneg h0 (by positivity)) ((lt_iff hH).2 h1)) (hc H hH)
  refine ⟨?_, pos, ?_⟩
  · intro r H hH h
    rw [hk, if_neg]
    rw [lt_iff hH]
    exact not_lt.2 h
  · intro r s H hH h0 h1
    rcases lt_or_ge s H with hs | hs
    · rw [hk, hk, if_pos ((lt_iff hH).2 hs), if_pos ((lt_iff hH).2 (h1.trans_lt hs))]
      have hi : 0 ≤ 1 / H := by positivity
      exact mul_le_mul_of_nonneg_right (profile_anti (mul_nonneg h0 hi) (mul_le_mul_of_nonneg_right h1 hi)
        ((lt_iff hH).2 hs)) (hc H hH).le
    · have hz : k s H = 0 := by
        rw [hk, if_neg]
        rw [lt_iff hH]; exact not_lt.2 hs
      rw [hz]
      rcases lt_or_ge r H with hr | hr
      · exact (pos r H hH h0 hr).le
      · rw [hk, if_neg]
        rw [lt_iff hH]; exact not_lt.2 hr

/-- C49. The kernel of the projections is positive inside its radius, zero at and beyond it, and does not increase with
distance. -/
theorem c49_projection : GoodKernel (K := K) projection :=
  good_of_profile (fun H => constant2 * (1 / H) * (1 / H)) (fun H hH => by have := constant2_pos (K := K); positivity)
    fun r H => rfl

/-- C49. The same for the kernel of slices and renders. -/
theorem c49_volume : GoodKernel (K := K) volume :=
  good_of_profile (fun H => constant3 * (1 / H) * (1 / H) * (1 / H))
    (fun H hH => by have := constant3_pos (K := K); positivity) fun r H => rfl

-- half way the projection kernel has 3/16 of its central value, at the edge nothing
example : projection (1 : ℚ) 2 = 3 / 16 * projection 0 2 ∧ projection (2 : ℚ) 2 = 0 ∧ 0 < projection (0 : ℚ) 2 := by
  norm_num [projection, profile, constant2]

end

private theorem continuous_of_profile {k : ℝ → ℝ → ℝ} (c : ℝ → ℝ)
    (hk : ∀ r H, k r H = if r * (1 / H) < 1 then profile (r * (1 / H)) * c H else 0) (H : ℝ) : Continuous fun r => k r H := by
  have e : (fun r => k r H) = fun r => if 1 ≤ r * (1 / H) then 0 else profile (r * (1 / H)) * c H := by
    funext r
    rw [hk]
    by_cases h : r * (1 / H) < 1
    · rw [if_pos h, if_neg (not_le.2 h)]
    · rw [if_neg h, if_pos (not_lt.1 h)]
  rw [e]
  refine Continuous.if_le continuous_const ?_ continuous_const (by fun_prop) ?_
  · unfold profile; fun_prop
  · intro r hr
    rw [← hr]; simp [profile]

/-- C49. Both kernels are continuous functions of the distance, also where the pieces meet. -/
theorem c49_continuous (H : ℝ) : (Continuous fun r => projection r H) ∧ Continuous fun r => volume r H :=
  ⟨continuous_of_profile (fun H => constant2 * (1 / H) * (1 / H)) (fun _ _ => rfl) H,
    continuous_of_profile (fun H => constant3 * (1 / H) * (1 / H) * (1 / H)) (fun _ _ => rfl) H⟩

/-- the kernel inside its radius is a polynomial -/
private theorem inside_poly {H r c : ℝ} (hH : 0 < H) (h0 : 0 ≤ r) (h1 : r ≤ H) :
    (if r * (1 / H) < 1 then profile (r * (1 / H)) * c else 0) = (1 - r / H) ^ 4 * (1 + 4 * (r / H)) * c := by
  rcases h1.lt_or_eq with h | h
  · have hq : r * (1 / H) < 1 := by rw [mul_one_div, div_lt_one hH]; exact h
    rw [if_pos hq]
    unfold profile
    rw [max_eq_left]
    · ring
    · have : 0 ≤ r * (1 / H) := by positivity
      have : 0 ≤ 1 - r * (1 / H) := by linarith
      positivity
  · subst h
    rw [if_neg]
    · rw [div_self hH.ne']; ring
    · rw [mul_one_div, div_self hH.ne']; exact lt_irrefl _

/-- C49. Over the plane the projection kernel integrates to one up to the rounding of its constant (seven decimals). -/
theorem c49_projection_integral {H : ℝ} (hH : 0 < H) :
    |(∫ r in (0 : ℝ)..H, 2 * Real.pi * r * projection r H) - 1| < 1 / 10 ^ 6 := by
  have e : (∫ r in (0 : ℝ)..H, 2 * Real.pi * r * projection r H) = Real.pi / 7 * constant2 := by
    have e1 : (∫ r in (0 : ℝ)..H, 2 * Real.pi * r * projection r H) =
        ∫ r in (0 : ℝ)..H, (2 * Real.pi * constant2 / H ^ 2) * (r - 10 / H ^ 2 * r ^ 3 + 20 / H ^ 3 * r ^ 4 -
          15 / H ^ 4 * r ^ 5 + 4 / H ^ 5 * r ^ 6) := by
      apply intervalIntegral.integral_congr
      intro r hr
      rw [Set.uIcc_of_le hH.le] at hr
      have := inside_poly (c := constant2 * (1 / H) * (1 / H)) hH hr.1 hr.2
      simp only [projection]
      rw [this]
      field_simp
      ring
    rw [e1, intervalIntegral.integral_const_mul]
    rw [intervalIntegral.integral_add, intervalIntegral.integral_sub, intervalIntegral.integral_add,
      intervalIntegral.integral_sub, integral_id, intervalIntegral.integral_const_mul, integral_pow,
      intervalIntegral.integral_const_mul, integral_pow, intervalIntegral.integral_const_mul, integral_pow,
      intervalIntegral.integral_const_mul, integral_pow]
    · field_simp
      ring
    all_goals exact Continuous.intervalIntegrable (by fun_prop) _ _
  rw [e]
  have h1 := Real.pi_gt_d6
  have h2 := Real.pi_lt_d6
  unfold constant2
  rw [abs_lt]
  constructor <;> linarith

/-- C49. Over space the kernel of slices and renders integrates to one up to the rounding of its constant. -/
theorem c49_volume_integral {H : ℝ} (hH : 0 < H) :
    |(∫ r in (0 : ℝ)..H, 4 * Real.pi * r ^ 2 * volume r H) - 1| < 1 / 10 ^ 18 := by
  have e : (∫ r in (0 : ℝ)..H, 4 * Real.pi * r ^ 2 * volume r H) = 2 * Real.pi / 21 * constant3 := by
    have e1 : (∫ r in (0 : ℝ)..H, 4 * Real.pi * r ^ 2 * volume r H) =
        ∫ r in (0 : ℝ)..H, (4 * Real.pi * constant3 / H ^ 3) * (r ^ 2 - 10 / H ^ 2 * r ^ 4 + 20 / H ^ 3 * r ^ 5 -
          15 / H ^ 4 * r ^ 6 + 4 / H ^ 5 * r ^ 7) := by
      apply intervalIntegral.integral_congr
      intro r hr
      rw [Set.uIcc_of_le hH.le] at hr
      have := inside_poly (c := constant3 * (1 / H) * (1 / H) * (1 / H)) hH hr.1 hr.2
      simp only [volume]
      rw [this]
      field_simp
      ring
    rw [e1, intervalIntegral.integral_const_mul]
    rw [intervalIntegral.integral_add, intervalIntegral.integral_sub, intervalIntegral.integral_add,
      intervalIntegral.integral_sub, integral_pow, intervalIntegral.integral_const_mul, integral_pow,
      intervalIntegral.integral_const_mul, integral_pow, intervalIntegral.integral_const_mul, integral_pow,
      intervalIntegral.integral_const_mul, integral_pow]
    · field_simp
      ring
    all_goals exact Continuous.intervalIntegrable (by fun_prop) _ _
  rw [e]
  have h1 := Real.pi_gt_d20
  have h2 := Real.pi_lt_d20
  unfold constant3
  rw [abs_lt]
  constructor <;> linarith

/-- C49. The kernel of the projections has the width that SWIFT's smoothing lengths stand for: with the radius `kernel_gamma * h`
its standard deviation in each of the two directions is `h / 2`, up to the rounding of the constants. -/
theorem c49_projection_width {h : ℝ} (hh : 0 < h) :
    |(∫ r in (0 : ℝ)..gamma2 * h, r ^ 2 * (2 * Real.pi * r * projection r (gamma2 * h))) - 2 * (h / 2) ^ 2| < h ^ 2 / 10 ^ 6 := by
  have hg : (0 : ℝ) < gamma2 := by unfold gamma2; norm_num
  obtain ⟨H, hHe⟩ : ∃ H : ℝ, H = gamma2 * h := ⟨_, rfl⟩
  have hH : 0 < H := by rw [hHe]; positivity
  have e : (∫ r in (0 : ℝ)..H, r ^ 2 * (2 * Real.pi * r * projection r H)) = 5 / 252 * Real.pi * constant2 * H ^ 2 := by
    have e1 : (∫ r in (0 : ℝ)..H, r ^ 2 * (2 * Real.pi * r * projection r H)) =
        ∫ r in (0 : ℝ)..H, (2 * Real.pi * constant2 / H ^ 2) * (r ^ 3 - 10 / H ^ 2 * r ^ 5 + 20 / H ^ 3 * r ^ 6 -
          15 / H ^ 4 * r ^ 7 + 4 / H ^ 5 * r ^ 8) := by
      apply intervalIntegral.integral_congr
      intro r hr
      rw [Set.uIcc_of_le hH.le] at hr
      have := inside_poly (c := constant2 * (1 / H) * (1 / H)) hH hr.1 hr.2
      simp only [projection]
      rw [this]
      field_simp
      ring
    rw [e1, intervalIntegral.integral_const_mul]
    rw [intervalIntegral.integral_add, intervalIntegral.integral_sub, intervalIntegral.integral_add,
      intervalIntegral.integral_sub, integral_pow, intervalIntegral.integral_const_mul, integral_pow,
      intervalIntegral.integral_const_mul, integral_pow, intervalIntegral.integral_const_mul, integral_pow,
      intervalIntegral.integral_const_mul, integral_pow]
    · field_simp
      ring
    all_goals exact Continuous.intervalIntegrable (by fun_prop) _ _
  rw [← hHe, e, hHe]
  have h1 := Real.pi_gt_d6
  have h2 := Real.pi_lt_d6
  have e2 : 5 / 252 * Real.pi * constant2 * (gamma2 * h) ^ 2 - 2 * (h / 2) ^ 2 =
      (5 / 252 * Real.pi * constant2 * gamma2 ^ 2 - 1 / 2) * h ^ 2 := by ring
  rw [e2, abs_mul, abs_of_pos (by positivity : 0 < h ^ 2), div_eq_mul_inv (h ^ 2), mul_comm (h ^ 2)]
  refine mul_lt_mul_of_pos_right ?_ (pow_pos hh 2)
  unfold constant2 gamma2
  rw [abs_lt]
  constructor <;> linarith

/-- C49. The same for the kernel of slices and renders, in three directions. -/
theorem c49_volume_width {h : ℝ} (hh : 0 < h) :
    |(∫ r in (0 : ℝ)..gamma3 * h, r ^ 2 * (4 * Real.pi * r ^ 2 * volume r (gamma3 * h))) - 3 * (h / 2) ^ 2| < h ^ 2 / 10 ^ 6 := by
  have hg : (0 : ℝ) < gamma3 := by unfold gamma3; norm_num
  obtain ⟨H, hHe⟩ : ∃ H : ℝ, H = gamma3 * h := ⟨_, rfl⟩
  have hH : 0 < H := by rw [hHe]; positivity
  have e : (∫ r in (0 : ℝ)..H, r ^ 2 * (4 * Real.pi * r ^ 2 * volume r H)) = 2 / 105 * Real.pi * constant3 * H ^ 2 := by
    have e1 : (∫ r in (0 : ℝ)..H, r ^ 2 * (4 * Real.pi * r ^ 2 * volume r H)) =
        ∫ r in (0 : ℝ)..H, (4 * Real.pi * constant3 / H ^ 3) * (r ^ 4 - 10 / H ^ 2 * r ^ 6 + 20 / H ^ 3 * r ^ 7 -
          15 / H ^ 4 * r ^ 8 + 4 / H ^ 5 * r ^ 9) := by
      apply intervalIntegral.integral_congr
      intro r hr
      rw [Set.uIcc_of_le hH.le] at hr
      have := inside_poly (c := constant3 * (1 / H) * (1 / H) * (1 / H)) hH hr.1 hr.2
      simp only [volume]
      rw [this]
      field_simp
      ring
    rw [e1, intervalIntegral.integral_const_mul]
    rw [intervalIntegral.integral_add, intervalIntegral.integral_sub, intervalIntegral.integral_add,
      intervalIntegral.integral_sub, integral_pow, intervalIntegral.integral_const_mul, integral_pow,
      intervalIntegral.integral_const_mul, integral_pow, intervalIntegral.integral_const_mul, integral_pow,
      intervalIntegral.integral_const_mul, integral_pow]
    · field_simp
      ring
    all_goals exact Continuous.intervalIntegrable (by fun_prop) _ _
  rw [← hHe, e, hHe]
  have h1 := Real.pi_gt_d20
  have h2 := Real.pi_lt_d20
  have e2 : 2 / 105 * Real.pi * constant3 * (gamma3 * h) ^ 2 - 3 * (h / 2) ^ 2 =
      (2 / 105 * Real.pi * constant3 * gamma3 ^ 2 - 3 / 4) * h ^ 2 := by ring
  rw [e2, abs_mul, abs_of_pos (by positivity : 0 < h ^ 2), div_eq_mul_inv (h ^ 2), mul_comm (h ^ 2)]
  refine mul_lt_mul_of_pos_right ?_ (pow_pos hh 2)
  unfold constant3 gamma3
  rw [abs_lt]
  constructor <;> linarith

/-- A kernel as the loops call it: the distance is the root of the sum of squares. -/
noncomputable def rooted (k : ℝ → ℝ → ℝ) (r2 H : ℝ) : ℝ := k (Real.sqrt r2) H

/-- C49. So the kernels meet what C36, C37 and C40 ask of a kernel. -/
theorem c49_rooted {k : ℝ → ℝ → ℝ} (hk : GoodKernel k) : Compact (rooted k) ∧ PositiveInside (rooted k) := by
  constructor
  · intro r2 H hH h
    exact hk.support _ _ hH (Real.le_sqrt_of_sq_le (by rw [pow_two]; exact h))
  · intro r2 H hH h0 h
    refine hk.positive _ _ hH (Real.sqrt_nonneg _) ((Real.sqrt_lt' hH).2 (by rw [pow_two]; exact h))

-- the kernel of the code and its gamma in the renormalised projection: a kernel of 3 pixels conserves the mass
example : ∃ img, Scatter.renormalised (rooted projection) gamma2 10 1 1 [⟨1 / 2, 1 / 3, 0, 2, 3 / 10 / gamma2⟩] = .ok img ∧
    imageMass 10 img = 2 := by
  have hg : (gamma2 : ℝ) * (3 / 10 / gamma2) = 3 / 10 := by unfold gamma2; norm_num
  have h := c40_mass_partial (c49_rooted c49_projection).1 (c49_rooted c49_projection).2 (g := gamma2) (res := 10)
    (bx := 1) (by_ := 1) (by norm_num) [⟨1 / 2, 1 / 3, 0, 2, 3 / 10 / gamma2⟩]
    ⟨.inr le_rfl, .inr le_rfl, by simp [Interior, hg]; norm_num⟩ (by
      intro p hp
      rw [List.mem_singleton] at hp
      subst hp
      dsimp only
      rw [hg, ← Int.self_sub_floor]; norm_num)
  obtain ⟨img, h1, h2⟩ := h
  exact ⟨img, h1, by rw [h2]; norm_num⟩

end Verif.Props
