import Mathlib.Tactic.Linarith
import Mathlib.Tactic.Positivity
import Mathlib.Tactic.Ring
import Mathlib.Tactic.FieldSimp
import Mathlib.Tactic.NormNum
import Mathlib.Algebra.Order.Field.Power
import Verif.Model.Binary
import Verif.Spec.Binary

/-! Facts about rounding to a number of binary digits. -/

set_option linter.unusedVariables false

namespace Verif.Binary
open Verif Verif.Spec.Binary

theorem nearEven_int (n : ℤ) : nearEven n = n := by
  unfold nearEven
  rw [Int.floor_intCast, sub_self, if_pos (by norm_num)]

theorem nearEven_error (x : ℚ) : |(nearEven x : ℚ) - x| ≤ 1 / 2 := by
  have h1 := Int.floor_le x
  have h2 := Int.lt_floor_add_one x
  unfold nearEven
  rw [abs_le]
  split_ifs <;> push_cast <;> constructor <;> linarith

theorem nearEven_ge (x : ℚ) : ⌊x⌋ ≤ nearEven x := by
  unfold nearEven
  split_ifs <;> omega

theorem nearEven_le (x : ℚ) : nearEven x ≤ ⌊x⌋ + 1 := by
  unfold nearEven
  split_ifs <;> omega

theorem nearEven_mono {x y : ℚ} (h : x ≤ y) : nearEven x ≤ nearEven y := by
  have hf : ⌊x⌋ ≤ ⌊y⌋ := Int.floor_le_floor h
  rcases hf.lt_or_eq with hlt | heq
  · exact (nearEven_le x).trans ((by omega : ⌊x⌋ + 1 ≤ ⌊y⌋).trans (nearEven_ge y))
  · unfold nearEven
    rw [heq]
    split_ifs <;> first | omega | (exfalso; linarith)

theorem ulp_pos (p : ℕ) (q : ℚ) : 0 < ulp p q := by
  unfold ulp
  positivity

theorem log_le {q : ℚ} (h : 0 < q) : (2 : ℚ) ^ Int.log 2 q ≤ q := by
  have := Int.zpow_log_le_self (b := 2) (by norm_num) h
  exact_mod_cast this

theorem lt_log (q : ℚ) : q < (2 : ℚ) ^ (Int.log 2 q + 1) := by
  have := Int.lt_zpow_succ_log_self (b := 2) (by norm_num) q
  exact_mod_cast this

theorem log_eq {q : ℚ} {e : ℤ} (h1 : (2 : ℚ) ^ e ≤ q) (h2 : q < 2 ^ (e + 1)) : Int.log 2 q = e := by
  have h0 : 0 < q := lt_of_lt_of_le (by positivity) h1
  have ha := log_le h0
  have hb := lt_log q
  have h3 : e < Int.log 2 q + 1 := (zpow_lt_zpow_iff_right₀ (by norm_num : (1 : ℚ) < 2)).1 (h1.trans_lt hb)
  have h4 : Int.log 2 q < e + 1 := (zpow_lt_zpow_iff_right₀ (by norm_num : (1 : ℚ) < 2)).1 (ha.trans_lt h2)
  omega

theorem rndPos_of {p : ℕ} {q : ℚ} {e : ℤ} (h1 : (2 : ℚ) ^ e ≤ q) (h2 : q < 2 ^ (e + 1)) :
    rndPos p q = nearEven (q / 2 ^ (e - (p - 1 : ℤ))) * 2 ^ (e - (p - 1 : ℤ)) := by
  unfold rndPos ulp
  rw [log_eq h1 h2]

theorem rnd_pos_eq {p : ℕ} {q : ℚ} (h : 0 < q) : rnd p q = rndPos p q := by
  unfold rnd
  rw [if_neg (not_lt.2 h.le), if_neg h.ne']

theorem rnd_zero (p : ℕ) : rnd p 0 = 0 := by
  unfold rnd
  rw [if_neg (lt_irrefl _), if_pos rfl]

theorem rnd_neg (p : ℕ) (q : ℚ) : rnd p (-q) = -rnd p q := by
  rcases lt_trichotomy q 0 with h | h | h
  · rw [rnd_pos_eq (neg_pos.2 h)]
    unfold rnd
    rw [if_pos h, neg_neg]
  · rw [h, neg_zero, rnd_zero, neg_zero]
  · rw [rnd_pos_eq h]
    unfold rnd
    rw [if_pos (neg_lt_zero.2 h), neg_neg]

theorem rndPos_error {p : ℕ} {q : ℚ} (h : 0 < q) : |rndPos p q - q| ≤ q / 2 ^ p := by
  have hu := ulp_pos p q
  have h1 : rndPos p q - q = ((nearEven (q / ulp p q) : ℚ) - q / ulp p q) * ulp p q := by
    unfold rndPos
    field_simp
  rw [h1, abs_mul, abs_of_pos hu]
  have h2 := nearEven_error (q / ulp p q)
  have h3 : ulp p q / 2 ≤ q / 2 ^ p := by
    have h4 := log_le h
    have h5 : ulp p q / 2 = 2 ^ Int.log 2 q / 2 ^ p := by
      unfold ulp
      rw [div_eq_div_iff (by norm_num) (by positivity), ← zpow_natCast (2 : ℚ) p, ← zpow_add₀ (by norm_num : (2 : ℚ) ≠ 0)]
      rw [show Int.log 2 q - (p - 1 : ℤ) + (p : ℤ) = Int.log 2 q + 1 by ring, zpow_add₀ (by norm_num : (2 : ℚ) ≠ 0), zpow_one]
    rw [h5]
    gcongr
  calc |(nearEven (q / ulp p q) : ℚ) - q / ulp p q| * ulp p q ≤ 1 / 2 * ulp p q := by gcongr
    _ = ulp p q / 2 := by ring
    _ ≤ _ := h3

theorem rnd_error (p : ℕ) (q : ℚ) : |rnd p q - q| ≤ |q| / 2 ^ p := by
  rcases lt_trichotomy q 0 with h | h | h
  · have := rndPos_error (p := p) (neg_pos.2 h)
    unfold rnd
    rw [if_pos h, abs_of_neg h]
    rw [show -rndPos p (-q) - q = -(rndPos p (-q) - -q) by ring, abs_neg]
    exact this
  · rw [h, rnd_zero]
    simp
  · rw [rnd_pos_eq h, abs_of_pos h]
    exact rndPos_error h

theorem rndPos_ge {p : ℕ} (hp : 0 < p) {q : ℚ} (h : 0 < q) : (2 : ℚ) ^ Int.log 2 q ≤ rndPos p q := by
  have hu := ulp_pos p q
  unfold rndPos
  have h1 : (2 : ℚ) ^ Int.log 2 q = ((2 ^ (p - 1) : ℤ) : ℚ) * ulp p q := by
    unfold ulp
    push_cast
    rw [← zpow_natCast (2 : ℚ) (p - 1), ← zpow_add₀ (by norm_num : (2 : ℚ) ≠ 0)]
    congr 1
    omega
  have h2 : ((2 ^ (p - 1) : ℤ) : ℚ) ≤ q / ulp p q := by
    rw [le_div_iff₀ hu, ← h1]
    exact log_le h
  rw [h1]
  have h3 := nearEven_mono h2
  rw [nearEven_int] at h3
  have h4 : ((2 ^ (p - 1) : ℤ) : ℚ) ≤ (nearEven (q / ulp p q) : ℚ) := by exact_mod_cast h3
  exact mul_le_mul_of_nonneg_right h4 hu.le

theorem rndPos_le {p : ℕ} (hp : 0 < p) {q : ℚ} (h : 0 < q) : rndPos p q ≤ (2 : ℚ) ^ (Int.log 2 q + 1) := by
  have hu := ulp_pos p q
  unfold rndPos
  have h1 : (2 : ℚ) ^ (Int.log 2 q + 1) = ((2 ^ p : ℤ) : ℚ) * ulp p q := by
    unfold ulp
    push_cast
    rw [← zpow_natCast (2 : ℚ) p, ← zpow_add₀ (by norm_num : (2 : ℚ) ≠ 0)]
    congr 1
    omega
  have h2 : q / ulp p q ≤ ((2 ^ p : ℤ) : ℚ) := by
    rw [div_le_iff₀ hu, ← h1]
    exact (lt_log q).le
  rw [h1]
  have h3 := nearEven_mono h2
  rw [nearEven_int] at h3
  have h4 : (nearEven (q / ulp p q) : ℚ) ≤ ((2 ^ p : ℤ) : ℚ) := by exact_mod_cast h3
  exact mul_le_mul_of_nonneg_right h4 hu.le

theorem rndPos_mono {p : ℕ} (hp : 0 < p) {a b : ℚ} (ha : 0 < a) (hab : a ≤ b) : rndPos p a ≤ rndPos p b := by
  have hb : 0 < b := ha.trans_le hab
  have hl : Int.log 2 a ≤ Int.log 2 b := Int.log_mono_right ha hab
  rcases hl.lt_or_eq with h | h
  · refine (rndPos_le hp ha).trans (le_trans ?_ (rndPos_ge hp hb))
    exact zpow_le_zpow_right₀ (by norm_num) (by omega)
  · unfold rndPos ulp
    rw [h]
    have hu : (0 : ℚ) < 2 ^ (Int.log 2 b - (p - 1 : ℤ)) := by positivity
    have h2 : nearEven (a / 2 ^ (Int.log 2 b - (p - 1 : ℤ))) ≤ nearEven (b / 2 ^ (Int.log 2 b - (p - 1 : ℤ))) :=
      nearEven_mono (by gcongr)
    have h3 : (nearEven (a / 2 ^ (Int.log 2 b - (p - 1 : ℤ))) : ℚ) ≤ nearEven (b / 2 ^ (Int.log 2 b - (p - 1 : ℤ))) := by
      exact_mod_cast h2
    exact mul_le_mul_of_nonneg_right h3 hu.le

theorem rnd_nonneg {p : ℕ} (hp : 0 < p) {q : ℚ} (h : 0 ≤ q) : 0 ≤ rnd p q := by
  rcases h.lt_or_eq with h | h
  · rw [rnd_pos_eq h]
    exact le_trans (by positivity) (rndPos_ge hp h)
  · rw [← h, rnd_zero]

theorem rnd_pos {p : ℕ} (hp : 0 < p) {q : ℚ} (h : 0 < q) : 0 < rnd p q := by
  rw [rnd_pos_eq h]
  exact lt_of_lt_of_le (by positivity) (rndPos_ge hp h)

theorem rnd_mono {p : ℕ} (hp : 0 < p) {a b : ℚ} (hab : a ≤ b) : rnd p a ≤ rnd p b := by
  rcases le_or_gt 0 a with ha | ha
  · rcases ha.lt_or_eq with ha | ha
    · rw [rnd_pos_eq ha, rnd_pos_eq (ha.trans_le hab)]
      exact rndPos_mono hp ha hab
    · rw [← ha, rnd_zero]
      exact rnd_nonneg hp (ha ▸ hab)
  · rcases le_or_gt 0 b with hb | hb
    · have h1 := rnd_nonneg hp (neg_pos.2 ha).le
      rw [rnd_neg] at h1
      linarith [rnd_nonneg hp hb]
    · have h1 := rndPos_mono hp (neg_pos.2 hb) (neg_le_neg hab)
      unfold rnd
      rw [if_pos ha, if_pos hb]
      linarith

theorem rndPos_rep {p : ℕ} (hp : 0 < p) {q : ℚ} (h0 : 0 < q) (h : Rep p q) : rndPos p q = q := by
  obtain ⟨m, e, hm, rfl⟩ := h
  set q : ℚ := (m : ℚ) * 2 ^ e with hq
  have hu := ulp_pos p q
  have hm0 : 0 < m := by
    by_contra hc
    have : (m : ℚ) ≤ 0 := by exact_mod_cast not_lt.1 hc
    have h2 : (0 : ℚ) < 2 ^ e := by positivity
    nlinarith
  rw [abs_of_pos hm0] at hm
  have hle : q ≤ 2 ^ ((p : ℤ) + e) := by
    rw [zpow_add₀ (by norm_num : (2 : ℚ) ≠ 0), zpow_natCast, hq]
    have : (m : ℚ) ≤ 2 ^ p := by exact_mod_cast hm
    gcongr
  have hL : Int.log 2 q ≤ p + e := (zpow_le_zpow_iff_right₀ (by norm_num : (1 : ℚ) < 2)).1 ((log_le h0).trans hle)
  have hint : ∃ n : ℤ, q / ulp p q = n := by
    rcases hL.lt_or_eq with hlt | heq
    · refine ⟨m * 2 ^ (e - (Int.log 2 q - (p - 1 : ℤ))).toNat, ?_⟩
      have hn : ((e - (Int.log 2 q - (p - 1 : ℤ))).toNat : ℤ) = e - (Int.log 2 q - (p - 1 : ℤ)) := Int.toNat_of_nonneg (by omega)
      push_cast
      rw [← zpow_natCast, hn, zpow_sub₀ (by norm_num : (2 : ℚ) ≠ 0)]
      unfold ulp
      rw [hq]
      ring
    · have hq2 : q = 2 ^ ((p : ℤ) + e) := le_antisymm hle (heq ▸ log_le h0)
      refine ⟨2 ^ (p - 1), ?_⟩
      unfold ulp
      rw [heq]
      nth_rewrite 1 [hq2]
      push_cast
      rw [← zpow_sub₀ (by norm_num : (2 : ℚ) ≠ 0), ← zpow_natCast]
      congr 1
      omega
  obtain ⟨n, hn⟩ := hint
  unfold rndPos
  rw [hn, nearEven_int, ← hn, div_mul_cancel₀ _ hu.ne']

theorem rep_neg {p : ℕ} {q : ℚ} (h : Rep p q) : Rep p (-q) := by
  obtain ⟨m, e, hm, rfl⟩ := h
  exact ⟨-m, e, by rwa [abs_neg], by push_cast; ring⟩

theorem rnd_rep {p : ℕ} (hp : 0 < p) {q : ℚ} (h : Rep p q) : rnd p q = q := by
  rcases lt_trichotomy q 0 with h0 | h0 | h0
  · unfold rnd
    rw [if_pos h0, rndPos_rep hp (neg_pos.2 h0) (rep_neg h), neg_neg]
  · rw [h0, rnd_zero]
  · rw [rnd_pos_eq h0, rndPos_rep hp h0 h]

/-- The result of rounding has at most `p` digits. -/
theorem rep_rnd {p : ℕ} (hp : 0 < p) (q : ℚ) : Rep p (rnd p q) := by
  have key : ∀ q : ℚ, 0 < q → Rep p (rndPos p q) := by
    intro q h
    refine ⟨nearEven (q / ulp p q), Int.log 2 q - (p - 1 : ℤ), ?_, rfl⟩
    have hu := ulp_pos p q
    have h1 := rndPos_le hp h
    have h0 : (0 : ℚ) ≤ rndPos p q := le_trans (by positivity) (rndPos_ge hp h)
    unfold rndPos at h1 h0
    have h3 : (2 : ℚ) ^ (Int.log 2 q + 1) = ((2 ^ p : ℤ) : ℚ) * ulp p q := by
      unfold ulp
      push_cast
      rw [← zpow_natCast (2 : ℚ) p, ← zpow_add₀ (by norm_num : (2 : ℚ) ≠ 0)]
      congr 1
      omega
    rw [h3] at h1
    have h4 : (nearEven (q / ulp p q) : ℚ) ≤ ((2 ^ p : ℤ) : ℚ) := le_of_mul_le_mul_right h1 hu
    have h5 : (0 : ℚ) ≤ (nearEven (q / ulp p q) : ℚ) := nonneg_of_mul_nonneg_left h0 hu
    have h6 : 0 ≤ nearEven (q / ulp p q) := by exact_mod_cast h5
    rw [abs_of_nonneg h6]
    exact_mod_cast h4
  rcases lt_trichotomy q 0 with h0 | h0 | h0
  · unfold rnd
    rw [if_pos h0]
    exact rep_neg (key _ (neg_pos.2 h0))
  · rw [h0, rnd_zero]
    exact ⟨0, 0, by simp, by simp⟩
  · rw [rnd_pos_eq h0]
    exact key _ h0

theorem rep_int {p : ℕ} {n : ℤ} (h : |n| ≤ 2 ^ p) : Rep p n := ⟨n, 0, h, by simp⟩

theorem rep_two (p : ℕ) (e : ℤ) : Rep p (2 ^ e) := by
  refine ⟨1, e, ?_, by simp⟩
  rw [abs_one]
  exact one_le_pow₀ (by norm_num)

theorem rep_mono {p p' : ℕ} (h : p ≤ p') {q : ℚ} (hq : Rep p q) : Rep p' q := by
  obtain ⟨m, e, hm, rfl⟩ := hq
  exact ⟨m, e, hm.trans (pow_le_pow_right₀ (by norm_num) h), rfl⟩

theorem le_rnd {p : ℕ} (hp : 0 < p) {a q : ℚ} (ha : Rep p a) (h : a ≤ q) : a ≤ rnd p q := by
  have := rnd_mono hp h
  rwa [rnd_rep hp ha] at this

theorem rnd_le {p : ℕ} (hp : 0 < p) {a q : ℚ} (ha : Rep p a) (h : q ≤ a) : rnd p q ≤ a := by
  have := rnd_mono hp h
  rwa [rnd_rep hp ha] at this

/-- The greatest number below one. -/
theorem rep_lt_one {p : ℕ} (hp : 0 < p) {q : ℚ} (h : Rep p q) (h1 : q < 1) : q ≤ 1 - 1 / 2 ^ p := by
  have h2p : (1 : ℚ) / 2 ^ p ≤ 1 / 2 := by
    apply one_div_le_one_div_of_le (by norm_num)
    calc (2 : ℚ) = 2 ^ 1 := by norm_num
      _ ≤ 2 ^ p := pow_le_pow_right₀ (by norm_num) hp
  rcases lt_or_ge q (1 / 2) with hl | hl
  · linarith
  · have h0 : 0 < q := by linarith
    have hlog : Int.log 2 q = -1 := log_eq (by norm_num; linarith) (by norm_num; linarith)
    have hr := rndPos_rep hp h0 h
    unfold rndPos ulp at hr
    rw [hlog] at hr
    set n := nearEven (q / 2 ^ (-1 - (p - 1 : ℤ))) with hn
    have hu : (2 : ℚ) ^ (-1 - (p - 1 : ℤ)) = 1 / 2 ^ p := by
      rw [show (-1 - (p - 1 : ℤ)) = -(p : ℤ) by ring, zpow_neg, zpow_natCast, one_div]
    rw [hu] at hr
    have hpos : (0 : ℚ) < 2 ^ p := by positivity
    have hnlt : (n : ℚ) < 2 ^ p := by
      rw [← hr, mul_one_div, div_lt_one hpos] at h1
      exact h1
    have hnlt' : n + 1 ≤ 2 ^ p := by
      have : n < 2 ^ p := by exact_mod_cast hnlt
      omega
    have : (n : ℚ) + 1 ≤ 2 ^ p := by exact_mod_cast hnlt'
    rw [← hr, mul_one_div, div_le_iff₀ hpos, sub_mul, one_mul, one_div_mul_cancel hpos.ne']
    linarith

end Verif.Binary
