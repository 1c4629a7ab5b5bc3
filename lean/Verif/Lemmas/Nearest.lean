import Verif.Spec.RoundedMask
import Mathlib.Tactic.Linarith
import Mathlib.Tactic.Ring
import Mathlib.Tactic.FieldSimp
import Mathlib.Tactic.NormNum
import Mathlib.Tactic.Positivity

namespace Verif.Nearest
open Verif Verif.Spec

theorem rho_mono {ρ : ℚ → ℤ} (h : ToNearest ρ) {x y : ℚ} (hxy : x ≤ y) : ρ x ≤ ρ y := by
  rcases hxy.eq_or_lt with rfl | hlt
  · exact le_rfl
  · by_contra hc
    have h1 : ((ρ y : ℤ) : ℚ) + 1 ≤ ρ x := by exact_mod_cast Int.add_one_le_iff.mpr (not_le.mp hc)
    have hx := abs_le.mp (h x)
    have hy := abs_le.mp (h y)
    linarith [hx.1, hx.2, hy.1, hy.2]

theorem rho_int {ρ : ℚ → ℤ} (h : ToNearest ρ) (n : ℤ) : ρ n = n := by
  have h1 := abs_le.mp (h n)
  have h2 : ((ρ n : ℤ) : ℚ) < n + 1 := by linarith [h1.2]
  have h3 : (n : ℚ) < ρ n + 1 := by linarith [h1.1]
  have h2' : ρ n < n + 1 := by exact_mod_cast h2
  have h3' : n < ρ n + 1 := by exact_mod_cast h3
  omega

theorem pow_pos' (e : ℤ) : (0 : ℚ) < 2 ^ e := zpow_pos (by norm_num) e

/-- a number of the grid on which `x` is rounded bounds the result if it bounds `x` -/
theorem nearest_le {p : ℕ} {emin : ℤ} {ρ : ℚ → ℤ} (h : ToNearest ρ) {x : ℚ} {n : ℤ}
    (hx : x ≤ n * 2 ^ lastDigit p emin x) : nearest p emin ρ x ≤ n * 2 ^ lastDigit p emin x := by
  have hp := pow_pos' (lastDigit p emin x)
  unfold nearest
  have h1 : x / 2 ^ lastDigit p emin x ≤ (n : ℚ) := by rwa [div_le_iff₀ hp]
  have h2 := rho_mono h h1
  rw [rho_int h] at h2
  exact mul_le_mul_of_nonneg_right (by exact_mod_cast h2) hp.le

theorem le_nearest {p : ℕ} {emin : ℤ} {ρ : ℚ → ℤ} (h : ToNearest ρ) {x : ℚ} {n : ℤ}
    (hx : n * 2 ^ lastDigit p emin x ≤ x) : n * 2 ^ lastDigit p emin x ≤ nearest p emin ρ x := by
  have hp := pow_pos' (lastDigit p emin x)
  unfold nearest
  have h1 : (n : ℚ) ≤ x / 2 ^ lastDigit p emin x := by rwa [le_div_iff₀ hp]
  have h2 := rho_mono h h1
  rw [rho_int h] at h2
  exact mul_le_mul_of_nonneg_right (by exact_mod_cast h2) hp.le

theorem grid {e b : ℤ} (h : e ≤ b) : ((2 ^ (b - e).toNat : ℤ) : ℚ) * 2 ^ e = 2 ^ b := by
  have h1 : ((2 ^ (b - e).toNat : ℤ) : ℚ) = 2 ^ (b - e) := by
    push_cast
    rw [← zpow_natCast]
    congr 1
    omega
  rw [h1, ← zpow_add₀ (by norm_num)]
  congr 1
  ring

theorem abs_nearest_le {p : ℕ} {emin : ℤ} {ρ : ℚ → ℤ} (h : ToNearest ρ) {x : ℚ} {b : ℤ}
    (hb : lastDigit p emin x ≤ b) (hx : |x| ≤ 2 ^ b) : |nearest p emin ρ x| ≤ 2 ^ b := by
  have hx' := abs_le.mp hx
  have hg := grid hb
  rw [abs_le]
  constructor
  · have := le_nearest (p := p) (emin := emin) h (x := x) (n := -2 ^ (b - lastDigit p emin x).toNat) (by
      rw [Int.cast_neg, neg_mul, hg]; exact hx'.1)
    rwa [Int.cast_neg, neg_mul, hg] at this
  · have := nearest_le (p := p) (emin := emin) h (x := x) (n := 2 ^ (b - lastDigit p emin x).toNat) (by
      rw [hg]; exact hx'.2)
    rwa [hg] at this

theorem abs_lt_succ_log {x : ℚ} : |x| < 2 ^ (Int.log 2 |x| + 1) := by
  have := Int.lt_zpow_succ_log_self (b := 2) (by norm_num) |x|
  exact_mod_cast this

theorem log_le_abs {x : ℚ} (hx : x ≠ 0) : (2 : ℚ) ^ Int.log 2 |x| ≤ |x| := by
  have := Int.zpow_log_le_self (b := 2) (r := |x|) (by norm_num) (abs_pos.mpr hx)
  exact_mod_cast this

/-- of two numbers on different grids, a power of two on both grids separates the sizes -/
theorem separated {p : ℕ} (hp : 1 ≤ p) {emin : ℤ} {x y : ℚ} (hy : y ≠ 0)
    (h : lastDigit p emin x < lastDigit p emin y) :
    ∃ b : ℤ, lastDigit p emin x ≤ b ∧ lastDigit p emin y ≤ b ∧ |x| ≤ 2 ^ b ∧ 2 ^ b ≤ |y| := by
  have h1 : (p : ℤ) ≥ 1 := by exact_mod_cast hp
  have hxd : Int.log 2 |x| + 1 - p ≤ lastDigit p emin x ∧ emin ≤ lastDigit p emin x :=
    ⟨le_max_left _ _, le_max_right _ _⟩
  have hyd : lastDigit p emin y = Int.log 2 |y| + 1 - p := by
    unfold lastDigit at h ⊢
    omega
  refine ⟨Int.log 2 |y|, by omega, by omega, ?_, log_le_abs hy⟩
  refine le_trans abs_lt_succ_log.le (zpow_le_zpow_right₀ (by norm_num) (by omega))

theorem nearest_zero {p : ℕ} {emin : ℤ} {ρ : ℚ → ℤ} (h : ToNearest ρ) : nearest p emin ρ 0 = 0 := by
  unfold nearest
  have := rho_int h 0
  simp only [Int.cast_zero] at this
  simp [this]

theorem nearest_nonneg {p : ℕ} {emin : ℤ} {ρ : ℚ → ℤ} (h : ToNearest ρ) {x : ℚ} (hx : 0 ≤ x) :
    0 ≤ nearest p emin ρ x := by
  have := le_nearest (p := p) (emin := emin) h (x := x) (n := 0) (by simpa using hx)
  simpa using this

theorem nearest_nonpos {p : ℕ} {emin : ℤ} {ρ : ℚ → ℤ} (h : ToNearest ρ) {x : ℚ} (hx : x ≤ 0) :
    nearest p emin ρ x ≤ 0 := by
  have := nearest_le (p := p) (emin := emin) h (x := x) (n := 0) (by simpa using hx)
  simpa using this

/-- a number at least as large as a power of two on its grid rounds to one at least as large -/
theorem pow_le_nearest {p : ℕ} {emin : ℤ} {ρ : ℚ → ℤ} (h : ToNearest ρ) {x : ℚ} {b : ℤ}
    (hb : lastDigit p emin x ≤ b) (hx : 2 ^ b ≤ x) : 2 ^ b ≤ nearest p emin ρ x := by
  have hg := grid hb
  have := le_nearest (p := p) (emin := emin) h (x := x) (n := 2 ^ (b - lastDigit p emin x).toNat) (by rw [hg]; exact hx)
  rwa [hg] at this

theorem nearest_le_neg_pow {p : ℕ} {emin : ℤ} {ρ : ℚ → ℤ} (h : ToNearest ρ) {x : ℚ} {b : ℤ}
    (hb : lastDigit p emin x ≤ b) (hx : x ≤ -2 ^ b) : nearest p emin ρ x ≤ -2 ^ b := by
  have hg := grid hb
  have := nearest_le (p := p) (emin := emin) h (x := x) (n := -2 ^ (b - lastDigit p emin x).toNat) (by
    rw [Int.cast_neg, neg_mul, hg]; exact hx)
  rwa [Int.cast_neg, neg_mul, hg] at this

theorem nearest_mono {p : ℕ} (hp : 1 ≤ p) {emin : ℤ} {ρ : ℚ → ℤ} (h : ToNearest ρ) {x y : ℚ} (hxy : x ≤ y) :
    nearest p emin ρ x ≤ nearest p emin ρ y := by
  rcases eq_or_ne x 0 with rfl | hx0
  · rw [nearest_zero h]; exact nearest_nonneg h hxy
  rcases eq_or_ne y 0 with rfl | hy0
  · rw [nearest_zero h]; exact nearest_nonpos h hxy
  rcases lt_trichotomy (lastDigit p emin x) (lastDigit p emin y) with hd | hd | hd
  · obtain ⟨b, b1, b2, b3, b4⟩ := separated hp hy0 hd
    have hax := abs_le.mp b3
    have hnx := abs_le.mp (abs_nearest_le (ρ := ρ) h b1 b3)
    rcases lt_or_gt_of_ne hy0 with hy | hy
    · rw [abs_of_neg hy] at b4
      have hxy' : x = y := le_antisymm hxy (by linarith [hax.1])
      rw [hxy'] at hd
      exact absurd hd (lt_irrefl _)
    · rw [abs_of_pos hy] at b4
      exact le_trans hnx.2 (pow_le_nearest h b2 b4)
  · unfold nearest
    rw [hd]
    have hq := pow_pos' (lastDigit p emin y)
    have := rho_mono h (div_le_div_of_nonneg_right hxy hq.le)
    exact mul_le_mul_of_nonneg_right (by exact_mod_cast this) hq.le
  · obtain ⟨b, b1, b2, b3, b4⟩ := separated hp hx0 hd
    have hay := abs_le.mp b3
    have hny := abs_le.mp (abs_nearest_le (ρ := ρ) h b1 b3)
    rcases lt_or_gt_of_ne hx0 with hx | hx
    · rw [abs_of_neg hx] at b4
      exact le_trans (nearest_le_neg_pow h b2 (by linarith)) hny.1
    · rw [abs_of_pos hx] at b4
      have hxy' : x = y := le_antisymm hxy (by linarith [hay.2])
      rw [hxy'] at hd
      exact absurd hd (lt_irrefl _)

/-- a multiple of the last digit is left as it is -/
theorem nearest_of_grid {p : ℕ} {emin : ℤ} {ρ : ℚ → ℤ} (h : ToNearest ρ) {x : ℚ} {n : ℤ}
    (hx : x = n * 2 ^ lastDigit p emin x) : nearest p emin ρ x = x :=
  le_antisymm (by
    conv_rhs => rw [hx]
    exact nearest_le h hx.le) (by
    conv_lhs => rw [hx]
    exact le_nearest h hx.ge)

/-- numbers of the format are left as they are -/
theorem nearest_of_format {p : ℕ} {emin : ℤ} {ρ : ℚ → ℤ} (h : ToNearest ρ) {x : ℚ} (hx : InFormat p emin x) :
    nearest p emin ρ x = x := by
  obtain ⟨m, e, he, hm, rfl⟩ := hx
  rcases eq_or_ne m 0 with rfl | hm0
  · simpa using nearest_zero (p := p) (emin := emin) h
  have hne : (m : ℚ) * 2 ^ e ≠ 0 := mul_ne_zero (by exact_mod_cast hm0) (pow_pos' e).ne'
  have hle : lastDigit p emin ((m : ℚ) * 2 ^ e) ≤ e := by
    have h1 := log_le_abs hne
    have h2 : |(m : ℚ) * 2 ^ e| < 2 ^ ((p : ℤ) + e) := by
      rw [abs_mul, abs_of_pos (pow_pos' e), zpow_add₀ (by norm_num), zpow_natCast]
      exact mul_lt_mul_of_pos_right (by exact_mod_cast hm) (pow_pos' e)
    have h3 := (zpow_lt_zpow_iff_right₀ (by norm_num : (1 : ℚ) < 2)).mp (lt_of_le_of_lt h1 h2)
    unfold lastDigit
    omega
  refine nearest_of_grid (n := m * 2 ^ (e - lastDigit p emin ((m : ℚ) * 2 ^ e)).toNat) h ?_
  rw [Int.cast_mul, mul_assoc, grid hle]

/-- the result of rounding is a number of the format -/
theorem format_nearest {p : ℕ} (hp : 1 ≤ p) {emin : ℤ} {ρ : ℚ → ℤ} (h : ToNearest ρ) (x : ℚ) :
    InFormat p emin (nearest p emin ρ x) := by
  have hq := pow_pos' (lastDigit p emin x)
  have h1 : |x| < 2 ^ (Int.log 2 |x| + 1) := abs_lt_succ_log
  have h2 : (2 : ℚ) ^ (Int.log 2 |x| + 1) ≤ 2 ^ (p + lastDigit p emin x : ℤ) :=
    zpow_le_zpow_right₀ (by norm_num) (by unfold lastDigit; omega)
  have e2 : (2 : ℚ) ^ (p + lastDigit p emin x : ℤ) = 2 ^ p * 2 ^ lastDigit p emin x := by
    rw [zpow_add₀ (by norm_num), zpow_natCast]
  have h3 : |x / 2 ^ lastDigit p emin x| ≤ 2 ^ p := by
    rw [abs_div, abs_of_pos hq, div_le_iff₀ hq, ← e2]
    exact (h1.trans_le h2).le
  have h4 := abs_le.mp h3
  have u1 := rho_mono h (x := x / 2 ^ lastDigit p emin x) (y := ((2 ^ p : ℤ) : ℚ)) (by push_cast; exact h4.2)
  have u2 := rho_mono h (x := ((-2 ^ p : ℤ) : ℚ)) (y := x / 2 ^ lastDigit p emin x) (by push_cast; exact h4.1)
  rw [rho_int h] at u1 u2
  have hd : emin ≤ lastDigit p emin x := le_max_right _ _
  have hone : |(1 : ℤ)| < 2 ^ p := by
    rw [abs_one]
    exact one_lt_pow₀ (by norm_num) (by omega)
  unfold nearest
  generalize ρ (x / 2 ^ lastDigit p emin x) = q at *
  rcases lt_or_ge |q| (2 ^ p) with hlt | hge
  · exact ⟨q, lastDigit p emin x, hd, hlt, rfl⟩
  · rcases le_abs.mp hge with hq' | hq'
    · have : q = 2 ^ p := le_antisymm u1 hq'
      refine ⟨1, p + lastDigit p emin x, by omega, hone, ?_⟩
      rw [this, e2]
      push_cast
      ring
    · have : q = -2 ^ p := by omega
      refine ⟨-1, p + lastDigit p emin x, by omega, by rw [abs_neg]; exact hone, ?_⟩
      rw [this, e2]
      push_cast
      ring

/-- rounding twice is rounding once -/
theorem nearest_twice {p : ℕ} (hp : 1 ≤ p) {emin : ℤ} {ρ : ℚ → ℤ} (h : ToNearest ρ) (x : ℚ) :
    nearest p emin ρ (nearest p emin ρ x) = nearest p emin ρ x := nearest_of_format h (format_nearest hp h x)

/-- the error is at most half of the last digit -/
theorem nearest_err {p : ℕ} {emin : ℤ} {ρ : ℚ → ℤ} (h : ToNearest ρ) (x : ℚ) :
    |nearest p emin ρ x - x| ≤ 1 / 2 * 2 ^ lastDigit p emin x := by
  have hq := pow_pos' (lastDigit p emin x)
  have h1 := h (x / 2 ^ lastDigit p emin x)
  have h2 : nearest p emin ρ x - x
      = ((ρ (x / 2 ^ lastDigit p emin x) : ℚ) - x / 2 ^ lastDigit p emin x) * 2 ^ lastDigit p emin x := by
    unfold nearest
    rw [sub_mul, div_mul_cancel₀ _ hq.ne']
  rw [h2, abs_mul, abs_of_pos hq]
  exact mul_le_mul_of_nonneg_right h1 hq.le

/-- the last digit of numbers below a power of two -/
theorem lastDigit_le {p : ℕ} {emin b : ℤ} {x : ℚ} (hx : x ≠ 0) (h : |x| ≤ 2 ^ b) (hb : emin ≤ b + 1 - p) :
    lastDigit p emin x ≤ b + 1 - p := by
  have h1 := (zpow_le_zpow_iff_right₀ (by norm_num : (1 : ℚ) < 2)).mp (le_trans (log_le_abs hx) h)
  unfold lastDigit
  omega

/-- Sterbenz: the difference of two numbers of the format within a factor of two of each other is in the format -/
theorem sterbenz {p : ℕ} {emin : ℤ} {x y : ℚ} (hx : InFormat p emin x) (hy : InFormat p emin y)
    (h1 : y / 2 ≤ x) (h2 : x ≤ 2 * y) : InFormat p emin (x - y) := by
  obtain ⟨m, e, he, hm, rfl⟩ := hx
  obtain ⟨n, f, hf, hn, rfl⟩ := hy
  have pe := pow_pos' e
  have pf := pow_pos' f
  rcases le_total e f with hef | hef
  · have hg := grid hef
    refine ⟨m - n * 2 ^ (f - e).toNat, e, he, ?_, ?_⟩
    · have hk : ((m - n * 2 ^ (f - e).toNat : ℤ) : ℚ) * 2 ^ e = m * 2 ^ e - n * 2 ^ f := by
        rw [Int.cast_sub, Int.cast_mul, sub_mul, mul_assoc, hg]
      have hb : |((m - n * 2 ^ (f - e).toNat : ℤ) : ℚ)| * 2 ^ e ≤ |(m : ℚ)| * 2 ^ e := by
        rw [← abs_of_pos pe, ← abs_mul, ← abs_mul, hk]
        rw [abs_of_nonneg (by linarith : (0 : ℚ) ≤ m * 2 ^ e), abs_le]
        constructor <;> linarith
      have hb' := le_of_mul_le_mul_right hb pe
      have : |m - n * 2 ^ (f - e).toNat| ≤ |m| := by exact_mod_cast hb'
      omega
    · rw [Int.cast_sub, Int.cast_mul, sub_mul, mul_assoc, hg]
  · have hg := grid hef
    refine ⟨m * 2 ^ (e - f).toNat - n, f, hf, ?_, ?_⟩
    · have hk : ((m * 2 ^ (e - f).toNat - n : ℤ) : ℚ) * 2 ^ f = m * 2 ^ e - n * 2 ^ f := by
        rw [Int.cast_sub, Int.cast_mul, sub_mul, mul_assoc, hg]
      have hb : |((m * 2 ^ (e - f).toNat - n : ℤ) : ℚ)| * 2 ^ f ≤ |(n : ℚ)| * 2 ^ f := by
        rw [← abs_of_pos pf, ← abs_mul, ← abs_mul, hk]
        rw [abs_of_nonneg (by linarith : (0 : ℚ) ≤ n * 2 ^ f), abs_le]
        constructor <;> linarith
      have hb' := le_of_mul_le_mul_right hb pf
      have : |m * 2 ^ (e - f).toNat - n| ≤ |n| := by exact_mod_cast hb'
      omega
    · rw [Int.cast_sub, Int.cast_mul, sub_mul, mul_assoc, hg]

end Verif.Nearest
