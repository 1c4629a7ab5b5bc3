import Verif.Lemmas.Binary
import Verif.Model.Frame
import Mathlib.Tactic.NormNum.OfScientific

/-!
# C80: depositions, colour maps and sizes of images in double precision
-/

set_option linter.unusedVariables false

namespace Verif.Props
open Verif Verif.Binary Verif.Spec.Binary

/-- The exact remainder. -/
private def rem (x b : ℚ) : ℚ := x - b * ⌊x / b⌋

private theorem rem_bounds {x b : ℚ} (hb : 0 < b) : 0 ≤ rem x b ∧ rem x b < b := by
  have h1 := Int.floor_le (x / b)
  have h2 := Int.lt_floor_add_one (x / b)
  rw [le_div_iff₀ hb] at h1
  rw [div_lt_iff₀ hb] at h2
  unfold rem
  constructor <;> nlinarith

private theorem modVal_cases {x b : ℚ} (hb : 0 < b) :
    (0 ≤ x ∧ modVal 53 x b = rem x b) ∨ (x < 0 ∧ rem x b = 0 ∧ modVal 53 x b = 0) ∨
      (x < 0 ∧ modVal 53 x b = rnd 53 (rem x b)) := by
  rcases le_or_gt 0 x with hx | hx
  · left
    refine ⟨hx, ?_⟩
    have ht : Scatter.trunc (x / b) = ⌊x / b⌋ := by
      unfold Scatter.trunc
      rw [if_pos (div_nonneg hx hb.le)]
    have hr := rem_bounds (x := x) hb
    unfold modVal
    rw [ht]
    change (if rem x b = 0 then 0 else if (rem x b < 0) ≠ (b < 0) then rnd 53 (rem x b + b) else rem x b) = rem x b
    by_cases h0 : rem x b = 0
    · rw [if_pos h0, h0]
    · rw [if_neg h0, if_neg]
      simp only [not_lt.2 hr.1, not_lt.2 hb.le, ne_eq, not_true_eq_false, not_false_eq_true]
  · right
    have hxb : x / b < 0 := div_neg_of_neg_of_pos hx hb
    have ht : Scatter.trunc (x / b) = ⌈x / b⌉ := by
      unfold Scatter.trunc
      rw [if_neg (not_le.2 hxb)]
    by_cases hint : (⌊x / b⌋ : ℚ) = x / b
    · left
      have h0 : rem x b = 0 := by
        unfold rem
        rw [hint, mul_div_cancel₀ _ hb.ne', sub_self]
      refine ⟨hx, h0, ?_⟩
      unfold modVal
      rw [ht]
      have hc : (⌈x / b⌉ : ℚ) = x / b := by
        rw [← hint, Int.ceil_intCast]
      rw [hc, mul_div_cancel₀ _ hb.ne', sub_self]
      simp
    · right
      refine ⟨hx, ?_⟩
      have hc : ⌈x / b⌉ = ⌊x / b⌋ + 1 := by
        apply le_antisymm (Int.ceil_le_floor_add_one _)
        have h1 : (⌊x / b⌋ : ℚ) < x / b := lt_of_le_of_ne (Int.floor_le _) hint
        exact Int.lt_ceil.2 h1
      have hr := rem_bounds (x := x) hb
      have hm : x - b * (⌈x / b⌉ : ℚ) = rem x b - b := by
        rw [hc]
        unfold rem
        push_cast
        ring
      have hneg : rem x b - b < 0 := by linarith
      unfold modVal
      rw [ht, hm]
      dsimp only
      rw [if_neg hneg.ne, if_pos, sub_add_cancel]
      simp only [hneg, not_lt.2 hb.le, ne_eq, eq_iff_iff, iff_false, not_true_eq_false, not_false_eq_true]

private theorem modVal_bounds {x b : ℚ} (hb : 0 < b) (hr : Rep 53 b) :
    0 ≤ modVal 53 x b ∧ modVal 53 x b ≤ b ∧ |modVal 53 x b - rem x b| ≤ b / 2 ^ 53 := by
  have hrem := rem_bounds (x := x) hb
  have hpos : (0 : ℚ) ≤ b / 2 ^ 53 := by positivity
  rcases modVal_cases (x := x) hb with ⟨-, h⟩ | ⟨-, h0, h⟩ | ⟨-, h⟩
  · rw [h, sub_self, abs_zero]
    exact ⟨hrem.1, hrem.2.le, hpos⟩
  · rw [h, h0, sub_self, abs_zero]
    exact ⟨le_rfl, hb.le, hpos⟩
  · rw [h]
    refine ⟨rnd_nonneg (by norm_num) hrem.1, rnd_le (by norm_num) hr hrem.2.le, ?_⟩
    refine (rnd_error 53 _).trans ?_
    rw [abs_of_nonneg hrem.1]
    exact div_le_div_of_nonneg_right hrem.2.le (by positivity)

variable (kernel : Num → Num → Num) (sqrt : Num → Num) (gamma : Num)

/-- The position in units of the box, as it is computed. -/
private def scaled (x b : ℚ) : ℚ := rnd 53 (modVal 53 x b * rnd 53 (1 / b))

private theorem one_plus : rnd 53 (1 + 1 / 2 ^ 53) = 1 := by
  rw [rnd_pos_eq (by norm_num), rndPos_of (e := 0) (by norm_num) (by norm_num)]
  have h : nearEven ((1 + 1 / 2 ^ 53 : ℚ) / 2 ^ ((0 : ℤ) - ((53 : ℕ) - 1 : ℤ))) = 2 ^ 52 := by
    have : (1 + 1 / 2 ^ 53 : ℚ) / 2 ^ ((0 : ℤ) - ((53 : ℕ) - 1 : ℤ)) = 2 ^ 52 + 1 / 2 := by norm_num
    rw [this]
    decide +kernel
  rw [h]
  norm_num

private theorem scaled_bounds {x b : ℚ} (hb : 0 < b) (hr : Rep 53 b) : 0 ≤ scaled x b ∧ scaled x b ≤ 1 := by
  obtain ⟨h0, h1, -⟩ := modVal_bounds (x := x) hb hr
  have hinv : 0 ≤ rnd 53 (1 / b) := rnd_nonneg (by norm_num) (by positivity)
  refine ⟨rnd_nonneg (by norm_num) (mul_nonneg h0 hinv), ?_⟩
  have he := (abs_le.1 (rnd_error 53 (1 / b))).2
  rw [abs_of_pos (by positivity)] at he
  have h2 : modVal 53 x b * rnd 53 (1 / b) ≤ 1 + 1 / 2 ^ 53 := by
    calc modVal 53 x b * rnd 53 (1 / b) ≤ b * (1 / b + 1 / b / 2 ^ 53) := by
          apply mul_le_mul h1 (by linarith) hinv hb.le
      _ = 1 + 1 / 2 ^ 53 := by field_simp
  have := rnd_mono (p := 53) (by norm_num) h2
  rwa [one_plus] at this

private theorem rep_res {res : ℕ} (h : res ≤ 2 ^ 24) : Rep 24 (res : ℚ) := by
  refine ⟨res, 0, ?_, by simp⟩
  rw [abs_of_nonneg (by positivity)]
  exact_mod_cast h

private theorem single_res {res : ℕ} (h : res ≤ 2 ^ 24) :
    (arith kernel sqrt gamma).single ((arith kernel sqrt gamma).ofInt res) = { wide := false, val := (res : ℚ) } := by
  have h24 := rep_res h
  unfold arith
  dsimp only
  rw [Int.cast_natCast, rnd_rep (by norm_num) (rep_mono (by norm_num) h24 : Rep 53 (res : ℚ)), rnd_rep (by norm_num) h24]

private theorem pix_eq {res : ℕ} (h : res ≤ 2 ^ 24) (x b : ℚ) :
    Floating.pix (arith kernel sqrt gamma) ((arith kernel sqrt gamma).single ((arith kernel sqrt gamma).ofInt res)) ⟨true, b⟩ ⟨true, x⟩ =
      Scatter.trunc (rnd 53 (scaled x b * res)) := by
  rw [single_res kernel sqrt gamma h]
  have h1 : rnd 53 (((1 : ℤ) : ℚ)) = 1 := by
    rw [Int.cast_one]
    exact rnd_rep (by norm_num) ⟨1, 0, by norm_num, by norm_num⟩
  unfold Floating.pix arith op scaled
  dsimp only
  rw [h1]
  rfl

/-- The index of a position: the box may be any number of double precision. It is never less than zero or more than `res`,
and at most one cell from the cell that contains the position. -/
theorem c80_index {res : ℕ} (h : res ≤ 2 ^ 24) {b : ℚ} (hb : 0 < b) (hr : Rep 53 b) (x : ℚ) (i : Int)
    (hi : i = Floating.pix (arith kernel sqrt gamma) ((arith kernel sqrt gamma).single ((arith kernel sqrt gamma).ofInt res))
      ⟨true, b⟩ ⟨true, x⟩) :
    0 ≤ i ∧ i ≤ res ∧ |i - cellOf res b x| ≤ 1 := by
  rw [pix_eq kernel sqrt gamma h] at hi
  subst hi
  obtain ⟨hs0, hs1⟩ := scaled_bounds (x := x) hb hr
  have hres0 : (0 : ℚ) ≤ res := by positivity
  have hrep : Rep 53 (res : ℚ) := rep_mono (by norm_num) (rep_res h)
  have hf0 : 0 ≤ rnd 53 (scaled x b * res) := rnd_nonneg (by norm_num) (mul_nonneg hs0 hres0)
  have hf1 : rnd 53 (scaled x b * res) ≤ res := rnd_le (by norm_num) hrep (by nlinarith)
  have ht : Scatter.trunc (rnd 53 (scaled x b * res)) = ⌊rnd 53 (scaled x b * res)⌋ := by
    unfold Scatter.trunc
    rw [if_pos hf0]
  rw [ht]
  refine ⟨Int.floor_nonneg.2 hf0, ?_, ?_⟩
  · have := Int.floor_le_floor hf1
    rwa [Int.floor_natCast] at this
  · -- the distance of the computed and the exact position
    obtain ⟨hm0, hm1, hm2⟩ := modVal_bounds (x := x) hb hr
    have hrem := rem_bounds (x := x) hb
    set m := modVal 53 x b with hm
    set inv := rnd 53 (1 / b) with hinv
    set s := scaled x b with hs
    set f := rnd 53 (s * res) with hf
    have hexact : (x / b - ⌊x / b⌋) * res = rem x b / b * res := by
      unfold rem
      field_simp
    have hie := rnd_error 53 (1 / b)
    rw [← hinv, abs_of_pos (by positivity : (0 : ℚ) < 1 / b)] at hie
    have hse : |s - m * inv| ≤ |m * inv| / 2 ^ 53 := rnd_error 53 (m * inv)
    have hfe : |f - s * res| ≤ |s * res| / 2 ^ 53 := rnd_error 53 (s * res)
    have hi0 : 0 ≤ inv := rnd_nonneg (by norm_num) (by positivity)
    have hmi : m * inv ≤ 2 := by
      have h1 : inv ≤ 2 * (1 / b) := by
        have := (abs_le.1 hie).2
        have h2 : 1 / b / 2 ^ 53 ≤ 1 / b := div_le_self (by positivity) (by norm_num)
        linarith
      calc m * inv ≤ b * (2 * (1 / b)) := mul_le_mul hm1 h1 hi0 hb.le
        _ = 2 := by field_simp
    rw [abs_of_nonneg (mul_nonneg hm0 hi0)] at hse
    rw [abs_of_nonneg (mul_nonneg hs0 hres0)] at hfe
    -- |m * inv - rem / b| ≤ 2 / 2^53
    have h1 : |m * inv - rem x b / b| ≤ 2 / 2 ^ 53 := by
      have ha : |m * inv - m * (1 / b)| ≤ 1 / 2 ^ 53 := by
        rw [← mul_sub, abs_mul, abs_of_nonneg hm0]
        calc m * |inv - 1 / b| ≤ b * (1 / b / 2 ^ 53) := mul_le_mul hm1 hie (abs_nonneg _) hb.le
          _ = 1 / 2 ^ 53 := by field_simp
      have hb' : |m * (1 / b) - rem x b / b| ≤ 1 / 2 ^ 53 := by
        rw [show m * (1 / b) - rem x b / b = (m - rem x b) / b by ring, abs_div, abs_of_pos hb, div_le_iff₀ hb]
        calc |m - rem x b| ≤ b / 2 ^ 53 := hm2
          _ = 1 / 2 ^ 53 * b := by ring
      calc |m * inv - rem x b / b| = |(m * inv - m * (1 / b)) + (m * (1 / b) - rem x b / b)| := by ring_nf
        _ ≤ _ := abs_add_le _ _
        _ ≤ 1 / 2 ^ 53 + 1 / 2 ^ 53 := add_le_add ha hb'
        _ = 2 / 2 ^ 53 := by norm_num
    have h2 : |s - rem x b / b| ≤ 4 / 2 ^ 53 := by
      calc |s - rem x b / b| = |(s - m * inv) + (m * inv - rem x b / b)| := by ring_nf
        _ ≤ _ := abs_add_le _ _
        _ ≤ 2 / 2 ^ 53 + 2 / 2 ^ 53 := add_le_add (hse.trans (by gcongr)) h1
        _ = 4 / 2 ^ 53 := by norm_num
    have hres24 : (res : ℚ) ≤ 2 ^ 24 := by exact_mod_cast h
    have h3 : |f - rem x b / b * res| < 1 := by
      have ha : |s * res - rem x b / b * res| ≤ 4 / 2 ^ 53 * 2 ^ 24 := by
        rw [← sub_mul, abs_mul, abs_of_nonneg hres0]
        exact mul_le_mul h2 hres24 hres0 (by norm_num)
      have hb' : |f - s * res| ≤ 2 ^ 24 / 2 ^ 53 := by
        refine hfe.trans ?_
        gcongr
        nlinarith
      calc |f - rem x b / b * res| = |(f - s * res) + (s * res - rem x b / b * res)| := by ring_nf
        _ ≤ _ := abs_add_le _ _
        _ ≤ 2 ^ 24 / 2 ^ 53 + 4 / 2 ^ 53 * 2 ^ 24 := add_le_add hb' ha
        _ < 1 := by norm_num
    unfold cellOf
    rw [hexact]
    rw [abs_lt] at h3
    rw [abs_le]
    have hA : ⌊f⌋ < ⌊rem x b / b * res⌋ + 2 := by
      have h4 : (⌊f⌋ : ℚ) < ⌊rem x b / b * res⌋ + 2 := by
        linarith [Int.floor_le f, Int.lt_floor_add_one (rem x b / b * res)]
      exact_mod_cast h4
    have hB : ⌊rem x b / b * res⌋ < ⌊f⌋ + 2 := by
      have h4 : (⌊rem x b / b * res⌋ : ℚ) < ⌊f⌋ + 2 := by
        linarith [Int.floor_le (rem x b / b * res), Int.lt_floor_add_one f]
      exact_mod_cast h4
    omega

/-- The index is outside the grid exactly if the position in units of the box rounds up to one. -/
theorem c80_outside {res : ℕ} (h0 : 0 < res) (h : res ≤ 2 ^ 24) {b : ℚ} (hb : 0 < b) (hr : Rep 53 b) (x : ℚ) :
    Floating.pix (arith kernel sqrt gamma) ((arith kernel sqrt gamma).single ((arith kernel sqrt gamma).ofInt res)) ⟨true, b⟩ ⟨true, x⟩ < res ↔
      rnd 53 (modVal 53 x b * rnd 53 (1 / b)) ≠ 1 := by
  rw [pix_eq kernel sqrt gamma h]
  change _ ↔ scaled x b ≠ 1
  obtain ⟨hs0, hs1⟩ := scaled_bounds (x := x) hb hr
  have hres0 : (0 : ℚ) < res := by exact_mod_cast h0
  have hrep : Rep 53 (res : ℚ) := rep_mono (by norm_num) (rep_res h)
  constructor
  · intro hlt h1
    rw [h1, one_mul, rnd_rep (by norm_num) hrep] at hlt
    unfold Scatter.trunc at hlt
    rw [if_pos hres0.le, Int.floor_natCast] at hlt
    exact lt_irrefl _ hlt
  · intro hne
    have hlt : scaled x b < 1 := lt_of_le_of_ne hs1 hne
    have hle : scaled x b ≤ 1 - 1 / 2 ^ 53 := rep_lt_one (p := 53) (by norm_num) (rep_rnd (by norm_num) _ : Rep 53 (scaled x b)) hlt
    have hq0 : 0 ≤ scaled x b * res := mul_nonneg hs0 hres0.le
    have he := (abs_le.1 (rnd_error 53 (scaled x b * res))).2
    rw [abs_of_nonneg hq0] at he
    have hf0 : 0 ≤ rnd 53 (scaled x b * res) := rnd_nonneg (by norm_num) hq0
    unfold Scatter.trunc
    rw [if_pos hf0]
    have h4 : rnd 53 (scaled x b * res) < res := by
      have h5 : scaled x b * res ≤ (1 - 1 / 2 ^ 53) * res := by gcongr
      have h6 : scaled x b * res / 2 ^ 53 ≤ (1 - 1 / 2 ^ 53) * res / 2 ^ 53 := by gcongr
      have h7 : (1 - 1 / 2 ^ 53) * (res : ℚ) + (1 - 1 / 2 ^ 53) * res / 2 ^ 53 < res := by nlinarith
      linarith
    exact Int.floor_lt.2 (by exact_mod_cast h4)

private theorem rem_rep {k : ℤ} {x : ℚ} (hx : 0 ≤ x) (hr : Rep 53 x) : Rep 53 (rem x (2 ^ k)) := by
  obtain ⟨m, e, hm, rfl⟩ := hr
  have h2 : (0 : ℚ) < 2 ^ e := by positivity
  have hm0 : 0 ≤ m := by
    have : (0 : ℚ) ≤ m := nonneg_of_mul_nonneg_left hx h2
    exact_mod_cast this
  rw [abs_of_nonneg hm0] at hm
  rcases le_or_gt k e with hke | hke
  · have hq : (m : ℚ) * 2 ^ e / 2 ^ k = ((m * 2 ^ (e - k).toNat : ℤ) : ℚ) := by
      have hn : ((e - k).toNat : ℤ) = e - k := Int.toNat_of_nonneg (by omega)
      push_cast
      rw [← zpow_natCast, hn, zpow_sub₀ (by norm_num : (2 : ℚ) ≠ 0)]
      ring
    refine ⟨0, 0, by norm_num, ?_⟩
    unfold rem
    rw [hq, Int.floor_intCast, ← hq]
    rw [mul_div_cancel₀ _ (by positivity : (2 : ℚ) ^ k ≠ 0)]
    norm_num
  · obtain ⟨n, hn⟩ : ∃ n : ℕ, (n : ℤ) = k - e := ⟨(k - e).toNat, Int.toNat_of_nonneg (by omega)⟩
    have hk : (2 : ℚ) ^ k = ((2 ^ n : ℕ) : ℚ) * 2 ^ e := by
      push_cast
      rw [← zpow_natCast, ← zpow_add₀ (by norm_num : (2 : ℚ) ≠ 0)]
      congr 1
      omega
    refine ⟨m % (2 ^ n : ℕ), e, ?_, ?_⟩
    · have h1 := Int.emod_nonneg m (b := ((2 ^ n : ℕ) : ℤ)) (by positivity)
      rw [abs_of_nonneg h1]
      have h3 := Int.ediv_nonneg hm0 (by positivity : (0 : ℤ) ≤ ((2 ^ n : ℕ) : ℤ))
      have h4 : m % ((2 ^ n : ℕ) : ℤ) ≤ m := by
        have h5 := mul_nonneg (by positivity : (0 : ℤ) ≤ ((2 ^ n : ℕ) : ℤ)) h3
        rw [Int.emod_def]
        linarith
      exact h4.trans hm
    · unfold rem
      have hq : (m : ℚ) * 2 ^ e / 2 ^ k = (m : ℚ) / ((2 ^ n : ℕ) : ℚ) := by
        rw [hk]
        rw [mul_div_mul_right _ _ h2.ne']
      have hfl : ⌊(m : ℚ) / ((2 ^ n : ℕ) : ℚ)⌋ = m / ((2 ^ n : ℕ) : ℤ) := Rat.floor_intCast_div_natCast m (2 ^ n)
      rw [hq, hfl, Int.emod_def]
      rw [hk]
      push_cast
      ring

/-- **C80** for boxes whose (folded) length is a power of two, and particles that are not below the box: `deposit` writes
inside the grid. -/
theorem c80_deposit_partial {res : ℕ} (h0 : 0 < res) (h : res ≤ 2 ^ 24) (fold bx by_ bz : ℚ) (kx ky kz : ℤ)
    (hx : bx / fold = 2 ^ kx) (hy : by_ / fold = 2 ^ ky) (hz : bz / fold = 2 ^ kz) (ps : List (Scatter.Part Num))
    (hp : ∀ p ∈ ps, (p.x.wide = true ∧ 0 ≤ p.x.val ∧ Rep 53 p.x.val) ∧ (p.y.wide = true ∧ 0 ≤ p.y.val ∧ Rep 53 p.y.val) ∧
      (p.z.wide = true ∧ 0 ≤ p.z.val ∧ Rep 53 p.z.val)) :
    ∃ grid, Floating.deposit (arith kernel sqrt gamma) res ⟨true, fold⟩ ⟨true, bx⟩ ⟨true, by_⟩ ⟨true, bz⟩ ps = .ok grid := by
  have hdiv : ∀ (b : ℚ) (k : ℤ), b / fold = 2 ^ k → (arith kernel sqrt gamma).div ⟨true, b⟩ ⟨true, fold⟩ = ⟨true, 2 ^ k⟩ := by
    intro b k hk
    have : rnd 53 (b / fold) = 2 ^ k := by
      rw [hk]
      exact rnd_rep (by norm_num) (rep_two 53 k)
    unfold arith op
    dsimp only
    rw [← this]
    rfl
  have key : ∀ (k : ℤ) (n : Num), n.wide = true ∧ 0 ≤ n.val ∧ Rep 53 n.val →
      0 ≤ Floating.pix (arith kernel sqrt gamma) ((arith kernel sqrt gamma).single ((arith kernel sqrt gamma).ofInt res)) ⟨true, 2 ^ k⟩ n ∧
      Floating.pix (arith kernel sqrt gamma) ((arith kernel sqrt gamma).single ((arith kernel sqrt gamma).ofInt res)) ⟨true, 2 ^ k⟩ n < res := by
    rintro k ⟨w, x⟩ ⟨hw, hx0, hxr⟩
    dsimp only at hw hx0 hxr
    subst hw
    have hb : (0 : ℚ) < 2 ^ k := by positivity
    refine ⟨(c80_index kernel sqrt gamma h hb (rep_two 53 k) x _ rfl).1, ?_⟩
    rw [c80_outside kernel sqrt gamma h0 h hb (rep_two 53 k)]
    have hinv : rnd 53 (1 / 2 ^ k) = 2 ^ (-k) := by
      rw [one_div, ← zpow_neg]
      exact rnd_rep (by norm_num) (rep_two 53 (-k))
    have hm : modVal 53 x (2 ^ k) = rem x (2 ^ k) := by
      rcases modVal_cases (x := x) hb with ⟨-, h⟩ | ⟨hn, -⟩ | ⟨hn, -⟩
      · exact h
      · exact absurd hx0 (not_le.2 hn)
      · exact absurd hx0 (not_le.2 hn)
    obtain ⟨m, e, hme, hq⟩ := rem_rep (k := k) hx0 hxr
    have hrr : Rep 53 (rem x (2 ^ k) * 2 ^ (-k)) := by
      refine ⟨m, e - k, hme, ?_⟩
      rw [hq, sub_eq_add_neg, zpow_add₀ (by norm_num : (2 : ℚ) ≠ 0)]
      ring
    rw [hm, hinv, rnd_rep (by norm_num) hrr]
    have hlt := (rem_bounds (x := x) hb).2
    have : rem x (2 ^ k) * 2 ^ (-k) < 1 := by
      rw [zpow_neg, ← div_eq_mul_inv, div_lt_one hb]
      exact hlt
    exact this.ne
  have hpaint : ∀ (ds : List ((Int × Int × Int) × Num)), (∀ d ∈ ds, Scatter.inside3 res res res d.1 = true) →
      ∀ img0, ∃ img, ds.foldlM (Floating.write (arith kernel sqrt gamma) (Scatter.inside3 res res res)) img0 = .ok img := by
    intro ds
    induction ds with
    | nil => intro _ img0; exact ⟨img0, rfl⟩
    | cons d ds ih =>
      intro hd img0
      rw [List.foldlM_cons]
      unfold Floating.write
      rw [if_pos (hd d (by simp))]
      exact ih (fun d' hd' => hd d' (by simp [hd'])) _
  refine hpaint _ (fun d hd => ?_) _
  rw [List.mem_map] at hd
  obtain ⟨p, hpp, rfl⟩ := hd
  obtain ⟨h1, h2, h3⟩ := hp p hpp
  have k1 := key kx p.x h1
  have k2 := key ky p.y h2
  have k3 := key kz p.z h3
  unfold Floating.depositDeps Scatter.inside3 Floating.res32
  rw [hdiv _ _ hx, hdiv _ _ hy, hdiv _ _ hz]
  simp only [Bool.and_eq_true, decide_eq_true_eq]
  exact ⟨⟨⟨⟨⟨k1.1, k1.2⟩, k2.1⟩, k2.2⟩, k3.1⟩, k3.2⟩

private theorem rnd_of {q : ℚ} {e : ℤ} {n : ℤ} (h1 : (2 : ℚ) ^ e ≤ q) (h2 : q < 2 ^ (e + 1))
    (hn : nearEven (q / 2 ^ (e - 52)) = n) : rnd 53 q = n * 2 ^ (e - 52) := by
  have h0 : 0 < q := lt_of_lt_of_le (by positivity) h1
  rw [rnd_pos_eq h0, rndPos_of h1 h2]
  have : (e - ((53 : ℕ) - 1 : ℤ)) = e - 52 := by norm_num
  rw [this, hn]

private theorem fails_of {res : ℕ} (h0 : 0 < res) (h : res ≤ 2 ^ 24) {b x : ℚ} (hb : 0 < b) (hr : Rep 53 b)
    (hs : rnd 53 (modVal 53 x b * rnd 53 (1 / b)) = 1) (y z m g : Num) :
    Floating.deposit (arith kernel sqrt gamma) res ⟨true, 1⟩ ⟨true, b⟩ ⟨true, b⟩ ⟨true, b⟩ [⟨⟨true, x⟩, y, z, m, g⟩] = .error .index := by
  have hdiv : (arith kernel sqrt gamma).div ⟨true, b⟩ ⟨true, 1⟩ = ⟨true, b⟩ := by
    have : rnd 53 (b / 1) = b := by rw [div_one]; exact rnd_rep (by norm_num) hr
    unfold arith op
    dsimp only
    nth_rewrite 2 [← this]
    rfl
  have hout : ¬ Floating.pix (arith kernel sqrt gamma) ((arith kernel sqrt gamma).single ((arith kernel sqrt gamma).ofInt res)) ⟨true, b⟩ ⟨true, x⟩ < res := by
    rw [c80_outside kernel sqrt gamma h0 h hb hr]
    exact not_not.2 hs
  unfold Floating.deposit Floating.paint
  rw [List.map_cons, List.map_nil, List.foldlM_cons]
  unfold Floating.write
  rw [if_neg]
  · rfl
  · unfold Floating.depositDeps Scatter.inside3 Floating.res32
    dsimp only
    rw [hdiv]
    simp only [Bool.and_eq_true, decide_eq_true_eq]
    rintro ⟨⟨⟨⟨⟨-, h2⟩, -⟩, -⟩, -⟩, -⟩
    exact hout h2

/-- **C80** fails inside the box: in a box of length 105 the greatest position of double precision that is less than 105 is
written one cell beyond the end of the grid, whatever the resolution. -/
theorem c80_inside_fails {res : ℕ} (h0 : 0 < res) (h : res ≤ 2 ^ 24) (y z m g : Num) :
    Floating.deposit (arith kernel sqrt gamma) res ⟨true, 1⟩ ⟨true, 105⟩ ⟨true, 105⟩ ⟨true, 105⟩
      [⟨⟨true, 105 - 1 / 2 ^ 46⟩, y, z, m, g⟩] = .error .index ∧
    Rep 53 (105 - 1 / 2 ^ 46) ∧ (0 : ℚ) ≤ 105 - 1 / 2 ^ 46 ∧ (105 - 1 / 2 ^ 46 : ℚ) < 105 := by
  refine ⟨?_, ⟨105 * 2 ^ 46 - 1, -46, by norm_num, by norm_num⟩, by norm_num, by norm_num⟩
  apply fails_of kernel sqrt gamma h0 h (by norm_num) ⟨105, 0, by norm_num, by norm_num⟩
  have hm : modVal 53 (105 - 1 / 2 ^ 46) 105 = 105 - 1 / 2 ^ 46 := by decide +kernel
  have hi : rnd 53 (1 / 105) = ((2 ^ 59 + 82) / 105 : ℤ) * 2 ^ ((-7 : ℤ) - 52) := by
    apply rnd_of (by norm_num) (by norm_num)
    have : (1 / 105 : ℚ) / 2 ^ ((-7 : ℤ) - 52) = 2 ^ 59 / 105 := by norm_num
    rw [this]
    decide +kernel
  rw [hm, hi]
  have := rnd_of (q := (105 - 1 / 2 ^ 46) * (((2 ^ 59 + 82) / 105 : ℤ) * 2 ^ ((-7 : ℤ) - 52))) (e := -1) (n := 2 ^ 53)
    (by norm_num) (by norm_num) (by
      have : ((105 - 1 / 2 ^ 46) * (((2 ^ 59 + 82) / 105 : ℤ) * 2 ^ ((-7 : ℤ) - 52)) : ℚ) / 2 ^ ((-1 : ℤ) - 52)
        = (105 * 2 ^ 46 - 1) * ((2 ^ 59 + 82) / 105 : ℤ) / 2 ^ 52 := by norm_num
      rw [this]
      decide +kernel)
  rw [this]
  norm_num

/-- **C80** fails for a position a little below zero, which is a periodic copy of a position in the box. -/
theorem c80_negative_fails {res : ℕ} (h0 : 0 < res) (h : res ≤ 2 ^ 24) (y z m g : Num) :
    Floating.deposit (arith kernel sqrt gamma) res ⟨true, 1⟩ ⟨true, 1⟩ ⟨true, 1⟩ ⟨true, 1⟩
      [⟨⟨true, -(1 / 2 ^ 60)⟩, y, z, m, g⟩] = .error .index := by
  have r1 : Rep 53 1 := ⟨1, 0, by norm_num, by norm_num⟩
  apply fails_of kernel sqrt gamma h0 h (by norm_num) r1
  have hr : rnd 53 (1 - 1 / 2 ^ 60) = 1 := by
    have := rnd_of (q := 1 - 1 / 2 ^ 60) (e := -1) (n := 2 ^ 53) (by norm_num) (by norm_num) (by
      have : (1 - 1 / 2 ^ 60 : ℚ) / 2 ^ ((-1 : ℤ) - 52) = 2 ^ 53 - 1 / 2 ^ 7 := by norm_num
      rw [this]
      decide +kernel)
    rw [this]
    norm_num
  have hm : modVal 53 (-(1 / 2 ^ 60)) 1 = 1 := by
    have ht : Scatter.trunc (-(1 / 2 ^ 60 : ℚ) / 1) = 0 := by decide +kernel
    unfold modVal
    rw [ht]
    have h1 : -(1 / 2 ^ 60 : ℚ) - 1 * ((0 : ℤ) : ℚ) = -(1 / 2 ^ 60) := by norm_num
    have h2 : -(1 / 2 ^ 60 : ℚ) + 1 = 1 - 1 / 2 ^ 60 := by ring
    dsimp only
    rw [h1, h2, hr, if_neg (by norm_num), if_pos]
    have h3 : (-(1 / 2 ^ 60) : ℚ) < 0 := by norm_num
    have h4 : ¬ ((1 : ℚ) < 0) := by norm_num
    simp only [h3, h4, ne_eq, eq_iff_iff, iff_false, not_true_eq_false, not_false_eq_true]
  rw [hm, div_one, rnd_rep (by norm_num) r1, mul_one, rnd_rep (by norm_num) r1]

/-- Looking up a value in a colour map with at most 2^24 + 1 columns stays inside the map, in single and in double
precision. -/
theorem c80_lookup {n : ℕ} (h0 : 0 < n) (h : n ≤ 2 ^ 24 + 1) (v : Num) : 0 ≤ lookup n v ∧ lookup n v < n := by
  have hn : ((n : ℚ) - 1) = ((n - 1 : ℕ) : ℚ) := by
    rw [Nat.cast_sub h0, Nat.cast_one]
  have hrep24 : Rep 24 ((n - 1 : ℕ) : ℚ) := rep_res (by omega)
  have hd : 0 < digits v.wide := by
    unfold digits
    split_ifs <;> norm_num
  have hrep : Rep (digits v.wide) ((n - 1 : ℕ) : ℚ) := by
    refine rep_mono ?_ hrep24
    unfold digits
    split_ifs <;> norm_num
  have hc0 : 0 ≤ min (max v.val 0) 1 := le_min (le_max_right _ _) zero_le_one
  have hc1 : min (max v.val 0) 1 ≤ 1 := min_le_right _ _
  unfold lookup op
  dsimp only
  rw [Bool.false_or, hn, rnd_rep (by norm_num) hrep24]
  have hq0 : 0 ≤ ((n - 1 : ℕ) : ℚ) * min (max v.val 0) 1 := mul_nonneg (by positivity) hc0
  have hf0 := rnd_nonneg hd hq0
  have hf1 : rnd (digits v.wide) (((n - 1 : ℕ) : ℚ) * min (max v.val 0) 1) ≤ ((n - 1 : ℕ) : ℚ) :=
    rnd_le hd hrep (mul_le_of_le_one_right (by positivity) hc1)
  unfold Scatter.trunc
  rw [if_pos hf0]
  refine ⟨Int.floor_nonneg.2 hf0, ?_⟩
  have := Int.floor_le_floor hf1
  rw [Int.floor_natCast] at this
  omega

/-- The size of an image in double precision is at most one pixel away from the size that C53 is about. -/
theorem c80_size {res : ℕ} (h : res ≤ 2 ^ 24) {range R : ℚ} (h0 : 0 ≤ range) (hR : range ≤ R) (hpos : 0 < R) :
    Binary.trimmed res range R ≤ Frame.trimmed res range R + 1 ∧ Frame.trimmed res range R ≤ Binary.trimmed res range R + 1 ∧
      Binary.trimmed res range R ≤ res := by
  have hres0 : (0 : ℚ) ≤ res := by positivity
  have hres24 : (res : ℚ) ≤ 2 ^ 24 := by exact_mod_cast h
  have ht0 : 0 ≤ range / R := by positivity
  have ht1 : range / R ≤ 1 := (div_le_one hpos).2 hR
  have hr0 := rnd_nonneg (p := 53) (by norm_num) ht0
  have hr1 : rnd 53 (range / R) ≤ 1 := rnd_le (by norm_num) ⟨1, 0, by norm_num, by norm_num⟩ ht1
  have he := rnd_error 53 (range / R)
  rw [abs_of_nonneg ht0] at he
  have hq0 : 0 ≤ (res : ℚ) * rnd 53 (range / R) := mul_nonneg hres0 hr0
  have hf := rnd_error 53 ((res : ℚ) * rnd 53 (range / R))
  rw [abs_of_nonneg hq0] at hf
  have hrep : Rep 53 (res : ℚ) := rep_mono (by norm_num) (rep_res h)
  have hf1 : rnd 53 ((res : ℚ) * rnd 53 (range / R)) ≤ res := rnd_le (by norm_num) hrep (mul_le_of_le_one_right hres0 hr1)
  have hdist : |rnd 53 ((res : ℚ) * rnd 53 (range / R)) - res * (range / R)| < 1 := by
    have ha : |(res : ℚ) * rnd 53 (range / R) - res * (range / R)| ≤ 2 ^ 24 * (1 / 2 ^ 53) := by
      rw [← mul_sub, abs_mul, abs_of_nonneg hres0]
      refine mul_le_mul hres24 (he.trans ?_) (abs_nonneg _) (by norm_num)
      gcongr
    have hb : |rnd 53 ((res : ℚ) * rnd 53 (range / R)) - res * rnd 53 (range / R)| ≤ 2 ^ 24 / 2 ^ 53 := by
      refine hf.trans ?_
      gcongr
      nlinarith
    calc _ = |(rnd 53 ((res : ℚ) * rnd 53 (range / R)) - res * rnd 53 (range / R)) +
          ((res : ℚ) * rnd 53 (range / R) - res * (range / R))| := by ring_nf
      _ ≤ _ := abs_add_le _ _
      _ ≤ 2 ^ 24 / 2 ^ 53 + 2 ^ 24 * (1 / 2 ^ 53) := add_le_add hb ha
      _ < 1 := by norm_num
  unfold Binary.trimmed Frame.trimmed
  set f := rnd 53 ((res : ℚ) * rnd 53 (range / R)) with hfdef
  rw [abs_lt] at hdist
  have hA : ⌈f⌉ ≤ ⌈(res : ℚ) * (range / R)⌉ + 1 := by
    rw [Int.ceil_le]
    push_cast
    linarith [Int.le_ceil ((res : ℚ) * (range / R))]
  have hB : ⌈(res : ℚ) * (range / R)⌉ ≤ ⌈f⌉ + 1 := by
    rw [Int.ceil_le]
    push_cast
    linarith [Int.le_ceil f]
  have hC : ⌈f⌉ ≤ (res : ℤ) := Int.ceil_le.2 (by exact_mod_cast hf1)
  omega

/-- An image of 100 pixels of a region that is 7 wide and 100 high is 8 pixels wide instead of 7. -/
theorem c80_size_fails : Binary.trimmed 100 7 100 = 8 ∧ Frame.trimmed 100 (7 : ℚ) 100 = 7 := by
  constructor
  · have hi : rnd 53 (7 / 100) = 5044031582654956 * 2 ^ ((-4 : ℤ) - 52) := by
      apply rnd_of (n := 5044031582654956) (by norm_num) (by norm_num)
      have : (7 / 100 : ℚ) / 2 ^ ((-4 : ℤ) - 52) = 7 * 2 ^ 56 / 100 := by norm_num
      rw [this]
      decide +kernel
    have hj : rnd 53 (((100 : ℕ) : ℚ) * (5044031582654956 * 2 ^ ((-4 : ℤ) - 52))) = 7881299347898369 * 2 ^ ((2 : ℤ) - 52) := by
      apply rnd_of (n := 7881299347898369) (by norm_num) (by norm_num)
      have : (((100 : ℕ) : ℚ) * (5044031582654956 * 2 ^ ((-4 : ℤ) - 52))) / 2 ^ ((2 : ℤ) - 52) = 504403158265495600 / 2 ^ 6 := by
        norm_num
      rw [this]
      decide +kernel
    unfold Binary.trimmed
    rw [hi, hj]
    have : (7881299347898369 * 2 ^ ((2 : ℤ) - 52) : ℚ) = 7881299347898369 / 2 ^ 50 := by norm_num
    rw [this]
    decide +kernel
  · unfold Frame.trimmed
    have : (((100 : ℕ) : ℚ) * (7 / 100)) = 7 := by norm_num
    rw [this]
    decide +kernel

/-- A case of `c80_deposit_partial`: a box of length 16 folded twice, two particles. -/
example : ∃ grid, Floating.deposit (arith kernel sqrt gamma) 3 ⟨true, 4⟩ ⟨true, 16⟩ ⟨true, 16⟩ ⟨true, 16⟩
    [⟨⟨true, 15⟩, ⟨true, 1 / 2⟩, ⟨true, 4⟩, ⟨false, 1⟩, ⟨false, 1⟩⟩, ⟨⟨true, 0⟩, ⟨true, 7 / 8⟩, ⟨true, 3⟩, ⟨false, 2⟩, ⟨false, 1⟩⟩] = .ok grid := by
  apply c80_deposit_partial kernel sqrt gamma (by norm_num) (by norm_num) 4 16 16 16 2 2 2 (by norm_num) (by norm_num) (by norm_num)
  intro p hp
  simp only [List.mem_cons, List.not_mem_nil, or_false] at hp
  rcases hp with rfl | rfl
  · exact ⟨⟨rfl, by norm_num, 15, 0, by norm_num, by norm_num⟩, ⟨rfl, by norm_num, 1, -1, by norm_num, by norm_num⟩,
      rfl, by norm_num, 4, 0, by norm_num, by norm_num⟩
  · exact ⟨⟨rfl, by norm_num, 0, 0, by norm_num, by norm_num⟩, ⟨rfl, by norm_num, 7, -3, by norm_num, by norm_num⟩,
      rfl, by norm_num, 3, 0, by norm_num, by norm_num⟩

end Verif.Props
