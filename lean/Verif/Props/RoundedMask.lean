import Verif.Lemmas.RoundedMask
import Verif.Lemmas.Nearest

/-!
# C138: spatial masks in rounded arithmetic (`swiftsimio/masks.py`)
-/

namespace Verif.Props
open Verif Verif.Spec Verif.Mask Verif.RoundedMask

variable {K : Type} [Field K] [LinearOrder K] [IsStrictOrderedRing K]

private theorem rounding_pos {fl : K → K} {L ε : K} (R : Rounding fl L ε) (hL : 0 < L) : 0 ≤ ε := by
  have := R.err 0 (by linarith) (by linarith)
  rw [R.zero] at this
  linarith [this.1]

private theorem window_bounds {fl : K → K} {L ε lower upper : K} (R : Rounding fl L ε) (hL : 0 < L)
    (h : windowOk fl L lower upper = true) :
    -L / 2 - ε ≤ lower ∧ -L / 2 - ε ≤ upper ∧ lower ≤ 3 * L / 2 + 3 / 2 * ε ∧ upper ≤ 3 * L / 2 + 3 / 2 * ε := by
  have hε := rounding_pos R hL
  have hs := R.small
  rw [window_iff] at h
  obtain ⟨h1, h2, h3, h4⟩ := h
  have e1 := R.err (-L / 2) (by linarith) (by linarith)
  have e2 := R.err (3 * L) (by linarith) (by linarith)
  have e3 := R.err (fl (3 * L) / 2) (by linarith [e2.1]) (by linarith [e2.2])
  refine ⟨by linarith [e1.1], by linarith [e1.1], by linarith [e2.2, e3.2], by linarith [e2.2, e3.2]⟩

/-- a copy of the number among the three that are tried, inside by `ε` -/
private theorem keep_of_copy {fl : K → K} {L ε : K} (R : Rounding fl L ε) (hL : 0 < L) {lower upper lo hi x : K}
    (hx : 0 ≤ x ∧ x ≤ L) (hc : lo ≤ x ∧ x ≤ hi) (j : ℤ) (hlo : -(L + L) + L < x + (j : K) * L)
    (hup : x + (j : K) * L < L + L) (h1 : lower + ε < x + (j : K) * L) (h2 : x + (j : K) * L + ε < upper) :
    RoundedMask.axisKeep fl L lower upper lo hi = true := by
  have hj1 : j < 2 := by
    by_contra hcon
    have : (2 : K) ≤ (j : K) := by exact_mod_cast not_lt.mp hcon
    nlinarith [hx.1]
  have hj2 : -2 < j := by
    by_contra hcon
    have : (j : K) ≤ -2 := by exact_mod_cast not_lt.mp hcon
    nlinarith [hx.2]
  rw [RoundedMask.axisKeep_iff R.zero R.box R.neg]
  have hcases : j = -1 ∨ j = 0 ∨ j = 1 := by omega
  rcases hcases with rfl | rfl | rfl
  · left
    have e : x + ((-1 : ℤ) : K) * L = x + -L := by push_cast; ring
    rw [e] at h1 h2 hlo hup
    have ee := R.err (x + -L) (by linarith) (by linarith)
    exact ⟨by linarith [ee.1, R.mono (x + -L) (hi + -L) (by linarith)],
      by linarith [ee.2, R.mono (lo + -L) (x + -L) (by linarith)]⟩
  · right; left
    have e : x + ((0 : ℤ) : K) * L = x := by push_cast; ring
    rw [e] at h1 h2 hlo hup
    have ee := R.err x (by linarith) (by linarith)
    exact ⟨by linarith [ee.1, R.mono x hi (by linarith)], by linarith [ee.2, R.mono lo x (by linarith)]⟩
  · right; right
    have e : x + ((1 : ℤ) : K) * L = x + L := by push_cast; ring
    rw [e] at h1 h2 hlo hup
    have ee := R.err (x + L) (by linarith) (by linarith)
    exact ⟨by linarith [ee.1, R.mono (x + L) (hi + L) (by linarith)],
      by linarith [ee.2, R.mono (lo + L) (x + L) (by linarith)]⟩

/-- one axis of C138 -/
theorem c138_axis {fl : K → K} {ε : K} (box : Fin 3 → K) (reg : Fin 3 → K × K) (d : Fin 3) (c : Cell K)
    (R : Rounding fl (box d) ε) (hL : 0 < box d) (hw : windowOk fl (box d) (reg d).1 (reg d).2 = true) {x : K}
    (hx : 0 ≤ x ∧ x ≤ box d) (hc : c.lo d ≤ x ∧ x ≤ c.hi d)
    (hin : WellInside (2 * ε) (box d) (reg d).1 (reg d).2 x) : keeps fl box reg d c = true := by
  have hε := rounding_pos R hL
  have hs := R.small
  obtain ⟨w1, w2, w3, w4⟩ := window_bounds R hL hw
  have half := R.err (box d / 2) (by linarith) (by linarith)
  obtain ⟨j, hj1, hj2⟩ := hin
  unfold keeps
  split_ifs with hbig
  · rfl
  · unfold RoundedMask.normaliseAxis
    by_cases hinv : (reg d).2 < (reg d).1
    · rw [if_pos hinv] at hj2
      simp only [hinv, if_true]
      by_cases hlow : (reg d).1 > fl (box d / 2)
      · simp only [hlow, if_true]
        have el := R.err ((reg d).1 - box d) (by linarith) (by linarith)
        refine keep_of_copy R hL hx hc (j - 1) ?_ ?_ ?_ ?_ <;> push_cast <;> linarith [el.2, half.1]
      · have hup : (reg d).2 < fl (box d / 2) := lt_of_lt_of_le hinv (not_lt.mp hlow)
        simp only [hlow, hup, if_false, if_true]
        have el := R.err ((reg d).2 + box d) (by linarith) (by linarith)
        refine keep_of_copy R hL hx hc j ?_ ?_ ?_ ?_ <;> linarith [el.1, half.2]
    · rw [if_neg hinv] at hj2
      simp only [hinv, if_false]
      refine keep_of_copy R hL hx hc j ?_ ?_ ?_ ?_ <;> linarith

/-- C138. Every particle inside the region by more than twice the rounding error is in a selected cell, for every accepted
region, also through the sides of the box and for inverted intervals. -/
theorem c138_complete (fl : K → K) (box ε : Fin 3 → K) (hL : ∀ d, 0 < box d) (R : ∀ d, Rounding fl (box d) (ε d))
    (reg : Fin 3 → K × K) (cells : List (Cell K)) (mask : List Bool) (h : cellMask fl box reg cells = .ok mask)
    (n : Nat) (c : Cell K) (hn : cells[n]? = some c) (x : Fin 3 → K) (hx : ∀ d, 0 ≤ x d ∧ x d ≤ box d)
    (hc : ∀ d, c.lo d ≤ x d ∧ x d ≤ c.hi d)
    (hin : ∀ d, WellInside (2 * ε d) (box d) (reg d).1 (reg d).2 (x d)) : mask[n]? = some true := by
  rw [selected_iff fl box reg cells mask h n c hn]
  exact fun d => c138_axis box reg d c (R d) (hL d) ((cellMask_eq fl box reg cells mask h).1 d) (hx d) (hc d) (hin d)

/-- C138. A selected cell overlaps the region up to twice the rounding error, or the region is longer than the box up to
the rounding error. -/
theorem c138_sound (fl : K → K) (box ε : Fin 3 → K) (hL : ∀ d, 0 < box d) (R : ∀ d, Rounding fl (box d) (ε d))
    (reg : Fin 3 → K × K) (cells : List (Cell K)) (mask : List Bool) (h : cellMask fl box reg cells = .ok mask)
    (n : Nat) (c : Cell K) (hn : cells[n]? = some c)
    (hc : ∀ d, -(3 * box d) ≤ c.lo d ∧ c.lo d ≤ 3 * box d ∧ -(3 * box d) ≤ c.hi d ∧ c.hi d ≤ 3 * box d)
    (hm : mask[n]? = some true) (d : Fin 3) :
    box d - ε d < |(reg d).2 - (reg d).1| ∨
    NearlyMeets (2 * ε d) (box d) (reg d).1 (reg d).2 (c.lo d) (c.hi d) := by
  have hε := rounding_pos (R d) (hL d)
  have hs := (R d).small
  have hL := hL d
  obtain ⟨w1, w2, w3, w4⟩ := window_bounds (R d) hL ((cellMask_eq fl box reg cells mask h).1 d)
  have half := (R d).err (box d / 2) (by linarith) (by linarith)
  have hk := (selected_iff fl box reg cells mask h n c hn).mp hm d
  obtain ⟨c1, c2, c3, c4⟩ := hc d
  unfold keeps at hk
  split_ifs at hk with hbig
  · left
    have el := (R d).err ((reg d).2 - (reg d).1) (by linarith) (by linarith)
    rcases lt_abs.mp hbig with hb | hb
    · exact lt_of_lt_of_le (by linarith [el.2]) (le_abs_self _)
    · exact lt_of_lt_of_le (by linarith [el.1]) (neg_le_abs _)
  · right
    have copies : ∀ lower upper : K, RoundedMask.axisKeep fl (box d) lower upper (c.lo d) (c.hi d) = true →
        ∃ j : ℤ, lower - ε d < c.hi d + (j : K) * box d ∧ c.lo d + (j : K) * box d < upper + ε d := by
      intro lower upper hkeep
      rw [RoundedMask.axisKeep_iff (R d).zero (R d).box (R d).neg] at hkeep
      rcases hkeep with ⟨k1, k2⟩ | ⟨k1, k2⟩ | ⟨k1, k2⟩
      · have a := (R d).err (c.hi d + -box d) (by linarith) (by linarith)
        have b := (R d).err (c.lo d + -box d) (by linarith) (by linarith)
        refine ⟨-1, ?_, ?_⟩ <;> push_cast <;> linarith [a.2, b.1]
      · have a := (R d).err (c.hi d) (by linarith) (by linarith)
        have b := (R d).err (c.lo d) (by linarith) (by linarith)
        refine ⟨0, ?_, ?_⟩ <;> push_cast <;> linarith [a.2, b.1]
      · have a := (R d).err (c.hi d + box d) (by linarith) (by linarith)
        have b := (R d).err (c.lo d + box d) (by linarith) (by linarith)
        refine ⟨1, ?_, ?_⟩ <;> push_cast <;> linarith [a.2, b.1]
    unfold RoundedMask.normaliseAxis at hk
    unfold NearlyMeets
    by_cases hinv : (reg d).2 < (reg d).1
    · simp only [hinv, if_true] at hk ⊢
      by_cases hlow : (reg d).1 > fl (box d / 2)
      · simp only [hlow, if_true] at hk
        obtain ⟨j, j1, j2⟩ := copies _ _ hk
        have el := (R d).err ((reg d).1 - box d) (by linarith) (by linarith)
        refine ⟨j + 1, ?_, ?_⟩ <;> push_cast <;> linarith [el.1]
      · have hup : (reg d).2 < fl (box d / 2) := lt_of_lt_of_le hinv (not_lt.mp hlow)
        simp only [hlow, hup, if_false, if_true] at hk
        obtain ⟨j, j1, j2⟩ := copies _ _ hk
        have el := (R d).err ((reg d).2 + box d) (by linarith) (by linarith)
        exact ⟨j, by linarith, by linarith [el.2]⟩
    · simp only [hinv, if_false] at hk ⊢
      obtain ⟨j, j1, j2⟩ := copies _ _ hk
      exact ⟨j, by linarith, by linarith⟩

/-- C138. A region with its ends in the box is accepted whatever the rounding. -/
theorem c138_accepted (fl : K → K) (box ε : Fin 3 → K) (hL : ∀ d, 0 < box d) (R : ∀ d, Rounding fl (box d) (ε d))
    (reg : Fin 3 → K × K) (cells : List (Cell K))
    (hr : ∀ d, 0 ≤ (reg d).1 ∧ (reg d).1 ≤ box d ∧ 0 ≤ (reg d).2 ∧ (reg d).2 ≤ box d) :
    ∃ mask, cellMask fl box reg cells = .ok mask ∧ mask.length = cells.length := by
  have hw : ∀ d, windowOk fl (box d) (reg d).1 (reg d).2 = true := by
    intro d
    have hε := rounding_pos (R d) (hL d)
    have hs := (R d).small
    have hL := hL d
    have e1 := (R d).mono (-box d / 2) 0 (by linarith)
    rw [(R d).zero] at e1
    have e2 := (R d).err (3 * box d) (by linarith) (by linarith)
    have e3 := (R d).err (fl (3 * box d) / 2) (by linarith [e2.1]) (by linarith [e2.2])
    obtain ⟨r1, r2, r3, r4⟩ := hr d
    rw [window_iff]
    exact ⟨by linarith, by linarith, by linarith [e2.1, e3.1], by linarith [e2.1, e3.1]⟩
  have hok : ∃ mask, cellMask fl box reg cells = .ok mask := by
    unfold cellMask
    rw [if_pos ((regionOk_iff fl box reg).mpr hw)]
    exact ⟨_, rfl⟩
  obtain ⟨mask, hm⟩ := hok
  exact ⟨mask, hm, by rw [(cellMask_eq fl box reg cells mask hm).2, List.length_map]⟩

omit [IsStrictOrderedRing K] in
/-- C138. Without the sides of the box rounding plays no part: a particle between the ends of an interval that is not
inverted, along every axis, is in a selected cell, however close to the ends it is. -/
theorem c138_inside (fl : K → K) (mono : ∀ x y : K, x ≤ y → fl x ≤ fl y) (h0 : fl 0 = 0) (box : Fin 3 → K)
    (hb : ∀ d, fl (box d) = box d ∧ fl (-box d) = -box d)
    (reg : Fin 3 → K × K) (cells : List (Cell K)) (mask : List Bool) (h : cellMask fl box reg cells = .ok mask)
    (n : Nat) (c : Cell K) (hn : cells[n]? = some c) (x : Fin 3 → K) (hx : ∀ d, fl (x d) = x d)
    (hc : ∀ d, c.lo d ≤ x d ∧ x d ≤ c.hi d) (hin : ∀ d, (reg d).1 < x d ∧ x d < (reg d).2) : mask[n]? = some true := by
  rw [selected_iff fl box reg cells mask h n c hn]
  intro d
  unfold keeps
  split_ifs with hbig
  · rfl
  · have hinv : ¬ (reg d).2 < (reg d).1 := not_lt.mpr (le_of_lt ((hin d).1.trans (hin d).2))
    unfold RoundedMask.normaliseAxis
    simp only [hinv, if_false]
    rw [RoundedMask.axisKeep_iff h0 (hb d).1 (hb d).2]
    right; left
    have m1 := mono _ _ (hc d).2
    have m2 := mono _ _ (hc d).1
    rw [hx d] at m1 m2
    exact ⟨lt_of_lt_of_le (hin d).1 m1, lt_of_le_of_lt m2 (hin d).2⟩

omit [IsStrictOrderedRing K] in
/-- C138. With extents recorded in the file the box of a cell contains the particles between the extents, whatever the
rounding. -/
theorem c138_extents (fl : K → K) (size : Fin 3 → K) (pad : K) (c : RawCell K) (mn mx : Fin 3 → K)
    (hc : c.extent = some (mn, mx)) (x : Fin 3 → K) (hx : ∀ d, mn d ≤ x d ∧ x d ≤ mx d) (d : Fin 3) :
    (RoundedMask.boundingBox fl size pad c).lo d ≤ x d ∧ x d ≤ (RoundedMask.boundingBox fl size pad c).hi d := by
  unfold RoundedMask.boundingBox
  rw [hc]
  dsimp only
  constructor
  · split_ifs with h
    · exact le_trans h.le (hx d).1
    · exact (hx d).1
  · split_ifs with h
    · exact le_trans (hx d).2 (le_of_lt h)
    · exact (hx d).2

/-- C138. Without extents the box of a cell contains all particles of the geometric cell, whatever the rounding and even
without padding, if the half and half of the cell size are numbers of the format. -/
theorem c138_geometric (fl : K → K) (mono : ∀ x y : K, x ≤ y → fl x ≤ fl y) (size : Fin 3 → K) (pad : K)
    (hh : fl (1 / 2) = 1 / 2) (hs : ∀ d, 0 ≤ size d ∧ fl (1 / 2 * size d) = 1 / 2 * size d) (hp : 0 ≤ pad)
    (c : RawCell K) (x : Fin 3 → K) (hf : ∀ d, fl (x d) = x d)
    (hx : ∀ d, c.centre d - 1 / 2 * size d ≤ x d ∧ x d ≤ c.centre d + 1 / 2 * size d) (hc : c.extent = none) (d : Fin 3) :
    (RoundedMask.boundingBox fl size pad c).lo d ≤ x d ∧ x d ≤ (RoundedMask.boundingBox fl size pad c).hi d := by
  unfold RoundedMask.boundingBox
  rw [hc]
  dsimp only
  have h1 : 1 / 2 ≤ fl (pad + 1 / 2) := by
    have := mono (1 / 2) (pad + 1 / 2) (by linarith)
    rwa [hh] at this
  have h2 : 1 / 2 * size d ≤ fl (fl (pad + 1 / 2) * size d) := by
    have := mono (1 / 2 * size d) (fl (pad + 1 / 2) * size d) (mul_le_mul_of_nonneg_right h1 (hs d).1)
    rwa [(hs d).2] at this
  have h3 := mono (c.centre d - fl (fl (pad + 1 / 2) * size d)) (x d) (by linarith [(hx d).1])
  have h4 := mono (x d) (c.centre d + fl (fl (pad + 1 / 2) * size d)) (by linarith [(hx d).2])
  rw [hf d] at h3 h4
  exact ⟨h3, h4⟩

/-! ## Numbers with binary digits -/

private theorem format_neg {p : ℕ} {emin : ℤ} {x : ℚ} (h : InFormat p emin x) : InFormat p emin (-x) := by
  obtain ⟨m, e, he, hm, rfl⟩ := h
  exact ⟨-m, e, he, by rwa [abs_neg], by push_cast; ring⟩

/-- C138. Rounding to a nearest number with `p` binary digits is a rounding as assumed, with the error of numbers below
`2 ^ b` for a box of at most a quarter of this. -/
theorem c138_nearest (p : ℕ) (hp : 1 ≤ p) (emin b : ℤ) (hb : emin ≤ b + 1 - p) (ρ : ℚ → ℤ) (hρ : ToNearest ρ) (L : ℚ)
    (hL : InFormat p emin L) (h4 : 4 * L ≤ 2 ^ b) (hs : 8 * 2 ^ (b - p) < L) :
    Rounding (nearest p emin ρ) L (2 ^ (b - p)) where
  mono _ _ h := Nearest.nearest_mono hp hρ h
  zero := Nearest.nearest_zero hρ
  box := Nearest.nearest_of_format hρ hL
  neg := Nearest.nearest_of_format hρ (format_neg hL)
  err z h1 h2 := by
    rcases eq_or_ne z 0 with rfl | hz
    · rw [Nearest.nearest_zero hρ]
      have := Nearest.pow_pos' (b - p)
      constructor <;> linarith
    · have ha : |z| ≤ 2 ^ b := by rw [abs_le]; constructor <;> linarith
      have hd := Nearest.lastDigit_le hz ha hb
      have he := Nearest.nearest_err (p := p) (emin := emin) hρ z
      have hle : (1 : ℚ) / 2 * 2 ^ lastDigit p emin z ≤ 2 ^ (b - p) := by
        have h3 : (2 : ℚ) ^ lastDigit p emin z ≤ 2 ^ (b + 1 - p) := zpow_le_zpow_right₀ (by norm_num) hd
        have h5 : (2 : ℚ) ^ (b + 1 - (p : ℤ)) = 2 ^ (b - p) * 2 := by
          rw [show b + 1 - (p : ℤ) = (b - p) + 1 by ring, zpow_add_one₀ (by norm_num)]
        rw [h5] at h3
        linarith
      have := abs_le.mp (he.trans hle)
      constructor <;> linarith [this.1, this.2]
  small := hs

/-- C138 for double precision. Every particle inside the region by more than the box divided by 2 to the power 49 is in a
selected cell. -/
theorem c138_double (ρ : ℚ → ℤ) (hρ : ToNearest ρ) (box : Fin 3 → ℚ) (hb : ∀ d, InFormat 53 (-1074) (box d))
    (hL : ∀ d, 2 ^ (-1000 : ℤ) ≤ box d) (reg : Fin 3 → ℚ × ℚ) (cells : List (Cell ℚ)) (mask : List Bool)
    (h : cellMask (nearest 53 (-1074) ρ) box reg cells = .ok mask) (n : Nat) (c : Cell ℚ) (hn : cells[n]? = some c)
    (x : Fin 3 → ℚ) (hx : ∀ d, 0 ≤ x d ∧ x d ≤ box d) (hc : ∀ d, c.lo d ≤ x d ∧ x d ≤ c.hi d)
    (hin : ∀ d, WellInside (box d / 2 ^ 49) (box d) (reg d).1 (reg d).2 (x d)) : mask[n]? = some true := by
  have hpos : ∀ d, 0 < box d := fun d => lt_of_lt_of_le (Nearest.pow_pos' _) (hL d)
  have key : ∀ d, Rounding (nearest 53 (-1074) ρ) (box d) (2 ^ ((Int.log 2 (box d) + 3) - (53 : ℕ) : ℤ)) ∧
      2 * (2 : ℚ) ^ ((Int.log 2 (box d) + 3) - (53 : ℕ) : ℤ) ≤ box d / 2 ^ 49 := by
    intro d
    have h1 := Nearest.abs_lt_succ_log (x := box d)
    have h2 := Nearest.log_le_abs (hpos d).ne'
    rw [abs_of_pos (hpos d)] at h1 h2
    have h3 : (-1000 : ℤ) < Int.log 2 (box d) + 1 :=
      (zpow_lt_zpow_iff_right₀ (by norm_num : (1 : ℚ) < 2)).mp (lt_of_le_of_lt (hL d) h1)
    have e1 : (2 : ℚ) ^ (Int.log 2 (box d) + 1) = 2 ^ Int.log 2 (box d) * 2 := zpow_add_one₀ (by norm_num) _
    have e3 : (2 : ℚ) ^ (Int.log 2 (box d) + 3) = 2 ^ Int.log 2 (box d) * 8 := by
      rw [zpow_add₀ (by norm_num)]; norm_num
    have e5 : (2 : ℚ) ^ ((Int.log 2 (box d) + 3) - (53 : ℕ) : ℤ) = 2 ^ Int.log 2 (box d) * (1 / 2 ^ 50) := by
      rw [show (Int.log 2 (box d) + 3) - ((53 : ℕ) : ℤ) = Int.log 2 (box d) + (-50) by push_cast; ring,
        zpow_add₀ (by norm_num)]
      norm_num
    refine ⟨c138_nearest 53 (by norm_num) (-1074) _ (by push_cast; omega) ρ hρ (box d) (hb d) ?_ ?_, ?_⟩
    · rw [e3]; rw [e1] at h1; linarith
    · rw [e5]; linarith [hpos d]
    · rw [e5]; linarith
  refine c138_complete _ box (fun d => 2 ^ ((Int.log 2 (box d) + 3) - (53 : ℕ) : ℤ)) hpos (fun d => (key d).1) reg cells
    mask h n c hn x hx hc (fun d => ?_)
  obtain ⟨j, j1, j2⟩ := hin d
  have hk := (key d).2
  generalize (2 : ℚ) ^ ((Int.log 2 (box d) + 3) - (53 : ℕ) : ℤ) = ε at hk
  exact ⟨j, by linarith, by linarith⟩

/-- The particle or its copy one box below is inside the region, for an interval that is not inverted or that is inverted
and starts in the upper half of the box. -/
def InsideBelow (L lower upper x : ℚ) : Prop :=
  (lower ≤ upper ∧ (lower < x ∧ x < upper ∨ L / 2 ≤ x ∧ lower < x - L ∧ x - L < upper)) ∨
  (upper < lower ∧ L / 2 < lower ∧ (lower - L < x ∧ x < upper ∨ L / 2 ≤ x ∧ lower < x ∧ x - L < upper))

/-- C138. Through the lower side of the box no particle is lost to rounding, however close to the ends it is: differences
of numbers within a factor of two are exact. -/
theorem c138_below (p : ℕ) (hp : 1 ≤ p) (emin : ℤ) (ρ : ℚ → ℤ) (hρ : ToNearest ρ) (box : Fin 3 → ℚ)
    (hb : ∀ d, 0 < box d ∧ InFormat p emin (box d) ∧ InFormat p emin (box d / 2)) (reg : Fin 3 → ℚ × ℚ)
    (hr : ∀ d, InFormat p emin (reg d).1 ∧ (reg d).1 ≤ 2 * box d) (cells : List (Cell ℚ)) (mask : List Bool)
    (h : cellMask (nearest p emin ρ) box reg cells = .ok mask) (n : Nat) (c : Cell ℚ) (hn : cells[n]? = some c)
    (x : Fin 3 → ℚ) (hx : ∀ d, InFormat p emin (x d) ∧ x d ≤ box d) (hc : ∀ d, c.lo d ≤ x d ∧ x d ≤ c.hi d)
    (hin : ∀ d, InsideBelow (box d) (reg d).1 (reg d).2 (x d)) : mask[n]? = some true := by
  rw [selected_iff _ box reg cells mask h n c hn]
  intro d
  obtain ⟨hL, fL, fH⟩ := hb d
  have mono : ∀ a b : ℚ, a ≤ b → nearest p emin ρ a ≤ nearest p emin ρ b := fun _ _ hab => Nearest.nearest_mono hp hρ hab
  have hkeep : ∀ lower upper : ℚ, (lower < x d ∧ x d < upper ∨ box d / 2 ≤ x d ∧ lower < x d - box d ∧ x d - box d < upper) →
      RoundedMask.axisKeep (nearest p emin ρ) (box d) lower upper (c.lo d) (c.hi d) = true := by
    intro lower upper hcase
    rw [RoundedMask.axisKeep_iff (Nearest.nearest_zero hρ) (Nearest.nearest_of_format hρ fL)
      (Nearest.nearest_of_format hρ (format_neg fL))]
    rcases hcase with ⟨a1, a2⟩ | ⟨a0, a1, a2⟩
    · right; left
      have e := Nearest.nearest_of_format hρ (hx d).1
      have m1 := mono _ _ (hc d).1
      have m2 := mono _ _ (hc d).2
      rw [e] at m1 m2
      exact ⟨by linarith, by linarith⟩
    · left
      have e := Nearest.nearest_of_format hρ (Nearest.sterbenz (hx d).1 fL a0 (by linarith [(hx d).2]))
      have m1 := mono (c.lo d + -box d) (x d - box d) (by linarith [(hc d).1])
      have m2 := mono (x d - box d) (c.hi d + -box d) (by linarith [(hc d).2])
      rw [e] at m1 m2
      exact ⟨by linarith, by linarith⟩
  unfold keeps
  split_ifs with hbig
  · rfl
  · unfold RoundedMask.normaliseAxis
    rcases hin d with ⟨i1, i2⟩ | ⟨i1, i2, i3⟩
    · simp only [not_lt.mpr i1, if_false]
      exact hkeep _ _ i2
    · have e := Nearest.nearest_of_format hρ fH
      have e' := Nearest.nearest_of_format hρ (Nearest.sterbenz (hr d).1 fL i2.le (hr d).2)
      simp only [i1, if_true, e, gt_iff_lt, i2, e']
      refine hkeep _ _ ?_
      rcases i3 with i3 | ⟨a0, a1, a2⟩
      · exact Or.inl i3
      · exact Or.inr ⟨a0, by linarith, a2⟩

/-- Rounding to the nearest whole number, and to the even one in the middle, as in IEEE 754. -/
def toEven (q : ℚ) : ℤ :=
  if q - ⌊q⌋ < 1 / 2 then ⌊q⌋ else if q - ⌊q⌋ > 1 / 2 then ⌊q⌋ + 1 else if ⌊q⌋ % 2 = 0 then ⌊q⌋ else ⌊q⌋ + 1

/-- C138. The rounding of IEEE 754 is one of those the theorems are about. -/
theorem c138_toEven : ToNearest toEven := by
  intro q
  have h1 := Int.floor_le q
  have h2 := Int.lt_floor_add_one q
  unfold toEven
  rw [abs_le]
  split_ifs <;> push_cast <;> constructor <;> linarith

/-- C138. Through the upper side of the box the margin is needed: in double precision, a region that ends just above the
box does not select the cell of a particle inside it, because the sum of the position and the box is rounded to the end of
the region. -/
theorem c138_above_fails :
    ∃ (x : ℚ) (c : Cell ℚ) (reg : Fin 3 → ℚ × ℚ),
      (∀ d, (reg d).1 < x + 1 ∧ x + 1 < (reg d).2) ∧ (∀ d, c.lo d ≤ x ∧ x ≤ c.hi d) ∧ InFormat 53 (-1074) x ∧
      cellMask (nearest 53 (-1074) toEven) (fun _ => 1) reg [c] = .ok [false] := by
  refine ⟨3 / 2 ^ 54, ⟨0, 1, fun _ => 3 / 2 ^ 54, fun _ => 3 / 2 ^ 54⟩, fun _ => (1 / 2, 1 + 1 / 2 ^ 52), ?_, ?_, ?_, ?_⟩
  · intro d; constructor <;> norm_num
  · intro d; exact ⟨le_rfl, le_rfl⟩
  · exact ⟨3, -54, by norm_num, by norm_num, by norm_num⟩
  · decide +kernel

/-- C138. The same for an inverted interval that starts in the lower half of the box. -/
theorem c138_inverted_fails :
    ∃ (x : ℚ) (c : Cell ℚ) (reg : Fin 3 → ℚ × ℚ),
      (∀ d, (reg d).2 < (reg d).1 ∧ (reg d).1 < x + 1 ∧ x < (reg d).2) ∧ (∀ d, c.lo d ≤ x ∧ x ≤ c.hi d) ∧
      InFormat 53 (-1074) x ∧ cellMask (nearest 53 (-1074) toEven) (fun _ => 1) reg [c] = .ok [false] := by
  refine ⟨3 / 2 ^ 54, ⟨0, 1, fun _ => 3 / 2 ^ 54, fun _ => 3 / 2 ^ 54⟩, fun _ => (1 / 4, 1 / 2 ^ 52), ?_, ?_, ?_, ?_⟩
  · intro d; refine ⟨?_, ?_, ?_⟩ <;> norm_num
  · intro d; exact ⟨le_rfl, le_rfl⟩
  · exact ⟨3, -54, by norm_num, by norm_num, by norm_num⟩
  · decide +kernel

/-- worked example in double precision: an interval through the upper side of a box of length 1 selects the first cell, as
the particle at 1/16 requires, and not the second; the same interval written inverted gives the same mask -/
example : cellMask (nearest 53 (-1074) toEven) (fun _ => 1) (fun _ => (3 / 4, 9 / 8))
      [⟨0, 1, fun _ => 1 / 32, fun _ => 1 / 4⟩, ⟨1, 1, fun _ => 1 / 2, fun _ => 5 / 8⟩] = .ok [true, false] ∧
    cellMask (nearest 53 (-1074) toEven) (fun _ => 1) (fun _ => (3 / 4, 1 / 8))
      [⟨0, 1, fun _ => 1 / 32, fun _ => 1 / 4⟩, ⟨1, 1, fun _ => 1 / 2, fun _ => 5 / 8⟩] = .ok [true, false] ∧
    WellInside (1 / 2 ^ 49) (1 : ℚ) (3 / 4) (9 / 8) (1 / 16) ∧ InFormat 53 (-1074) 1 ∧
    InsideBelow 1 (3 / 4) (1 / 8) (1 / 16) := by
  refine ⟨by decide +kernel, by decide +kernel, ⟨1, by norm_num, by norm_num⟩, ⟨1, 0, by norm_num, by norm_num, by norm_num⟩,
    Or.inr ⟨by norm_num, by norm_num, Or.inl ⟨by norm_num, by norm_num⟩⟩⟩

/-- the rounding of double precision meets what is assumed of a rounding, with an error of `2 ^ -50` -/
example : Rounding (nearest 53 (-1074) toEven) 1 (2 ^ ((3 : ℤ) - (53 : ℕ))) :=
  c138_nearest 53 (by norm_num) (-1074) 3 (by norm_num) toEven c138_toEven 1 ⟨1, 0, by norm_num, by norm_num, by norm_num⟩
    (by norm_num) (by norm_num)

end Verif.Props
