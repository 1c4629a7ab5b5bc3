import Verif.Model.CmapsHsv
import Verif.Spec.Hues
import Verif.Props.Cmaps

/-!
# C90: colour maps that mix hues, colour maps from images, kept grids
-/

namespace Verif.Props
open Verif Verif.Scatter Verif.Cmaps Verif.Spec

private theorem wedge_shift (n y : ℝ) : wedge (n + 6 * Int.fract y) = wedge (n + 6 * y) := by
  have e : Int.fract ((n + 6 * Int.fract y) / 6) = Int.fract ((n + 6 * y) / 6) := by
    rw [Int.fract_eq_fract]
    refine ⟨-⌊y⌋, ?_⟩
    have := Int.fract_add_floor y
    push_cast
    linarith
  unfold wedge
  rw [e]

private theorem wedge_at {x k : ℝ} (m : Int) (hx : x = k + 6 * m) (h0 : 0 ≤ k) (h6 : k ≤ 6) :
    wedge x = max 0 (min 1 (min k (4 - k))) := by
  have e : x / 6 = k / 6 + m := by rw [hx]; ring
  unfold wedge
  rw [e, Int.fract_add_intCast]
  rcases lt_or_eq_of_le h6 with h | h
  · rw [Int.fract_eq_self.2 ⟨by positivity, by linarith⟩]
    congr 3 <;> ring_nf
  · subst h
    have : Int.fract ((6 : ℝ) / 6) = 0 := by norm_num
    rw [this]
    norm_num

private theorem wedge_zero {x k : ℝ} (m : Int) (hx : x = k + 6 * m) (h0 : 4 ≤ k) (h6 : k ≤ 6) : wedge x = 0 := by
  rw [wedge_at m hx (by linarith) h6]
  apply max_eq_left
  exact (min_le_right _ _).trans ((min_le_right _ _).trans (by linarith))

private theorem wedge_one {x k : ℝ} (m : Int) (hx : x = k + 6 * m) (h0 : 1 ≤ k) (h6 : k ≤ 3) : wedge x = 1 := by
  rw [wedge_at m hx (by linarith) (by linarith), min_eq_left (le_min h0 (by linarith)), max_eq_right zero_le_one]

private theorem wedge_up {x k : ℝ} (m : Int) (hx : x = k + 6 * m) (h0 : 0 ≤ k) (h6 : k ≤ 1) : wedge x = k := by
  rw [wedge_at m hx (by linarith) (by linarith), min_eq_left (by linarith : k ≤ 4 - k), min_eq_right h6, max_eq_right h0]

private theorem wedge_down {x k : ℝ} (m : Int) (hx : x = k + 6 * m) (h0 : 3 ≤ k) (h6 : k ≤ 4) : wedge x = 4 - k := by
  rw [wedge_at m hx (by linarith) (by linarith), min_eq_right (by linarith : 4 - k ≤ k), min_eq_right (by linarith), max_eq_right (by linarith)]

private theorem wedge_range (x : ℝ) : 0 ≤ wedge x ∧ wedge x ≤ 1 :=
  ⟨le_max_left _ _, max_le zero_le_one (min_le_left _ _)⟩

/-- The three parts of the wedge in each sixth. -/
private theorem wedge_sixths {h : ℝ} (h0 : 0 ≤ h) (h1 : h < 1) :
    ∃ (i : Int) (f : ℝ), i = ⌊h * 6⌋ ∧ f = h * 6 - i ∧ 0 ≤ f ∧ f < 1 ∧
      ((i = 0 ∧ wedge (5 + 6 * h) = 0 ∧ wedge (3 + 6 * h) = 1 - f ∧ wedge (1 + 6 * h) = 1) ∨
       (i = 1 ∧ wedge (5 + 6 * h) = f ∧ wedge (3 + 6 * h) = 0 ∧ wedge (1 + 6 * h) = 1) ∨
       (i = 2 ∧ wedge (5 + 6 * h) = 1 ∧ wedge (3 + 6 * h) = 0 ∧ wedge (1 + 6 * h) = 1 - f) ∨
       (i = 3 ∧ wedge (5 + 6 * h) = 1 ∧ wedge (3 + 6 * h) = f ∧ wedge (1 + 6 * h) = 0) ∨
       (i = 4 ∧ wedge (5 + 6 * h) = 1 - f ∧ wedge (3 + 6 * h) = 1 ∧ wedge (1 + 6 * h) = 0) ∨
       (i = 5 ∧ wedge (5 + 6 * h) = 0 ∧ wedge (3 + 6 * h) = 1 ∧ wedge (1 + 6 * h) = f)) := by
  have a := Int.floor_le (h * 6)
  have b := Int.lt_floor_add_one (h * 6)
  have c : 0 ≤ ⌊h * 6⌋ := Int.floor_nonneg.2 (by linarith)
  have d : ⌊h * 6⌋ < 6 := Int.floor_lt.2 (by push_cast; linarith)
  refine ⟨⌊h * 6⌋, h * 6 - ⌊h * 6⌋, rfl, rfl, by linarith, by linarith, ?_⟩
  generalize ⌊h * 6⌋ = i at a b c d
  have : i = 0 ∨ i = 1 ∨ i = 2 ∨ i = 3 ∨ i = 4 ∨ i = 5 := by omega
  rcases this with rfl | rfl | rfl | rfl | rfl | rfl <;> push_cast at a b ⊢
  · left
    refine ⟨trivial, wedge_zero (k := 5 + 6 * h) 0 (by push_cast; ring) (by linarith) (by linarith), ?_, wedge_one (k := 1 + 6 * h) 0 (by push_cast; ring) (by linarith) (by linarith)⟩
    rw [wedge_down (k := 3 + 6 * h) 0 (by push_cast; ring) (by linarith) (by linarith)]; ring
  · right; left
    refine ⟨trivial, ?_, wedge_zero (k := 3 + 6 * h) 0 (by push_cast; ring) (by linarith) (by linarith), wedge_one (k := 1 + 6 * h) 0 (by push_cast; ring) (by linarith) (by linarith)⟩
    rw [wedge_up (k := 6 * h - 1) 1 (by push_cast; ring) (by linarith) (by linarith)]; ring
  · right; right; left
    refine ⟨trivial, wedge_one (k := 6 * h - 1) 1 (by push_cast; ring) (by linarith) (by linarith), wedge_zero (k := 3 + 6 * h) 0 (by push_cast; ring) (by linarith) (by linarith), ?_⟩
    rw [wedge_down (k := 1 + 6 * h) 0 (by push_cast; ring) (by linarith) (by linarith)]; ring
  · right; right; right; left
    refine ⟨trivial, wedge_one (k := 6 * h - 1) 1 (by push_cast; ring) (by linarith) (by linarith), ?_, wedge_zero (k := 1 + 6 * h) 0 (by push_cast; ring) (by linarith) (by linarith)⟩
    rw [wedge_up (k := 6 * h - 3) 1 (by push_cast; ring) (by linarith) (by linarith)]; ring
  · right; right; right; right; left
    refine ⟨trivial, ?_, wedge_one (k := 6 * h - 3) 1 (by push_cast; ring) (by linarith) (by linarith), wedge_zero (k := 1 + 6 * h) 0 (by push_cast; ring) (by linarith) (by linarith)⟩
    rw [wedge_down (k := 6 * h - 1) 1 (by push_cast; ring) (by linarith) (by linarith)]; ring
  · right; right; right; right; right
    refine ⟨trivial, wedge_zero (k := 6 * h - 1) 1 (by push_cast; ring) (by linarith) (by linarith), wedge_one (k := 6 * h - 3) 1 (by push_cast; ring) (by linarith) (by linarith), ?_⟩
    rw [wedge_up (k := 6 * h - 5) 1 (by push_cast; ring) (by linarith) (by linarith)]; ring

/-- C90: the colour of every hue in `[0, 1)`, whatever was in memory. -/
theorem c90_colour (memory : ℝ × ℝ × ℝ) {h : ℝ} (h0 : 0 ≤ h) (h1 : h < 1) (s v : ℝ) : hsvToRgb memory h s v = colourOf h s v := by
  obtain ⟨i, f, hi, hf, f0, f1, hc⟩ := wedge_sixths h0 h1
  have ht : trunc (h * 6) = i := by rw [hi]; exact if_pos (by linarith)
  unfold hsvToRgb colourOf
  dsimp only
  rw [ht, ← hf]
  by_cases hs : s = 0
  · simp [hs]
  · rw [if_neg hs]
    rcases hc with ⟨rfl, a, b, c⟩ | ⟨rfl, a, b, c⟩ | ⟨rfl, a, b, c⟩ | ⟨rfl, a, b, c⟩ | ⟨rfl, a, b, c⟩ | ⟨rfl, a, b, c⟩ <;>
      rw [a, b, c] <;> norm_num <;> (try constructor) <;> ring

private theorem ends {h : ℝ} (h0 : 0 ≤ h) (h1 : h < 1) (v : ℝ) {P : ℝ} (hP : 0 ≤ P) {r g b : ℝ} (hr : v - P * wedge (5 + 6 * h) = r)
    (hg : v - P * wedge (3 + 6 * h) = g) (hb : v - P * wedge (1 + 6 * h) = b) :
    max r (max g b) = v ∧ min r (min g b) = v - P := by
  obtain ⟨i, f, -, -, f0, f1, hc⟩ := wedge_sixths h0 h1
  have b1 := mul_nonneg hP f0
  have b2 := mul_nonneg hP (sub_nonneg.2 f1.le)
  subst hr hg hb
  rcases hc with ⟨-, a, b, c⟩ | ⟨-, a, b, c⟩ | ⟨-, a, b, c⟩ | ⟨-, a, b, c⟩ | ⟨-, a, b, c⟩ | ⟨-, a, b, c⟩ <;> rw [a, b, c] <;>
    refine ⟨le_antisymm (max_le (by linarith) (max_le (by linarith) (by linarith))) ?_,
      le_antisymm ?_ (le_min (by linarith) (le_min (by linarith) (by linarith)))⟩ <;>
    simp only [le_max_iff, min_le_iff, mul_zero, mul_one, sub_zero, le_refl, true_or, or_true]

/-- C90: a colour has at most one hue, saturation and value. -/
theorem c90_unique {rgb p q : ℝ × ℝ × ℝ} (hp : IsHsv rgb p) (hq : IsHsv rgb q) : p = q := by
  obtain ⟨h, s, v⟩ := p
  obtain ⟨h', s', v'⟩ := q
  obtain ⟨r, g, b⟩ := rgb
  obtain ⟨a0, a1, a2, a3, a4, a5, a6, ec⟩ := hp
  obtain ⟨b0, b1, b2, b3, b4, b5, b6, ed⟩ := hq
  dsimp only at *
  obtain ⟨i, f, hi, hf, f0, f1, hc⟩ := wedge_sixths a0 a1
  obtain ⟨j, f', hj, hf', f0', f1', hd⟩ := wedge_sixths b0 b1
  simp only [colourOf, Prod.mk.injEq] at ec ed
  obtain ⟨c1, c2, c3⟩ := ec
  obtain ⟨d1, d2, d3⟩ := ed
  have hp0 : 0 ≤ v * s := mul_nonneg a4 a2
  have hq0 : 0 ≤ v' * s' := mul_nonneg b4 b2
  generalize hP : v * s = P at *
  generalize hQ : v' * s' = Q at *
  have key : v = v' ∧ P = Q ∧ (P ≠ 0 → h = h') := by
    have e1 := ends a0 a1 v hp0 c1 c2 c3
    have e2 := ends b0 b1 v' hq0 d1 d2 d3
    have hv : v = v' := e1.1.symm.trans e2.1
    have hPQ : P = Q := by linarith [e1.2, e2.2]
    refine ⟨hv, hPQ, fun hne => ?_⟩
    subst hv hPQ
    have w1 : wedge (5 + 6 * h) = wedge (5 + 6 * h') := mul_left_cancel₀ hne (by linarith)
    have w2 : wedge (3 + 6 * h) = wedge (3 + 6 * h') := mul_left_cancel₀ hne (by linarith)
    have w3 : wedge (1 + 6 * h) = wedge (1 + 6 * h') := mul_left_cancel₀ hne (by linarith)
    clear c1 c2 c3 d1 d2 d3 e1 e2 hi hj
    rcases hc with ⟨rfl, x1, x2, x3⟩ | ⟨rfl, x1, x2, x3⟩ | ⟨rfl, x1, x2, x3⟩ | ⟨rfl, x1, x2, x3⟩ | ⟨rfl, x1, x2, x3⟩ | ⟨rfl, x1, x2, x3⟩ <;>
      rcases hd with ⟨rfl, y1, y2, y3⟩ | ⟨rfl, y1, y2, y3⟩ | ⟨rfl, y1, y2, y3⟩ | ⟨rfl, y1, y2, y3⟩ | ⟨rfl, y1, y2, y3⟩ | ⟨rfl, y1, y2, y3⟩ <;>
      rw [x1, y1] at w1 <;> rw [x2, y2] at w2 <;> rw [x3, y3] at w3 <;> push_cast at hf hf' <;> linarith
  obtain ⟨rfl, rfl, hh⟩ := key
  have hs : s = s' := by
    by_cases hv : v = 0
    · rw [a5 hv, b5 hv]
    · exact mul_left_cancel₀ hv (hP.trans hQ.symm)
  subst hs
  by_cases hs0 : s = 0
  · rw [a6 hs0, b6 hs0]
  · by_cases hv : v = 0
    · exact absurd (a5 hv) hs0
    · rw [hh (by rw [← hP]; exact mul_ne_zero hv hs0)]

private theorem wedge_period (x : ℝ) : wedge (x + 6) = wedge x := by
  have : Int.fract ((x + 6) / 6) = Int.fract (x / 6) := by
    rw [show (x + 6) / 6 = x / 6 + 1 by ring, Int.fract_add_one]
  unfold wedge
  rw [this]

/-- The channels after the largest one. -/
private theorem lead {top low y z : ℝ} (hd : 0 < top - low) (hy : low ≤ y ∧ y ≤ top) (hz : low ≤ z ∧ z ≤ top) (hl : y = low ∨ z = low) :
    top - (top - low) * wedge (5 + (y - z) / (top - low)) = top ∧ top - (top - low) * wedge (3 + (y - z) / (top - low)) = y ∧
      top - (top - low) * wedge (1 + (y - z) / (top - low)) = z := by
  set u := (y - z) / (top - low) with hu
  have e : (top - low) * u = y - z := by rw [hu]; field_simp
  have u1 : u ≤ 1 := by rw [hu, div_le_one hd]; linarith
  have u2 : -1 ≤ u := by rw [hu, le_div_iff₀ hd]; linarith
  rw [wedge_zero (k := 5 + u) 0 (by push_cast; ring) (by linarith) (by linarith)]
  refine ⟨by ring, ?_⟩
  rcases hl with h | h
  · have u3 : u ≤ 0 := div_nonpos_of_nonpos_of_nonneg (by linarith) hd.le
    rw [wedge_one (k := 3 + u) 0 (by push_cast; ring) (by linarith) (by linarith),
      wedge_up (k := 1 + u) 0 (by push_cast; ring) (by linarith) (by linarith)]
    constructor
    · linarith
    · rw [mul_add, e]; linarith
  · have u3 : 0 ≤ u := div_nonneg (by linarith) hd.le
    rw [wedge_down (k := 3 + u) 0 (by push_cast; ring) (by linarith) (by linarith),
      wedge_one (k := 1 + u) 0 (by push_cast; ring) (by linarith) (by linarith)]
    constructor
    · rw [show 4 - (3 + u) = 1 - u by ring, mul_sub, e]; linarith
    · linarith

/-- C90: every colour with channels in `[0, 1]` is taken apart into its hue, saturation and value. -/
theorem c90_taken_apart {r g b : ℝ} (hr : 0 ≤ r ∧ r ≤ 1) (hg : 0 ≤ g ∧ g ≤ 1) (hb : 0 ≤ b ∧ b ≤ 1) :
    ∃ hsv, rgbToHsv r g b = .ok hsv ∧ IsHsv (r, g, b) hsv ∧ hsv.2.2 = max r (max g b) := by
  set top := max r (max g b) with htop
  set low := min r (min g b) with hlow
  have t1 : r ≤ top := le_max_left _ _
  have t2 : g ≤ top := (le_max_left _ _).trans (le_max_right _ _)
  have t3 : b ≤ top := (le_max_right _ _).trans (le_max_right _ _)
  have l1 : low ≤ r := min_le_left _ _
  have l2 : low ≤ g := (min_le_right _ _).trans (min_le_left _ _)
  have l3 : low ≤ b := (min_le_right _ _).trans (min_le_right _ _)
  have t4 : top ≤ 1 := max_le hr.2 (max_le hg.2 hb.2)
  have l4 : 0 ≤ low := le_min hr.1 (le_min hg.1 hb.1)
  have te : r = top ∨ g = top ∨ b = top := by
    rcases max_choice r (max g b) with h | h
    · left; rw [htop, h]
    · rcases max_choice g b with h' | h'
      · right; left; rw [htop, h, h']
      · right; right; rw [htop, h, h']
  have le : r = low ∨ g = low ∨ b = low := by
    rcases min_choice r (min g b) with h | h
    · left; rw [hlow, h]
    · rcases min_choice g b with h' | h'
      · right; left; rw [hlow, h, h']
      · right; right; rw [hlow, h, h']
  unfold rgbToHsv
  dsimp only
  rw [← htop, ← hlow, if_neg (not_lt.2 t4), if_neg (not_lt.2 l4)]
  refine ⟨_, rfl, ?_, rfl⟩
  clear_value top low
  rcases eq_or_lt_of_le (show low ≤ top by linarith) with hd | hd
  · -- grey
    have e1 : r = top := by linarith
    have e2 : g = top := by linarith
    have e3 : b = top := by linarith
    have hz : top - low = 0 := by linarith
    simp only [hz, lt_irrefl, and_false, if_false, zero_div, Int.fract_zero, ite_self]
    refine ⟨le_rfl, one_pos, le_rfl, zero_le_one, by linarith, fun _ => rfl, fun _ => rfl, ?_⟩
    simp [colourOf, e1, e2, e3]
  · have ht : 0 < top := by linarith
    have hδ : 0 < top - low := by linarith
    set c := if b = top ∧ 0 < top - low then 4 + (r - g) / (top - low)
      else if g = top ∧ 0 < top - low then 2 + (b - r) / (top - low)
      else if r = top ∧ 0 < top - low then (g - b) / (top - low) else 0 with hc
    rw [if_pos ht]
    have hs : top * ((top - low) / top) = top - low := by field_simp
    refine ⟨Int.fract_nonneg _, Int.fract_lt_one _, by positivity, ?_, ht.le, fun h => absurd h ht.ne', fun h => ?_, ?_⟩
    · rw [div_le_one ht]; linarith
    · exact absurd h (div_pos hδ ht).ne'
    · dsimp only [colourOf]
      rw [hs, wedge_shift, wedge_shift, wedge_shift]
      have e6 : 6 * (c / 6) = c := by ring
      rw [e6]
      by_cases hb' : b = top
      · rw [hc, if_pos ⟨hb', hδ⟩]
        obtain ⟨o1, o2, o3⟩ := lead (y := r) (z := g) hδ ⟨l1, t1⟩ ⟨l2, t2⟩ (by
          rcases le with h | h | h
          · exact .inl h
          · exact .inr h
          · exact absurd (hb'.symm.trans h) hd.ne')
        rw [show 5 + (4 + (r - g) / (top - low)) = 3 + (r - g) / (top - low) + 6 by ring,
          show 3 + (4 + (r - g) / (top - low)) = 1 + (r - g) / (top - low) + 6 by ring,
          show 1 + (4 + (r - g) / (top - low)) = 5 + (r - g) / (top - low) by ring, wedge_period, wedge_period, o1, o2, o3, hb']
      · rw [if_neg (fun h => hb' h.1)] at hc
        by_cases hg' : g = top
        · rw [hc, if_pos ⟨hg', hδ⟩]
          obtain ⟨o1, o2, o3⟩ := lead (y := b) (z := r) hδ ⟨l3, t3⟩ ⟨l1, t1⟩ (by
            rcases le with h | h | h
            · exact .inr h
            · exact absurd (hg'.symm.trans h) hd.ne'
            · exact .inl h)
          rw [show 5 + (2 + (b - r) / (top - low)) = 1 + (b - r) / (top - low) + 6 by ring,
            show 3 + (2 + (b - r) / (top - low)) = 5 + (b - r) / (top - low) by ring,
            show 1 + (2 + (b - r) / (top - low)) = 3 + (b - r) / (top - low) by ring, wedge_period, o1, o2, o3, hg']
        · have hr' : r = top := by tauto
          rw [if_neg (fun h => hg' h.1), if_pos ⟨hr', hδ⟩] at hc
          rw [hc]
          obtain ⟨o1, o2, o3⟩ := lead (y := g) (z := b) hδ ⟨l2, t2⟩ ⟨l3, t3⟩ (by
            rcases le with h | h | h
            · exact absurd (hr'.symm.trans h) hd.ne'
            · exact .inl h
            · exact .inr h)
          rw [o1, o2, o3, hr']

/-- C90: other channels raise. -/
theorem c90_refused {r g b : ℝ} (h : ¬((0 ≤ r ∧ r ≤ 1) ∧ (0 ≤ g ∧ g ≤ 1) ∧ (0 ≤ b ∧ b ≤ 1))) : rgbToHsv r g b = .error .value := by
  unfold rgbToHsv
  dsimp only
  by_cases h1 : 1 < max r (max g b)
  · rw [if_pos h1]
  · rw [if_neg h1, if_pos]
    by_contra h2
    push Not at h1 h2
    have a := max_le_iff.1 h1
    have b := max_le_iff.1 a.2
    have c := le_min_iff.1 h2
    have d := le_min_iff.1 c.2
    exact h ⟨⟨c.1, a.1⟩, ⟨d.1, b.1⟩, ⟨d.2, b.2⟩⟩

/-! ## The map -/

/-- The colour at a place of a map that mixes hues. Hue, saturation, value and opacity are means of those of the anchors, weighted
by nearness, over 1.0001. -/
def IsHueBlend (anchors : List (List ℝ × ℝ × ℝ)) (p : ℝ × ℝ) (c : Color) : Prop :=
  ∃ (hsv : List ℝ → ℝ × ℝ × ℝ) (h s v a : ℝ),
    (∀ x ∈ anchors, IsHsv (channel x.1 0, channel x.1 1, channel x.1 2) (hsv x.1)) ∧
    h * (10001 / 10000) * (anchors.map fun x => nearness p x.2).sum = (anchors.map fun x => nearness p x.2 * (hsv x.1).1).sum ∧
    s * (10001 / 10000) * (anchors.map fun x => nearness p x.2).sum = (anchors.map fun x => nearness p x.2 * (hsv x.1).2.1).sum ∧
    v * (10001 / 10000) * (anchors.map fun x => nearness p x.2).sum = (anchors.map fun x => nearness p x.2 * (hsv x.1).2.2).sum ∧
    a * (10001 / 10000) * (anchors.map fun x => nearness p x.2).sum = (anchors.map fun x => nearness p x.2 * channel x.1 3).sum ∧
    c = [some (colourOf h s v).1, some (colourOf h s v).2.1, some (colourOf h s v).2.2, some a]

private theorem weight_near (p : ℝ × ℝ) (q : ℝ × ℝ) : weight p.1 p.2 q = nearness p q := by
  unfold weight nearness
  rw [sq, sq]

private theorem near_nonneg (p q : ℝ × ℝ) : 0 ≤ nearness p q := le_max_right _ _

private theorem sum_near_nonneg (anchors : List (List ℝ × ℝ × ℝ)) (p : ℝ × ℝ) : 0 ≤ (anchors.map fun a => nearness p a.2).sum :=
  List.sum_nonneg (by intro x hx; obtain ⟨b, _, rfl⟩ := List.mem_map.1 hx; exact near_nonneg _ _)

private theorem sum_near_pos {anchors : List (List ℝ × ℝ × ℝ)} {p : ℝ × ℝ} (h : ∃ a ∈ anchors, nearness p a.2 ≠ 0) :
    0 < (anchors.map fun a => nearness p a.2).sum := by
  obtain ⟨a, ha, hne⟩ := h
  have h1 : nearness p a.2 ≤ (anchors.map fun a => nearness p a.2).sum :=
    List.single_le_sum (by intro x hx; obtain ⟨b, _, rfl⟩ := List.mem_map.1 hx; exact near_nonneg _ _) _ (List.mem_map_of_mem ha)
  exact lt_of_lt_of_le (lt_of_le_of_ne (near_nonneg _ _) (Ne.symm hne)) h1

private theorem mean_range {anchors : List (List ℝ × ℝ × ℝ)} {p : ℝ × ℝ} (h : ∃ a ∈ anchors, nearness p a.2 ≠ 0) {f : List ℝ × ℝ × ℝ → ℝ}
    (hf : ∀ a ∈ anchors, 0 ≤ f a ∧ f a ≤ 1) {x : ℝ}
    (e : x * (10001 / 10000) * (anchors.map fun a => nearness p a.2).sum = (anchors.map fun a => nearness p a.2 * f a).sum) :
    0 ≤ x ∧ x < 1 := by
  have hs := sum_near_pos h
  have b1 : 0 ≤ (anchors.map fun a => nearness p a.2 * f a).sum := List.sum_nonneg (by
    intro z hz
    obtain ⟨a, ha, rfl⟩ := List.mem_map.1 hz
    exact mul_nonneg (near_nonneg _ _) (hf a ha).1)
  have b2 : (anchors.map fun a => nearness p a.2 * f a).sum ≤ (anchors.map fun a => nearness p a.2).sum :=
    List.sum_le_sum (fun a ha => mul_le_of_le_one_right (near_nonneg _ _) (hf a ha).2)
  rw [← e] at b1 b2
  constructor
  · by_contra hx
    push Not at hx
    have : x * (10001 / 10000) * (anchors.map fun a => nearness p a.2).sum < 0 := mul_neg_of_neg_of_pos (by linarith) hs
    linarith
  · by_contra hx
    push Not at hx
    have : 1 < x * (10001 / 10000) := by linarith
    nlinarith

/-- The hue, saturation and value the code finds for a colour. -/
private noncomputable def found (c : List ℝ) : ℝ × ℝ × ℝ :=
  match rgbToHsv (channel c 0) (channel c 1) (channel c 2) with
  | .ok x => x
  | .error _ => (0, 0, 0)

private theorem mapM_ok {α β : Type} {f : α → Except Err β} {g : α → β} : ∀ l : List α, (∀ x ∈ l, f x = .ok (g x)) → l.mapM f = .ok (l.map g) := by
  intro l
  induction l with
  | nil => intro _; rfl
  | cons a l ih =>
    intro h
    rw [List.mapM_cons, h a (by simp), ih (fun x hx => h x (by simp [hx]))]
    rfl

private theorem rgba_getD {color : List ℝ} (h : color.length ≤ 4) :
    ∃ l, ensureRgba color = .ok l ∧ ∀ k < 4, l.getD k 0 = channel color k := by
  refine ⟨_, if_pos h, ?_⟩
  intro k hk
  rw [List.getD_eq_getElem?_getD, List.getElem?_map, List.getElem?_range hk, Option.map_some, Option.getD_some, List.getD_eq_getElem?_getD]
  unfold channel
  by_cases hk : k < color.length
  · rw [List.getElem?_eq_getElem hk, Option.getD_some, dif_pos hk]
  · rw [List.getElem?_eq_none (by omega), Option.getD_none, dif_neg hk]

/-- A colour that can be taken apart: at most four channels, red, green and blue in `[0, 1]`. -/
def Plain (color : List ℝ) : Prop := color.length ≤ 4 ∧ ∀ k < 3, 0 ≤ channel color k ∧ channel color k ≤ 1

private theorem anchor_found {color : List ℝ} (h : Plain color) :
    hsvAnchor color = .ok (found color, channel color 3) ∧ IsHsv (channel color 0, channel color 1, channel color 2) (found color) := by
  obtain ⟨l, hl, hk⟩ := rgba_getD h.1
  obtain ⟨x, hx, hi, -⟩ := c90_taken_apart (h.2 0 (by norm_num)) (h.2 1 (by norm_num)) (h.2 2 (by norm_num))
  have hf : found color = x := by unfold found; rw [hx]
  refine ⟨?_, hf ▸ hi⟩
  unfold hsvAnchor
  rw [hl]
  simp only [bind, Except.bind]
  rw [hk 0 (by norm_num), hk 1 (by norm_num), hk 2 (by norm_num), hk 3 (by norm_num), hx, hf]
  rfl

private theorem grid_found {n : Nat} (memory : Int → Int → ℝ × ℝ × ℝ) {anchors : List (List ℝ × ℝ × ℝ)} (ha : ∀ a ∈ anchors, Plain a.1) :
    hsvGrid n memory (anchors.map Prod.fst) (anchors.map Prod.snd) =
      .ok (hsvCell n memory (anchors.map fun a => ((found a.1, channel a.1 3), a.2))) := by
  have h1 : (anchors.map Prod.fst).mapM hsvAnchor = .ok ((anchors.map Prod.fst).map fun c => (found c, channel c 3)) :=
    mapM_ok _ (by intro c hc; obtain ⟨a, h, rfl⟩ := List.mem_map.1 hc; exact (anchor_found (ha a h)).1)
  unfold hsvGrid
  rw [h1]
  simp only [bind, Except.bind]
  rw [List.map_map, List.zip_map']
  rfl

private theorem cell_length (n : Nat) (memory : Int → Int → ℝ × ℝ × ℝ) (anchors : List (((ℝ × ℝ × ℝ) × ℝ) × ℝ × ℝ)) (i j : Int) :
    (hsvCell n memory anchors i j).length = 4 := by
  unfold hsvCell
  dsimp only
  split <;> rfl

private theorem cell_far {n : Nat} (memory : Int → Int → ℝ × ℝ × ℝ) {anchors : List (List ℝ × ℝ × ℝ)} {i j : Int}
    (h : ∀ a ∈ anchors, nearness ((j : ℝ) / ((n : ℝ) - 1), (i : ℝ) / ((n : ℝ) - 1)) a.2 = 0) :
    hsvCell n memory (anchors.map fun a => ((found a.1, channel a.1 3), a.2)) i j =
      [some (memory i j).1, some (memory i j).2.1, some (memory i j).2.2, none] := by
  unfold hsvCell
  dsimp only
  rw [if_pos]
  rw [List.map_map]
  have : anchors.map ((fun a => weight ((j : ℝ) / ((n : ℝ) - 1)) ((i : ℝ) / ((n : ℝ) - 1)) a.2) ∘
      fun a : List ℝ × ℝ × ℝ => ((found a.1, channel a.1 3), a.2)) = anchors.map fun _ => 0 :=
    List.map_congr_left (fun a ha => (weight_near _ _).trans (h a ha))
  rw [this]
  simp

private theorem cell_blend {n : Nat} (memory : Int → Int → ℝ × ℝ × ℝ) {anchors : List (List ℝ × ℝ × ℝ)} (ha : ∀ a ∈ anchors, Plain a.1)
    {i j : Int} (h : ∃ a ∈ anchors, nearness ((j : ℝ) / ((n : ℝ) - 1), (i : ℝ) / ((n : ℝ) - 1)) a.2 ≠ 0) :
    IsHueBlend anchors ((j : ℝ) / ((n : ℝ) - 1), (i : ℝ) / ((n : ℝ) - 1))
      (hsvCell n memory (anchors.map fun a => ((found a.1, channel a.1 3), a.2)) i j) := by
  have hs := sum_near_pos h
  set p : ℝ × ℝ := ((j : ℝ) / ((n : ℝ) - 1), (i : ℝ) / ((n : ℝ) - 1)) with hp
  set W := (anchors.map fun a => nearness p a.2).sum with hW
  have e0 : ((anchors.map fun a => ((found a.1, channel a.1 3), a.2)).map
      fun a => weight ((j : ℝ) / ((n : ℝ) - 1)) ((i : ℝ) / ((n : ℝ) - 1)) a.2).sum = W := by
    rw [List.map_map, hW]
    congr 1
    exact List.map_congr_left (fun a _ => weight_near p a.2)
  have e1 : ∀ f : ((ℝ × ℝ × ℝ) × ℝ) → ℝ, ((anchors.map fun a => ((found a.1, channel a.1 3), a.2)).map
      fun a => f a.1 * weight ((j : ℝ) / ((n : ℝ) - 1)) ((i : ℝ) / ((n : ℝ) - 1)) a.2).sum =
      (anchors.map fun a => nearness p a.2 * f (found a.1, channel a.1 3)).sum := by
    intro f
    rw [List.map_map]
    congr 1
    apply List.map_congr_left
    intro a _
    have := weight_near p a.2
    simp only [hp] at this
    simp only [Function.comp_def, this, hp]
    ring
  have e2 : ∀ x : ℝ, x / (W * (10001 / 10000)) * (10001 / 10000) * W = x := by
    intro x
    field_simp
  refine ⟨found, _, _, _, _, fun x hx => (anchor_found (ha x hx)).2, e2 _, e2 _, e2 _, e2 _, ?_⟩
  unfold hsvCell
  dsimp only
  rw [e0, if_neg hs.ne', e1 (fun a => a.1.1), e1 (fun a => a.1.2.1), e1 (fun a => a.1.2.2), e1 (fun a => a.2)]
  have hr := mean_range h (f := fun a => (found a.1).1) (x := (anchors.map fun a => nearness p a.2 * (found a.1).1).sum / (W * (10001 / 10000)))
    (fun a ha' => ⟨(anchor_found (ha a ha')).2.1, (anchor_found (ha a ha')).2.2.1.le⟩) (e2 _)
  rw [c90_colour _ hr.1 hr.2]

/-- C90: every value pair has a colour. Near some anchor it is the blend of the anchors at its cell, in hue, saturation, value and
opacity. The place of the cell has the second value along the first coordinate of the anchors, as in `c48_linear`. -/
theorem c90_map {n : Nat} (hn : 0 < n) (memory : Int → Int → ℝ × ℝ × ℝ) (anchors : List (List ℝ × ℝ × ℝ)) (ha : ∀ a ∈ anchors, Plain a.1)
    (junk : Nat → ℝ) (shape : List Nat) (hs vs : List ℝ) (hl : hs.length = vs.length) :
    ∃ out, hues n memory (anchors.map Prod.fst) (anchors.map Prod.snd) junk (.array shape hs) (.array shape vs) = .ok (shape ++ [4], out) ∧
      out.length = hs.length ∧ ∀ (k : Nat) (h v : ℝ), hs[k]? = some h → vs[k]? = some v → ∃ i j c, Node n h i ∧ Node n v j ∧
        out[k]? = some c ∧ ((∃ a ∈ anchors, nearness ((j : ℝ) / ((n : ℝ) - 1), (i : ℝ) / ((n : ℝ) - 1)) a.2 ≠ 0) →
          IsHueBlend anchors ((j : ℝ) / ((n : ℝ) - 1), (i : ℝ) / ((n : ℝ) - 1)) c) := by
  obtain ⟨out, o1, o2, o3⟩ := c48_call hn hn (fun i j _ _ _ _ => cell_length n memory (anchors.map fun a => ((found a.1, channel a.1 3), a.2)) i j) junk shape hs vs hl
  refine ⟨out, ?_, o2, ?_⟩
  · unfold hues
    rw [grid_found memory ha]
    exact o1
  · intro k h v hh hv
    obtain ⟨i, j, a, b, c⟩ := o3 k h v hh hv
    exact ⟨i, j, _, a, b, c, fun h => cell_blend memory ha h⟩

/-- C90: what is shown is a colour: channels stay in `[0, 1]`. -/
theorem c90_range {anchors : List (List ℝ × ℝ × ℝ)} (ha : ∀ a ∈ anchors, Plain a.1) (h4 : ∀ a ∈ anchors, 0 ≤ channel a.1 3 ∧ channel a.1 3 ≤ 1)
    {p : ℝ × ℝ} (hp : ∃ a ∈ anchors, nearness p a.2 ≠ 0) {c : Color} (hc : IsHueBlend anchors p c) :
    ∀ x ∈ c, ∃ y, x = some y ∧ 0 ≤ y ∧ y ≤ 1 := by
  obtain ⟨hsv, h, s, v, a, hh, e1, e2, e3, e4, rfl⟩ := hc
  have r2 := mean_range hp (f := fun a => (hsv a.1).2.1) (fun a ha => ⟨(hh a ha).2.2.1, (hh a ha).2.2.2.1⟩) e2
  have r3 := mean_range hp (f := fun a => (hsv a.1).2.2) (fun a ha' => ⟨(hh a ha').2.2.2.2.1, by
    obtain ⟨b0, b1, b2, -, b4, -, -, e⟩ := hh a ha'
    simp only [colourOf, Prod.mk.injEq] at e
    have := (ends b0 b1 _ (mul_nonneg b4 b2) e.1 e.2.1 e.2.2).1
    rw [← this]
    exact max_le ((ha a ha').2 0 (by norm_num)).2 (max_le ((ha a ha').2 1 (by norm_num)).2 ((ha a ha').2 2 (by norm_num)).2)⟩) e3
  have r4 := mean_range hp (f := fun a => channel a.1 3) (fun a ha => h4 a ha) e4
  have key : ∀ x, 0 ≤ v - v * s * wedge x ∧ v - v * s * wedge x ≤ 1 := by
    intro x
    have hw := wedge_range x
    have vs0 : 0 ≤ v * s := mul_nonneg r3.1 r2.1
    have vs1 : v * s ≤ v := mul_le_of_le_one_right r3.1 r2.2.le
    have w0 : 0 ≤ v * s * wedge x := mul_nonneg vs0 hw.1
    have w1 : v * s * wedge x ≤ v * s := mul_le_of_le_one_right vs0 hw.2
    constructor <;> linarith [r3.2]
  intro x hx
  simp only [List.mem_cons, List.not_mem_nil, or_false] at hx
  rcases hx with rfl | rfl | rfl | rfl
  · exact ⟨_, rfl, key _⟩
  · exact ⟨_, rfl, key _⟩
  · exact ⟨_, rfl, key _⟩
  · exact ⟨_, rfl, r4.1, r4.2.le⟩

/-- C90: the two kinds of map agree on greys. -/
theorem c90_grey {anchors : List (List ℝ × ℝ × ℝ)} (hg : ∀ a ∈ anchors, channel a.1 0 = channel a.1 1 ∧ channel a.1 1 = channel a.1 2)
    {p : ℝ × ℝ} (hp : ∃ a ∈ anchors, nearness p a.2 ≠ 0) {c : Color} (hc : IsHueBlend anchors p c) : IsBlend anchors p c := by
  obtain ⟨hsv, h, s, v, a, hh, e1, e2, e3, e4, rfl⟩ := hc
  have hw := sum_near_pos hp
  have key : ∀ x ∈ anchors, (hsv x.1).2.1 = 0 ∧ (hsv x.1).2.2 = channel x.1 0 := by
    intro x hx
    obtain ⟨b0, b1, b2, b3, b4, b5, b6, e⟩ := hh x hx
    simp only [colourOf, Prod.mk.injEq] at e
    obtain ⟨e1, e2⟩ := ends b0 b1 _ (mul_nonneg b4 b2) e.1 e.2.1 e.2.2
    obtain ⟨g1, g2⟩ := hg x hx
    rw [← g2, ← g1, max_self, max_self] at e1
    rw [← g2, ← g1, min_self, min_self] at e2
    have : (hsv x.1).2.2 * (hsv x.1).2.1 = 0 := by linarith
    refine ⟨?_, e1.symm⟩
    rcases mul_eq_zero.1 this with h | h
    · exact b5 h
    · exact h
  have hs0 : s = 0 := by
    have : anchors.map (fun x => nearness p x.2 * (hsv x.1).2.1) = anchors.map fun _ => 0 :=
      List.map_congr_left (fun x hx => by rw [(key x hx).1, mul_zero])
    rw [this] at e2
    simp only [List.map_const', List.sum_replicate, smul_zero] at e2
    rcases mul_eq_zero.1 e2 with h | h
    · linarith
    · exact absurd h hw.ne'
  have e5 : ∀ k < 3, v * (10001 / 10000) * (anchors.map fun x => nearness p x.2).sum = (anchors.map fun x => nearness p x.2 * channel x.1 k).sum := by
    intro k hk
    rw [e3]
    congr 1
    apply List.map_congr_left
    intro x hx
    rw [(key x hx).2]
    obtain ⟨g1, g2⟩ := hg x hx
    rcases k with - | - | - | k
    · rfl
    · rw [g1]
    · rw [g1, g2]
    · omega
  refine ⟨rfl, fun h => ?_, fun _ k hk => ?_⟩
  · obtain ⟨a, ha, hne⟩ := hp
    exact absurd (h a ha) hne
  · simp only [colourOf, hs0, mul_zero, zero_mul, sub_zero]
    rcases k with - | - | - | - | k
    · exact ⟨v, rfl, e5 0 (by norm_num)⟩
    · exact ⟨v, rfl, e5 1 (by norm_num)⟩
    · exact ⟨v, rfl, e5 2 (by norm_num)⟩
    · exact ⟨a, rfl, e4⟩
    · omega

private theorem sum_alone {anchors : List (List ℝ × ℝ × ℝ)} {p : ℝ × ℝ} (f : List ℝ × ℝ × ℝ → ℝ) {pre post : List (List ℝ × ℝ × ℝ)}
    {a : List ℝ × ℝ × ℝ} (he : anchors = pre ++ a :: post) (h : ∀ b ∈ pre ++ post, nearness p b.2 = 0) :
    (anchors.map fun b => nearness p b.2 * f b).sum = nearness p a.2 * f a := by
  subst he
  have e : ∀ l : List (List ℝ × ℝ × ℝ), (∀ b ∈ l, nearness p b.2 = 0) → (l.map fun b => nearness p b.2 * f b).sum = 0 := by
    intro l hl
    have : l.map (fun b => nearness p b.2 * f b) = l.map fun _ => 0 := List.map_congr_left (fun b hb => by rw [hl b hb, zero_mul])
    rw [this]; simp
  rw [List.map_append, List.map_cons, List.sum_append, List.sum_cons, e pre (fun b hb => h b (by simp [hb])),
    e post (fun b hb => h b (by simp [hb]))]
  ring

/-- C90, anchors: at the place of an anchor that has no other anchor within distance one, hue, saturation, value and opacity are those
of the anchor, over 1.0001. What is missing for the full statement, the colour of the anchor: the factor, which also turns the hue,
and other anchors within distance one. -/
theorem c90_anchor_partial {anchors pre post : List (List ℝ × ℝ × ℝ)} {a : List ℝ × ℝ × ℝ} (he : anchors = pre ++ a :: post)
    (hfar : ∀ b ∈ pre ++ post, 1 ≤ (a.2.1 - b.2.1) ^ 2 + (a.2.2 - b.2.2) ^ 2) {c : Color} (hc : IsHueBlend anchors a.2 c)
    {h s v : ℝ} (hv : IsHsv (channel a.1 0, channel a.1 1, channel a.1 2) (h, s, v)) :
    ∃ col, col = colourOf (h / (10001 / 10000)) (s / (10001 / 10000)) (v / (10001 / 10000)) ∧
      c = [some col.1, some col.2.1, some col.2.2, some (channel a.1 3 / (10001 / 10000))] := by
  have h1 : nearness a.2 a.2 = 1 := by simp [nearness]
  have h0 : ∀ b ∈ pre ++ post, nearness a.2 b.2 = 0 := by
    intro b hb
    apply max_eq_right
    have := Real.one_le_sqrt.2 (hfar b hb)
    linarith
  obtain ⟨hsv, h', s', v', o', hh, e1, e2, e3, e4, rfl⟩ := hc
  have hu := c90_unique (hh a (by simp [he])) hv
  have ew := sum_alone (p := a.2) (fun _ => 1) he h0
  simp only [mul_one] at ew
  rw [ew, h1, mul_one] at e1 e2 e3 e4
  rw [sum_alone (p := a.2) _ he h0, h1, one_mul] at e1 e2 e3 e4
  rw [hu] at e1 e2 e3
  have f1 : h' = h / (10001 / 10000) := by rw [eq_div_iff (by norm_num)]; exact e1
  have f2 : s' = s / (10001 / 10000) := by rw [eq_div_iff (by norm_num)]; exact e2
  have f3 : v' = v / (10001 / 10000) := by rw [eq_div_iff (by norm_num)]; exact e3
  have f4 : o' = channel a.1 3 / (10001 / 10000) := by rw [eq_div_iff (by norm_num)]; exact e4
  exact ⟨_, rfl, by rw [f1, f2, f3, f4]⟩

/-! ## Images and kept grids -/

private theorem pixel {nx ny : Nat} {pixels : List (List (List Nat))} (h1 : pixels.length = nx) (h2 : ∀ row ∈ pixels, row.length = ny)
    {i j : Int} (i0 : 0 ≤ i) (i1 : i < nx) (j0 : 0 ≤ j) (j1 : j < ny) :
    ∃ row ∈ pixels, ∃ px ∈ row, pixels[i.toNat]? = some row ∧ row[j.toNat]? = some px ∧
      imageGrid pixels i j = px.map fun b : Nat => some ((b : ℝ) / 255) := by
  have bi : i.toNat < pixels.length := by omega
  have bj : j.toNat < pixels[i.toNat].length := by have := h2 _ (List.getElem_mem bi); omega
  refine ⟨_, List.getElem_mem bi, _, List.getElem_mem bj, List.getElem?_eq_getElem bi, List.getElem?_eq_getElem bj, ?_⟩
  unfold imageGrid
  simp [List.getD_eq_getElem?_getD, List.getElem?_eq_getElem bi, List.getElem?_eq_getElem bj]

/-- C90, images with four channels: every value pair has the colour of its pixel, a number in `[0, 1]` per byte. -/
theorem c90_image {nx ny : Nat} (hx : 0 < nx) (hy : 0 < ny) {pixels : List (List (List Nat))} (h1 : pixels.length = nx)
    (h2 : ∀ row ∈ pixels, row.length = ny) (h3 : ∀ row ∈ pixels, ∀ px ∈ row, px.length = 4 ∧ ∀ b ∈ px, b ≤ 255)
    (junk : Nat → ℝ) (shape : List Nat) (hs vs : List ℝ) (hl : hs.length = vs.length) :
    ∃ out, call nx ny (imageGrid pixels) junk (.array shape hs) (.array shape vs) = .ok (shape ++ [4], out) ∧ out.length = hs.length ∧
      ∀ (k : Nat) (h v : ℝ), hs[k]? = some h → vs[k]? = some v → ∃ (i j : Int) (row : List (List Nat)) (px : List Nat) (c : Color),
        Node nx h i ∧ Node ny v j ∧ pixels[i.toNat]? = some row ∧ row[j.toNat]? = some px ∧ out[k]? = some c ∧ c.length = 4 ∧
        ∀ (m b : Nat), px[m]? = some b → ∃ y : ℝ, c[m]? = some (some y) ∧ y * 255 = b ∧ 0 ≤ y ∧ y ≤ 1 := by
  obtain ⟨out, o1, o2, o3⟩ := c48_call hx hy (grid := imageGrid pixels) (by
    intro i j i0 i1 j0 j1
    obtain ⟨row, hr, px, hp, -, -, e⟩ := pixel h1 h2 i0 i1 j0 j1
    rw [e, List.length_map]
    exact (h3 row hr px hp).1) junk shape hs vs hl
  refine ⟨out, o1, o2, fun k h v hh hv => ?_⟩
  obtain ⟨i, j, a, b, c⟩ := o3 k h v hh hv
  obtain ⟨row, hr, px, hp, e1, e2, e⟩ := pixel h1 h2 a.1 a.2.1 b.1 b.2.1
  refine ⟨i, j, row, px, _, a, b, e1, e2, c, ?_, fun m b hb => ⟨(b : ℝ) / 255, ?_, by field_simp, by positivity, ?_⟩⟩
  · rw [e, List.length_map]
    exact (h3 row hr px hp).1
  · rw [e, List.getElem?_map, hb, Option.map_some]
  · rw [div_le_one (by norm_num)]
    exact_mod_cast (h3 row hr px hp).2 b (List.mem_of_getElem? hb)

/-- C90: a use of a map without a grid has the grid of its colours, or fails as they do and keeps nothing. -/
theorem c90_first {A : Type} (generate : A → Except Err (Int → Int → Color)) {m : Cmap A} (hm : m.kept = none) :
    (m.grid generate).1 = generate m.source ∧ (∀ e, generate m.source = .error e → (m.grid generate).2 = m) := by
  unfold Cmap.grid
  rw [hm]
  dsimp only
  cases h : generate m.source with
  | ok g => exact ⟨rfl, fun e he => by cases he⟩
  | error e => exact ⟨rfl, fun _ _ => rfl⟩

/-- C90: after a use that succeeded, all uses have the same grid, whatever is done. -/
theorem c90_kept {A : Type} {generate : A → Except Err (Int → Int → Color)} {m : Cmap A} {g : Int → Int → Color}
    (hg : (m.grid generate).1 = .ok g) (actions : List (Action A)) :
    ∀ r ∈ ((m.grid generate).2.history generate actions).1, r = .ok g := by
  have hk : (m.grid generate).2.kept = some g := by
    unfold Cmap.grid at hg ⊢
    cases hm : m.kept with
    | some g' =>
      rw [hm] at hg
      dsimp only at hg ⊢
      rw [hm, ← Except.ok.inj hg]
    | none =>
      rw [hm] at hg
      dsimp only at hg ⊢
      cases h : generate m.source with
      | ok g' =>
        rw [h] at hg
        dsimp only at hg ⊢
        rw [← Except.ok.inj hg]
      | error e =>
        rw [h] at hg
        exact absurd hg (by simp)
  generalize (m.grid generate).2 = m' at hk
  induction actions generalizing m' with
  | nil => intro r hr; simp [Cmap.history] at hr
  | cons a rest ih =>
    cases a with
    | set x => exact ih _ hk
    | use =>
      have e : m'.grid generate = (.ok g, m') := by unfold Cmap.grid; rw [hk]
      intro r hr
      simp only [Cmap.history, e, List.mem_cons] at hr
      rcases hr with rfl | hr
      · rfl
      · exact ih _ hk r hr

/-! ## What does not hold -/

/-- C90 fails for colours set after a use: the map goes on showing the old ones. -/
theorem c90_stale_fails {A : Type} {generate : A → Except Err (Int → Int → Color)} {a b : A} {g g' : Int → Int → Color}
    (ha : generate a = .ok g) (hb : generate b = .ok g') (hne : g ≠ g') :
    (Cmap.history generate { source := a } [.use, .set b, .use]).1 = [.ok g, .ok g] ∧
      (Cmap.history generate { source := a } [.use, .set b, .use]).1 ≠ [.ok g, generate b] := by
  have e : (Cmap.history generate { source := a } [.use, .set b, .use]).1 = [.ok g, .ok g] := by
    simp [Cmap.history, Cmap.grid, ha]
  refine ⟨e, ?_⟩
  rw [e, hb]
  intro h
  simp only [List.cons.injEq, and_true, true_and] at h
  exact hne (Except.ok.inj h)

/-- C90 fails between two reds on either side of the start of the colour circle: the mean of their hues is that of cyan. Both anchors
have all their red, the places between have less than a thousandth. -/
theorem c90_red_fails {x : ℝ} (h0 : 3 / 10 ≤ x) (h1 : x ≤ 7 / 10) {c : Color}
    (hc : IsHueBlend [([1, 0, 3 / 5], 0, 0), ([1, 3 / 5, 0], 1, 0)] (x, 0) c) : ∃ y, c[0]? = some (some y) ∧ y < 1 / 1000 := by
  obtain ⟨hsv, h, s, v, a, hh, e1, e2, e3, e4, rfl⟩ := hc
  have n1 : nearness (x, 0) (0, 0) = 1 - x := by
    simp only [nearness, sub_zero]
    rw [show x ^ 2 + 0 ^ 2 = x ^ 2 by ring, Real.sqrt_sq (by linarith)]
    exact max_eq_left (by linarith)
  have n2 : nearness (x, 0) (1, 0) = x := by
    simp only [nearness, sub_zero]
    rw [show (x - 1) ^ 2 + 0 ^ 2 = (1 - x) ^ 2 by ring, Real.sqrt_sq (by linarith)]
    rw [max_eq_left (by linarith)]; ring
  have i1 : IsHsv (channel [1, 0, 3 / 5] 0, channel [1, 0, 3 / 5] 1, channel [1, 0, 3 / 5] 2) (9 / 10, 1, 1) := by
    refine ⟨by norm_num, by norm_num, by norm_num, by norm_num, by norm_num, by norm_num, by norm_num, ?_⟩
    simp only [colourOf, channel]
    rw [wedge_zero (k := 22 / 5) 1 (by norm_num) (by norm_num) (by norm_num),
      wedge_one (k := 12 / 5) 1 (by norm_num) (by norm_num) (by norm_num),
      wedge_up (k := 2 / 5) 1 (by norm_num) (by norm_num) (by norm_num)]
    norm_num
  have i2 : IsHsv (channel [1, 3 / 5, 0] 0, channel [1, 3 / 5, 0] 1, channel [1, 3 / 5, 0] 2) (1 / 10, 1, 1) := by
    refine ⟨by norm_num, by norm_num, by norm_num, by norm_num, by norm_num, by norm_num, by norm_num, ?_⟩
    simp only [colourOf, channel]
    rw [wedge_zero (k := 28 / 5) 0 (by norm_num) (by norm_num) (by norm_num),
      wedge_down (k := 18 / 5) 0 (by norm_num) (by norm_num) (by norm_num),
      wedge_one (k := 8 / 5) 0 (by norm_num) (by norm_num) (by norm_num)]
    norm_num
  have u1 := c90_unique (hh ([1, 0, 3 / 5], 0, 0) (by simp)) i1
  have u2 := c90_unique (hh ([1, 3 / 5, 0], 1, 0) (by simp)) i2
  simp only [List.map_cons, List.map_nil, List.sum_cons, List.sum_nil, n1, n2, u1, u2] at e1 e2 e3
  refine ⟨_, rfl, ?_⟩
  have hs : s = 10000 / 10001 := by linarith
  have hv : v = 10000 / 10001 := by linarith
  have hw : wedge (5 + 6 * h) = 1 := wedge_one (k := 6 * h - 1) 1 (by push_cast; ring) (by linarith) (by linarith)
  simp only [colourOf, hw, hs, hv]
  norm_num

/-- C90 fails for colours with a channel outside `[0, 1]`, which the other kind of map takes: no data have a colour. -/
theorem c90_bright_fails (n : Nat) (memory : Int → Int → ℝ × ℝ × ℝ) {anchors : List (List ℝ × ℝ × ℝ)} (hl : ∀ a ∈ anchors, a.1.length ≤ 4)
    (hb : ∃ a ∈ anchors, ¬ Plain a.1) (junk : Nat → ℝ) (h v : Input) :
    hues n memory (anchors.map Prod.fst) (anchors.map Prod.snd) junk h v = .error .value := by
  have key : ∀ colors : List (List ℝ), (∀ c ∈ colors, c.length ≤ 4) → (∃ c ∈ colors, ¬ Plain c) → colors.mapM hsvAnchor = .error .value := by
    intro colors
    induction colors with
    | nil => rintro _ ⟨c, hc, _⟩; simp at hc
    | cons c rest ih =>
      intro h4 hx
      rw [List.mapM_cons]
      by_cases hp : Plain c
      · rw [(anchor_found hp).1]
        have : rest.mapM hsvAnchor = .error .value := ih (fun c hc => h4 c (by simp [hc])) (by
          obtain ⟨d, hd, hn⟩ := hx
          rcases List.mem_cons.1 hd with rfl | hd
          · exact absurd hp hn
          · exact ⟨d, hd, hn⟩)
        rw [this]
        rfl
      · have : hsvAnchor c = .error .value := by
          obtain ⟨l, e, hk⟩ := rgba_getD (h4 c (by simp))
          unfold hsvAnchor
          rw [e]
          simp only [bind, Except.bind]
          rw [hk 0 (by norm_num), hk 1 (by norm_num), hk 2 (by norm_num), c90_refused]
          rintro ⟨a, b, d⟩
          refine hp ⟨h4 c (by simp), fun k hk => ?_⟩
          rcases k with - | - | - | k
          · exact a
          · exact b
          · exact d
          · omega
        rw [this]
        rfl
  unfold hues hsvGrid
  rw [key _ (by intro c hc; obtain ⟨a, ha, rfl⟩ := List.mem_map.1 hc; exact hl a ha)
    (by obtain ⟨a, ha, hn⟩ := hb; exact ⟨a.1, List.mem_map_of_mem ha, hn⟩)]
  rfl

/-- C90 fails far from all anchors: what is shown is what was in memory when the map was made. -/
theorem c90_far_fails (memory : Int → Int → ℝ × ℝ × ℝ) (junk : Nat → ℝ) :
    hues 256 memory [[1, 0, 0]] [(0, 0)] junk (.array [1] [1]) (.array [1] [1]) =
      .ok ([1, 4], [[some (memory 255 255).1, some (memory 255 255).2.1, some (memory 255 255).2.2, none]]) := by
  have ha : ∀ a ∈ [(([1, 0, 0], 0, 0) : List ℝ × ℝ × ℝ)], Plain a.1 := by
    simp only [List.mem_singleton, forall_eq]
    refine ⟨by simp, fun k hk => ?_⟩
    rcases k with - | - | - | k <;> first | omega | norm_num [channel]
  obtain ⟨out, o1, o2, o3⟩ := c48_call (nx := 256) (ny := 256) (by norm_num) (by norm_num)
    (fun i j _ _ _ _ => cell_length 256 memory ([(([1, 0, 0], 0, 0) : List ℝ × ℝ × ℝ)].map fun a => ((found a.1, channel a.1 3), a.2)) i j) junk [1] [1] [1] rfl
  have hg := grid_found (n := 256) memory ha
  simp only [List.map_cons, List.map_nil] at hg
  unfold hues
  rw [hg]
  refine o1.trans ?_
  obtain ⟨i, j, hi, hj, hc⟩ := o3 0 1 1 rfl rfl
  have ei := hi.2.2.2.1 le_rfl
  have ej := hj.2.2.2.1 le_rfl
  have ei : i = 255 := by rw [ei]; norm_num
  have ej : j = 255 := by rw [ej]; norm_num
  subst ei ej
  rw [cell_far] at hc
  · match out, o2, hc with
    | [c'], _, hc =>
      simp only [List.getElem?_cons_zero, Option.some.injEq] at hc
      rw [hc]
      rfl
  · simp only [List.mem_singleton, forall_eq]
    apply max_eq_right
    have : (1 : ℝ) ≤ Real.sqrt (((((255 : Int) : ℝ) / (((256 : Nat) : ℝ) - 1)) - 0) ^ 2 + ((((255 : Int) : ℝ) / (((256 : Nat) : ℝ) - 1)) - 0) ^ 2) :=
      Real.one_le_sqrt.2 (by norm_num)
    linarith

/-! ## The hypotheses can be met -/

private theorem bower_plain : ∀ a ∈ bower, Plain a.1 := by
  intro a ha
  simp only [bower, List.mem_cons, List.not_mem_nil, or_false] at ha
  rcases ha with rfl | rfl | rfl | rfl <;> refine ⟨by simp, fun k hk => ?_⟩ <;> rcases k with - | - | - | k <;>
    first | omega | norm_num [channel]

/-- Anchors that meet the hypotheses of `c90_map` and `c90_range`, and a place near one of them. -/
example : (∀ a ∈ bower, Plain a.1) ∧ (∀ a ∈ bower, 0 ≤ channel a.1 3 ∧ channel a.1 3 ≤ 1) ∧ ∃ a ∈ bower, nearness (0, 0) a.2 ≠ 0 := by
  refine ⟨bower_plain, ?_, ([1, 0, 0], 0, 0), by simp [bower], by simp [nearness]⟩
  simp [bower, channel]

/-- A colour and its hue, saturation and value, as in `c90_unique`: olive. -/
example : IsHsv (1 / 2, 1 / 2, 0) (1 / 6, 1, 1 / 2) := by
  refine ⟨by norm_num, by norm_num, by norm_num, by norm_num, by norm_num, by norm_num, by norm_num, ?_⟩
  simp only [colourOf]
  rw [wedge_zero (k := 6) 0 (by norm_num) (by norm_num) (by norm_num), wedge_zero (k := 4) 0 (by norm_num) (by norm_num) (by norm_num),
    wedge_one (k := 2) 0 (by norm_num) (by norm_num) (by norm_num)]
  norm_num

/-- Greys as in `c90_grey`. -/
example : ∀ a ∈ [(([1, 1, 1], 0, 0) : List ℝ × ℝ × ℝ), ([1 / 2, 1 / 2, 1 / 2], 1, 0)], channel a.1 0 = channel a.1 1 ∧ channel a.1 1 = channel a.1 2 := by
  simp [channel]

/-- An image as in `c90_image`: two pixels. -/
example : (∀ row ∈ [[[255, 0, 0, 255]], [[0, 0, 255, 255]]], row.length = 1) ∧
    ∀ row ∈ [[[255, 0, 0, 255]], [[0, 0, 255, 255]]], ∀ px ∈ row, px.length = 4 ∧ ∀ b ∈ px, b ≤ 255 := by decide

/-- A colour too bright, as in `c90_bright_fails`. -/
example : ∃ a ∈ [(([2, 0, 0], 0, 0) : List ℝ × ℝ × ℝ)], ¬ Plain a.1 := by
  refine ⟨([2, 0, 0], 0, 0), List.mem_singleton_self _, fun h => ?_⟩
  have := (h.2 0 (by norm_num)).2
  norm_num [channel] at this

end Verif.Props
