import Verif.Model.Subsampled
import Verif.Spec.Subsampled
import Verif.Props.ImageLinear
import Mathlib.Algebra.Order.BigOperators.Group.Finset
import Mathlib.Algebra.BigOperators.Field

/-!
# C61: subsampled projections (`visualisation/projection_backends/subsampled.py`, `subsampled_extreme.py`)
-/

set_option linter.unusedSectionVars false

namespace Verif.Props
open Verif Verif.Spec Verif.Scatter

variable {K : Type} [Field K] [LinearOrder K] [IsStrictOrderedRing K] [FloorRing K]

private theorem sum_irange (n : Nat) (f : Int → K) :
    ((irange 0 (n : Int)).map f).sum = ∑ a ∈ Finset.range n, f (a : Int) := by
  unfold irange
  rw [List.map_map, Finset.sum_range, ← List.sum_ofFn]
  simp [Function.comp_def, List.ofFn_eq_map, ← List.map_coe_finRange_eq_range]

private theorem sum_irange2 (n : Nat) (f : Int → Int → K) :
    ((irange 0 (n : Int)).flatMap fun a => (irange 0 (n : Int)).map fun b => f a b).sum =
      ∑ a ∈ Finset.range n, ∑ b ∈ Finset.range n, f (a : Int) (b : Int) := by
  rw [List.flatMap, List.sum_flatten, List.map_map, ← sum_irange n fun a => ∑ b ∈ Finset.range n, f a (b : Int)]
  congr 2
  funext a
  exact sum_irange n (f a)

private theorem cast_two_mul (D : Nat) : (2 * (D : Int)) = ((2 * D : Nat) : Int) := by push_cast; rfl

private theorem raw_eq (W : K → K → K) (D a b : Nat) : ditherRaw W D (a : Int) (b : Int) = ditherCell W D a b := by
  unfold ditherRaw ditherDist2 ditherCell
  push_cast
  rw [pow_two, pow_two]

private theorem dithered_eq (W : K → K → K) (D res a b : Nat) :
    dithered W D res (a : Int) (b : Int) = ditherShare W D a b * (res : K) ^ 2 := by
  unfold dithered ditherShare ditherSum
  rw [cast_two_mul, sum_irange2, raw_eq]
  simp only [raw_eq]
  ring

private theorem pixel_eq (D res : Nat) (x H : K) (a : Nat) :
    ditherPixel D res x H (a : Int) = cell res (ditherPos D x H a) := by
  unfold ditherPixel cell ditherPos
  rw [Int.cast_natCast, mul_one_div]

theorem ditherDeps_inside (W : K → K → K) (D res : Nat) (H : K) (p : Part K) (d : (Int × Int) × K)
    (h : d ∈ ditherDeps W D res H p) : inside2 res res d.1 = true := by
  simp only [ditherDeps, List.mem_flatMap] at h
  obtain ⟨a, _, b, _, h⟩ := h
  split at h
  · rename_i hg
    rw [Bool.and_eq_true, onGrid_iff, onGrid_iff] at hg
    simp only [List.mem_singleton] at h
    subst h
    rw [inside2_iff]; exact hg
  · simp at h

private theorem wsum_ditherDeps {W : K → K → K} {D res : Nat} (hr : 0 < res) (H : K) (p : Part K) (q : Int × Int)
    (hq : OnImage res q.1 ∧ OnImage res q.2) :
    wsum q (ditherDeps W D res H p) = ditherAt W D res p.m H q p.x p.y := by
  unfold ditherDeps ditherAt
  rw [wsum_flatMap, cast_two_mul, sum_irange]
  apply Finset.sum_congr rfl
  intro a _
  rw [wsum_flatMap, sum_irange]
  apply Finset.sum_congr rfl
  intro b _
  have := wsum_ownCell2 hr (⟨ditherPos D p.x H a, ditherPos D p.y H b, 0, p.m * ditherShare W D a b, 0⟩ : Part K) q
  rw [if_pos hq] at this
  rw [← this]
  unfold ownCell2
  rw [pixel_eq, pixel_eq, dithered_eq]
  dsimp only
  rw [← pow_two, mul_assoc]

theorem subsampledDeps_inside (W : K → K → K) (E D : Nat) (g : K) (res : Nat) (p : Part K) (d : (Int × Int) × K)
    (h : d ∈ subsampledDeps W E D g res p) : inside2 res res d.1 = true := by
  unfold subsampledDeps at h
  dsimp only at h
  split at h
  · simp at h
  · split at h
    · split at h
      · rename_i hg
        simp only [Bool.and_eq_true, onGrid_iff] at hg
        simp only [List.mem_singleton] at h
        subst h
        rw [inside2_iff]; exact hg.2
      · exact ditherDeps_inside W D res _ p d h
    · have := mem_over2 h
      rw [mem_span, mem_span] at this
      rw [inside2_iff]; exact ⟨this.1.1, this.2.1⟩

private theorem small_iff {res : Nat} (hr : 0 < res) (H : K) : H ≤ 1 / 4 * (1 / (res : K)) ↔ H * res ≤ 1 / 4 := by
  have hr' : (0 : K) < res := by exact_mod_cast hr
  rw [mul_one_div, le_div_iff₀ hr']

private theorem whole_iff {res : Nat} (H x y : K) :
    (!(overlaps res x H || overlaps res y H) && (onGrid res (cell res x) && onGrid res (cell res y))) = true ↔
      Whole res H x y := by
  unfold overlaps Whole Between cell
  simp only [Bool.and_eq_true, Bool.not_eq_true', Bool.or_eq_false_iff, decide_eq_false_iff_not, onGrid_iff, not_lt]
  constructor
  · rintro ⟨⟨⟨h1, h2⟩, h3, h4⟩, h5, h6⟩
    refine ⟨⟨h5, h6⟩, ⟨?_, ?_⟩, ?_, ?_⟩ <;> linarith
  · rintro ⟨⟨h5, h6⟩, ⟨h1, h2⟩, h3, h4⟩
    refine ⟨⟨⟨?_, ?_⟩, ?_, ?_⟩, h5, h6⟩ <;> linarith

private theorem factor_eq {E : Nat} (hE : 0 < E) {res : Nat} {H : K} (hH : 0 ≤ H) :
    subsampleFactor E H res = (samples E res H : Int) ∧ 0 < samples E res H := by
  have h1 : (0 : K) < (E : K) / (1 + H * res) := by
    have : (0 : K) < E := by exact_mod_cast hE
    positivity
  have h2 : 0 < ⌈(E : K) / (1 + H * res)⌉ := Int.ceil_pos.2 h1
  unfold subsampleFactor samples
  constructor <;> push_cast <;> omega

/-- no sample of a pixel beyond the span is inside the kernel -/
private theorem sample_far {res : Nat} (hr : 0 < res) {H : K} (hH : 0 ≤ H) (x : K) (i : Int) {f : K} (h0 : 0 < f)
    (h1 : f < 1) (h : i < cell res x - spanned H res ∨ cell res x + spanned H res < i) :
    H * H ≤ (((i : K) + f) / res - x) ^ 2 := by
  have hr' : (0 : K) < res := by exact_mod_cast hr
  have h2 := lt_spanned hH res
  have h3 := cell_le res x
  have h4 := lt_cell res x
  have key : H ≤ |((i : K) + f) / res - x| := by
    rcases h with h | h
    · have h5 : (i : K) + 1 ≤ (cell res x : K) - (spanned H res : K) := by exact_mod_cast h
      have h6 : ((i : K) + f) / res ≤ x - H := by rw [div_le_iff₀ hr']; nlinarith
      rw [abs_sub_comm]
      exact le_trans (by linarith) (le_abs_self _)
    · have h5 : (cell res x : K) + (spanned H res : K) + 1 ≤ (i : K) := by exact_mod_cast h
      have h6 : x + H ≤ ((i : K) + f) / res := by rw [le_div_iff₀ hr']; nlinarith
      exact le_trans (by linarith) (le_abs_self _)
  rw [← sq_abs, sq]
  exact mul_le_mul key key hH (abs_nonneg _)

private theorem frac_mem {S s : Nat} (h : s < S) : (0 : K) < (2 * (s : K) + 1) / (2 * S) ∧ (2 * (s : K) + 1) / (2 * S) < 1 := by
  have h1 : (0 : K) < S := by exact_mod_cast (by omega : 0 < S)
  have h2 : (s : K) + 1 ≤ S := by exact_mod_cast h
  constructor
  · positivity
  · rw [div_lt_one (by positivity)]; linarith

private theorem mean_zero {W : K → K → K} (hW : Compact W) {S res : Nat} {H : K} (hH : 0 < H) {q : Int × Int} {x y : K}
    (h : (∀ f : K, 0 < f → f < 1 → H * H ≤ (((q.1 : K) + f) / res - x) ^ 2) ∨
      ∀ f : K, 0 < f → f < 1 → H * H ≤ (((q.2 : K) + f) / res - y) ^ 2) : meanKernel W S res H q x y = 0 := by
  unfold meanKernel
  rw [Finset.sum_eq_zero, zero_div]
  intro s hs
  apply Finset.sum_eq_zero
  intro t ht
  rw [Finset.mem_range] at hs ht
  apply hW _ _ hH
  rcases h with h | h
  · have := h _ (frac_mem hs).1 (frac_mem hs).2
    nlinarith [sq_nonneg (((q.2 : K) + (2 * t + 1) / (2 * S)) / res - y)]
  · have := h _ (frac_mem ht).1 (frac_mem ht).2
    nlinarith [sq_nonneg (((q.1 : K) + (2 * s + 1) / (2 * S)) / res - x)]

private theorem eval_eq (W : K → K → K) {S res : Nat} (hS : 0 < S) (hr : 0 < res) (H : K) (p : Part K) (q : Int × Int) :
    p.m * kernelEval W res (S : Int) H p q.1 q.2 * (1 / ((S : Int) : K) * (1 / ((S : Int) : K))) =
      p.m * meanKernel W S res H q p.x p.y := by
  have hS' : (S : K) ≠ 0 := by exact_mod_cast hS.ne'
  have hr' : (res : K) ≠ 0 := by exact_mod_cast hr.ne'
  have hd : ∀ (x : K) (i : Int) (s : Nat), sampleDist2 res (S : Int) x i (s : Int) =
      (((i : K) + (2 * s + 1) / (2 * S)) / res - x) ^ 2 := by
    intro x i s
    unfold sampleDist2
    push_cast
    rw [pow_two]
    congr 1 <;> field_simp
  unfold kernelEval meanKernel
  rw [sum_irange2]
  simp only [hd]
  push_cast
  field_simp

/-- positions of the shares of a kernel -/
private theorem ditherPos_mem {D : Nat} {x H : K} (hH : 0 ≤ H) {a : Nat} (ha : a < 2 * D) :
    x - H ≤ ditherPos D x H a ∧ ditherPos D x H a ≤ x + H ∧ (0 < H → ditherPos D x H a < x + H) := by
  have hD : (0 : K) < D := by exact_mod_cast (by omega : 0 < D)
  have h1 : (0 : K) ≤ (a : K) / D := by positivity
  have h2 : (a : K) / D < 2 := by
    rw [div_lt_iff₀ hD]; exact_mod_cast ha
  unfold ditherPos
  refine ⟨by nlinarith, by nlinarith, fun h => by nlinarith⟩

private theorem dither_zero {W : K → K → K} {D res : Nat} {m H : K} (hH : 0 ≤ H) {q : Int × Int} {x y : K}
    (h : (∀ u, x - H ≤ u → u ≤ x + H → ¬InPixel res q.1 u) ∨ ∀ u, y - H ≤ u → u ≤ y + H → ¬InPixel res q.2 u) :
    ditherAt W D res m H q x y = 0 := by
  unfold ditherAt
  apply Finset.sum_eq_zero
  intro a ha
  apply Finset.sum_eq_zero
  intro b hb
  rw [Finset.mem_range] at ha hb
  have h1 := ditherPos_mem (x := x) hH ha
  have h2 := ditherPos_mem (x := y) hH hb
  unfold pointAt
  rw [if_neg]
  rintro ⟨h3, h4⟩
  rcases h with h | h
  · exact h _ h1.1 h1.2.1 h3
  · exact h _ h2.1 h2.2.1 h4

/-- a small kernel reaches at most the next pixel -/
private theorem small_far {res : Nat} (hr : 0 < res) {H : K} (hH : 0 ≤ H) (hs : H * res ≤ 1 / 4) {x u : K} {i : Int}
    (hi : OnImage res i) (hm : misses res (cell res x) (spanned H res) = true) (h1 : x - H ≤ u) (h2 : u ≤ x + H) :
    ¬InPixel res i u := by
  have hr' : (0 : K) < res := by exact_mod_cast hr
  have h3 := spanned_pos hH res
  rw [misses_iff] at hm
  rintro ⟨h4, h5⟩
  rw [div_le_iff₀ hr'] at h4
  rw [lt_div_iff₀ hr'] at h5
  have h6 := cell_le res x
  have h7 := lt_cell res x
  obtain ⟨hi0, hi1⟩ := hi
  rcases hm with hm | hm
  · have h8 : (cell res x : K) + 2 ≤ (i : K) := by exact_mod_cast (by omega : cell res x + 2 ≤ i)
    nlinarith
  · have h8 : (i : K) + 2 ≤ (cell res x : K) := by exact_mod_cast (by omega : i + 2 ≤ cell res x)
    nlinarith

/-- C61. One copy of a particle. -/
private theorem wsum_subsampledDeps {W : K → K → K} (hW : Compact W) {E D : Nat} (hE : 0 < E) {g : K} {res : Nat}
    (hr : 0 < res) (p : Part K) (hH : 0 ≤ g * p.h) (q : Int × Int) (hq : OnImage res q.1 ∧ OnImage res q.2) :
    wsum q (subsampledDeps W E D g res p) = sampledAt W E D res p.m (g * p.h) q p.x p.y := by
  unfold subsampledDeps sampledAt shareAt
  dsimp only
  simp only [small_iff hr, whole_iff]
  by_cases hs : g * p.h * (res : K) ≤ 1 / 4
  · simp only [hs, true_and, if_true]
    by_cases hm : (misses res (cell res p.x) (spanned (g * p.h) res) ||
        misses res (cell res p.y) (spanned (g * p.h) res)) = true
    · rw [if_pos hm, wsum_nil]
      have hfar : (∀ u, p.x - g * p.h ≤ u → u ≤ p.x + g * p.h → ¬InPixel res q.1 u) ∨
          ∀ u, p.y - g * p.h ≤ u → u ≤ p.y + g * p.h → ¬InPixel res q.2 u := by
        rw [Bool.or_eq_true] at hm
        rcases hm with hm | hm
        · exact Or.inl fun u h1 h2 => small_far hr hH hs hq.1 hm h1 h2
        · exact Or.inr fun u h1 h2 => small_far hr hH hs hq.2 hm h1 h2
      by_cases hw : Whole res (g * p.h) p.x p.y
      · rw [if_pos hw]
        symm
        unfold pointAt
        rw [if_neg]
        rintro ⟨h1, h2⟩
        rcases hfar with h | h
        · exact h p.x (by linarith) (by linarith) h1
        · exact h p.y (by linarith) (by linarith) h2
      · rw [if_neg hw, dither_zero hH hfar]
    · rw [if_neg hm]
      by_cases hw : Whole res (g * p.h) p.x p.y
      · rw [if_pos hw, if_pos hw]
        have := wsum_ownCell2 hr p q
        rw [if_pos hq] at this
        rw [← this]
        unfold ownCell2
        rw [if_pos]
        rw [Bool.and_eq_true, onGrid_iff, onGrid_iff]
        exact hw.1
      · rw [if_neg hw, if_neg hw]
        exact wsum_ditherDeps hr _ p q hq
  · simp only [hs, false_and, if_false]
    have hpos : 0 < g * p.h := by
      rcases hH.lt_or_eq with h | h
      · exact h
      · rw [← h] at hs; norm_num at hs
    obtain ⟨hf, hS⟩ := factor_eq hE (res := res) hH
    have hzero : ¬(q.1 ∈ span res (cell res p.x) (spanned (g * p.h) res) ∧
        q.2 ∈ span res (cell res p.y) (spanned (g * p.h) res)) →
        meanKernel W (samples E res (g * p.h)) res (g * p.h) q p.x p.y = 0 := by
      intro h
      rw [mem_span, mem_span] at h
      apply mean_zero hW hpos
      by_cases h1 : cell res p.x - spanned (g * p.h) res ≤ q.1 ∧ q.1 ≤ cell res p.x + spanned (g * p.h) res
      · right
        have h2 : ¬(cell res p.y - spanned (g * p.h) res ≤ q.2 ∧ q.2 ≤ cell res p.y + spanned (g * p.h) res) :=
          fun h2 => h ⟨⟨hq.1, h1⟩, hq.2, h2⟩
        exact fun f h3 h4 => sample_far hr hH p.y q.2 h3 h4 (by omega)
      · left
        exact fun f h3 h4 => sample_far hr hH p.x q.1 h3 h4 (by omega)
    by_cases hm : (misses res (cell res p.x) (spanned (g * p.h) res) ||
        misses res (cell res p.y) (spanned (g * p.h) res)) = true
    · rw [if_pos hm, wsum_nil, hzero, mul_zero]
      rw [mem_span, mem_span]
      rw [Bool.or_eq_true] at hm
      rcases hm with hm | hm
      · exact fun h => not_span_of_misses hq.1 hm h.1.2
      · exact fun h => not_span_of_misses hq.2 hm h.2.2
    · rw [if_neg hm]
      have hn : ∀ pc, (span res pc (spanned (g * p.h) res)).Nodup := fun pc => nodup_irange _ _
      rw [wsum_over2 _ _ (hn _) (hn _), hf, eval_eq W hS hr]
      split
      · rfl
      · rename_i h
        rw [hzero h, mul_zero]

private theorem sampled_far {W : K → K → K} (hW : Compact W) {E D res : Nat} {b H m : K} (hH : 0 ≤ H)
    (hb : b ≠ 0 → H ≤ b) (hb0 : 0 ≤ b) {x : K} (hx : Wrapped b x) {q : Int × Int}
    (hq : OnImage res q.1 ∧ OnImage res q.2) {k : Int} (hk : IsCopy b k) (hs : k ∉ shifts b) :
    (∀ v, sampledAt W E D res m H q (x + k * b) v = 0) ∧ (∀ v, sampledAt W E D res m H q v (x + k * b) = 0) := by
  have hfar := far_of_not_shift hb0 hx hk hs
  have hne : b ≠ 0 := by
    rintro rfl
    exact hs ((mem_shifts_of_zero k).2 (hk rfl))
  have hHb := hb hne
  have hp : ∀ i, OnImage res i → ∀ u, x + k * b - H ≤ u → u ≤ x + k * b + H → ¬InPixel res i u := by
    intro i hi u h1 h2 h3
    have := pixel_mem hi h3
    rcases hfar with h | h <;> linarith
  have hr : 0 < res := by unfold OnImage at hq; omega
  have hr' : (0 : K) < res := by exact_mod_cast hr
  have hsq : ∀ i, OnImage res i → ∀ f : K, 0 < f → f < 1 → H * H ≤ (((i : K) + f) / res - (x + k * b)) ^ 2 := by
    intro i hi f h0 h1
    apply far_sq hH hHb _ hfar
    have h2 : (0 : K) ≤ (i : K) := by exact_mod_cast hi.1
    have h3 : (i : K) + 1 ≤ (res : K) := by exact_mod_cast hi.2
    constructor
    · positivity
    · rw [div_lt_one hr']; linarith
  have hpos : ¬H * (res : K) ≤ 1 / 4 → 0 < H := by
    intro h
    rcases hH.lt_or_eq with h' | h'
    · exact h'
    · rw [← h'] at h; norm_num at h
  constructor <;> intro v <;> unfold sampledAt shareAt pointAt
  · split
    · rw [if_neg fun h => hp _ hq.1 _ (by linarith) (by linarith) h.1]
    · split
      · exact dither_zero hH (Or.inl (hp _ hq.1))
      · rename_i h
        rw [mean_zero hW (hpos h) (Or.inl (hsq _ hq.1)), mul_zero]
  · split
    · rw [if_neg fun h => hp _ hq.2 _ (by linarith) (by linarith) h.2]
    · split
      · exact dither_zero hH (Or.inr (hp _ hq.2))
      · rename_i h
        rw [mean_zero hW (hpos h) (Or.inr (hsq _ hq.2)), mul_zero]

/-- C61. The image of the subsampled backends is the sum over all periodic copies of all particles of `sampledAt`:
nothing is written outside the image, no copy and no pixel inside a kernel is left out or counted twice. -/
theorem c61_image {W : K → K → K} (hW : Compact W) {E D : Nat} (hE : 0 < E) {g : K} {res : Nat} (hr : 0 < res)
    {bx by_ : K} (hbx : 0 ≤ bx) (hby : 0 ≤ by_) (ps : List (Part K)) (hp : Fits g bx by_ ps) :
    subsampled W E D g res bx by_ ps = .ok fun q => if OnImage res q.1 ∧ OnImage res q.2 then
      (ps.map fun p => tile2 bx by_ (sampledAt W E D res p.m (g * p.h) q) p.x p.y).sum else 0 := by
  unfold subsampled
  rw [paint_ok _ _ (over_inside (fun p d => subsampledDeps_inside W E D g res p d) bx by_ ps)]
  congr 1
  funext q
  by_cases hq : OnImage res q.1 ∧ OnImage res q.2
  · rw [if_pos hq, wsum_over]
    congr 1
    apply List.map_congr_left
    intro p hpm
    obtain ⟨h1, h2, h3, h4, h5⟩ := hp p hpm
    rw [← tile2_eq]
    · congr 2
      funext i
      congr 2
      funext j
      exact wsum_subsampledDeps hW hE hr { p with x := p.x + (i : K) * bx, y := p.y + (j : K) * by_ } h3 q hq
    · intro k hk hs
      exact (sampled_far hW h3 h4 hbx h1 hq hk hs).1
    · intro k hk hs
      exact (sampled_far hW h3 h5 hby h2 hq hk hs).2
  · rw [if_neg hq]
    apply wsum_of_forall_ne
    intro d hd he
    have := over_inside (fun p d => subsampledDeps_inside W E D g res p d) bx by_ ps d hd
    rw [inside2_iff, he] at this
    exact hq this

/-- C61. The subsampled images are additive in the particle list, linear in the projected quantity, and the same when
they are drawn by any number of threads. -/
theorem c61_parallel (W : K → K → K) (E D : Nat) (g : K) (res : Nat) (bx by_ : K) :
    Additive (subsampled W E D g res bx by_) ∧ LinearInMass (subsampled W E D g res bx by_) ∧
      ∀ (T : Nat), 0 < T → ∀ order : List Nat, order.Perm (List.range T) → ∀ ps,
        parallel (subsampled W E D g res bx by_) T order ps = subsampled W E D g res bx by_ ps := by
  have h := runs_over (fun p d => subsampledDeps_inside W E D g res p d) bx by_
  have hadd : Additive (subsampled W E D g res bx by_) := additive_of_runs h
  refine ⟨hadd, linear_of_runs h (prop_copies2 bx by_ ?_), fun T hT order ho ps => c38_parallel hadd T hT order ho ps⟩
  intro p q
  unfold subsampledDeps
  dsimp only
  split
  · simp
  · split
    · split
      · by_cases h : (cell res p.x, cell res p.y) = q <;> simp [h]
      · unfold ditherDeps
        dsimp only
        rw [wsum_flatMap, wsum_flatMap, ← List.sum_map_mul_left]
        congr 2
        funext a
        rw [wsum_flatMap, wsum_flatMap, ← List.sum_map_mul_left]
        congr 2
        funext b
        split
        · by_cases h : (ditherPixel D res p.x (g * p.h) a, ditherPixel D res p.y (g * p.h) b) = q <;> simp [h]
        · simp
    · have := wsum_over2_mul (span res (cell res p.x) (spanned (g * p.h) res))
        (span res (cell res p.y) (spanned (g * p.h) res)) (nodup_irange _ _) (nodup_irange _ _) p.m
        (fun i j => kernelEval W res (subsampleFactor E (g * p.h) res) (g * p.h) p i j *
          (1 / (subsampleFactor E (g * p.h) res : K) * (1 / (subsampleFactor E (g * p.h) res : K)))) q
      simp only [← mul_assoc] at this ⊢
      exact this

/-! ## Shares of small kernels -/

private theorem cell_nonneg {W : K → K → K} (hW : Compact W) (hpos : PositiveInside W) {D : Nat} (hD : 0 < D) (a b : Nat) :
    0 ≤ ditherCell W D a b := by
  have hD' : (0 : K) < D := by exact_mod_cast hD
  unfold ditherCell
  by_cases h : (D : K) * D ≤ ((a : K) + 1 / 2 - D) ^ 2 + ((b : K) + 1 / 2 - D) ^ 2
  · rw [hW _ _ hD' h]
  · exact (hpos _ _ hD' (by positivity) (not_le.1 h)).le

private theorem cell_pos {W : K → K → K} (hpos : PositiveInside W) {D : Nat} (hD : 0 < D) {a : Nat} (ha : a = 0 ∨ a = D) :
    0 < ditherCell W D a D ∧ 0 < ditherCell W D D a := by
  have hD' : (1 : K) ≤ D := by exact_mod_cast hD
  unfold ditherCell
  constructor <;> apply hpos _ _ (by linarith) (by positivity) <;> rcases ha with rfl | rfl <;> push_cast <;> nlinarith

private theorem total_pos {W : K → K → K} (hW : Compact W) (hpos : PositiveInside W) {D : Nat} (hD : 0 < D) :
    0 < ∑ a ∈ Finset.range (2 * D), ∑ b ∈ Finset.range (2 * D), ditherCell W D a b := by
  apply Finset.sum_pos'
  · exact fun a _ => Finset.sum_nonneg fun b _ => cell_nonneg hW hpos hD a b
  · refine ⟨D, Finset.mem_range.2 (by omega), Finset.sum_pos' (fun b _ => cell_nonneg hW hpos hD D b) ?_⟩
    exact ⟨D, Finset.mem_range.2 (by omega), (cell_pos hpos hD (Or.inr rfl)).1⟩

/-- the shares add up to the whole mass -/
theorem share_total {W : K → K → K} (hW : Compact W) (hpos : PositiveInside W) {D : Nat} (hD : 0 < D) :
    ∑ a ∈ Finset.range (2 * D), ∑ b ∈ Finset.range (2 * D), ditherShare W D a b = 1 := by
  unfold ditherShare
  simp only [← Finset.sum_div]
  exact div_self (total_pos hW hpos hD).ne'

/-- a share that is laid down strictly before the end of the kernel is in the pixel -/
private theorem within_pixel {res : Nat} (hr : 0 < res) {D : Nat} {H x : K} (hH : 0 ≤ H) {i : Int} (hw : Within res H x i)
    (hx : InPixel res i x) {a : Nat} (ha : a < 2 * D) : InPixel res i (ditherPos D x H a) := by
  have hr' : (0 : K) < res := by exact_mod_cast hr
  obtain ⟨h1, h2, h3⟩ := ditherPos_mem (x := x) hH ha
  obtain ⟨w1, w2⟩ := hw
  have e : ((i : K) + 1) / res = (i : K) / res + 1 / res := by ring
  refine ⟨by linarith, ?_⟩
  rcases hH.lt_or_eq with h | h
  · have := h3 h
    rw [e]; linarith
  · have : ditherPos D x H a = x := by linarith
    rw [this]; exact hx.2

/-- C61. A kernel inside one pixel puts its whole mass there: the shares and the short cut agree. -/
theorem c61_within {W : K → K → K} (hW : Compact W) (hpos : PositiveInside W) {D : Nat} (hD : 0 < D) {res : Nat}
    (hr : 0 < res) {m H x y : K} (hH : 0 ≤ H) {i j : Int} (hx : Within res H x i ∧ InPixel res i x)
    (hy : Within res H y j ∧ InPixel res j y) (q : Int × Int) :
    ditherAt W D res m H q x y = pointAt res m q x y := by
  have hun : ∀ {k l : Int} {u v : K}, InPixel res k u → InPixel res k v → (InPixel res l u ↔ InPixel res l v) := by
    intro k l u v h1 h2
    rw [← cell_eq_iff hr] at h1 h2 ⊢
    rw [← cell_eq_iff hr, h1, h2]
  unfold ditherAt
  have h1 : ∀ a ∈ Finset.range (2 * D), ∀ b ∈ Finset.range (2 * D),
      pointAt res (m * ditherShare W D a b) q (ditherPos D x H a) (ditherPos D y H b) =
        pointAt res m q x y * ditherShare W D a b := by
    intro a ha b hb
    rw [Finset.mem_range] at ha hb
    unfold pointAt
    simp only [hun (within_pixel hr hH hx.1 hx.2 ha) hx.2, hun (within_pixel hr hH hy.1 hy.2 hb) hy.2]
    split <;> ring
  rw [Finset.sum_congr rfl fun a ha => Finset.sum_congr rfl fun b hb => h1 a ha b hb]
  simp only [← Finset.mul_sum]
  rw [share_total hW hpos hD, mul_one]

/-- A kernel of radius `H` around `x` does not reach over the upper border of the pixel that contains `x`. -/
def StaysBelow (res : Nat) (H x : K) : Prop := ∀ i : Int, InPixel res i x → x + H ≤ ((i : K) + 1) / res

/-- C61, the part of the intended image that holds. The full statement is the conclusion without `hc`: every pixel gets
the shares of small kernels and the mean of larger ones. It holds when no copy of a small kernel reaches over the upper
border of its pixel along an axis; what happens otherwise is `c61_upper_border_fails`. -/
theorem c61_intended_partial {W : K → K → K} (hW : Compact W) (hpos : PositiveInside W) {E D : Nat} (hE : 0 < E)
    (hD : 0 < D) {g : K} {res : Nat} (hr : 0 < res) {bx by_ : K} (hbx : 0 ≤ bx) (hby : 0 ≤ by_) (ps : List (Part K))
    (hp : Fits g bx by_ ps)
    (hc : ∀ p ∈ ps, g * p.h * res ≤ 1 / 4 → (∀ k : Int, StaysBelow res (g * p.h) (p.x + k * bx)) ∧
      ∀ k : Int, StaysBelow res (g * p.h) (p.y + k * by_)) :
    subsampled W E D g res bx by_ ps = .ok fun q => if OnImage res q.1 ∧ OnImage res q.2 then
      (ps.map fun p => tile2 bx by_ (shareAt W E D res p.m (g * p.h) q) p.x p.y).sum else 0 := by
  rw [c61_image hW hE hr hbx hby ps hp]
  congr 1
  funext q
  congr 2
  apply List.map_congr_left
  intro p hpm
  unfold tile2
  apply finsum_congr
  intro k
  congr 1
  unfold sampledAt
  split
  · rename_i h
    obtain ⟨hs, _, hbx', hby'⟩ := h
    obtain ⟨c1, c2⟩ := hc p hpm hs
    have hw : ∀ x : K, StaysBelow res (g * p.h) x → Between res 1 (g * p.h) x ⌊(res : K) * x⌋ →
        Within res (g * p.h) x ⌊(res : K) * x⌋ ∧ InPixel res ⌊(res : K) * x⌋ x := by
      intro x h1 h2
      have h3 : InPixel res ⌊(res : K) * x⌋ x := (cell_eq_iff hr x _).1 rfl
      refine ⟨⟨h2.1, ?_⟩, h3⟩
      have := h1 _ h3
      rw [add_div] at this
      exact this
    unfold shareAt
    rw [if_pos hs]
    exact (c61_within hW hpos hD hr (hp p hpm).2.2.1 (hw _ (c1 k.1) hbx') (hw _ (c2 k.2) hby') q).symm
  · rfl

/-! ## Mass -/

private theorem sum_pointAt {res : Nat} (hr : 0 < res) (m x y : K) (hx : 0 ≤ x ∧ x < 1) (hy : 0 ≤ y ∧ y < 1) :
    (∑ i ∈ Finset.range res, ∑ j ∈ Finset.range res, pointAt res m ((i : Int), (j : Int)) x y) = m * (res : K) ^ 2 := by
  rw [← sum_single (res := res) (cell res x, cell res y) ⟨(onImage_cell hr x).2 hx, (onImage_cell hr y).2 hy⟩
    (m * (res : K) ^ 2)]
  apply Finset.sum_congr rfl
  intro i _
  apply Finset.sum_congr rfl
  intro j _
  unfold pointAt
  simp only [← cell_eq_iff hr, Prod.mk.injEq]

/-- the pixels of one small kernel inside the image add up to its mass -/
private theorem sum_sampledAt {W : K → K → K} (hW : Compact W) (hpos : PositiveInside W) {E D : Nat} (hD : 0 < D)
    {res : Nat} (hr : 0 < res) {m H x y : K} (hH : 0 ≤ H) (hs : H * res ≤ 1 / 4) (hx : Interior H x ∧ x < 1)
    (hy : Interior H y ∧ y < 1) :
    (∑ i ∈ Finset.range res, ∑ j ∈ Finset.range res, sampledAt W E D res m H ((i : Int), (j : Int)) x y) =
      m * (res : K) ^ 2 := by
  have hin : ∀ {u : K}, Interior H u ∧ u < 1 → ∀ a ∈ Finset.range (2 * D),
      0 ≤ ditherPos D u H a ∧ ditherPos D u H a < 1 := by
    intro u hu a ha
    rw [Finset.mem_range] at ha
    obtain ⟨h1, h2, h3⟩ := ditherPos_mem (x := u) hH ha
    obtain ⟨⟨h4, h5⟩, h6⟩ := hu
    refine ⟨by linarith, ?_⟩
    rcases hH.lt_or_eq with h | h
    · linarith [h3 h]
    · linarith
  unfold sampledAt
  by_cases hw : Whole res H x y
  · simp only [hs, hw, true_and, if_true]
    exact sum_pointAt hr m x y ⟨by linarith [hx.1.1], hx.2⟩ ⟨by linarith [hy.1.1], hy.2⟩
  · simp only [hw, and_false, if_false]
    unfold shareAt
    simp only [hs, if_true]
    unfold ditherAt
    have hsw : ∀ i : Nat, (∑ j ∈ Finset.range res, ∑ a ∈ Finset.range (2 * D), ∑ b ∈ Finset.range (2 * D),
        pointAt res (m * ditherShare W D a b) ((i : Int), (j : Int)) (ditherPos D x H a) (ditherPos D y H b)) =
        ∑ a ∈ Finset.range (2 * D), ∑ b ∈ Finset.range (2 * D), ∑ j ∈ Finset.range res,
        pointAt res (m * ditherShare W D a b) ((i : Int), (j : Int)) (ditherPos D x H a) (ditherPos D y H b) := by
      intro i
      rw [Finset.sum_comm]
      apply Finset.sum_congr rfl
      intro a _
      exact Finset.sum_comm
    simp only [hsw]
    rw [Finset.sum_comm]
    have h2 : ∀ a ∈ Finset.range (2 * D), (∑ i ∈ Finset.range res, ∑ b ∈ Finset.range (2 * D), ∑ j ∈ Finset.range res,
        pointAt res (m * ditherShare W D a b) ((i : Int), (j : Int)) (ditherPos D x H a) (ditherPos D y H b)) =
        m * (res : K) ^ 2 * ∑ b ∈ Finset.range (2 * D), ditherShare W D a b := by
      intro a ha
      rw [Finset.sum_comm, Finset.mul_sum]
      apply Finset.sum_congr rfl
      intro b hb
      rw [sum_pointAt hr _ _ _ (hin hx a ha) (hin hy b hb)]
      ring
    rw [Finset.sum_congr rfl h2, ← Finset.mul_sum, share_total hW hpos hD, mul_one]

/-- C61. Small kernels inside an image that is not periodic: the pixels add up to the projected quantity (per pixel
area), whatever borders between pixels the kernels cross. -/
theorem c61_mass {W : K → K → K} (hW : Compact W) (hpos : PositiveInside W) {E D : Nat} (hE : 0 < E) (hD : 0 < D) {g : K}
    {res : Nat} (hr : 0 < res) (ps : List (Part K))
    (hp : ∀ p ∈ ps, 0 ≤ g * p.h ∧ g * p.h * res ≤ 1 / 4 ∧ (Interior (g * p.h) p.x ∧ p.x < 1) ∧
      Interior (g * p.h) p.y ∧ p.y < 1) (img : Int × Int → K) (h : subsampled W E D g res 0 0 ps = .ok img) :
    (∑ i ∈ Finset.range res, ∑ j ∈ Finset.range res, img ((i : Int), (j : Int))) / (res : K) ^ 2 =
      (ps.map fun p => p.m).sum := by
  have hr' : (res : K) ≠ 0 := by exact_mod_cast hr.ne'
  have hfit : Fits g (0 : K) 0 ps := fun p hpm =>
    ⟨fun h => absurd rfl h, fun h => absurd rfl h, (hp p hpm).1, fun h => absurd rfl h, fun h => absurd rfl h⟩
  rw [c61_image hW hE hr le_rfl le_rfl ps hfit] at h
  cases h
  have ht : ∀ (f : K → K → K) (x y : K), tile2 0 0 f x y = f x y := by
    intro f x y
    rw [← tile2_eq]
    · simp [shifts, irange]
    · intro k hk hs; exact absurd ((mem_shifts_of_zero k).2 (hk rfl)) hs
    · intro k hk hs; exact absurd ((mem_shifts_of_zero k).2 (hk rfl)) hs
  have hon : ∀ i ∈ Finset.range res, OnImage res (i : Int) := by
    intro i hi
    rw [Finset.mem_range] at hi
    unfold OnImage; omega
  rw [div_eq_iff (by positivity)]
  have h1 : ∀ i ∈ Finset.range res, ∀ j ∈ Finset.range res,
      (if OnImage res ((i : Int), (j : Int)).1 ∧ OnImage res ((i : Int), (j : Int)).2 then
        (ps.map fun p => tile2 0 0 (sampledAt W E D res p.m (g * p.h) ((i : Int), (j : Int))) p.x p.y).sum else 0) =
      (ps.map fun p => sampledAt W E D res p.m (g * p.h) ((i : Int), (j : Int)) p.x p.y).sum := by
    intro i hi j hj
    rw [if_pos ⟨hon i hi, hon j hj⟩]
    simp only [ht]
  rw [Finset.sum_congr rfl fun i hi => Finset.sum_congr rfl fun j hj => h1 i hi j hj]
  clear h1 hfit
  induction ps with
  | nil => simp
  | cons p ps ih =>
    simp only [List.map_cons, List.sum_cons, Finset.sum_add_distrib, add_mul]
    rw [ih fun r hr => hp r (by simp [hr])]
    obtain ⟨a, b, c, d⟩ := hp p (by simp)
    rw [sum_sampledAt hW hpos hD hr a b c d]

/-! ## Number of samples -/

/-- C61. The square of pixels around a larger kernel holds at least `2E × 2E` samples (32² and 64² for the two
backends). -/
theorem c61_evaluations {E : Nat} (hE : 0 < E) {res : Nat} {H : K} (hH : 0 ≤ H) (pc : Int) :
    2 * E ≤ (irange (pc - spanned H res) (pc + spanned H res + 1)).length * (subsampleFactor E H res).toNat := by
  obtain ⟨hf, hS⟩ := factor_eq hE (res := res) hH
  have h0 : (0 : K) ≤ H * res := by positivity
  have h1 := lt_spanned hH res
  have h2 := spanned_pos hH res
  rw [hf, Int.toNat_natCast]
  have hl : ((irange (pc - spanned H res) (pc + spanned H res + 1)).length : Int) = 2 * spanned H res + 1 := by
    simp only [irange, List.length_map, List.length_range]; omega
  have h3 : (E : K) / (1 + H * res) ≤ (⌈(E : K) / (1 + H * res)⌉ : K) := Int.le_ceil _
  have h4 : 0 ≤ ⌈(E : K) / (1 + H * res)⌉ := Int.ceil_nonneg (by positivity)
  have h5 : (E : K) ≤ (⌈(E : K) / (1 + H * res)⌉ : K) * (1 + H * res) := by
    rwa [div_le_iff₀ (by positivity)] at h3
  have h4' : (0 : K) ≤ (⌈(E : K) / (1 + H * res)⌉ : K) := by exact_mod_cast h4
  have h6 : (E : K) ≤ (⌈(E : K) / (1 + H * res)⌉ : K) * (2 * (spanned H res : K) + 1) := by
    have h2' : (1 : K) ≤ (spanned H res : K) := by exact_mod_cast h2
    nlinarith
  have h7 : (E : Int) ≤ ⌈(E : K) / (1 + H * res)⌉ * (2 * spanned H res + 1) := by exact_mod_cast h6
  unfold samples
  zify
  rw [hl, Int.toNat_of_nonneg h4]
  nlinarith

/-! ## The upper borders -/

/-- C61, failing part. On every image of at least two pixels a side, a small kernel that reaches over the upper border of
its pixel (and not over the lower one) puts everything in its own pixel and nothing beyond the border, for every kernel;
a kernel that reaches over the lower border puts a positive part of its mass beyond it. -/
theorem c61_upper_border_fails {W : K → K → K} (hW : Compact W) (hpos : PositiveInside W) {E D : Nat} (hE : 0 < E)
    (hD : 0 < D) {g : K} {res : Nat} (hr : 2 ≤ res) (p : Part K) {i j : Int} (hi : OnImage res i) (hj : OnImage res j)
    (hm : 0 < p.m) (hH : 0 ≤ g * p.h) (hs : g * p.h * res ≤ 1 / 4) (hx : InPixel res i p.x)
    (hy : Within res (g * p.h) p.y j ∧ InPixel res j p.y) :
    (((i : K) + 1) / res < p.x + g * p.h → ∃ img, subsampled W E D g res 0 0 [p] = .ok img ∧
        img (i, j) = p.m * (res : K) ^ 2 ∧ img (i + 1, j) = 0) ∧
      (p.x - g * p.h < (i : K) / res → OnImage res (i - 1) → ∃ img, subsampled W E D g res 0 0 [p] = .ok img ∧
        0 < img (i - 1, j)) := by
  have hr0 : 0 < res := by omega
  have hr' : (2 : K) ≤ res := by exact_mod_cast hr
  have hrp : (0 : K) < res := by linarith
  have hfit : Fits g (0 : K) 0 [p] := fun r hrm => by
    rw [List.mem_singleton] at hrm
    subst hrm
    exact ⟨fun h => absurd rfl h, fun h => absurd rfl h, hH, fun h => absurd rfl h, fun h => absurd rfl h⟩
  have ht : ∀ (f : K → K → K) (x y : K), tile2 0 0 f x y = f x y := by
    intro f x y
    rw [← tile2_eq]
    · simp [shifts, irange]
    · intro k hk hs; exact absurd ((mem_shifts_of_zero k).2 (hk rfl)) hs
    · intro k hk hs; exact absurd ((mem_shifts_of_zero k).2 (hk rfl)) hs
  have himg := c61_image hW hE (D := D) hr0 le_rfl le_rfl [p] hfit
  simp only [List.map_cons, List.map_nil, List.sum_cons, List.sum_nil, add_zero, ht] at himg
  have hci : ⌊(res : K) * p.x⌋ = i := (cell_eq_iff hr0 p.x i).2 hx
  have hcj : ⌊(res : K) * p.y⌋ = j := (cell_eq_iff hr0 p.y j).2 hy.2
  have hx' := hx
  unfold InPixel at hx'
  rw [div_le_iff₀ hrp, lt_div_iff₀ hrp] at hx'
  have hHq : g * p.h ≤ 1 / 8 := by nlinarith
  constructor
  · intro hup
    refine ⟨_, himg, ?_⟩
    rw [div_lt_iff₀ hrp] at hup
    have hw : Whole res (g * p.h) p.x p.y := by
      unfold Whole Between
      rw [hci, hcj]
      obtain ⟨⟨w1, w2⟩, w3⟩ := hy
      refine ⟨⟨hi, hj⟩, ⟨?_, ?_⟩, w1, w2.trans ?_⟩
      · rw [div_le_iff₀ hrp]; nlinarith
      · have : p.x < (i : K) / res + 1 / res := by
          have := hx.2
          rwa [add_div] at this
        have h3 : (1 : K) / res ≤ 1 / 2 := one_div_le_one_div_of_le (by norm_num) hr'
        linarith
      · have h3 : (1 : K) / res ≤ 1 / 2 := one_div_le_one_div_of_le (by norm_num) hr'
        linarith
    unfold sampledAt
    simp only [hs, hw, and_self, if_true, hi, hj]
    unfold pointAt
    constructor
    · rw [if_pos ⟨hx, hy.2⟩]
    · have hn : ¬(InPixel res (i + 1) p.x ∧ InPixel res j p.y) := by
        intro h
        have := (cell_eq_iff hr0 p.x (i + 1)).2 h.1
        have h2 := (cell_eq_iff hr0 p.x i).2 hx
        omega
      simp only [hn, if_false, ite_self]
  · intro hlo hi1
    refine ⟨_, himg, ?_⟩
    have hlo' := hlo
    rw [lt_div_iff₀ hrp] at hlo
    have hw : ¬Whole res (g * p.h) p.x p.y := by
      rintro ⟨_, ⟨h1, _⟩, _⟩
      rw [hci] at h1
      linarith
    unfold sampledAt shareAt
    simp only [hw, and_false, if_false, hs, if_true, hi1, hj]
    unfold ditherAt
    have hsh : ∀ a b, 0 ≤ ditherShare W D a b := fun a b =>
      div_nonneg (cell_nonneg hW hpos hD a b) (total_pos hW hpos hD).le
    have hnn : ∀ a b, 0 ≤ pointAt res (p.m * ditherShare W D a b) (i - 1, j) (ditherPos D p.x (g * p.h) a)
        (ditherPos D p.y (g * p.h) b) := by
      intro a b
      unfold pointAt
      have := hsh a b
      split <;> positivity
    refine Finset.sum_pos' (fun a _ => Finset.sum_nonneg fun b _ => hnn a b)
      ⟨0, Finset.mem_range.2 (by omega), Finset.sum_pos' (fun b _ => hnn 0 b) ⟨D, Finset.mem_range.2 (by omega), ?_⟩⟩
    have e0 : ditherPos D p.x (g * p.h) 0 = p.x - g * p.h := by unfold ditherPos; simp; ring
    have hD' : (D : K) ≠ 0 := by exact_mod_cast hD.ne'
    have e1 : ditherPos D p.y (g * p.h) D = p.y := by unfold ditherPos; rw [div_self hD']; ring
    rw [e0, e1]
    unfold pointAt
    rw [if_pos]
    · have : 0 < ditherShare W D 0 D :=
        div_pos (cell_pos hpos hD (Or.inl rfl)).1 (total_pos hW hpos hD)
      positivity
    · refine ⟨⟨?_, ?_⟩, hy.2⟩
      · push_cast
        rw [div_le_iff₀ hrp]
        nlinarith [hx'.1]
      · push_cast
        rw [sub_add_cancel]
        exact hlo'

/-! ## Examples -/

-- a compact kernel that is positive inside its radius
example : Compact cone ∧ PositiveInside cone := by
  refine ⟨fun _ _ _ h => if_neg (not_lt.2 h), fun r2 H hH _ h => ?_⟩
  unfold cone
  rw [if_pos h, sub_pos, div_lt_one (by positivity)]
  exact h

-- a kernel of radius 1/20 of an image of 4 pixels a side that crosses the upper border at 1/2, and its mirror image
private def above : Part ℚ := ⟨12/25, 3/8, 0, 1, 1/20⟩
private def below : Part ℚ := ⟨13/25, 3/8, 0, 1, 1/20⟩

example : OnImage 4 1 ∧ OnImage 4 2 ∧ (1 : ℚ) * above.h * (4 : Nat) ≤ 1 / 4 ∧ InPixel 4 1 above.x ∧
    (Within 4 (1 * above.h) above.y 1 ∧ InPixel 4 1 above.y) ∧ (((1 : Int) : ℚ) + 1) / (4 : Nat) < above.x + 1 * above.h ∧
    InPixel 4 2 below.x ∧ below.x - 1 * below.h < ((2 : Int) : ℚ) / (4 : Nat) := by
  unfold Within Between InPixel OnImage above below; norm_num

-- both are drawn, only one of them on both sides of the border
example : (subsampled cone 2 2 1 4 0 0 [above]).toOption.map (fun f => (f (1, 1), f (2, 1))) = some (16, 0) := by
  decide +kernel

example : (subsampled cone 2 2 1 4 0 0 [below]).toOption.map (fun f => decide (0 < f (1, 1) ∧ 0 < f (2, 1))) =
    some true := by decide +kernel

-- the hypotheses of `c61_image`, `c61_mass` and `c61_intended_partial` in a periodic box
example : Fits (1 : ℚ) 1 1 [above, below, ⟨1/10, 1/5, 0, 2, 1/3⟩] := by
  intro p hp
  simp only [List.mem_cons, List.not_mem_nil, or_false] at hp
  rcases hp with rfl | rfl | rfl <;> unfold Wrapped <;> norm_num [above, below]

example : StaysBelow 4 (1/20 : ℚ) (3/8) := by
  intro i h
  have : i = 1 := by
    rw [← cell_eq_iff (by norm_num)] at h
    rw [← h]; decide +kernel
  subst this; norm_num

end Verif.Props
