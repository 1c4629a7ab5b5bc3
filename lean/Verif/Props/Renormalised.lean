import Verif.Props.Image

/-!
# C40: mass in the renormalised projection (`swiftsimio/visualisation/projection_backends/renormalised.py`)
-/

set_option linter.unusedSectionVars false

namespace Verif.Props
open Verif Verif.Spec Verif.Scatter

variable {K : Type} [Field K] [LinearOrder K] [IsStrictOrderedRing K] [FloorRing K]

private theorem sum_list {f : Int → K} {l : List Int} (hl : l.Nodup) {s : Finset Int} (h : ∀ i, i ∈ l ↔ i ∈ s) :
    (l.map f).sum = ∑ i ∈ s, f i := by
  have : l.toFinset = s := by ext i; rw [List.mem_toFinset, h]
  rw [← this, List.sum_toFinset _ hl]

private theorem floor_spanned {H : K} (hH : 0 ≤ H) (res : Nat) : spanned H res = ⌊(res : K) * H⌋ + 1 := by
  rw [spanned_of_nonneg hH, add_comm (1 : K), Int.floor_add_one, mul_comm H]

private theorem kernelSum_eq (W : K → K → K) {res : Nat} (hr : 0 < res) {H : K} (hH : 0 ≤ H) (p : Part K) :
    kernelSum W H res (spanned H res) p = kernelSquare W res H p.x p.y := by
  have hI : ∀ c i : Int, i ∈ irange (c - spanned H res + 1) (c + spanned H res) ↔
      i ∈ Finset.Icc (c - ⌊(res : K) * H⌋) (c + ⌊(res : K) * H⌋) := by
    intro c i
    rw [mem_irange, Finset.mem_Icc, floor_spanned hH]; omega
  unfold kernelSum kernelSquare
  rw [List.flatMap, List.sum_flatten, List.map_map, sum_list (nodup_irange _ _) (hI _)]
  apply Finset.sum_congr rfl
  intro i _
  dsimp only [Function.comp]
  rw [sum_list (nodup_irange _ _) (hI _)]
  apply Finset.sum_congr rfl
  intro j _
  rw [dist2_eq hr, dist2_eq hr]; rfl

/-- the renormalised loop is the plain loop with another mass -/
private theorem renormalisedDeps_eq (W : K → K → K) (g : K) {res : Nat} (hr : 0 < res) (p : Part K)
    (hH : 0 ≤ g * p.h) : renormalisedDeps W g res p = fastDeps W g res { p with m :=
      if g * p.h * res < 1 then p.m else p.m * ((res : K) ^ 2 / kernelSquare W res (g * p.h) p.x p.y) } := by
  unfold renormalisedDeps fastDeps
  dsimp only
  by_cases hs : g * p.h * (res : K) < 1
  · have hcs := (spanned_le_one_iff hH res).2 hs
    rw [if_pos hcs, if_pos hcs, if_pos hs]
  · have hcs : ¬spanned (g * p.h) res ≤ 1 := fun h => hs ((spanned_le_one_iff hH res).1 h)
    rw [if_neg hcs, if_neg hcs, if_neg hs, kernelSum_eq W hr hH]
    simp only [pow_two, mul_assoc]

private theorem renormalisedAt_eq (W : K → K → K) (res : Nat) (m H : K) (q : Int × Int) (x y : K) :
    renormalisedAt W res m H q x y =
      smoothAt W res (if H * res < 1 then m else m * ((res : K) ^ 2 / kernelSquare W res H x y)) H q x y := by
  unfold smoothAt renormalisedAt
  split <;> rfl

private theorem wsum_renormalisedDeps {W : K → K → K} (hW : Compact W) {g : K} {res : Nat} (hr : 0 < res) (p : Part K)
    (hH : 0 ≤ g * p.h) (q : Int × Int) : wsum q (renormalisedDeps W g res p) =
      if OnImage res q.1 ∧ OnImage res q.2 then renormalisedAt W res p.m (g * p.h) q p.x p.y else 0 := by
  rw [renormalisedDeps_eq W g hr p hH, renormalisedAt_eq]
  have h := wsum_fastDeps hW hr (⟨p.x, p.y, p.z, if g * p.h * res < 1 then p.m else
    p.m * ((res : K) ^ 2 / kernelSquare W res (g * p.h) p.x p.y), p.h⟩ : Part K) hH q
  exact h

/-- C40. Every pixel of the renormalised image: the kernel, normalised over the square of `2 ⌊res H⌋ + 1` pixels around
the particle, summed over all periodic copies. No write leaves the image. -/
theorem c40_image {W : K → K → K} (hW : Compact W) {g : K} {res : Nat} (hr : 0 < res) {bx by_ : K} (hbx : 0 ≤ bx)
    (hby : 0 ≤ by_) (ps : List (Part K)) (hp : Fits g bx by_ ps) :
    renormalised W g res bx by_ ps = .ok fun q => if OnImage res q.1 ∧ OnImage res q.2 then
      (ps.map fun p => tile2 bx by_ (renormalisedAt W res p.m (g * p.h) q) p.x p.y).sum else 0 := by
  have hin : ∀ d ∈ over (renormalisedDeps W g res) bx by_ ps, inside2 res res d.1 = true := by
    intro d hd
    simp only [over, List.mem_flatMap] at hd
    obtain ⟨p, hpm, c, hc, hd⟩ := hd
    have : c.h = p.h := by
      simp only [copies2, List.mem_flatMap, List.mem_map] at hc
      obtain ⟨i, _, j, _, rfl⟩ := hc; rfl
    rw [renormalisedDeps_eq W g hr c (this ▸ (hp p hpm).2.2.1)] at hd
    exact fastDeps_inside W g res _ d hd
  unfold renormalised
  rw [paint_ok _ _ hin]
  congr 1
  funext q
  rw [wsum_over]
  have h0 : ∀ p ∈ ps, ∀ x y : K, wsum q (renormalisedDeps W g res { p with x := x, y := y }) =
      if OnImage res q.1 ∧ OnImage res q.2 then renormalisedAt W res p.m (g * p.h) q x y else 0 := fun p hpm x y =>
    wsum_renormalisedDeps hW hr { p with x := x, y := y } (hp p hpm).2.2.1 q
  by_cases hq : OnImage res q.1 ∧ OnImage res q.2
  · rw [if_pos hq]
    congr 1
    apply List.map_congr_left
    intro p hpm
    obtain ⟨h1, h2, h3, h4, h5⟩ := hp p hpm
    rw [← tile2_eq]
    · simp only [h0 p hpm, if_pos hq]
    · intro k hk hs v
      rw [renormalisedAt_eq]
      exact (smooth_far hW h3 h4 hbx h1 hq hk hs).1 v
    · intro k hk hs v
      rw [renormalisedAt_eq]
      exact (smooth_far hW h3 h5 hby h2 hq hk hs).2 v
  · rw [if_neg hq]
    apply List.sum_eq_zero
    intro v hv
    rw [List.mem_map] at hv
    obtain ⟨p, hpm, rfl⟩ := hv
    simp only [h0 p hpm, if_neg hq]
    simp

private theorem sum_range_int (n : Nat) (f : Int → K) : (∑ i ∈ Finset.range n, f (i : Int)) = ∑ i ∈ Finset.Ico (0 : Int) n, f i := by
  refine Finset.sum_nbij (fun i : Nat => (i : Int)) ?_ ?_ ?_ ?_
  · intro i hi
    rw [Finset.mem_range] at hi
    rw [Finset.mem_Ico]; omega
  · intro i _ j _ h; simpa using h
  · intro i hi
    rw [Finset.mem_coe, Finset.mem_Ico] at hi
    exact ⟨i.toNat, by simp; omega, by simp; omega⟩
  · intro i _; rfl

/-- a pixel whose centre is inside an interior kernel is on the image -/
private theorem onImage_of_near {res : Nat} (hr : 0 < res) {H x : K} (hx : Interior H x) {i : Int}
    (h : (centre res i - x) ^ 2 < H * H) (hH : 0 < H) : OnImage res i := by
  have hr' : (0 : K) < res := by exact_mod_cast hr
  rw [← pow_two] at h
  have h1 := abs_lt_of_sq_lt_sq h hH.le
  rw [abs_lt] at h1
  have h2 := centre_mul (K := K) hr i
  obtain ⟨h3, h4⟩ := hx
  have h5 : 0 < centre (K := K) res i := by linarith
  have h6 : centre (K := K) res i < 1 := by linarith
  have h7 : (0 : K) < (i : K) + 1 / 2 := by rw [← h2]; positivity
  have h8 : (i : K) + 1 / 2 < res := by rw [← h2]; nlinarith
  constructor
  · have : ((-1 : Int) : K) < (i : K) := by push_cast; linarith
    have := Int.cast_lt.1 this
    omega
  · have : ((i : Int) : K) < ((res : Int) : K) := by push_cast; linarith
    exact Int.cast_lt.1 this

private theorem floor_near {res : Nat} (hr : 0 < res) (x : K) : (centre res ⌊(res : K) * x⌋ - x) ^ 2 * (res : K) ^ 2 ≤ 1 / 4 := by
  have h2 := centre_mul (K := K) hr ⌊(res : K) * x⌋
  have h3 := Int.floor_le ((res : K) * x)
  have h4 := Int.lt_floor_add_one ((res : K) * x)
  have : (centre res ⌊(res : K) * x⌋ - x) ^ 2 * (res : K) ^ 2 = (⌊(res : K) * x⌋ + 1 / 2 - res * x) ^ 2 := by
    rw [← h2]; ring
  rw [this]
  nlinarith

/-- sums of the kernel over the image and over the square used for the normalisation -/
private theorem square_le {W : K → K → K} (hW : Compact W) (hpos : PositiveInside W) {res : Nat} (hr : 0 < res) {H x y : K}
    (hH : 1 ≤ H * res) (hx : Interior H x) (hy : Interior H y) :
    0 < kernelSquare W res H x y ∧
    kernelSquare W res H x y ≤ ∑ i ∈ Finset.range res, ∑ j ∈ Finset.range res, W (gap2 res ((i : Int), (j : Int)) x y) H ∧
    ((∑ i ∈ Finset.range res, ∑ j ∈ Finset.range res, W (gap2 res ((i : Int), (j : Int)) x y) H) =
      kernelSquare W res H x y ↔ ∀ q : Int × Int, gap2 res q x y < H ^ 2 →
        |q.1 - ⌊(res : K) * x⌋| ≤ ⌊(res : K) * H⌋ ∧ |q.2 - ⌊(res : K) * y⌋| ≤ ⌊(res : K) * H⌋) := by
  have hr' : (0 : K) < res := by exact_mod_cast hr
  have hH0 : 0 < H := by
    by_contra h
    nlinarith
  have hw : ∀ q : Int × Int, 0 ≤ W (gap2 res q x y) H := by
    intro q
    rcases lt_or_ge (gap2 res q x y) (H * H) with h | h
    · exact (hpos _ _ hH0 (by unfold gap2; positivity) h).le
    · rw [hW _ _ hH0 h]
  have hw0 : ∀ q : Int × Int, W (gap2 res q x y) H = 0 ↔ H ^ 2 ≤ gap2 res q x y := by
    intro q
    rw [pow_two]
    constructor
    · intro h
      by_contra hlt
      have := hpos _ _ hH0 (by unfold gap2; positivity) (not_le.1 hlt)
      rw [h] at this; exact lt_irrefl _ this
    · exact hW _ _ hH0
  set A : Finset (Int × Int) := Finset.Ico (0 : Int) res ×ˢ Finset.Ico (0 : Int) res with hA
  set B : Finset (Int × Int) :=
    Finset.Icc (⌊(res : K) * x⌋ - ⌊(res : K) * H⌋) (⌊(res : K) * x⌋ + ⌊(res : K) * H⌋) ×ˢ
    Finset.Icc (⌊(res : K) * y⌋ - ⌊(res : K) * H⌋) (⌊(res : K) * y⌋ + ⌊(res : K) * H⌋) with hB
  have eS : kernelSquare W res H x y = ∑ q ∈ B, W (gap2 res q x y) H := by
    rw [hB, Finset.sum_product]; rfl
  have eT : (∑ i ∈ Finset.range res, ∑ j ∈ Finset.range res, W (gap2 res ((i : Int), (j : Int)) x y) H) =
      ∑ q ∈ A, W (gap2 res q x y) H := by
    rw [hA, Finset.sum_product, ← sum_range_int res fun i => ∑ j ∈ Finset.Ico (0 : Int) res, W (gap2 res (i, j) x y) H]
    apply Finset.sum_congr rfl
    intro i _
    rw [← sum_range_int res fun j => W (gap2 res ((i : Int), j) x y) H]
  have hmA : ∀ q : Int × Int, gap2 res q x y < H * H → q ∈ A := by
    intro q hq
    unfold gap2 at hq
    have h1 := onImage_of_near hr hx (i := q.1) (by nlinarith [sq_nonneg (centre res q.2 - y)]) hH0
    have h2 := onImage_of_near hr hy (i := q.2) (by nlinarith [sq_nonneg (centre res q.1 - x)]) hH0
    rw [hA, Finset.mem_product, Finset.mem_Ico, Finset.mem_Ico]
    exact ⟨h1, h2⟩
  have hmB : ∀ q : Int × Int, q ∈ B ↔ |q.1 - ⌊(res : K) * x⌋| ≤ ⌊(res : K) * H⌋ ∧ |q.2 - ⌊(res : K) * y⌋| ≤ ⌊(res : K) * H⌋ := by
    intro q
    rw [hB, Finset.mem_product, Finset.mem_Icc, Finset.mem_Icc, abs_le, abs_le]
    constructor <;> rintro ⟨⟨_, _⟩, _, _⟩ <;> refine ⟨⟨?_, ?_⟩, ?_, ?_⟩ <;> linarith
  have eST : (∑ q ∈ A, W (gap2 res q x y) H) = (∑ q ∈ B, W (gap2 res q x y) H) + ∑ q ∈ A \ B, W (gap2 res q x y) H := by
    rw [← Finset.sum_inter_add_sum_sdiff A B]
    congr 1
    apply Finset.sum_subset Finset.inter_subset_right
    intro q hq hn
    apply hW _ _ hH0
    by_contra h
    exact hn (Finset.mem_inter.2 ⟨hmA q (not_le.1 h), hq⟩)
  rw [eS, eT, eST]
  refine ⟨?_, le_add_of_nonneg_right (Finset.sum_nonneg fun q _ => hw q), ?_⟩
  · have hown : (⌊(res : K) * x⌋, ⌊(res : K) * y⌋) ∈ B := by
      have : (0 : Int) ≤ ⌊(res : K) * H⌋ := Int.floor_nonneg.2 (by positivity)
      rw [hmB]; simpa using this
    refine Finset.sum_pos' (fun q _ => hw q) ⟨_, hown, ?_⟩
    apply hpos _ _ hH0 (by unfold gap2; positivity)
    have h1 := floor_near hr x
    have h2 := floor_near hr y
    have h3 : gap2 res (⌊(res : K) * x⌋, ⌊(res : K) * y⌋) x y * (res : K) ^ 2 ≤ 1 / 2 := by
      unfold gap2; dsimp only; linarith [add_mul ((centre res ⌊(res : K) * x⌋ - x) ^ 2) ((centre res ⌊(res : K) * y⌋ - y) ^ 2) ((res : K) ^ 2)]
    have h4 : (1 : K) ≤ H * H * (res : K) ^ 2 := by nlinarith
    by_contra h
    nlinarith [mul_le_mul_of_nonneg_right (not_lt.1 h) (sq_nonneg (res : K))]
  · rw [add_eq_left, Finset.sum_eq_zero_iff_of_nonneg fun q _ => hw q]
    constructor
    · intro h q hq
      by_contra hn
      rw [← hmB] at hn
      have := h q (Finset.mem_sdiff.2 ⟨hmA q (by rw [← pow_two]; exact hq), hn⟩)
      rw [hw0] at this
      exact absurd hq (not_lt.2 this)
    · intro h q hq
      rw [hw0]
      by_contra hn
      exact (Finset.mem_sdiff.1 hq).2 ((hmB q).2 (h q (not_le.1 hn)))

private theorem tile_interior {W : K → K → K} (hW : Compact W) {res : Nat} {bx by_ m H x y : K}
    (hH : 0 < H) (hbx : bx = 0 ∨ 1 ≤ bx) (hby : by_ = 0 ∨ 1 ≤ by_) (hx : Interior H x) (hy : Interior H y)
    {q : Int × Int} (hq : OnImage res q.1 ∧ OnImage res q.2) :
    tile2 bx by_ (renormalisedAt W res m H q) x y = renormalisedAt W res m H q x y := by
  have far : ∀ {b u c : K} (k : Int), (b = 0 ∨ 1 ≤ b) → Interior H u → IsCopy b k → k ≠ 0 →
      u + k * b ≤ -H ∨ 1 + H ≤ u + k * b := by
    intro b u c k hb hu hk hk0
    obtain ⟨hu1, hu2⟩ := hu
    rcases hb with hb | hb
    · exact absurd (hk hb) hk0
    · rcases lt_or_gt_of_ne hk0 with h | h
      · left
        have : (k : K) ≤ -1 := by exact_mod_cast (by omega : k ≤ -1)
        nlinarith
      · right
        have : (1 : K) ≤ k := by exact_mod_cast (by omega : 1 ≤ k)
        nlinarith
  have zero : ∀ u v : K, (u ≤ -H ∨ 1 + H ≤ u) ∨ (v ≤ -H ∨ 1 + H ≤ v) → renormalisedAt W res m H q u v = 0 := by
    intro u v h
    unfold renormalisedAt
    split
    · unfold pointAt
      rw [if_neg]
      rintro ⟨h1, h2⟩
      have h1 := pixel_mem hq.1 h1
      have h2 := pixel_mem hq.2 h2
      rcases h with (h | h) | (h | h) <;> linarith
    · have h1 := centre_mem (K := K) hq.1
      have h2 := centre_mem (K := K) hq.2
      rw [hW _ _ hH, mul_zero]
      unfold gap2
      rcases h with h | h
      · have : H * H ≤ (centre res q.1 - u) ^ 2 := by rcases h with h | h <;> nlinarith
        linarith [sq_nonneg (centre res q.2 - v)]
      · have : H * H ≤ (centre res q.2 - v) ^ 2 := by rcases h with h | h <;> nlinarith
        linarith [sq_nonneg (centre res q.1 - u)]
  unfold tile2
  rw [finsum_eq_single _ (0, 0)]
  · simp [IsCopy]
  · rintro ⟨i, j⟩ hk
    split
    · rename_i hc
      apply zero
      by_cases hi : i = 0
      · right
        exact far (c := 0) j hby hy hc.2 fun hj => hk (by rw [hi, hj])
      · left; exact far (c := 0) i hbx hx hc.1 hi
    · rfl

/-- Hypotheses of the claim: kernels with a positive radius that are inside the image, in a box that is not smaller than
the image (or not periodic). -/
def Inside (g bx by_ : K) (ps : List (Part K)) : Prop :=
  (bx = 0 ∨ 1 ≤ bx) ∧ (by_ = 0 ∨ 1 ≤ by_) ∧ ∀ p ∈ ps, 0 < g * p.h ∧ Interior (g * p.h) p.x ∧ Interior (g * p.h) p.y

private theorem fits_of_inside {g bx by_ : K} {ps : List (Part K)} (h : Inside g bx by_ ps) : Fits g bx by_ ps := by
  obtain ⟨hbx, hby, h⟩ := h
  intro p hp
  obtain ⟨h0, ⟨h1, h2⟩, h3, h4⟩ := h p hp
  refine ⟨fun hb => ⟨?_, ?_⟩, fun hb => ⟨?_, ?_⟩, h0.le, fun hb => ?_, fun hb => ?_⟩
  · linarith
  · have := hbx.resolve_left hb; linarith
  · linarith
  · have := hby.resolve_left hb; linarith
  · have := hbx.resolve_left hb; linarith
  · have := hby.resolve_left hb; linarith

/-- Sum of the pixels times the area of a pixel. -/
def imageMass (res : Nat) (img : Int × Int → K) : K :=
  (∑ i ∈ Finset.range res, ∑ j ∈ Finset.range res, img ((i : Int), (j : Int))) / (res : K) ^ 2

private theorem point_mass {res : Nat} (hr : 0 < res) {H x y m : K} (hH : 0 < H) (hx : Interior H x) (hy : Interior H y) :
    (∑ i ∈ Finset.range res, ∑ j ∈ Finset.range res, pointAt res m ((i : Int), (j : Int)) x y) = m * (res : K) ^ 2 := by
  have e : ∀ q : Int × Int, pointAt res m q x y = if (cell res x, cell res y) = q then m * (res : K) ^ 2 else 0 := by
    intro q
    unfold pointAt
    simp only [← cell_eq_iff hr, Prod.ext_iff]
  simp only [e]
  refine sum_single (cell res x, cell res y) ⟨(onImage_cell hr x).2 ?_, (onImage_cell hr y).2 ?_⟩ _
  · exact ⟨by linarith [hx.1], by linarith [hx.2]⟩
  · exact ⟨by linarith [hy.1], by linarith [hy.2]⟩

private theorem imageMass_eq {W : K → K → K} (hW : Compact W) {g : K} {res : Nat} (hr : 0 < res) {bx by_ : K}
    (ps : List (Part K)) (hp : Inside g bx by_ ps) (img : Int × Int → K) (h : renormalised W g res bx by_ ps = .ok img) :
    imageMass res img = (ps.map fun p => if g * p.h * res < 1 then p.m else p.m *
      ((∑ i ∈ Finset.range res, ∑ j ∈ Finset.range res, W (gap2 res ((i : Int), (j : Int)) p.x p.y) (g * p.h)) /
        kernelSquare W res (g * p.h) p.x p.y)).sum := by
  have hr' : (res : K) ≠ 0 := by exact_mod_cast hr.ne'
  have hbx : 0 ≤ bx := by rcases hp.1 with h | h <;> linarith
  have hby : 0 ≤ by_ := by rcases hp.2.1 with h | h <;> linarith
  rw [c40_image hW hr hbx hby ps (fits_of_inside hp)] at h
  cases h
  unfold imageMass
  rw [div_eq_iff (by positivity)]
  have e : ∀ i ∈ Finset.range res, ∀ j ∈ Finset.range res, (if OnImage res (i : Int) ∧ OnImage res (j : Int) then
      (ps.map fun p => tile2 bx by_ (renormalisedAt W res p.m (g * p.h) ((i : Int), (j : Int))) p.x p.y).sum else 0) =
      (ps.map fun p => renormalisedAt W res p.m (g * p.h) ((i : Int), (j : Int)) p.x p.y).sum := by
    intro i hi j hj
    rw [Finset.mem_range] at hi hj
    have hq : OnImage res (i : Int) ∧ OnImage res (j : Int) := by unfold OnImage; omega
    rw [if_pos hq]
    congr 1
    apply List.map_congr_left
    intro p hpm
    obtain ⟨h0, h1, h2⟩ := hp.2.2 p hpm
    exact tile_interior hW h0 hp.1 hp.2.1 h1 h2 hq
  rw [Finset.sum_congr rfl fun i hi => Finset.sum_congr rfl fun j hj => e i hi j hj]
  have hall := hp.2.2
  clear hp e
  induction ps with
  | nil => simp
  | cons p ps ih =>
    simp only [List.map_cons, List.sum_cons, Finset.sum_add_distrib]
    rw [ih fun q hq => hall q (by simp [hq]), add_mul]
    congr 1
    obtain ⟨h0, h1, h2⟩ := hall p (by simp)
    unfold renormalisedAt
    split
    · exact point_mass hr h0 h1 h2
    · simp only [← Finset.mul_sum]
      field_simp

/-- C40, what holds. Particles whose kernel is inside the image contribute exactly their mass if the radius of the
kernel, in pixels, is at most one half above a whole number. Missing: the other radii, see `c40_exact` and
`c40_fails`. -/
theorem c40_mass_partial {W : K → K → K} (hW : Compact W) (hpos : PositiveInside W) {g : K} {res : Nat} (hr : 0 < res)
    {bx by_ : K} (ps : List (Part K)) (hp : Inside g bx by_ ps)
    (hfrac : ∀ p ∈ ps, Int.fract ((res : K) * (g * p.h)) ≤ 1 / 2) :
    ∃ img, renormalised W g res bx by_ ps = .ok img ∧ imageMass res img = (ps.map Part.m).sum := by
  have hbx : 0 ≤ bx := by rcases hp.1 with h | h <;> linarith
  have hby : 0 ≤ by_ := by rcases hp.2.1 with h | h <;> linarith
  refine ⟨_, c40_image hW hr hbx hby ps (fits_of_inside hp), ?_⟩
  rw [imageMass_eq hW hr ps hp _ (c40_image hW hr hbx hby ps (fits_of_inside hp))]
  congr 1
  apply List.map_congr_left
  intro p hpm
  obtain ⟨h0, h1, h2⟩ := hp.2.2 p hpm
  split
  · rfl
  · rename_i hs
    obtain ⟨s1, s2, s3⟩ := square_le hW hpos hr (not_lt.1 hs) h1 h2
    rw [s3.2, div_self s1.ne', mul_one]
    have axis : ∀ (x : K) (i : Int), (centre res i - x) ^ 2 < (g * p.h) ^ 2 → |i - ⌊(res : K) * x⌋| ≤ ⌊(res : K) * (g * p.h)⌋ := by
      intro x i hi
      have hr' : (0 : K) < res := by exact_mod_cast hr
      have a1 := abs_lt_of_sq_lt_sq hi h0.le
      rw [abs_lt] at a1
      have a2 := centre_mul (K := K) hr i
      have a3 := Int.floor_le ((res : K) * x)
      have a4 := Int.lt_floor_add_one ((res : K) * x)
      have a5 := hfrac p hpm
      have a6 := Int.floor_add_fract ((res : K) * (g * p.h))
      have a7 : (i : K) + 1 / 2 - res * x < res * (g * p.h) := by rw [← a2]; nlinarith
      have a8 : -(res * (g * p.h)) < (i : K) + 1 / 2 - res * x := by rw [← a2]; nlinarith
      rw [abs_le]
      constructor
      · have : ((⌊(res : K) * x⌋ - ⌊(res : K) * (g * p.h)⌋ - 1 : Int) : K) < (i : K) := by push_cast; linarith
        have := Int.cast_lt.1 this
        omega
      · have : (i : K) < ((⌊(res : K) * x⌋ + ⌊(res : K) * (g * p.h)⌋ + 1 : Int) : K) := by push_cast; linarith
        have := Int.cast_lt.1 this
        omega
    intro q hq
    unfold gap2 at hq
    exact ⟨axis p.x q.1 (by nlinarith [sq_nonneg (centre res q.2 - p.y)]),
      axis p.y q.2 (by nlinarith [sq_nonneg (centre res q.1 - p.x)])⟩

/-- C40, exactly when it holds. The mass in the image is the mass of the particle if and only if every pixel whose centre
is inside the kernel is at most `⌊res H⌋` rows and columns away from the pixel of the particle. -/
theorem c40_exact {W : K → K → K} (hW : Compact W) (hpos : PositiveInside W) {g : K} {res : Nat} (hr : 0 < res)
    {bx by_ : K} (p : Part K) (hm : p.m ≠ 0) (hp : Inside g bx by_ [p]) (hbig : 1 ≤ g * p.h * res)
    (img : Int × Int → K) (h : renormalised W g res bx by_ [p] = .ok img) :
    imageMass res img = p.m ↔ ∀ q : Int × Int, gap2 res q p.x p.y < (g * p.h) ^ 2 →
      |q.1 - ⌊(res : K) * p.x⌋| ≤ ⌊(res : K) * (g * p.h)⌋ ∧ |q.2 - ⌊(res : K) * p.y⌋| ≤ ⌊(res : K) * (g * p.h)⌋ := by
  rw [imageMass_eq hW hr [p] hp img h]
  obtain ⟨h0, h1, h2⟩ := hp.2.2 p (by simp)
  obtain ⟨s1, s2, s3⟩ := square_le hW hpos hr hbig h1 h2
  rw [← s3]
  simp only [List.map_cons, List.map_nil, List.sum_cons, List.sum_nil, add_zero, if_neg (not_lt.2 hbig)]
  rw [mul_eq_left₀ hm, div_eq_one_iff_eq s1.ne']

/-- C40. The error has one sign: mass is never lost. -/
theorem c40_at_least {W : K → K → K} (hW : Compact W) (hpos : PositiveInside W) {g : K} {res : Nat} (hr : 0 < res)
    {bx by_ : K} (ps : List (Part K)) (hm : ∀ p ∈ ps, 0 ≤ p.m) (hp : Inside g bx by_ ps)
    (img : Int × Int → K) (h : renormalised W g res bx by_ ps = .ok img) :
    (ps.map Part.m).sum ≤ imageMass res img := by
  rw [imageMass_eq hW hr ps hp img h]
  apply List.sum_le_sum
  intro p hpm
  obtain ⟨h0, h1, h2⟩ := hp.2.2 p hpm
  split
  · exact le_rfl
  · rename_i hs
    obtain ⟨s1, s2, s3⟩ := square_le hW hpos hr (not_lt.1 hs) h1 h2
    exact le_mul_of_one_le_right (hm p hpm) ((one_le_div s1).2 s2)

/-- C40 fails: the loop that computes the normalisation leaves out the outermost rows and columns, where a kernel of 2.9
pixels still reaches the centre of a pixel. Whatever the kernel, the image holds more than the mass of the particle. -/
theorem c40_fails (W : ℚ → ℚ → ℚ) (hW : Compact W) (hpos : PositiveInside W) :
    ∃ (p : Part ℚ) (img : Int × Int → ℚ), Inside 1 0 0 [p] ∧ 0 < p.m ∧ renormalised W 1 10 0 0 [p] = .ok img ∧
      p.m < imageMass 10 img := by
  have hp : Inside (1 : ℚ) 0 0 [⟨499 / 1000, 45 / 100, 0, 1, 29 / 100⟩] := by
    refine ⟨.inl rfl, .inl rfl, ?_⟩
    intro p hp
    rw [List.mem_singleton] at hp
    subst hp
    norm_num [Interior]
  have h := c40_image hW (res := 10) (by norm_num) le_rfl le_rfl _ (fits_of_inside hp)
  refine ⟨_, _, hp, by norm_num, h, lt_of_le_of_ne ?_ fun e => ?_⟩
  · have := c40_at_least hW hpos (by norm_num) _ (by simp) hp _ h
    simpa using this
  · have := (c40_exact hW hpos (by norm_num) _ (by norm_num) hp (by norm_num) _ h).1 e.symm (7, 4)
      (by norm_num [gap2, centre])
    have := this.1
    rw [show ⌊((10 : Nat) : ℚ) * (499 / 1000)⌋ = 4 by norm_num, show ⌊((10 : Nat) : ℚ) * (1 * (29 / 100))⌋ = 2 by norm_num] at this
    revert this
    decide

theorem positive_cone : PositiveInside cone := by
  intro r2 H hH h0 h
  simp only [cone, if_pos h]
  have : r2 / (H * H) < 1 := (div_lt_one (by positivity)).2 h
  linarith

-- three particles: a point, a kernel of 2.4 pixels and a kernel of 3 pixels
example : ∃ img, renormalised cone 1 10 1 0
    [⟨1 / 2, 1 / 3, 0, 2, 1 / 100⟩, ⟨499 / 1000, 45 / 100, 0, 3, 24 / 100⟩, ⟨1 / 3, 2 / 3, 0, 5, 3 / 10⟩] = .ok img ∧
    imageMass 10 img = 10 := by
  have h := c40_mass_partial compact_cone positive_cone (g := 1) (res := 10) (bx := 1) (by_ := 0) (by norm_num)
    [⟨1 / 2, 1 / 3, 0, 2, 1 / 100⟩, ⟨499 / 1000, 45 / 100, 0, 3, 24 / 100⟩, ⟨1 / 3, 2 / 3, 0, 5, 3 / 10⟩]
    ⟨.inr le_rfl, .inl rfl, by simp [Interior]; norm_num⟩ (by
      simp only [List.mem_cons, List.not_mem_nil, or_false, forall_eq_or_imp, forall_eq]
      refine ⟨?_, ?_, ?_⟩ <;> rw [← Int.self_sub_floor] <;> norm_num)
  obtain ⟨img, h1, h2⟩ := h
  exact ⟨img, h1, by rw [h2]; norm_num⟩

end Verif.Props
