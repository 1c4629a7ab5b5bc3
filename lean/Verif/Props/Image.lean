import Verif.Lemmas.Scatter
import Mathlib.Algebra.Order.Ring.Rat
import Mathlib.Data.Rat.Floor
import Mathlib.Tactic.NormNum

/-!
# C35, C36, C37: what the projection, slice and render loops draw (`swiftsimio/visualisation`)
-/

set_option linter.unusedSectionVars false

namespace Verif.Props
open Verif Verif.Spec Verif.Scatter

variable {K : Type} [Field K] [LinearOrder K] [IsStrictOrderedRing K] [FloorRing K]

/-! ## C35 -/

/-- C35. The histogram is drawn without leaving the image, and every pixel holds the mass density of exactly the copies
of particles that it contains. -/
theorem c35_histogram {res : Nat} (hr : 0 < res) {bx by_ : K} (hbx : 0 ≤ bx) (hby : 0 ≤ by_) (ps : List (Part K))
    (hp : ∀ p ∈ ps, Wrapped bx p.x ∧ Wrapped by_ p.y) :
    histogram res bx by_ ps = .ok fun q => if OnImage res q.1 ∧ OnImage res q.2 then
      (ps.map fun p => tile2 bx by_ (pointAt res p.m q) p.x p.y).sum else 0 := by
  unfold histogram
  rw [paint_ok _ _ (over_inside (dep := histogramDeps res) (fun p d => ownCell2_inside res p d) bx by_ ps)]
  congr 1
  funext q
  rw [wsum_over]
  by_cases hq : OnImage res q.1 ∧ OnImage res q.2
  · rw [if_pos hq]
    congr 1
    apply List.map_congr_left
    intro p hpm
    rw [← tile2_eq]
    · simp only [histogramDeps, wsum_ownCell2 hr, if_pos hq]
    · intro k hk hs v
      unfold pointAt
      rw [if_neg]
      intro h
      have := pixel_mem hq.1 h.1
      rcases far_of_not_shift hbx (hp p hpm).1 hk hs with h' | h' <;> linarith
    · intro k hk hs v
      unfold pointAt
      rw [if_neg]
      intro h
      have := pixel_mem hq.2 h.2
      rcases far_of_not_shift hby (hp p hpm).2 hk hs with h' | h' <;> linarith
  · rw [if_neg hq]
    simp only [histogramDeps, wsum_ownCell2 hr, if_neg hq]
    simp

theorem sum_single {res : Nat} (a : Int × Int) (ha : OnImage res a.1 ∧ OnImage res a.2) (w : K) :
    (∑ i ∈ Finset.range res, ∑ j ∈ Finset.range res, if a = ((i : Int), (j : Int)) then w else 0) = w := by
  obtain ⟨⟨h1, h2⟩, h3, h4⟩ := ha
  rw [Finset.sum_eq_single a.1.toNat]
  · rw [Finset.sum_eq_single a.2.toNat]
    · rw [if_pos]; ext <;> simp <;> omega
    · intro j _ hj
      rw [if_neg]
      intro h; rw [h] at hj; simp at hj
    · intro h; exact absurd (Finset.mem_range.2 (by omega)) h
  · intro i _ hi
    apply Finset.sum_eq_zero
    intro j _
    rw [if_neg]
    intro h; rw [h] at hi; simp at hi
  · intro h; exact absurd (Finset.mem_range.2 (by omega)) h

private theorem sum_wsum {res : Nat} (ds : List ((Int × Int) × K)) (h : ∀ d ∈ ds, inside2 res res d.1 = true) :
    (∑ i ∈ Finset.range res, ∑ j ∈ Finset.range res, wsum ((i : Int), (j : Int)) ds) = (ds.map Prod.snd).sum := by
  induction ds with
  | nil => simp
  | cons d ds ih =>
    simp only [wsum_cons, Finset.sum_add_distrib, List.map_cons, List.sum_cons]
    rw [ih fun e he => h e (by simp [he]), sum_single d.1 ((inside2_iff _ _ _).1 (h d (by simp)))]

/-- whole pixels cover the unit interval -/
theorem onImage_cell {res : Nat} (hr : 0 < res) (x : K) : OnImage res (cell res x) ↔ 0 ≤ x ∧ x < 1 := by
  have hr' : (0 : K) < res := by exact_mod_cast hr
  unfold OnImage cell
  rw [Int.floor_nonneg, Int.floor_lt]
  push_cast
  constructor
  · rintro ⟨h1, h2⟩
    constructor
    · by_contra h; nlinarith
    · by_contra h; nlinarith
  · rintro ⟨h1, h2⟩
    constructor
    · positivity
    · nlinarith

/-- C35. The pixels of the histogram add up to the mass of the copies of particles that fall inside the image (per pixel
area). -/
theorem c35_total {res : Nat} (hr : 0 < res) {bx by_ : K} (hbx : 0 ≤ bx) (hby : 0 ≤ by_) (ps : List (Part K))
    (hp : ∀ p ∈ ps, Wrapped bx p.x ∧ Wrapped by_ p.y) (img : Int × Int → K)
    (h : histogram res bx by_ ps = .ok img) :
    (∑ i ∈ Finset.range res, ∑ j ∈ Finset.range res, img ((i : Int), (j : Int))) / (res : K) ^ 2 =
      (ps.map fun p => tile2 bx by_ (fun x y => if (0 ≤ x ∧ x < 1) ∧ 0 ≤ y ∧ y < 1 then p.m else 0) p.x p.y).sum := by
  have hr' : (res : K) ≠ 0 := by exact_mod_cast hr.ne'
  have hin := over_inside (dep := histogramDeps res) (fun p d => ownCell2_inside (K := K) res p d) bx by_ ps
  unfold histogram at h
  rw [paint_ok _ _ hin] at h
  cases h
  rw [sum_wsum _ hin]
  have h1 : ∀ c : Part K, ((ownCell2 res c).map Prod.snd).sum =
      (res : K) ^ 2 * if (0 ≤ c.x ∧ c.x < 1) ∧ 0 ≤ c.y ∧ c.y < 1 then c.m else 0 := by
    intro c
    unfold ownCell2
    by_cases hc : (0 ≤ c.x ∧ c.x < 1) ∧ 0 ≤ c.y ∧ c.y < 1
    · rw [if_pos hc, if_pos]
      · simp; ring
      · rw [Bool.and_eq_true, onGrid_iff, onGrid_iff, onImage_cell hr, onImage_cell hr]; exact hc
    · rw [if_neg hc, if_neg]
      · simp
      · rw [Bool.and_eq_true, onGrid_iff, onGrid_iff, onImage_cell hr, onImage_cell hr]; exact hc
  have h2 : ((over (histogramDeps res) bx by_ ps).map Prod.snd).sum = (res : K) ^ 2 *
      (ps.map fun p => tile2 bx by_ (fun x y => if (0 ≤ x ∧ x < 1) ∧ 0 ≤ y ∧ y < 1 then p.m else 0) p.x p.y).sum := by
    clear hin
    induction ps with
    | nil => simp [over]
    | cons p ps ih =>
      have e : over (histogramDeps res) bx by_ (p :: ps) =
          (copies2 bx by_ p).flatMap (histogramDeps res) ++ over (histogramDeps res) bx by_ ps := by simp [over]
      rw [e, List.map_append, List.sum_append, ih fun q hq => hp q (by simp [hq])]
      rw [List.map_cons, List.sum_cons, mul_add]
      congr 1
      have hw := hp p (by simp)
      rw [← tile2_eq]
      · unfold copies2
        simp only [List.flatMap, List.map_flatten, List.sum_flatten, List.map_map, Function.comp_def, histogramDeps, h1]
        rw [← List.sum_map_mul_left]
        congr 2
        funext i
        rw [← List.sum_map_mul_left]
      · intro k hk hs v
        rw [if_neg]
        intro h
        rcases far_of_not_shift hbx hw.1 hk hs with h' | h' <;> linarith [h.1.1, h.1.2]
      · intro k hk hs v
        rw [if_neg]
        intro h
        rcases far_of_not_shift hby hw.2 hk hs with h' | h' <;> linarith [h.2.1, h.2.2]
  rw [h2]
  field_simp

/-! ## C36 -/

/-- C36. One copy of a particle in the `fast` backend: no write leaves the image, and every pixel of the image gets the
kernel at the distance of its centre, however large the kernel and wherever the particle. -/
theorem c36_fast_copy {W : K → K → K} (hW : Compact W) {g : K} {res : Nat} (hr : 0 < res) (p : Part K)
    (hH : 0 ≤ g * p.h) :
    paint (inside2 res res) (fastDeps W g res p) = .ok fun q =>
      if OnImage res q.1 ∧ OnImage res q.2 then smoothAt W res p.m (g * p.h) q p.x p.y else 0 := by
  rw [paint_ok _ _ (fastDeps_inside W g res p)]
  congr 1
  funext q
  exact wsum_fastDeps hW hr p hH q

theorem smooth_far {W : K → K → K} (hW : Compact W) {res : Nat} {b H m : K} (hH : 0 ≤ H) (hb : b ≠ 0 → H ≤ b)
    (hb0 : 0 ≤ b) {x : K} (hx : Wrapped b x) {q : Int × Int} (hq : OnImage res q.1 ∧ OnImage res q.2) {k : Int}
    (hk : IsCopy b k) (hs : k ∉ shifts b) :
    (∀ v, smoothAt W res m H q (x + k * b) v = 0) ∧ (∀ v, smoothAt W res m H q v (x + k * b) = 0) := by
  have hfar := far_of_not_shift hb0 hx hk hs
  have hne : b ≠ 0 := by
    rintro rfl
    exact hs ((mem_shifts_of_zero k).2 (hk rfl))
  have hHb := hb hne
  constructor <;> intro v <;> unfold smoothAt <;> split
  · unfold pointAt
    rw [if_neg]
    intro h
    have := pixel_mem hq.1 h.1
    rcases hfar with h' | h' <;> linarith
  · rename_i hs
    have h1 : H * H ≤ (centre res q.1 - (x + k * b)) ^ 2 := far_sq hH hHb (centre_mem hq.1) hfar
    rw [hW _ _ (pos_of_not_small res hH hs), mul_zero]
    unfold gap2; nlinarith [sq_nonneg (centre res q.2 - v)]
  · unfold pointAt
    rw [if_neg]
    intro h
    have := pixel_mem hq.2 h.2
    rcases hfar with h' | h' <;> linarith
  · rename_i hs
    have h1 : H * H ≤ (centre res q.2 - (x + k * b)) ^ 2 := far_sq hH hHb (centre_mem hq.2) hfar
    rw [hW _ _ (pos_of_not_small res hH hs), mul_zero]
    unfold gap2; nlinarith [sq_nonneg (centre res q.1 - v)]

/-- The particles handed to a projection backend: positions wrapped into the box, kernels no larger than the box. -/
def Fits (g bx by_ : K) (ps : List (Part K)) : Prop :=
  ∀ p ∈ ps, Wrapped bx p.x ∧ Wrapped by_ p.y ∧ 0 ≤ g * p.h ∧ (bx ≠ 0 → g * p.h ≤ bx) ∧ (by_ ≠ 0 → g * p.h ≤ by_)

/-- C36 and C37. The image of the `fast` backend is the sum over all periodic copies of all particles: no copy that
could be seen is left out or counted twice, no kernel is cut, and nothing is written outside the image. -/
theorem c36_fast {W : K → K → K} (hW : Compact W) {g : K} {res : Nat} (hr : 0 < res) {bx by_ : K} (hbx : 0 ≤ bx)
    (hby : 0 ≤ by_) (ps : List (Part K)) (hp : Fits g bx by_ ps) :
    fast W g res bx by_ ps = .ok fun q => if OnImage res q.1 ∧ OnImage res q.2 then
      (ps.map fun p => tile2 bx by_ (smoothAt W res p.m (g * p.h) q) p.x p.y).sum else 0 := by
  unfold fast
  rw [paint_ok _ _ (over_inside (fun p d => fastDeps_inside W g res p d) bx by_ ps)]
  congr 1
  funext q
  rw [wsum_over]
  have h0 : ∀ p ∈ ps, ∀ x y : K, wsum q (fastDeps W g res { p with x := x, y := y }) =
      if OnImage res q.1 ∧ OnImage res q.2 then smoothAt W res p.m (g * p.h) q x y else 0 := fun p hpm x y =>
    wsum_fastDeps hW hr { p with x := x, y := y } (hp p hpm).2.2.1 q
  by_cases hq : OnImage res q.1 ∧ OnImage res q.2
  · rw [if_pos hq]
    congr 1
    apply List.map_congr_left
    intro p hpm
    obtain ⟨h1, h2, h3, h4, h5⟩ := hp p hpm
    rw [← tile2_eq]
    · simp only [h0 p hpm, if_pos hq]
    · intro k hk hs
      exact (smooth_far hW h3 h4 hbx h1 hq hk hs).1
    · intro k hk hs
      exact (smooth_far hW h3 h5 hby h2 hq hk hs).2
  · rw [if_neg hq]
    apply List.sum_eq_zero
    intro v hv
    rw [List.mem_map] at hv
    obtain ⟨p, hpm, rfl⟩ := hv
    simp only [h0 p hpm, if_neg hq]
    simp

private theorem shiftsGpu_mem {b : K} (hb : 0 < b) (k : Int) : k ∈ shiftsGpu b ↔ k ∈ shifts b := by
  have h1 : (0 : Int) ≤ ⌈1 / b⌉ := Int.ceil_nonneg (by positivity)
  rw [mem_shifts hb.ne']
  simp only [shiftsGpu, if_neg hb.ne', List.mem_map, List.mem_range]
  constructor
  · rintro ⟨n, hn, rfl⟩; omega
  · rintro ⟨h2, h3⟩; exact ⟨(k + 1).toNat, by omega, by omega⟩

private theorem shiftsGpu_perm {b : K} (hb : 0 < b) : (shiftsGpu b).Perm (shifts b) := by
  rw [List.perm_ext_iff_of_nodup _ (nodup_shifts b)]
  · exact shiftsGpu_mem hb
  · exact List.nodup_range.map fun x y h => by simpa using h

private theorem gpu_axis {α : Type} [AddCommMonoid α] {b : K} (hb : 0 ≤ b) (f : K → α) (x : K) :
    ((shiftsGpu b).map fun k : Int => f (x + (k : K) * b)).sum = ((shifts b).map fun k : Int => f (x + (k : K) * b)).sum := by
  rcases hb.eq_or_lt with h | h
  · subst h; simp [shiftsGpu, shifts, irange]
  · exact ((shiftsGpu_perm h).map _).sum_eq

/-- C36. The GPU backend draws the same image as `fast`, in whatever order the atomic additions of its threads happen,
for every particle list. -/
theorem c36_gpu (W : K → K → K) (g : K) (res : Nat) {bx by_ : K} (hbx : 0 ≤ bx) (hby : 0 ≤ by_) (ps : List (Part K))
    (ds : List ((Int × Int) × K)) (hds : ds.Perm ((gpuThreads bx by_ ps).flatMap (gpuThread W g res bx by_))) :
    gpu res ds = fast W g res bx by_ ps := by
  unfold gpu fast
  rw [paint_ok _ _ (over_inside (fun p d => fastDeps_inside W g res p d) bx by_ ps), paint_ok]
  · congr 1
    funext q
    rw [wsum_perm q hds, wsum_over]
    unfold gpuThreads
    rw [wsum_flatMap, List.flatMap, List.map_flatten, List.sum_flatten, List.map_map, List.map_map]
    congr 2
    funext p
    simp only [Function.comp_def, List.flatMap, List.map_flatten, List.sum_flatten, List.map_map, gpuThread]
    rw [← gpu_axis hbx (fun u => ((shifts by_).map fun j : Int =>
      wsum q (fastDeps W g res { p with x := u, y := p.y + (j : K) * by_ })).sum)]
    congr 2
    funext i
    exact gpu_axis hby (fun v => wsum q (fastDeps W g res { p with x := p.x + (i : K) * bx, y := v })) p.y
  · intro d hd
    rw [hds.mem_iff, List.mem_flatMap] at hd
    obtain ⟨t, _, hd⟩ := hd
    exact fastDeps_inside W g res _ d hd

private theorem referenceRow_small (W : K → K → K) (g : K) (res : Nat) (l : List (Part K))
    (h : ∀ p ∈ l, spanned (g * p.h) res ≤ 2) : referenceRow W g res l = [] := by
  induction l with
  | nil => rfl
  | cons p l ih =>
    unfold referenceRow
    dsimp only
    rw [ih fun q hq => h q (by simp [hq]), if_pos (h p (by simp))]
    simp

private theorem referenceRow_large (W : K → K → K) (g : K) (res : Nat) (l : List (Part K))
    (h : ∀ p ∈ l, ¬spanned (g * p.h) res ≤ 2) : referenceRow W g res l = l.flatMap (fastDeps W g res) := by
  induction l with
  | nil => rfl
  | cons p l ih =>
    have h1 : ¬spanned (g * p.h) res ≤ 1 := fun h1 => h p (by simp) (by omega)
    unfold referenceRow
    dsimp only
    rw [ih fun q hq => h q (by simp [hq]), if_neg (h p (by simp)), List.flatMap_cons]
    unfold fastDeps
    dsimp only
    rw [if_neg h1]
    split <;> simp

/-- C36. The reference backend draws the image of the `fast` backend for the particles whose kernel radius is at least
two pixels, and nothing at all for the others (it prints a message and leaves the loop). -/
theorem c36_reference (W : K → K → K) (g : K) (res : Nat) (bx by_ : K) (ps : List (Part K))
    (hH : ∀ p ∈ ps, 0 ≤ g * p.h) :
    reference W g res bx by_ ps = fast W g res bx by_ (ps.filter fun p => decide (2 ≤ g * p.h * res)) := by
  unfold reference fast over
  congr 1
  induction ps with
  | nil => rfl
  | cons p ps ih =>
    have hp := hH p (by simp)
    have hc : spanned (g * p.h) res ≤ 2 ↔ ¬(2 ≤ g * p.h * (res : K)) := by
      rw [spanned_of_nonneg hp, ← Int.lt_add_one_iff, Int.floor_lt, not_le]
      push_cast
      constructor <;> intro h <;> linarith
    rw [List.flatMap_cons, ih fun q hq => hH q (by simp [hq]), List.filter_cons]
    by_cases h : 2 ≤ g * p.h * (res : K)
    · rw [if_pos (by simpa using h), List.flatMap_cons]
      congr 1
      unfold copies2
      rw [List.flatMap_assoc]
      congr 1
      funext i
      apply referenceRow_large
      intro c hcm
      rw [List.mem_map] at hcm
      obtain ⟨j, _, rfl⟩ := hcm
      exact fun h' => hc.1 h' h
    · rw [if_neg (by simpa using h)]
      have : (shifts bx).flatMap (fun i : Int => referenceRow W g res ((shifts by_).map fun j : Int =>
          { p with x := p.x + (i : K) * bx, y := p.y + (j : K) * by_ })) = [] := by
        rw [List.flatMap_eq_nil_iff]
        intro i _
        apply referenceRow_small
        intro c hcm
        rw [List.mem_map] at hcm
        obtain ⟨j, _, rfl⟩ := hcm
        exact hc.2 h
      rw [this, List.nil_append]

/-- a slice at the wrapped height `zs` sees no copy that is not considered -/
private theorem slice_far {b z zs : K} (hb : 0 ≤ b) (hz : Wrapped b z) (hzs : Wrapped b zs) {H : K} (hH : 0 ≤ H)
    (hHb : b ≠ 0 → H ≤ b) {k : Int} (hk : IsCopy b k) (hs : k ∉ shifts b) : H * H ≤ (z + k * b - zs) ^ 2 := by
  rcases hb.eq_or_lt with h0 | h0
  · subst h0
    exact absurd ((mem_shifts_of_zero k).2 (hk rfl)) hs
  · obtain ⟨hz0, hz1⟩ := hz h0.ne'
    obtain ⟨hs0, hs1⟩ := hzs h0.ne'
    have hHb := hHb h0.ne'
    have hc : 1 ≤ ⌈1 / b⌉ := Int.one_le_ceil_iff.2 (by positivity)
    rw [mem_shifts h0.ne'] at hs
    by_cases hk1 : k ≤ -2
    · have : (k : K) ≤ -2 := by exact_mod_cast hk1
      have h1 : z + k * b - zs ≤ -H := by nlinarith
      nlinarith
    · have : (2 : K) ≤ (k : K) := by
        have : 2 ≤ k := by omega
        exact_mod_cast this
      have h1 : H ≤ z + k * b - zs := by nlinarith
      nlinarith

/-- C36 for the SPH slice, as far as it holds. The full statement would be

  `slice W g zs xres yres bx by_ bz ps = .ok fun q => … m * W (gap2 … + (z - zs) ^ 2) H …`

without the inner condition. What holds is that nothing leaves the image, that every copy that could be seen is
considered exactly once, and that every pixel gets the kernel at its distance up to column
`⌊res * x⌋ + ⌊res * H⌋`; the next column, which can still be inside the kernel, is left out
(`c36_slice_truncated_fails`). -/
theorem c36_slice_partial {W : K → K → K} (hW : Compact W) {g zs : K} {xres yres : Nat} (hr : 0 < max xres yres)
    {bx by_ bz : K} (hbx : 0 ≤ bx) (hby : 0 ≤ by_) (hbz : 0 ≤ bz) (hzs : Wrapped bz zs) (ps : List (Part K))
    (hp : ∀ p ∈ ps, Wrapped bx p.x ∧ Wrapped by_ p.y ∧ Wrapped bz p.z ∧ 0 < g * p.h ∧ (bx ≠ 0 → g * p.h ≤ bx) ∧
      (by_ ≠ 0 → g * p.h ≤ by_) ∧ (bz ≠ 0 → g * p.h ≤ bz)) :
    slice W g zs xres yres bx by_ bz ps = .ok fun q => if OnImage xres q.1 ∧ OnImage yres q.2 then
      (ps.map fun p => tile3 bx by_ bz (fun x y z =>
        if q.1 ≤ ⌊(max xres yres : Nat) * x⌋ + ⌊(max xres yres : Nat) * (g * p.h)⌋ ∧
            q.2 ≤ ⌊(max xres yres : Nat) * y⌋ + ⌊(max xres yres : Nat) * (g * p.h)⌋ then
          p.m * W (gap2 (max xres yres) q x y + (z - zs) ^ 2) (g * p.h) else 0) p.x p.y p.z).sum else 0 := by
  unfold slice
  rw [paint_ok]
  · change Except.ok _ = Except.ok _
    congr 1
    funext q
    dsimp only
    simp only [inside2_iff]
    by_cases hq : OnImage xres q.1 ∧ OnImage yres q.2
    swap
    · rw [if_neg hq, if_neg hq]
    rw [if_pos hq, if_pos hq, wsum_over_copies3]
    have hq' : OnImage (max xres yres) q.1 ∧ OnImage (max xres yres) q.2 := by
      unfold OnImage at *; push_cast; omega
    congr 1
    apply List.map_congr_left
    intro p hpm
    obtain ⟨h1, h2, h3, h4, h5, h6, h7⟩ := hp p hpm
    rw [← tile3_eq nodup_shifts (fun b k => isCopy_of_mem)]
    · congr 2
      funext i
      congr 2
      funext j
      congr 2
      funext k
      have hd := wsum_sliceDeps hW zs hr
        { p with x := p.x + (i : K) * bx, y := p.y + (j : K) * by_, z := p.z + (k : K) * bz } h4 q
      rw [if_pos hq'] at hd
      exact hd
    · intro k hk hs v w
      have hf := far_of_not_shift hbx h1 hk hs
      have hb : bx ≠ 0 := by rintro rfl; exact hs ((mem_shifts_of_zero k).2 (hk rfl))
      have := far_sq h4.le (h5 hb) (centre_mem (K := K) hq'.1) hf
      rw [hW _ _ h4, mul_zero, ite_self]
      unfold gap2
      nlinarith [sq_nonneg (centre (max xres yres) q.2 - v), sq_nonneg (w - zs)]
    · intro k hk hs v w
      have hf := far_of_not_shift hby h2 hk hs
      have hb : by_ ≠ 0 := by rintro rfl; exact hs ((mem_shifts_of_zero k).2 (hk rfl))
      have := far_sq h4.le (h6 hb) (centre_mem (K := K) hq'.2) hf
      rw [hW _ _ h4, mul_zero, ite_self]
      unfold gap2
      nlinarith [sq_nonneg (centre (max xres yres) q.1 - v), sq_nonneg (w - zs)]
    · intro k hk hs v w
      have := slice_far hbz h3 hzs h4.le h7 hk hs
      rw [hW _ _ h4, mul_zero, ite_self]
      unfold gap2
      nlinarith [sq_nonneg (centre (max xres yres) q.1 - v), sq_nonneg (centre (max xres yres) q.2 - w)]
  · intro d hd
    rw [List.mem_flatMap] at hd
    obtain ⟨p, _, hd⟩ := hd
    rw [List.mem_flatMap] at hd
    obtain ⟨c, _, hd⟩ := hd
    exact sliceDeps_inside W g zs _ c d hd

/-- C36, failing part for the slice. A pixel whose centre is inside the kernel of a particle gets nothing from it,
whatever the kernel: at resolution 10 the particle at `(0.19, 0.15)` with kernel radius `0.29` in the plane of the slice
reaches the centre `(0.45, 0.15)` of pixel `(4, 1)`, but the loop stops at column 3. -/
theorem c36_slice_truncated_fails (W : ℚ → ℚ → ℚ) (hW : Compact W) :
    ∃ (p : Part ℚ) (q : Int × Int) (img : Int × Int → ℚ), OnImage 10 q.1 ∧ OnImage 10 q.2 ∧
      gap2 10 q p.x p.y + (p.z - 0) ^ 2 < p.h ^ 2 ∧ slice W 1 0 10 10 0 0 0 [p] = .ok img ∧ img q = 0 := by
  refine ⟨⟨19 / 100, 15 / 100, 0, 1, 29 / 100⟩, (4, 1), _, by decide, by decide, ?_,
    c36_slice_partial hW (by norm_num) le_rfl le_rfl le_rfl (by simp [Wrapped]) _ ?_, ?_⟩
  · norm_num [gap2, centre]
  · simp [Wrapped]
  · rw [if_pos (by decide)]
    simp only [List.map_cons, List.map_nil, List.sum_cons, List.sum_nil, add_zero, tile3]
    apply finsum_eq_zero_of_forall_eq_zero
    rintro ⟨k1, k2, k3⟩
    split
    swap
    · rfl
    rw [if_neg]
    rintro ⟨h, _⟩
    have e1 : ⌊((max 10 10 : Nat) : ℚ) * (19 / 100 + (k1 : ℚ) * 0)⌋ = 1 := by
      rw [Int.floor_eq_iff]; norm_num
    have e2 : ⌊((max 10 10 : Nat) : ℚ) * (1 * (29 / 100))⌋ = 2 := by
      rw [Int.floor_eq_iff]; norm_num
    dsimp only at h
    rw [e1, e2] at h
    omega

private theorem voxel_far {W : K → K → K} (hW : Compact W) {res resz : Nat} {H m : K} (hH : 0 ≤ H)
    {q : Int × Int × Int} (hq : OnImage res q.1 ∧ OnImage res q.2.1 ∧ OnImage resz q.2.2) {x y z b : K} (hHb : H ≤ b)
    (hf : (x < -b ∨ 1 + b ≤ x) ∨ (y < -b ∨ 1 + b ≤ y) ∨ (z < -b ∨ 1 + b ≤ z)) :
    voxelAt W res resz m H q x y z = 0 := by
  unfold voxelAt
  split
  · rw [if_neg]
    rintro ⟨h1, h2, h3⟩
    have a1 := pixel_mem hq.1 h1
    have a2 := pixel_mem hq.2.1 h2
    have a3 := pixel_mem hq.2.2 h3
    rcases hf with (h | h) | (h | h) | (h | h) <;> linarith
  · rename_i hs
    have hpos : 0 < H := by
      rcases hH.lt_or_eq with h' | h'
      · exact h'
      · rw [← h'] at hs; simp at hs
    rw [hW _ _ hpos, mul_zero, ite_self]
    unfold gap3
    have s1 := sq_nonneg (centre res q.1 - x)
    have s2 := sq_nonneg (centre res q.2.1 - y)
    have s3 := sq_nonneg (centre resz q.2.2 - z)
    rcases hf with h | h | h
    · linarith [far_sq hH hHb (centre_mem (K := K) hq.1) h]
    · linarith [far_sq hH hHb (centre_mem (K := K) hq.2.1) h]
    · linarith [far_sq hH hHb (centre_mem (K := K) hq.2.2) h]

/-- The particles handed to a render: positions wrapped into the box, kernels no larger than the box. -/
def Fits3 (g bx by_ bz : K) (ps : List (Part K)) : Prop :=
  ∀ p ∈ ps, Wrapped bx p.x ∧ Wrapped by_ p.y ∧ Wrapped bz p.z ∧ 0 ≤ g * p.h ∧ (bx ≠ 0 → g * p.h ≤ bx) ∧
    (by_ ≠ 0 → g * p.h ≤ by_) ∧ (bz ≠ 0 → g * p.h ≤ bz)

private theorem render_eq {W : K → K → K} (hW : Compact W) {g : K} {res resz : Nat} (hr : 0 < res) (hrz : 0 < resz)
    {sh : K → List Int} (hn : ∀ b, (sh b).Nodup) (hc : ∀ b k, k ∈ sh b → IsCopy b k) {bx by_ bz : K}
    (hfar : ∀ b ∈ [bx, by_, bz], ∀ x : K, Wrapped b x → ∀ k : Int, IsCopy b k → k ∉ sh b →
      b ≠ 0 ∧ (x + k * b < -b ∨ 1 + b ≤ x + k * b))
    (ps : List (Part K)) (hp : Fits3 g bx by_ bz ps) :
    paint (inside3 res res resz) (ps.flatMap fun p => (copies3 sh bx by_ bz p).flatMap (limitedDeps W g res resz)) =
      .ok fun q => if OnImage res q.1 ∧ OnImage res q.2.1 ∧ OnImage resz q.2.2 then
        (ps.map fun p => tile3 bx by_ bz (voxelAt W res resz p.m (g * p.h) q) p.x p.y p.z).sum else 0 := by
  rw [paint_ok]
  · congr 1
    funext q
    rw [wsum_over_copies3]
    have h0 : ∀ p ∈ ps, ∀ x y z : K, wsum q (limitedDeps W g res resz { p with x := x, y := y, z := z }) =
        if OnImage res q.1 ∧ OnImage res q.2.1 ∧ OnImage resz q.2.2 then voxelAt W res resz p.m (g * p.h) q x y z
        else 0 := fun p hpm x y z =>
      wsum_limitedDeps hW hr hrz { p with x := x, y := y, z := z } (hp p hpm).2.2.2.1 q
    by_cases hq : OnImage res q.1 ∧ OnImage res q.2.1 ∧ OnImage resz q.2.2
    · rw [if_pos hq]
      congr 1
      apply List.map_congr_left
      intro p hpm
      obtain ⟨h1, h2, h3, h4, h5, h6, h7⟩ := hp p hpm
      rw [← tile3_eq hn hc]
      · simp only [h0 p hpm, if_pos hq]
      · intro k hk hs v w
        obtain ⟨hb, hf⟩ := hfar bx (by simp) _ h1 k hk hs
        exact voxel_far hW h4 hq (h5 hb) (.inl hf)
      · intro k hk hs v w
        obtain ⟨hb, hf⟩ := hfar by_ (by simp) _ h2 k hk hs
        exact voxel_far hW h4 hq (h6 hb) (.inr (.inl hf))
      · intro k hk hs v w
        obtain ⟨hb, hf⟩ := hfar bz (by simp) _ h3 k hk hs
        exact voxel_far hW h4 hq (h7 hb) (.inr (.inr hf))
    · rw [if_neg hq]
      apply List.sum_eq_zero
      intro v hv
      rw [List.mem_map] at hv
      obtain ⟨p, hpm, rfl⟩ := hv
      simp only [h0 p hpm, if_neg hq]
      simp
  · intro d hd
    rw [List.mem_flatMap] at hd
    obtain ⟨p, _, hd⟩ := hd
    rw [List.mem_flatMap] at hd
    obtain ⟨c, _, hd⟩ := hd
    exact limitedDeps_inside W g res resz c d hd

private theorem shifts_far {b : K} (hb : 0 ≤ b) (x : K) (hx : Wrapped b x) (k : Int) (hk : IsCopy b k)
    (hs : k ∉ shifts b) : b ≠ 0 ∧ (x + k * b < -b ∨ 1 + b ≤ x + k * b) :=
  ⟨by rintro rfl; exact hs ((mem_shifts_of_zero k).2 (hk rfl)), far_of_not_shift hb hx hk hs⟩

/-- C36 for the voxel render, as far as it holds. In the full statement the condition on the last cell in `voxelAt` would
be absent; the rest holds: nothing leaves the grid, every copy that could be seen is considered exactly once, and every
other voxel gets the kernel at its distance. -/
theorem c36_volume_partial {W : K → K → K} (hW : Compact W) {g : K} {res : Nat} (hr : 0 < res) {bx by_ bz : K}
    (hbx : 0 ≤ bx) (hby : 0 ≤ by_) (hbz : 0 ≤ bz) (ps : List (Part K)) (hp : Fits3 g bx by_ bz ps) :
    volume W g res bx by_ bz ps = .ok fun q => if OnImage res q.1 ∧ OnImage res q.2.1 ∧ OnImage res q.2.2 then
      (ps.map fun p => tile3 bx by_ bz (voxelAt W res res p.m (g * p.h) q) p.x p.y p.z).sum else 0 := by
  unfold volume
  have : volumeDeps W g res = limitedDeps W g res res := by funext p; exact volumeDeps_eq W g res p
  rw [this]
  refine render_eq hW hr hr nodup_shifts (fun b k => isCopy_of_mem) ?_ ps hp
  intro b hb x hx k hk hs
  have hb0 : 0 ≤ b := by
    simp only [List.mem_cons, List.not_mem_nil, or_false] at hb
    rcases hb with rfl | rfl | rfl <;> assumption
  exact shifts_far hb0 x hx k hk hs

/-- C36, failing part for the render. A voxel whose centre is inside the kernel of a particle gets nothing from it,
whatever the kernel. -/
theorem c36_volume_truncated_fails (W : ℚ → ℚ → ℚ) (hW : Compact W) :
    ∃ (p : Part ℚ) (q : Int × Int × Int) (img : Int × Int × Int → ℚ), OnImage 10 q.1 ∧ OnImage 10 q.2.1 ∧
      OnImage 10 q.2.2 ∧ gap3 10 10 q p.x p.y p.z < p.h ^ 2 ∧ volume W 1 10 0 0 0 [p] = .ok img ∧ img q = 0 := by
  refine ⟨⟨19 / 100, 15 / 100, 15 / 100, 1, 29 / 100⟩, (4, 1, 1), _, by decide, by decide, by decide, ?_,
    c36_volume_partial hW (by norm_num) le_rfl le_rfl le_rfl _ ?_, ?_⟩
  · norm_num [gap3, centre]
  · simp [Fits3, Wrapped]; norm_num
  · rw [if_pos (by decide)]
    simp only [List.map_cons, List.map_nil, List.sum_cons, List.sum_nil, add_zero, tile3]
    apply finsum_eq_zero_of_forall_eq_zero
    rintro ⟨k1, k2, k3⟩
    have e1 : ⌊((10 : Nat) : ℚ) * (19 / 100 + (k1 : ℚ) * 0)⌋ = 1 := by
      rw [Int.floor_eq_iff]; norm_num
    have e2 : ⌊((10 : Nat) : ℚ) * (1 * (29 / 100))⌋ = 2 := by
      rw [Int.floor_eq_iff]; norm_num
    split
    swap
    · rfl
    unfold voxelAt
    rw [if_neg (by norm_num), if_neg]
    rintro ⟨h, _⟩
    dsimp only at h
    rw [e1, e2] at h
    omega

/-! ## C37 -/

/-- C37. No copy is considered twice, and without periodicity the particle itself is the only copy. -/
theorem c37_once (b : K) : (shifts b).Nodup ∧ (b = 0 → shifts b = [0]) := by
  refine ⟨nodup_shifts b, ?_⟩
  rintro rfl
  simp [shifts, irange]

/-- C37. Every copy of a coordinate in the box whose kernel, no larger than the box, reaches a point of the image is
considered. -/
theorem c37_complete {b x H : K} (hb : 0 < b) (hx : 0 ≤ x ∧ x < b) (hH : H ≤ b) (k : Int) {u : K} (hu : 0 < u ∧ u < 1)
    (hnear : |u - (x + k * b)| < H) : k ∈ shifts b := by
  by_contra hs
  rcases far_of_not_shift hb.le (fun _ => hx) (fun h => absurd h hb.ne') hs with h | h
  · rw [abs_lt] at hnear; linarith
  · rw [abs_lt] at hnear; linarith

/-- C37, failing part. When the kernel is larger than the box, copies that reach the image are left out: in a box of the
size of the image, the copy two boxes to the left of a particle at `0.9` with kernel radius `1.3` covers the centre of
the first of ten pixels and is not drawn. -/
theorem c37_wide_kernel_fails :
    ∃ (b x H : ℚ) (k : Int), 0 < b ∧ 0 ≤ x ∧ x < b ∧ b < H ∧ OnImage 10 0 ∧ |centre 10 0 - (x + k * b)| < H ∧
      k ∉ shifts b := by
  refine ⟨1, 9 / 10, 13 / 10, -2, by norm_num, by norm_num, by norm_num, by norm_num, by decide, ?_, by decide +kernel⟩
  rw [abs_lt]; norm_num [centre]

/-- C37 for `scatter_limited_z`, as far as it holds: it is complete when the image is no wider than the box (or the axis
is not periodic). In the full statement the condition `b = 0 ∨ 1 ≤ b` is absent. -/
theorem c37_limited_partial {W : K → K → K} (hW : Compact W) {g : K} {res ratio : Nat} (hr : 0 < res)
    (hrz : 0 < res / ratio) {bx by_ bz : K} (hb : ∀ b ∈ [bx, by_, bz], b = 0 ∨ 1 ≤ b) (ps : List (Part K))
    (hp : Fits3 g bx by_ bz ps) :
    limited W g res ratio bx by_ bz ps = .ok fun q =>
      if OnImage res q.1 ∧ OnImage res q.2.1 ∧ OnImage (res / ratio) q.2.2 then
        (ps.map fun p => tile3 bx by_ bz (voxelAt W res (res / ratio) p.m (g * p.h) q) p.x p.y p.z).sum else 0 := by
  unfold limited
  refine render_eq hW hr hrz nodup_shiftsLimited (fun b k => isCopy_of_mem_limited) ?_ ps hp
  intro b hbm x hx k hk hs
  refine ⟨?_, far_of_not_shiftLimited (hb b hbm) hx hk hs⟩
  rintro rfl
  have := hk rfl
  simp [shiftsLimited, mem_irange, this] at hs

/-- C37, failing part for `scatter_limited_z`. When the image is wider than the box it is not tiled completely: with
boxes of a third of the image, the copy of a particle at the origin that lies two boxes away is inside the image and is
not drawn, while `scatter` draws it. -/
theorem c37_limited_fails :
    ∃ (b x : ℚ) (k : Int), 0 < b ∧ 0 ≤ x ∧ x < b ∧ 0 ≤ x + k * b ∧ x + k * b < 1 ∧ k ∈ shifts b ∧
      k ∉ shiftsLimited b := by
  refine ⟨1 / 3, 0, 2, by norm_num, by norm_num, by norm_num, by norm_num, by norm_num, by decide +kernel,
    by decide +kernel⟩

/-! ## Examples -/

/-- a kernel for the examples: a cone -/
def cone (r2 H : ℚ) : ℚ := if r2 < H * H then 1 - r2 / (H * H) else 0

theorem compact_cone : Compact cone := by
  intro r2 H _ h
  simp [cone, not_lt.2 h]

-- two particles, the second one in a box of half the image: four copies
example : (histogram 2 (1 / 2 : ℚ) (1 / 2) [⟨1 / 5, 2 / 5, 0, 3, 0⟩]).map (fun f => (f (0, 0), f (0, 1), f (1, 0), f (1, 1)))
    = .ok (12, 12, 12, 12) := by decide +kernel

example : ∀ p ∈ [(⟨1 / 5, 2 / 5, 0, 3, 0⟩ : Part ℚ)], Wrapped (1 / 2) p.x ∧ Wrapped (1 / 2) p.y := by
  simp [Wrapped]; norm_num

example : Fits (2 : ℚ) 1 0 [⟨9 / 10, 1 / 3, 0, 5, 1 / 4⟩, ⟨1 / 10, -7, 0, 5, 0⟩] := by
  simp [Fits, Wrapped]; norm_num

-- the particle at the right edge also reaches the left edge
example : (fast cone 2 2 (1 : ℚ) 0 [⟨9 / 10, 1 / 4, 0, 5, 1 / 4⟩]).map (fun f => (f (0, 0), f (1, 0), f (1, 1)))
    = .ok (255 / 100, 455 / 100, 0) := by decide +kernel

example : (slice cone 1 0 10 5 0 0 (0 : ℚ) [⟨19 / 100, 15 / 100, 0, 1, 29 / 100⟩]).map (fun f => (f (3, 1), f (4, 1)))
    = .ok (585 / 841, 0) := by decide +kernel

example : Fits3 (1 : ℚ) 1 1 1 [⟨9 / 10, 1 / 3, 1 / 2, 5, 1 / 4⟩] := by
  simp [Fits3, Wrapped]; norm_num

example : (reference cone 1 10 (0 : ℚ) 0 [⟨1 / 2, 1 / 2, 0, 1, 1 / 100⟩]).map (fun f => f (5, 5)) = .ok 0 := by
  decide +kernel

end Verif.Props
