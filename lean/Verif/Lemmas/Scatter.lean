import Mathlib.Algebra.BigOperators.Group.List.Basic
import Mathlib.Algebra.BigOperators.Fin
import Mathlib.Algebra.Order.Ring.Abs
import Mathlib.Tactic.Linarith
import Mathlib.Tactic.FieldSimp
import Mathlib.Tactic.Ring
import Mathlib.Tactic.Positivity
import Mathlib.Tactic.Push
import Mathlib.Data.List.Nodup
import Verif.Model.Scatter
import Verif.Spec.Image

/-! Lemmas about `Verif.Scatter`. -/

set_option linter.unusedSectionVars false

namespace Verif.Scatter
open Verif Verif.Spec

/-! ## Writing -/

/-- The total weight written at `q`. -/
def wsum {ι K : Type} [DecidableEq ι] [AddCommMonoid K] (q : ι) (ds : List (ι × K)) : K :=
  (ds.map fun d => if d.1 = q then d.2 else 0).sum

section
variable {ι K : Type} [DecidableEq ι] [AddCommMonoid K]

@[simp] theorem wsum_nil (q : ι) : wsum q ([] : List (ι × K)) = 0 := rfl

@[simp] theorem wsum_cons (q : ι) (d : ι × K) (ds : List (ι × K)) :
    wsum q (d :: ds) = (if d.1 = q then d.2 else 0) + wsum q ds := by simp [wsum]

@[simp] theorem wsum_append (q : ι) (ds es : List (ι × K)) : wsum q (ds ++ es) = wsum q ds + wsum q es := by
  simp [wsum]

theorem wsum_flatMap {α : Type} (q : ι) (l : List α) (f : α → List (ι × K)) :
    wsum q (l.flatMap f) = (l.map fun a => wsum q (f a)).sum := by
  induction l with
  | nil => rfl
  | cons a l ih => simp [ih]

theorem wsum_perm (q : ι) {ds es : List (ι × K)} (h : ds.Perm es) : wsum q ds = wsum q es := (h.map _).sum_eq

theorem wsum_of_forall_ne (q : ι) (ds : List (ι × K)) (h : ∀ d ∈ ds, d.1 ≠ q) : wsum q ds = 0 := by
  induction ds with
  | nil => rfl
  | cons d ds ih => simp [h d (by simp), ih fun e he => h e (by simp [he])]

private theorem paint_aux (inside : ι → Bool) (ds : List (ι × K)) (h : ∀ d ∈ ds, inside d.1 = true) (img : ι → K) :
    ds.foldlM (write inside) img = .ok (fun q => img q + wsum q ds) := by
  induction ds generalizing img with
  | nil => simp [pure, Except.pure]
  | cons d ds ih =>
    have hd : write inside img d = .ok (fun q => if q = d.1 then img q + d.2 else img q) := by
      simp [write, h d (by simp)]
    simp only [List.foldlM_cons, hd]
    change ds.foldlM (write inside) (fun q => if q = d.1 then img q + d.2 else img q) = _
    rw [ih fun e he => h e (by simp [he])]
    congr 1
    funext q
    by_cases hq : q = d.1
    · subst hq; simp [add_assoc]
    · simp [hq, Ne.symm hq]

theorem paint_ok (inside : ι → Bool) (ds : List (ι × K)) (h : ∀ d ∈ ds, inside d.1 = true) :
    paint inside ds = .ok (fun q => wsum q ds) := by
  unfold paint
  rw [paint_aux inside ds h]
  simp

end

/-! ## Ranges -/

theorem mem_irange {a b i : Int} : i ∈ irange a b ↔ a ≤ i ∧ i < b := by
  unfold irange
  simp only [List.mem_map, List.mem_range]
  constructor
  · rintro ⟨n, hn, rfl⟩; omega
  · intro ⟨h1, h2⟩; exact ⟨(i - a).toNat, by omega, by omega⟩

theorem nodup_irange (a b : Int) : (irange a b).Nodup :=
  List.nodup_range.map fun x y h => by simpa using h

theorem sum_ite_eq_of_nodup {K : Type} [AddCommMonoid K] (l : List Int) (hl : l.Nodup) (j : Int) (f : Int → K) :
    (l.map fun i => if i = j then f i else 0).sum = if j ∈ l then f j else 0 := by
  induction l with
  | nil => simp
  | cons a l ih =>
    rw [List.nodup_cons] at hl
    simp only [List.map_cons, List.sum_cons, ih hl.2, List.mem_cons]
    by_cases h : a = j
    · subst h; simp [hl.1]
    · simp [h, Ne.symm h]

section
variable {K : Type} [Field K]

theorem wsum_over2 (xs ys : List Int) (hx : xs.Nodup) (hy : ys.Nodup) (w : Int → Int → K) (q : Int × Int) :
    wsum q (over2 xs ys w) = if q.1 ∈ xs ∧ q.2 ∈ ys then w q.1 q.2 else 0 := by
  unfold over2
  rw [wsum_flatMap]
  have h1 : ∀ i, wsum q (ys.map fun j => ((i, j), w i j)) =
      if i = q.1 then (if q.2 ∈ ys then w i q.2 else 0) else 0 := by
    intro i
    by_cases hi : i = q.1
    · subst hi
      rw [if_pos rfl, ← sum_ite_eq_of_nodup ys hy q.2 (fun j => w q.1 j)]
      simp [wsum, Function.comp_def, Prod.ext_iff]
    · rw [if_neg hi]
      apply wsum_of_forall_ne
      simp only [List.mem_map, forall_exists_index, and_imp]
      rintro d j _ rfl he
      exact hi (by rw [← he])
  simp only [h1]
  rw [sum_ite_eq_of_nodup xs hx q.1 (fun i => if q.2 ∈ ys then w i q.2 else 0)]
  by_cases ha : q.1 ∈ xs <;> by_cases hb : q.2 ∈ ys <;> simp [ha, hb]

theorem wsum_over3 (xs ys zs : List Int) (hx : xs.Nodup) (hy : ys.Nodup) (hz : zs.Nodup) (w : Int → Int → Int → K)
    (q : Int × Int × Int) :
    wsum q (over3 xs ys zs w) = if q.1 ∈ xs ∧ q.2.1 ∈ ys ∧ q.2.2 ∈ zs then w q.1 q.2.1 q.2.2 else 0 := by
  unfold over3
  rw [wsum_flatMap]
  have h1 : ∀ i, wsum q (ys.flatMap fun j => zs.map fun k => ((i, j, k), w i j k)) =
      if i = q.1 then (if q.2.1 ∈ ys ∧ q.2.2 ∈ zs then w i q.2.1 q.2.2 else 0) else 0 := by
    intro i
    by_cases hi : i = q.1
    · subst hi
      rw [if_pos rfl, ← wsum_over2 ys zs hy hz (fun j k => w q.1 j k) q.2]
      unfold over2
      rw [wsum_flatMap, wsum_flatMap]
      simp [wsum, Function.comp_def, Prod.ext_iff]
    · rw [if_neg hi]
      apply wsum_of_forall_ne
      simp only [List.mem_flatMap, List.mem_map, forall_exists_index, and_imp]
      rintro d j _ k _ rfl he
      exact hi (by rw [← he])
  simp only [h1]
  rw [sum_ite_eq_of_nodup xs hx q.1 (fun i => if q.2.1 ∈ ys ∧ q.2.2 ∈ zs then w i q.2.1 q.2.2 else 0)]
  by_cases ha : q.1 ∈ xs <;> simp [ha]

theorem mem_over2 {xs ys : List Int} {w : Int → Int → K} {d : (Int × Int) × K} (h : d ∈ over2 xs ys w) :
    d.1.1 ∈ xs ∧ d.1.2 ∈ ys := by
  simp only [over2, List.mem_flatMap, List.mem_map] at h
  obtain ⟨i, hi, j, hj, rfl⟩ := h
  exact ⟨hi, hj⟩

theorem mem_over3 {xs ys zs : List Int} {w : Int → Int → Int → K} {d : (Int × Int × Int) × K}
    (h : d ∈ over3 xs ys zs w) : d.1.1 ∈ xs ∧ d.1.2.1 ∈ ys ∧ d.1.2.2 ∈ zs := by
  simp only [over3, List.mem_flatMap, List.mem_map] at h
  obtain ⟨i, hi, j, hj, k, hk, rfl⟩ := h
  exact ⟨hi, hj, hk⟩

end

theorem inside2_iff (nx ny : Nat) (q : Int × Int) : inside2 nx ny q = true ↔ OnImage nx q.1 ∧ OnImage ny q.2 := by
  simp [inside2, OnImage, and_assoc]

theorem inside3_iff (nx ny nz : Nat) (q : Int × Int × Int) :
    inside3 nx ny nz q = true ↔ OnImage nx q.1 ∧ OnImage ny q.2.1 ∧ OnImage nz q.2.2 := by
  simp [inside3, OnImage, and_assoc]

theorem onGrid_iff (res : Nat) (pc : Int) : onGrid res pc = true ↔ OnImage res pc := by
  simp [onGrid, OnImage]; omega

theorem misses_iff (res : Nat) (pc cs : Int) : misses res pc cs = true ↔ pc + cs < 0 ∨ (res : Int) ≤ pc - cs := by
  simp [misses]; omega

theorem mem_span (res : Nat) (pc cs i : Int) : i ∈ span res pc cs ↔ OnImage res i ∧ pc - cs ≤ i ∧ i ≤ pc + cs := by
  simp only [span, mem_irange, OnImage]; omega

theorem mem_spanShort (res : Nat) (pc cs i : Int) :
    i ∈ spanShort res pc cs ↔ OnImage res i ∧ pc - cs ≤ i ∧ i < pc + cs := by
  simp only [spanShort, mem_irange, OnImage]; omega

/-! ## Geometry along one axis -/

section
variable {K : Type} [Field K] [LinearOrder K] [IsStrictOrderedRing K] [FloorRing K]

theorem cell_eq_iff {res : Nat} (hr : 0 < res) (x : K) (i : Int) : cell res x = i ↔ InPixel res i x := by
  have hr' : (0 : K) < res := by exact_mod_cast hr
  unfold cell InPixel
  rw [Int.floor_eq_iff, div_le_iff₀ hr', lt_div_iff₀ hr', mul_comm x]

theorem spanned_of_nonneg {H : K} (hH : 0 ≤ H) (res : Nat) : spanned H res = ⌊1 + H * (res : K)⌋ := by
  have : (0 : K) ≤ 1 + H * (res : K) := by positivity
  simp [spanned, trunc, this]

theorem spanned_pos {H : K} (hH : 0 ≤ H) (res : Nat) : 1 ≤ spanned H res := by
  rw [spanned_of_nonneg hH, Int.le_floor]
  have : (0 : K) ≤ H * (res : K) := by positivity
  push_cast; linarith

/-- the span exceeds the kernel radius in pixels -/
theorem lt_spanned {H : K} (hH : 0 ≤ H) (res : Nat) : H * (res : K) < (spanned H res : K) := by
  rw [spanned_of_nonneg hH]
  have := Int.lt_floor_add_one (1 + H * (res : K))
  linarith

theorem spanned_le {H : K} (hH : 0 ≤ H) (res : Nat) : (spanned H res : K) ≤ 1 + H * (res : K) := by
  rw [spanned_of_nonneg hH]; exact Int.floor_le _

theorem spanned_le_one_iff {H : K} (hH : 0 ≤ H) (res : Nat) : spanned H res ≤ 1 ↔ H * (res : K) < 1 := by
  rw [spanned_of_nonneg hH, ← Int.lt_add_one_iff, Int.floor_lt]
  push_cast
  constructor <;> intro h <;> linarith

theorem dist2_eq {res : Nat} (hr : 0 < res) (x : K) (i : Int) : dist2 res x i = (centre res i - x) ^ 2 := by
  have hr' : (res : K) ≠ 0 := by exact_mod_cast hr.ne'
  unfold dist2 centre
  field_simp

theorem cell_le (res : Nat) (x : K) : (cell res x : K) ≤ (res : K) * x := Int.floor_le _

theorem lt_cell (res : Nat) (x : K) : (res : K) * x < (cell res x : K) + 1 := Int.lt_floor_add_one _

/-- position of the centre of a pixel, in pixels -/
theorem centre_mul {res : Nat} (hr : 0 < res) (i : Int) : (res : K) * centre res i = (i : K) + 1 / 2 := by
  have hr' : (res : K) ≠ 0 := by exact_mod_cast hr.ne'
  unfold centre
  field_simp

/-- a pixel beyond the span has its centre outside the kernel -/
theorem far_of_not_span {res : Nat} (hr : 0 < res) {H : K} (hH : 0 ≤ H) (x : K) (i : Int)
    (h : i < cell res x - spanned H res ∨ cell res x + spanned H res < i) : H * H ≤ (centre res i - x) ^ 2 := by
  have hr' : (0 : K) < res := by exact_mod_cast hr
  have h1 := lt_spanned hH res
  have h2 := cell_le res x
  have h3 := lt_cell res x
  have h4 := centre_mul (K := K) hr i
  have key : H ≤ |centre res i - x| := by
    rcases h with h | h
    · have h5 : (i : K) + 1 ≤ (cell res x : K) - (spanned H res : K) := by exact_mod_cast h
      have : (res : K) * H ≤ (res : K) * (x - centre res i) := by nlinarith
      have := le_of_mul_le_mul_left this hr'
      rw [abs_sub_comm]
      exact this.trans (le_abs_self _)
    · have h5 : (cell res x : K) + (spanned H res : K) + 1 ≤ (i : K) := by exact_mod_cast h
      have : (res : K) * H ≤ (res : K) * (centre res i - x) := by nlinarith
      have := le_of_mul_le_mul_left this hr'
      exact this.trans (le_abs_self _)
  rw [← sq_abs, sq]
  exact mul_le_mul key key hH (abs_nonneg _)

/-- a pixel at the end of the span whose right edge is inside the kernel does not exist -/
theorem right_edge_of_top {res : Nat} (hr : 0 < res) {H : K} (hH : 0 ≤ H) (x : K) (i : Int)
    (h : cell res x + spanned H res ≤ i) : x + H < ((i : K) + 1) / res := by
  have hr' : (0 : K) < res := by exact_mod_cast hr
  rw [lt_div_iff₀ hr']
  have h1 := lt_spanned hH res
  have h3 := lt_cell res x
  have h5 : (cell res x : K) + (spanned H res : K) ≤ (i : K) := by exact_mod_cast h
  nlinarith

/-! ## One copy in each backend -/

theorem ownCell2_inside (res : Nat) (p : Part K) (d : (Int × Int) × K) (h : d ∈ ownCell2 res p) :
    inside2 res res d.1 = true := by
  unfold ownCell2 at h
  split at h
  · rename_i hg
    rw [Bool.and_eq_true, onGrid_iff, onGrid_iff] at hg
    simp only [List.mem_singleton] at h
    subst h
    rw [inside2_iff]; exact hg
  · simp at h

theorem wsum_ownCell2 {res : Nat} (hr : 0 < res) (p : Part K) (q : Int × Int) :
    wsum q (ownCell2 res p) = if OnImage res q.1 ∧ OnImage res q.2 then pointAt res p.m q p.x p.y else 0 := by
  unfold ownCell2 pointAt
  simp only [← cell_eq_iff hr]
  by_cases hg : (onGrid res (cell res p.x) && onGrid res (cell res p.y)) = true
  · rw [if_pos hg]
    rw [Bool.and_eq_true, onGrid_iff, onGrid_iff] at hg
    by_cases hq : (cell res p.x, cell res p.y) = q
    · subst hq; simp [hg, pow_two]
    · have : ¬(cell res p.x = q.1 ∧ cell res p.y = q.2) := fun h => hq (Prod.ext h.1 h.2)
      simp [hq, this]
  · rw [if_neg hg]
    rw [Bool.and_eq_true, onGrid_iff, onGrid_iff] at hg
    by_cases hq : cell res p.x = q.1 ∧ cell res p.y = q.2
    · rw [hq.1, hq.2] at hg; simp [hg]
    · simp [hq]

/-- the far side of the triangle: one coordinate is enough -/
private theorem gap2_ge_left {res : Nat} {q : Int × Int} {x y H : K} (h : H * H ≤ (centre res q.1 - x) ^ 2) :
    H * H ≤ gap2 res q x y := by
  unfold gap2; nlinarith [sq_nonneg (centre res q.2 - y)]

private theorem gap2_ge_right {res : Nat} {q : Int × Int} {x y H : K} (h : H * H ≤ (centre res q.2 - y) ^ 2) :
    H * H ≤ gap2 res q x y := by
  unfold gap2; nlinarith [sq_nonneg (centre res q.1 - x)]

theorem pos_of_not_small {H : K} (res : Nat) (hH : 0 ≤ H) (h : ¬H * (res : K) < 1) : 0 < H := by
  rcases hH.lt_or_eq with h' | h'
  · exact h'
  · subst h'; simp at h

/-- the kernel vanishes on the pixels outside the square of cells -/
theorem kernel_zero_of_not_span {W : K → K → K} (hW : Compact W) {res : Nat} (hr : 0 < res) {H : K} (hH : 0 < H)
    (x y : K) (q : Int × Int) (hq : OnImage res q.1 ∧ OnImage res q.2)
    (h : ¬(q.1 ∈ span res (cell res x) (spanned H res) ∧ q.2 ∈ span res (cell res y) (spanned H res))) :
    W (gap2 res q x y) H = 0 := by
  apply hW _ _ hH
  rw [mem_span, mem_span] at h
  by_cases h1 : cell res x - spanned H res ≤ q.1 ∧ q.1 ≤ cell res x + spanned H res
  · have h2 : ¬(cell res y - spanned H res ≤ q.2 ∧ q.2 ≤ cell res y + spanned H res) := fun h2 => h ⟨⟨hq.1, h1⟩, hq.2, h2⟩
    exact gap2_ge_right (far_of_not_span hr hH.le y q.2 (by omega))
  · exact gap2_ge_left (far_of_not_span hr hH.le x q.1 (by omega))

theorem not_span_of_misses {res : Nat} {pc cs i : Int} (hi : OnImage res i) (h : misses res pc cs = true) :
    ¬(pc - cs ≤ i ∧ i ≤ pc + cs) := by
  rw [misses_iff] at h; unfold OnImage at hi; omega

theorem fastDeps_inside (W : K → K → K) (g : K) (res : Nat) (p : Part K) (d : (Int × Int) × K)
    (h : d ∈ fastDeps W g res p) : inside2 res res d.1 = true := by
  unfold fastDeps at h
  dsimp only at h
  split at h
  · simp at h
  · split at h
    · exact ownCell2_inside res p d h
    · have := mem_over2 h
      rw [mem_span, mem_span] at this
      rw [inside2_iff]; exact ⟨this.1.1, this.2.1⟩

theorem wsum_fastDeps {W : K → K → K} (hW : Compact W) {g : K} {res : Nat} (hr : 0 < res) (p : Part K)
    (hH : 0 ≤ g * p.h) (q : Int × Int) :
    wsum q (fastDeps W g res p) =
      if OnImage res q.1 ∧ OnImage res q.2 then smoothAt W res p.m (g * p.h) q p.x p.y else 0 := by
  unfold fastDeps smoothAt
  dsimp only
  by_cases hs : g * p.h * (res : K) < 1
  · have hcs := (spanned_le_one_iff hH res).2 hs
    rw [if_pos hs, if_pos hcs, ← wsum_ownCell2 hr]
    split
    · rename_i hm
      rw [wsum_ownCell2 hr, wsum_nil]
      symm
      split
      · rename_i hq
        unfold pointAt
        rw [if_neg]
        rintro ⟨h1, h2⟩
        rw [← cell_eq_iff hr] at h1 h2
        have := spanned_pos hH res
        rw [Bool.or_eq_true] at hm
        rcases hm with hm | hm
        · exact not_span_of_misses hq.1 hm (by omega)
        · exact not_span_of_misses hq.2 hm (by omega)
      · rfl
    · rfl
  · have hcs : ¬spanned (g * p.h) res ≤ 1 := fun h => hs ((spanned_le_one_iff hH res).1 h)
    have hpos := pos_of_not_small res hH hs
    rw [if_neg hs, if_neg hcs]
    split
    · rename_i hm
      rw [wsum_nil]
      symm
      split
      · rename_i hq
        rw [kernel_zero_of_not_span hW hr hpos p.x p.y q hq, mul_zero]
        rw [mem_span, mem_span]
        rw [Bool.or_eq_true] at hm
        rcases hm with hm | hm
        · exact fun h => not_span_of_misses hq.1 hm h.1.2
        · exact fun h => not_span_of_misses hq.2 hm h.2.2
      · rfl
    · have hn : ∀ pc, (span res pc (spanned (g * p.h) res)).Nodup := fun pc => nodup_irange _ _
      rw [wsum_over2 _ _ (hn _) (hn _), dist2_eq hr, dist2_eq hr]
      change (if _ then p.m * W (gap2 res q p.x p.y) (g * p.h) else 0) = _
      by_cases hq : OnImage res q.1 ∧ OnImage res q.2
      · rw [if_pos hq]
        split
        · rfl
        · rename_i hq2
          rw [kernel_zero_of_not_span hW hr hpos p.x p.y q hq hq2, mul_zero]
      · rw [if_neg hq, if_neg]
        rw [mem_span, mem_span]
        exact fun h => hq ⟨h.1.1, h.2.1⟩

/-! ## Copies -/

theorem nodup_shifts (b : K) : (shifts b).Nodup := by
  unfold shifts; split <;> exact nodup_irange _ _

theorem mem_shifts_of_zero (k : Int) : k ∈ shifts (0 : K) ↔ k = 0 := by
  simp only [shifts, if_true, mem_irange]; omega

theorem mem_shifts {b : K} (hb : b ≠ 0) (k : Int) : k ∈ shifts b ↔ -1 ≤ k ∧ k ≤ ⌈1 / b⌉ := by
  simp only [shifts, if_neg hb, mem_irange]; omega

theorem isCopy_of_mem {b : K} {k : Int} (h : k ∈ shifts b) : IsCopy b k := by
  rintro rfl; exact (mem_shifts_of_zero k).1 h

/-- a copy that is not considered is more than a box away from the image -/
theorem far_of_not_shift {b x : K} (hb : 0 ≤ b) (hx : Wrapped b x) {k : Int} (hk : IsCopy b k) (h : k ∉ shifts b) :
    x + k * b < -b ∨ 1 + b ≤ x + k * b := by
  rcases hb.eq_or_lt with h0 | h0
  · subst h0
    exact absurd ((mem_shifts_of_zero k).2 (hk rfl)) h
  · obtain ⟨hx0, hx1⟩ := hx h0.ne'
    rw [mem_shifts h0.ne'] at h
    by_cases hk1 : k ≤ -2
    · left
      have : (k : K) ≤ -2 := by exact_mod_cast hk1
      nlinarith
    · right
      have hk2 : ⌈1 / b⌉ + 1 ≤ k := by omega
      have h3 : (⌈1 / b⌉ : K) + 1 ≤ k := by exact_mod_cast hk2
      have h4 : 1 / b ≤ (⌈1 / b⌉ : K) := Int.le_ceil _
      have h5 : 1 / b + 1 ≤ (k : K) := by linarith
      have h6 : (1 / b + 1) * b ≤ k * b := mul_le_mul_of_nonneg_right h5 hb
      have h7 : (1 / b + 1) * b = 1 + b := by field_simp
      linarith

theorem tile2_eq {bx by_ : K} (f : K → K → K) (x y : K)
    (hx : ∀ k : Int, IsCopy bx k → k ∉ shifts bx → ∀ v, f (x + k * bx) v = 0)
    (hy : ∀ k : Int, IsCopy by_ k → k ∉ shifts by_ → ∀ v, f v (y + k * by_) = 0) :
    ((shifts bx).map fun i : Int => ((shifts by_).map fun j : Int => f (x + (i : K) * bx) (y + (j : K) * by_)).sum).sum
      = tile2 bx by_ f x y := by
  unfold tile2
  have hsub : Function.support (fun k : ℤ × ℤ =>
      if IsCopy bx k.1 ∧ IsCopy by_ k.2 then f (x + k.1 * bx) (y + k.2 * by_) else 0) ⊆
      ((shifts bx).toFinset ×ˢ (shifts by_).toFinset : Finset (ℤ × ℤ)) := by
    intro k hk
    rw [Function.mem_support] at hk
    have hc : IsCopy bx k.1 ∧ IsCopy by_ k.2 := by
      by_contra hc; exact hk (if_neg hc)
    rw [if_pos hc] at hk
    simp only [Finset.coe_product, Set.mem_prod, Finset.mem_coe, List.mem_toFinset]
    constructor
    · by_contra h; exact hk (hx _ hc.1 h _)
    · by_contra h; exact hk (hy _ hc.2 h _)
  rw [finsum_eq_sum_of_support_subset _ hsub, Finset.sum_product, ← List.sum_toFinset _ (nodup_shifts bx)]
  apply Finset.sum_congr rfl
  intro i hi
  rw [← List.sum_toFinset _ (nodup_shifts by_)]
  apply Finset.sum_congr rfl
  intro j hj
  rw [List.mem_toFinset] at hi hj
  rw [if_pos ⟨isCopy_of_mem hi, isCopy_of_mem hj⟩]

theorem wsum_over (dep : Part K → List ((Int × Int) × K)) (bx by_ : K) (ps : List (Part K)) (q : Int × Int) :
    wsum q (over dep bx by_ ps) = (ps.map fun p => ((shifts bx).map fun i : Int => ((shifts by_).map fun j : Int =>
      wsum q (dep { p with x := p.x + (i : K) * bx, y := p.y + (j : K) * by_ })).sum).sum).sum := by
  unfold over copies2
  rw [wsum_flatMap]
  congr 2
  funext p
  rw [wsum_flatMap, List.flatMap, List.map_flatten, List.sum_flatten, List.map_map, List.map_map]
  congr 2
  funext i
  simp [Function.comp_def]

theorem over_inside {dep : Part K → List ((Int × Int) × K)} {inside : Int × Int → Bool}
    (hd : ∀ p d, d ∈ dep p → inside d.1 = true) (bx by_ : K) (ps : List (Part K)) :
    ∀ d ∈ over dep bx by_ ps, inside d.1 = true := by
  intro d h
  simp only [over, List.mem_flatMap] at h
  obtain ⟨p, _, c, _, h⟩ := h
  exact hd c d h

/-- centres of pixels lie in the image -/
theorem centre_mem {res : Nat} {i : Int} (hi : OnImage res i) : (0 : K) < centre res i ∧ centre res i < (1 : K) := by
  have hr : 0 < res := by unfold OnImage at hi; omega
  have hr' : (0 : K) < res := by exact_mod_cast hr
  have h1 : (0 : K) ≤ (i : K) := by exact_mod_cast hi.1
  have h2 : (i : K) + 1 ≤ (res : K) := by exact_mod_cast hi.2
  unfold centre
  constructor
  · positivity
  · rw [div_lt_one (by positivity)]; linarith

theorem pixel_mem {res : Nat} {i : Int} {x : K} (hi : OnImage res i) (hx : InPixel res i x) : 0 ≤ x ∧ x < 1 := by
  have hr : 0 < res := by unfold OnImage at hi; omega
  have hr' : (0 : K) < res := by exact_mod_cast hr
  have h1 : (0 : K) ≤ (i : K) := by exact_mod_cast hi.1
  have h2 : (i : K) + 1 ≤ (res : K) := by exact_mod_cast hi.2
  constructor
  · exact le_trans (by positivity) hx.1
  · refine hx.2.trans_le ?_
    rw [div_le_one hr']; exact h2

theorem far_sq {H b x' c : K} (hH : 0 ≤ H) (hb : H ≤ b) (hc : 0 < c ∧ c < 1) (h : x' < -b ∨ 1 + b ≤ x') :
    H * H ≤ (c - x') ^ 2 := by
  rcases h with h | h <;> nlinarith

/-! ## Three dimensions -/

theorem tile3_eq {sh : K → List Int} (hn : ∀ b, (sh b).Nodup) (hc : ∀ b k, k ∈ sh b → IsCopy b k) {bx by_ bz : K}
    (f : K → K → K → K) (x y z : K)
    (hx : ∀ k : Int, IsCopy bx k → k ∉ sh bx → ∀ v w, f (x + k * bx) v w = 0)
    (hy : ∀ k : Int, IsCopy by_ k → k ∉ sh by_ → ∀ v w, f v (y + k * by_) w = 0)
    (hz : ∀ k : Int, IsCopy bz k → k ∉ sh bz → ∀ v w, f v w (z + k * bz) = 0) :
    ((sh bx).map fun i : Int => ((sh by_).map fun j : Int => ((sh bz).map fun k : Int =>
      f (x + (i : K) * bx) (y + (j : K) * by_) (z + (k : K) * bz)).sum).sum).sum = tile3 bx by_ bz f x y z := by
  unfold tile3
  have hsub : Function.support (fun k : ℤ × ℤ × ℤ =>
      if IsCopy bx k.1 ∧ IsCopy by_ k.2.1 ∧ IsCopy bz k.2.2 then
        f (x + k.1 * bx) (y + k.2.1 * by_) (z + k.2.2 * bz) else 0) ⊆
      ((sh bx).toFinset ×ˢ (sh by_).toFinset ×ˢ (sh bz).toFinset : Finset (ℤ × ℤ × ℤ)) := by
    intro k hk
    rw [Function.mem_support] at hk
    have hc : IsCopy bx k.1 ∧ IsCopy by_ k.2.1 ∧ IsCopy bz k.2.2 := by
      by_contra hc; exact hk (if_neg hc)
    rw [if_pos hc] at hk
    simp only [Finset.coe_product, Set.mem_prod, Finset.mem_coe, List.mem_toFinset]
    refine ⟨?_, ?_, ?_⟩
    · by_contra h; exact hk (hx _ hc.1 h _ _)
    · by_contra h; exact hk (hy _ hc.2.1 h _ _)
    · by_contra h; exact hk (hz _ hc.2.2 h _ _)
  rw [finsum_eq_sum_of_support_subset _ hsub, Finset.sum_product, ← List.sum_toFinset _ (hn bx)]
  apply Finset.sum_congr rfl
  intro i hi
  rw [Finset.sum_product, ← List.sum_toFinset _ (hn by_)]
  apply Finset.sum_congr rfl
  intro j hj
  rw [← List.sum_toFinset _ (hn bz)]
  apply Finset.sum_congr rfl
  intro k hk
  rw [List.mem_toFinset] at hi hj hk
  rw [if_pos ⟨hc _ _ hi, hc _ _ hj, hc _ _ hk⟩]

theorem wsum_over_copies3 {ι : Type} [DecidableEq ι] (sh : K → List Int) (dep : Part K → List (ι × K)) (bx by_ bz : K)
    (ps : List (Part K)) (q : ι) :
    wsum q (ps.flatMap fun p => (copies3 sh bx by_ bz p).flatMap dep) =
      (ps.map fun p => ((sh bx).map fun i : Int => ((sh by_).map fun j : Int => ((sh bz).map fun k : Int =>
      wsum q (dep { p with x := p.x + (i : K) * bx, y := p.y + (j : K) * by_, z := p.z + (k : K) * bz })).sum).sum).sum).sum
      := by
  rw [wsum_flatMap]
  congr 2
  funext p
  unfold copies3
  rw [wsum_flatMap, List.flatMap, List.map_flatten, List.sum_flatten, List.map_map, List.map_map]
  congr 2
  funext i
  simp only [Function.comp_def]
  rw [List.flatMap, List.map_flatten, List.sum_flatten, List.map_map, List.map_map]
  congr 2
  funext j
  simp [Function.comp_def]

/-- the last cell along an axis that the slice and the render visit -/
theorem spanShort_iff {res : Nat} {H : K} (hH : 0 ≤ H) (x : K) (i : Int) :
    i < cell res x + spanned H res ↔ i ≤ ⌊(res : K) * x⌋ + ⌊(res : K) * H⌋ := by
  rw [spanned_of_nonneg hH, add_comm (1 : K), Int.floor_add_one, cell, mul_comm H]; omega

theorem sliceDeps_inside (W : K → K → K) (g zs : K) (res : Nat) (p : Part K) (d : (Int × Int) × K)
    (h : d ∈ sliceDeps W g zs res p) : inside2 res res d.1 = true := by
  unfold sliceDeps at h
  dsimp only at h
  split at h
  · simp at h
  · have := mem_over2 h
    rw [mem_spanShort, mem_spanShort] at this
    rw [inside2_iff]; exact ⟨this.1.1, this.2.1⟩

theorem wsum_sliceDeps {W : K → K → K} (hW : Compact W) {g : K} (zs : K) {res : Nat} (hr : 0 < res) (p : Part K)
    (hH : 0 < g * p.h) (q : Int × Int) :
    wsum q (sliceDeps W g zs res p) =
      if OnImage res q.1 ∧ OnImage res q.2 then
        (if q.1 ≤ ⌊(res : K) * p.x⌋ + ⌊(res : K) * (g * p.h)⌋ ∧ q.2 ≤ ⌊(res : K) * p.y⌋ + ⌊(res : K) * (g * p.h)⌋ then
          p.m * W (gap2 res q p.x p.y + (p.z - zs) ^ 2) (g * p.h) else 0) else 0 := by
  have hz : 0 ≤ (p.z - zs) ^ 2 := sq_nonneg _
  unfold sliceDeps
  dsimp only
  simp only [← spanShort_iff hH.le]
  by_cases hq : OnImage res q.1 ∧ OnImage res q.2
  swap
  · rw [if_neg hq]
    apply wsum_of_forall_ne
    intro d hd he
    have := sliceDeps_inside W g zs res p d (by unfold sliceDeps; exact hd)
    rw [inside2_iff, he] at this
    exact hq this
  rw [if_pos hq]
  -- wherever the kernel does not vanish the loops reach the pixel, apart from the upper end
  by_cases hk : W (gap2 res q p.x p.y + (p.z - zs) ^ 2) (g * p.h) = 0
  · simp only [hk, mul_zero, ite_self]
    split
    · rfl
    · have hn : ∀ pc, (spanShort res pc (spanned (g * p.h) res)).Nodup := fun pc => nodup_irange _ _
      rw [wsum_over2 _ _ (hn _) (hn _), dist2_eq hr, dist2_eq hr, ← pow_two (p.z - zs)]
      change (if _ then p.m * W (gap2 res q p.x p.y + (p.z - zs) ^ 2) (g * p.h) else 0) = _
      simp [hk]
  · have hnear : gap2 res q p.x p.y + (p.z - zs) ^ 2 < g * p.h * (g * p.h) := by
      by_contra h; exact hk (hW _ _ hH (not_lt.1 h))
    have hgx : (centre res q.1 - p.x) ^ 2 < g * p.h * (g * p.h) := by
      unfold gap2 at hnear; nlinarith [sq_nonneg (centre res q.2 - p.y)]
    have hgy : (centre res q.2 - p.y) ^ 2 < g * p.h * (g * p.h) := by
      unfold gap2 at hnear; nlinarith [sq_nonneg (centre res q.1 - p.x)]
    have hsx : ¬(q.1 < cell res p.x - spanned (g * p.h) res ∨ cell res p.x + spanned (g * p.h) res < q.1) := fun h =>
      absurd (far_of_not_span hr hH.le p.x q.1 h) (not_le.2 hgx)
    have hsy : ¬(q.2 < cell res p.y - spanned (g * p.h) res ∨ cell res p.y + spanned (g * p.h) res < q.2) := fun h =>
      absurd (far_of_not_span hr hH.le p.y q.2 h) (not_le.2 hgy)
    have hdz : ¬((p.z - zs) * (p.z - zs) > g * p.h * (g * p.h)) := by
      have : 0 ≤ gap2 res q p.x p.y := by unfold gap2; positivity
      nlinarith
    have hmx : ¬misses res (cell res p.x) (spanned (g * p.h) res) = true := fun h =>
      not_span_of_misses hq.1 h (by omega)
    have hmy : ¬misses res (cell res p.y) (spanned (g * p.h) res) = true := fun h =>
      not_span_of_misses hq.2 h (by omega)
    rw [if_neg (by simp [hdz, hmx, hmy])]
    have hn : ∀ pc, (spanShort res pc (spanned (g * p.h) res)).Nodup := fun pc => nodup_irange _ _
    rw [wsum_over2 _ _ (hn _) (hn _), dist2_eq hr, dist2_eq hr, ← pow_two (p.z - zs)]
    change (if _ then p.m * W (gap2 res q p.x p.y + (p.z - zs) ^ 2) (g * p.h) else 0) = _
    congr 1
    rw [eq_iff_iff, mem_spanShort, mem_spanShort]
    constructor
    · exact fun h => ⟨h.1.2.2, h.2.2.2⟩
    · exact fun h => ⟨⟨hq.1, by omega, h.1⟩, hq.2, by omega, h.2⟩

theorem limitedDeps_inside (W : K → K → K) (g : K) (res resz : Nat) (p : Part K) (d : (Int × Int × Int) × K)
    (h : d ∈ limitedDeps W g res resz p) : inside3 res res resz d.1 = true := by
  unfold limitedDeps at h
  dsimp only at h
  split at h
  · simp at h
  · split at h
    · split at h
      · rename_i hg
        simp only [Bool.and_eq_true, onGrid_iff] at hg
        simp only [List.mem_singleton] at h
        subst h
        rw [inside3_iff]; exact ⟨hg.1.1, hg.1.2, hg.2⟩
      · simp at h
    · have := mem_over3 h
      simp only [mem_spanShort] at this
      rw [inside3_iff]; exact ⟨this.1.1, this.2.1.1, this.2.2.1⟩

/-- the render is the limited render with as many layers as columns -/
theorem volumeDeps_eq (W : K → K → K) (g : K) (res : Nat) (p : Part K) :
    volumeDeps W g res p = limitedDeps W g res res p := by
  unfold volumeDeps limitedDeps
  simp only [Bool.or_self, decide_eq_true_eq]

theorem wsum_limitedDeps {W : K → K → K} (hW : Compact W) {g : K} {res resz : Nat} (hr : 0 < res) (hrz : 0 < resz)
    (p : Part K) (hH : 0 ≤ g * p.h) (q : Int × Int × Int) :
    wsum q (limitedDeps W g res resz p) =
      if OnImage res q.1 ∧ OnImage res q.2.1 ∧ OnImage resz q.2.2 then voxelAt W res resz p.m (g * p.h) q p.x p.y p.z
      else 0 := by
  have hr' : (0 : K) < res := by exact_mod_cast hr
  have hrz' : (0 : K) < resz := by exact_mod_cast hrz
  by_cases hq : OnImage res q.1 ∧ OnImage res q.2.1 ∧ OnImage resz q.2.2
  swap
  · rw [if_neg hq]
    apply wsum_of_forall_ne
    intro d hd he
    have := limitedDeps_inside W g res resz p d hd
    rw [inside3_iff, he] at this
    exact hq this
  rw [if_pos hq]
  unfold limitedDeps voxelAt
  dsimp only
  have hsmall : (decide (g * p.h < 1 / (res : K) * (1 / 2)) || decide (g * p.h < 1 / (resz : K) * (1 / 2))) = true ↔
      (g * p.h * (res : K) < 1 / 2 ∨ g * p.h * (resz : K) < 1 / 2) := by
    have e : ∀ r : K, 0 < r → (g * p.h < 1 / r * (1 / 2) ↔ g * p.h * r < 1 / 2) := by
      intro r hr
      rw [← lt_div_iff₀ hr]
      have : 1 / r * (1 / 2) = 1 / 2 / r := by field_simp
      rw [this]
    simp only [Bool.or_eq_true, decide_eq_true_eq, e _ hr', e _ hrz']
  have p1 := spanned_pos hH res
  have p2 := spanned_pos hH resz
  by_cases hs : g * p.h * (res : K) < 1 / 2 ∨ g * p.h * (resz : K) < 1 / 2
  · rw [if_pos hs, if_pos (hsmall.2 hs)]
    simp only [← cell_eq_iff hr, ← cell_eq_iff hrz]
    by_cases hin : cell res p.x = q.1 ∧ cell res p.y = q.2.1 ∧ cell resz p.z = q.2.2
    · rw [if_pos hin, if_neg, if_pos]
      · have : (cell res p.x, cell res p.y, cell resz p.z) = q := by
          rw [hin.1, hin.2.1, hin.2.2]
        simp [this, pow_two]
      · simp only [Bool.and_eq_true, onGrid_iff, hin.1, hin.2.1, hin.2.2]
        exact ⟨⟨hq.1, hq.2.1⟩, hq.2.2⟩
      · simp only [Bool.or_eq_true, misses_iff, hin.1, hin.2.1, hin.2.2]
        have := hq; unfold OnImage at this; omega
    · rw [if_neg hin]
      apply wsum_of_forall_ne
      intro d hd he
      split at hd
      · simp at hd
      · split at hd
        · simp only [List.mem_singleton] at hd
          subst hd
          subst he
          simp at hin
        · simp at hd
  · rw [if_neg hs, if_neg (fun h => hs (hsmall.1 h))]
    have hpos : 0 < g * p.h := by
      rcases hH.lt_or_eq with h' | h'
      · exact h'
      · rw [← h'] at hs; simp at hs
    simp only [← spanShort_iff hH]
    have hn : ∀ r pc, (spanShort r pc (spanned (g * p.h) r)).Nodup := fun r pc => nodup_irange _ _
    have hw := wsum_over3 _ _ _ (hn res (cell res p.x)) (hn res (cell res p.y)) (hn resz (cell resz p.z))
      (fun i j k => p.m * W (dist2 res p.x i + dist2 res p.y j + dist2 resz p.z k) (g * p.h)) q
    rw [dist2_eq hr, dist2_eq hr, dist2_eq hrz] at hw
    change _ = (if _ then p.m * W (gap3 res resz q p.x p.y p.z) (g * p.h) else 0) at hw
    by_cases hk : W (gap3 res resz q p.x p.y p.z) (g * p.h) = 0
    · simp only [hk, mul_zero, ite_self] at hw ⊢
      split
      · rfl
      · exact hw
    · have hnear : gap3 res resz q p.x p.y p.z < g * p.h * (g * p.h) := by
        by_contra h; exact hk (hW _ _ hpos (not_lt.1 h))
      unfold gap3 at hnear
      have s1 := sq_nonneg (centre res q.1 - p.x)
      have s2 := sq_nonneg (centre res q.2.1 - p.y)
      have s3 := sq_nonneg (centre resz q.2.2 - p.z)
      have hsx : ¬(q.1 < cell res p.x - spanned (g * p.h) res ∨ cell res p.x + spanned (g * p.h) res < q.1) := fun h =>
        absurd (far_of_not_span hr hH p.x q.1 h) (by linarith)
      have hsy : ¬(q.2.1 < cell res p.y - spanned (g * p.h) res ∨ cell res p.y + spanned (g * p.h) res < q.2.1) :=
        fun h => absurd (far_of_not_span hr hH p.y q.2.1 h) (by linarith)
      have hsz : ¬(q.2.2 < cell resz p.z - spanned (g * p.h) resz ∨ cell resz p.z + spanned (g * p.h) resz < q.2.2) :=
        fun h => absurd (far_of_not_span hrz hH p.z q.2.2 h) (by linarith)
      rw [if_neg, hw]
      · congr 1
        simp only [mem_spanShort, eq_iff_iff]
        constructor
        · exact fun h => ⟨h.1.2.2, h.2.1.2.2, h.2.2.2.2⟩
        · exact fun h => ⟨⟨hq.1, by omega, h.1⟩, ⟨hq.2.1, by omega, h.2.1⟩, hq.2.2, by omega, h.2.2⟩
      · simp only [Bool.or_eq_true, misses_iff]
        have := hq; unfold OnImage at this; omega

theorem nodup_shiftsLimited (b : K) : (shiftsLimited b).Nodup := by
  unfold shiftsLimited; split <;> exact nodup_irange _ _

theorem isCopy_of_mem_limited {b : K} {k : Int} (h : k ∈ shiftsLimited b) : IsCopy b k := by
  rintro rfl
  simp only [shiftsLimited, if_true, mem_irange] at h; omega

theorem far_of_not_shiftLimited {b x : K} (hb : b = 0 ∨ 1 ≤ b) (hx : Wrapped b x) {k : Int} (hk : IsCopy b k)
    (h : k ∉ shiftsLimited b) : x + k * b < -b ∨ 1 + b ≤ x + k * b := by
  rcases hb with h0 | h0
  · subst h0
    have := hk rfl
    simp [shiftsLimited, mem_irange, this] at h
  · have hb0 : b ≠ 0 := by intro h; rw [h] at h0; linarith
    obtain ⟨hx0, hx1⟩ := hx hb0
    simp only [shiftsLimited, if_neg hb0, mem_irange] at h
    by_cases hk1 : k ≤ -2
    · left
      have : (k : K) ≤ -2 := by exact_mod_cast hk1
      nlinarith
    · right
      have hk2 : 2 ≤ k := by omega
      have h3 : (2 : K) ≤ k := by exact_mod_cast hk2
      nlinarith

end

end Verif.Scatter
