import Mathlib.Analysis.SpecialFunctions.Trigonometric.Sinc
import Verif.Spec.ArraySets
import Verif.Props.LinearAlgebra

/-! # C84: set operations, comparisons, order statistics and signal functions on cosmology arrays -/

namespace Verif.Props
open Verif Verif.Cosmo Verif.Spec

set_option linter.unusedSimpArgs false

private theorem compare_cov {β : Type} {a k : ℝ} {x y : Arr} (hx : Conv a k x) (hy : Conv a k y)
    {f : List ℝ → List ℝ → β} (hf : ∀ (s : ℝ) (u v : List ℝ), 0 < s → f (u.map (· * s)) (v.map (· * s)) = f u v) :
    wrapCompare f (.cosmo x) (.cosmo y) = .ok (f x.phys y.phys) := by
  obtain ⟨p, b, e, -, -, -, h, -⟩ := prepare_kw (a := a) (l := [.cosmo x, .cosmo y]) (kw := []) (by
      intro q hq
      rcases List.mem_pair.mp hq with rfl | rfl
      · exact ⟨k, hx⟩
      · exact ⟨k, hy⟩) (by simp) (by simp [flags])
  obtain ⟨u, v, hargs, h1, h2⟩ := forall2_two h
  have e1 : x.phys = _ := h1.phys (o := .cosmo x) hx
  have e2 : y.phys = _ := h2.phys (o := .cosmo y) hy
  have hw : without2 x.cf y.cf = .ok none := by simp [without2, hx.cf, hy.cf, same_refl]
  unfold wrapCompare
  simp only [e, Opd.cf, hw, hargs, Except.ok.injEq]
  rw [e1, e2]
  exact (hf _ _ _ (scale_pos hx.pos b k)).symm

private theorem preserve_cov {a k : ℝ} {x y : Arr} (hx : Conv a k x) (hy : Conv a k y)
    {f : List ℝ → List ℝ → List ℝ} (hf : ∀ (s : ℝ) (u v : List ℝ), 0 < s → f (u.map (· * s)) (v.map (· * s)) = (f u v).map (· * s)) :
    ∃ z, wrap2 preserve2 (fun u v => .ok (f u v)) (.cosmo x) (.cosmo y) = .ok z ∧ Conv a k z ∧ z.phys = f x.phys y.phys := by
  obtain ⟨h1, h2⟩ := wrap2_cov (o := .cosmo x) (p := .cosmo y) (k := k) (l := k) (m := k) (rule := preserve2)
    (f := fun u v => .ok (f u v)) hx.pos hx hy (by simp [flags]) (by simp [Opd.cf, hx.cf, hy.cf, preserve2, same_refl])
    fun b u v => by
      simp only [Except.map, Except.ok.injEq]
      exact hf _ _ _ (scale_pos hx.pos b k)
  cases e : wrap2 preserve2 (fun u v => .ok (f u v)) (.cosmo x) (.cosmo y) with
  | error _ => rw [e] at h1; simp [Except.map] at h1
  | ok z =>
    rw [e] at h1
    simp only [Except.map, Except.ok.injEq] at h1
    exact ⟨z, rfl, h2 z e, h1⟩

private theorem inj {s : ℝ} (hs : 0 < s) : Function.Injective (fun t : ℝ => t * s) :=
  fun u v h => mul_right_cancel₀ hs.ne' h

private theorem unique_scale {s : ℝ} (hs : 0 < s) (l : List ℝ) : uniqueNum (l.map (· * s)) = (uniqueNum l).map (· * s) := by
  classical
  unfold uniqueNum
  rw [← List.dedup_map_of_injective (inj hs), List.map_insertionSort (r := (· ≤ ·)) (s := (· ≤ ·))]
  intro u _ v _
  exact (mul_le_mul_iff_left₀ hs).symm

private theorem unique_sorted (l : List ℝ) : SortedSet (uniqueNum l) (fun t => t ∈ l) := by
  classical
  constructor
  · unfold uniqueNum
    have h1 : ((l.insertionSort (· ≤ ·)).dedup).Pairwise (· ≤ ·) :=
      (List.pairwise_insertionSort (· ≤ ·) l).sublist (List.dedup_sublist _)
    have h2 : ((l.insertionSort (· ≤ ·)).dedup).Nodup := List.nodup_dedup _
    exact (h1.and h2).imp fun h => lt_of_le_of_ne h.1 h.2
  · intro t
    unfold uniqueNum
    rw [List.mem_dedup, List.mem_insertionSort]

private theorem mem_scale {s : ℝ} (hs : 0 < s) (l : List ℝ) (t : ℝ) : t * s ∈ l.map (· * s) ↔ t ∈ l :=
  List.mem_map_of_injective (inj hs)

/-- C84: `union1d` lists the physical values of both arrays. -/
theorem c84_union {a k : ℝ} {x y : Arr} (hx : Conv a k x) (hy : Conv a k y) :
    ∃ z, union1d (.cosmo x) (.cosmo y) = .ok z ∧ Conv a k z ∧ SortedSet z.phys (fun t => t ∈ x.phys ∨ t ∈ y.phys) := by
  obtain ⟨z, h, hz, e⟩ := preserve_cov hx hy (f := fun u v => uniqueNum (u ++ v)) fun s u v hs => by
    rw [← List.map_append, unique_scale hs]
  refine ⟨z, h, hz, ?_⟩
  rw [e]
  have := unique_sorted (x.phys ++ y.phys)
  simpa [List.mem_append] using this

/-- C84: `intersect1d` lists the physical values common to both. -/
theorem c84_intersect {a k : ℝ} {x y : Arr} (hx : Conv a k x) (hy : Conv a k y) :
    ∃ z, intersect1d (.cosmo x) (.cosmo y) = .ok z ∧ Conv a k z ∧ SortedSet z.phys (fun t => t ∈ x.phys ∧ t ∈ y.phys) := by
  classical
  obtain ⟨z, h, hz, e⟩ := preserve_cov hx hy (f := fun u v => uniqueNum (u.filter (fun t => t ∈ v))) fun s u v hs => by
    rw [← unique_scale hs, List.filter_map]
    congr 2
    refine List.filter_congr fun t _ => ?_
    simp only [Function.comp, mem_scale hs]
  refine ⟨z, by unfold intersect1d; convert h, hz, ?_⟩
  rw [e]
  have := unique_sorted (x.phys.filter (fun t => t ∈ y.phys))
  simpa [List.mem_filter] using this

/-- C84: `setdiff1d` lists the physical values of the first that are not in the second. -/
theorem c84_setdiff {a k : ℝ} {x y : Arr} (hx : Conv a k x) (hy : Conv a k y) :
    ∃ z, setdiff1d (.cosmo x) (.cosmo y) = .ok z ∧ Conv a k z ∧ SortedSet z.phys (fun t => t ∈ x.phys ∧ t ∉ y.phys) := by
  classical
  obtain ⟨z, h, hz, e⟩ := preserve_cov hx hy (f := fun u v => uniqueNum (u.filter (fun t => t ∉ v))) fun s u v hs => by
    rw [← unique_scale hs, List.filter_map]
    congr 2
    refine List.filter_congr fun t _ => ?_
    simp only [Function.comp, mem_scale hs]
  refine ⟨z, by unfold setdiff1d; convert h, hz, ?_⟩
  rw [e]
  have := unique_sorted (x.phys.filter (fun t => t ∉ y.phys))
  simpa [List.mem_filter] using this

/-- C84: `isin` answers for the physical values. -/
theorem c84_isin {a k : ℝ} {x y : Arr} (hx : Conv a k x) (hy : Conv a k y) :
    ∃ r, isin (.cosmo x) (.cosmo y) = .ok r ∧ r.length = x.phys.length ∧
      ∀ i (h : i < x.phys.length), r[i]? = some true ↔ x.phys[i] ∈ y.phys := by
  classical
  refine ⟨_, compare_cov hx hy (fun s u v hs => ?_), by simp, ?_⟩
  · rw [List.map_map]
    refine List.map_congr_left fun t _ => ?_
    simp only [Function.comp, mem_scale hs]
  · intro i h
    simp [h]

/-- C84: `array_equal` answers for the physical values. -/
theorem c84_equal {a k : ℝ} {x y : Arr} (hx : Conv a k x) (hy : Conv a k y) :
    ∃ r, arrayEqual (.cosmo x) (.cosmo y) = .ok r ∧ (r = true ↔ x.phys = y.phys) := by
  classical
  refine ⟨_, compare_cov hx hy (fun s u v hs => ?_), decide_eq_true_iff⟩
  have : u.map (· * s) = v.map (· * s) ↔ u = v := (List.map_injective_iff.2 (inj hs)).eq_iff
  simp only [this]

/-- The number of smaller elements of a sorted list is the insertion point. -/
private theorem insertion (l : List ℝ) (t : ℝ) (h : l.Pairwise (· ≤ ·)) :
    InsertionPoint l t (l.filter (fun s => decide (s < t))).length := by
  classical
  induction l with
  | nil => exact ⟨by simp, fun j h => by simp at h⟩
  | cons u l ih =>
    obtain ⟨hu, hl⟩ := List.pairwise_cons.1 h
    obtain ⟨h1, h2⟩ := ih hl
    by_cases c : u < t
    · rw [List.filter_cons_of_pos (by simpa using c)]
      refine ⟨by simpa using h1, ?_⟩
      intro j hj
      cases j with
      | zero => simp [c]
      | succ j => simpa using h2 j (by simpa using hj)
    · rw [List.filter_cons_of_neg (by simpa using c)]
      have hall : l.filter (fun s => decide (s < t)) = [] := by
        rw [List.filter_eq_nil_iff]
        intro v hv
        have := hu v hv
        simp only [decide_eq_true_eq, not_lt]
        linarith
      rw [hall]
      refine ⟨by simp, ?_⟩
      intro j hj
      cases j with
      | zero => simpa using c
      | succ j =>
        have hm := hu _ (List.getElem_mem (l := l) (n := j) (by simpa using hj))
        simp only [List.getElem_cons_succ, List.length_nil, Nat.not_lt_zero, iff_false, not_lt]
        linarith

/-- C84: `searchsorted` gives the insertion points of the physical values. -/
theorem c84_searchsorted {a k : ℝ} {x y : Arr} (hx : Conv a k x) (hy : Conv a k y) (hs : x.phys.Pairwise (· ≤ ·)) :
    ∃ r, searchsorted (.cosmo x) (.cosmo y) = .ok r ∧ r.length = y.phys.length ∧
      ∀ i (h : i < y.phys.length) (h' : i < r.length), InsertionPoint x.phys y.phys[i] r[i] := by
  classical
  refine ⟨_, compare_cov hx hy (fun s u v hs => ?_), by simp, ?_⟩
  · rw [List.map_map]
    refine List.map_congr_left fun t _ => ?_
    simp only [Function.comp, List.filter_map, List.length_map]
    congr 1
    refine List.filter_congr fun r _ => ?_
    simp only [Function.comp, mul_lt_mul_iff_left₀ hs]
  · intro i h h'
    simp only [List.getElem_map]
    convert insertion x.phys y.phys[i] hs

/-- C84: two arrays of different exponents are refused by the comparisons. -/
theorem c84_mixed_refused {β : Type} {a k l : ℝ} {x y : Arr} (hx : Conv a k x) (hy : Conv a l y)
    (h : ¬ CF.same ⟨some k, some a⟩ ⟨some l, some a⟩) (f : List ℝ → List ℝ → β) :
    wrapCompare f (.cosmo x) (.cosmo y) = .error .value := by
  obtain ⟨p, b, e, -, -, -, hh, -⟩ := prepare_kw (a := a) (l := [.cosmo x, .cosmo y]) (kw := []) (by
      intro q hq
      rcases List.mem_pair.mp hq with rfl | rfl
      · exact ⟨k, hx⟩
      · exact ⟨l, hy⟩) (by simp) (by simp [flags])
  unfold wrapCompare
  have hw : without2 x.cf y.cf = .error .value := by simp only [without2, hx.cf, hy.cf]; rw [if_neg h]
  simp only [e, Opd.cf, hw]

private theorem foldl_max_scale {s : ℝ} (hs : 0 < s) (l : List ℝ) : ∀ v : ℝ,
    (l.map (· * s)).foldl max (v * s) = l.foldl max v * s := by
  induction l with
  | nil => intro v; rfl
  | cons u l ih =>
    intro v
    simp only [List.map_cons, List.foldl_cons]
    rw [← max_mul_of_nonneg v u hs.le, ih]

private theorem foldl_min_scale {s : ℝ} (hs : 0 < s) (l : List ℝ) : ∀ v : ℝ,
    (l.map (· * s)).foldl min (v * s) = l.foldl min v * s := by
  induction l with
  | nil => intro v; rfl
  | cons u l ih =>
    intro v
    simp only [List.map_cons, List.foldl_cons]
    rw [← min_mul_of_nonneg v u hs.le, ih]

private theorem foldl_max_mem (l : List ℝ) : ∀ v : ℝ, l.foldl max v ∈ v :: l ∧ ∀ u ∈ v :: l, u ≤ l.foldl max v := by
  induction l with
  | nil => intro v; simp
  | cons w l ih =>
    intro v
    simp only [List.foldl_cons]
    obtain ⟨h1, h2⟩ := ih (max v w)
    constructor
    · rcases List.mem_cons.1 h1 with h | h
      · rw [h]
        rcases max_choice v w with e | e <;> rw [e] <;> simp
      · exact List.mem_cons_of_mem _ (List.mem_cons_of_mem _ h)
    · intro u hu
      have hm := h2 (max v w) List.mem_cons_self
      rcases List.mem_cons.1 hu with rfl | hu
      · exact le_trans (le_max_left _ _) hm
      · rcases List.mem_cons.1 hu with rfl | hu
        · exact le_trans (le_max_right _ _) hm
        · exact h2 u (List.mem_cons_of_mem _ hu)

private theorem foldl_min_mem (l : List ℝ) : ∀ v : ℝ, l.foldl min v ∈ v :: l ∧ ∀ u ∈ v :: l, l.foldl min v ≤ u := by
  induction l with
  | nil => intro v; simp
  | cons w l ih =>
    intro v
    simp only [List.foldl_cons]
    obtain ⟨h1, h2⟩ := ih (min v w)
    constructor
    · rcases List.mem_cons.1 h1 with h | h
      · rw [h]
        rcases min_choice v w with e | e <;> rw [e] <;> simp
      · exact List.mem_cons_of_mem _ (List.mem_cons_of_mem _ h)
    · intro u hu
      have hm := h2 (min v w) List.mem_cons_self
      rcases List.mem_cons.1 hu with rfl | hu
      · exact le_trans hm (min_le_left _ _)
      · rcases List.mem_cons.1 hu with rfl | hu
        · exact le_trans hm (min_le_right _ _)
        · exact h2 u (List.mem_cons_of_mem _ hu)

/-- C84: `ptp` is the largest difference between physical values. -/
theorem c84_ptp {a k : ℝ} {x : Arr} (hx : Conv a k x) (hne : x.phys ≠ []) :
    ∃ z d, ptp x = .ok z ∧ Conv a k z ∧ z.phys = [d] ∧ (∃ u ∈ x.phys, ∃ v ∈ x.phys, u - v = d) ∧
      ∀ u ∈ x.phys, ∀ v ∈ x.phys, u - v ≤ d := by
  obtain ⟨z, hz, hc, hp⟩ := c52_keep (f := fun l => match l with
    | [] => []
    | v :: l => [l.foldl max v - l.foldl min v]) (fun s l hs => by
      cases l with
      | nil => rfl
      | cons v l =>
        simp only [List.map_cons, List.map_nil, List.cons.injEq, and_true]
        rw [foldl_max_scale hs, foldl_min_scale hs, sub_mul]) hx
  cases e : x.phys with
  | nil => exact absurd e hne
  | cons v l =>
    rw [e] at hp
    refine ⟨z, _, hz, hc, hp, ⟨_, (foldl_max_mem l v).1, _, (foldl_min_mem l v).1, rfl⟩, ?_⟩
    intro u hu w hw
    have h1 := (foldl_max_mem l v).2 u hu
    have h2 := (foldl_min_mem l v).2 w hw
    linarith

private theorem quantile_keep {a k : ℝ} {x : Arr} (q : ℝ) (hx : Conv a k x) :
    ∃ z, wrap1 keep (fun l => [quantileNum q l]) x = .ok z ∧ Conv a k z ∧ z.phys = [quantileNum q x.phys] := by
  refine c52_keep (f := fun l => [quantileNum q l]) (fun s l hs => ?_) hx
  have hsort : (l.map (· * s)).insertionSort (· ≤ ·) = (l.insertionSort (· ≤ ·)).map (· * s) := by
    rw [List.map_insertionSort (r := (· ≤ ·)) (s := (· ≤ ·))]
    intro u _ v _
    exact (mul_le_mul_iff_left₀ hs).symm
  have hg : ∀ (m : List ℝ) i, (m.map (· * s)).getD i 0 = m.getD i 0 * s := by
    intro m i
    rw [List.getD_eq_getElem?_getD, List.getD_eq_getElem?_getD, List.getElem?_map]
    cases m[i]? <;> simp
  simp only [quantileNum, hsort, hg, List.length_map, List.map_cons, List.map_nil, List.cons.injEq, and_true]
  ring

/-- The quantile of a list: if `q (n - 1)` is `t` of the way from `j` to `j + 1`, it is so much of the way between the elements `j` and
`j + 1` of the list in increasing order. -/
private theorem quantile_between {q t : ℝ} {l s : List ℝ} {j : ℕ} {u v : ℝ} (hperm : s.Perm l) (hs : s.Pairwise (· ≤ ·))
    (ht : 0 ≤ t ∧ t ≤ 1) (hq : q * (l.length - 1) = j + t) (hu : s[j]? = some u) (hv : s[j + 1]? = some v) :
    quantileNum q l = u + t * (v - u) := by
  have hsort : l.insertionSort (· ≤ ·) = s := by
    refine ((List.perm_insertionSort _ l).trans hperm.symm).eq_of_pairwise (le := (· ≤ ·)) (fun a b _ _ h1 h2 => le_antisymm h1 h2)
      (List.pairwise_insertionSort _ l) hs
  have hlen : j + 1 < l.length := by
    rw [← hperm.length_eq]
    exact (List.getElem?_eq_some_iff.1 hv).1
  have gu : s.getD j 0 = u := by rw [List.getD_eq_getElem?_getD, hu]; rfl
  have gv : s.getD (j + 1) 0 = v := by rw [List.getD_eq_getElem?_getD, hv]; rfl
  unfold quantileNum
  dsimp only
  rw [hsort, hq]
  rcases lt_or_eq_of_le ht.2 with h | h
  · have hf : ⌊(j : ℝ) + t⌋ = j := by
      rw [Int.floor_eq_iff]
      push_cast
      constructor <;> linarith
    rw [hf, show ((j : ℤ)).toNat = j by omega, show min (j + 1) (l.length - 1) = j + 1 by omega, gu, gv]
    push_cast
    ring
  · subst h
    have hf : ⌊(j : ℝ) + 1⌋ = ((j + 1 : ℕ) : ℤ) := by
      rw [Int.floor_eq_iff]
      push_cast
      constructor <;> linarith
    rw [hf, show (((j + 1 : ℕ) : ℤ)).toNat = j + 1 by omega, gv]
    push_cast
    ring

/-- C84: `quantile` and `percentile` are those of the physical values: in increasing order, the element at `q (n - 1)`, and the
straight line between neighbours; with one element, this one. A `q` outside of `[0, 1]` is refused. -/
theorem c84_quantile {a k : ℝ} {x : Arr} (q : ℝ) (hx : Conv a k x) :
    (0 ≤ q → q ≤ 1 → ∃ z r, quantile q x = .ok z ∧ Conv a k z ∧ z.phys = [r] ∧ (∀ v, x.phys = [v] → r = v) ∧
      ∀ (s : List ℝ) (j : ℕ) (t u v : ℝ), s.Perm x.phys → s.Pairwise (· ≤ ·) → 0 ≤ t → t ≤ 1 → q * (x.phys.length - 1) = j + t →
        s[j]? = some u → s[j + 1]? = some v → r = u + t * (v - u)) ∧
    (q < 0 ∨ 1 < q → quantile q x = .error .value) := by
  constructor
  · intro h0 h1
    obtain ⟨z, e, hc, hp⟩ := quantile_keep q hx
    refine ⟨z, _, by unfold quantile; rw [if_pos ⟨h0, h1⟩, e], hc, hp, fun v hv => ?_, ?_⟩
    · rw [hv]
      simp [quantileNum]
    · intro s j t u v hperm hs t0 t1 hq hu hv
      exact quantile_between hperm hs ⟨t0, t1⟩ hq hu hv
  · intro h
    unfold quantile
    rw [if_neg]
    rintro ⟨h0, h1⟩
    rcases h with h | h <;> linarith

private theorem conv_scale (s t : ℝ) (u v : List ℝ) (n : ℕ) :
    convAt (u.map (fun w => w * s)) (v.map (fun w => w * t)) n = convAt u v n * (s * t) := by
  have hg : ∀ (s : ℝ) (m : List ℝ) i, (m.map (fun w => w * s)).getD i 0 = m.getD i 0 * s := by
    intro s m i
    rw [List.getD_eq_getElem?_getD, List.getD_eq_getElem?_getD, List.getElem?_map]
    cases m[i]? <;> simp
  unfold convAt
  rw [← List.sum_map_mul_right]
  congr 1
  refine List.map_congr_left fun i _ => ?_
  rw [hg, hg]
  ring

private theorem mul_rule {a k l : ℝ} {o p : Opd} (ho : HasExp a o k) (hp : HasExp a p l)
    (hne : (∃ x, o = .cosmo x) ∨ ∃ y, p = .cosmo y) : mul2 o.cf p.cf = .ok (some ⟨some (k + l), some a⟩) := by
  cases o with
  | plain v =>
    cases p with
    | plain w => simp at hne
    | cosmo y =>
      simp only [HasExp] at ho hp
      simp [Opd.cf, hp.cf, mul2, ho]
  | cosmo x =>
    cases p with
    | plain w =>
      simp only [HasExp] at ho hp
      simp [Opd.cf, ho.cf, mul2, hp]
    | cosmo y =>
      simp only [HasExp] at ho hp
      simp [Opd.cf, hp.cf, mul2, ho.cf, CF.mul, Except.map]

private theorem flags_ne' {o p : Opd} (hne : (∃ x, o = .cosmo x) ∨ ∃ y, p = .cosmo y) : flags [o, p] ≠ [] := by
  rcases hne with ⟨x, rfl⟩ | ⟨y, rfl⟩
  · simp [flags]
  · cases o <;> simp [flags]

/-- C84: `convolve` of physical values, in any mix of frames; exponents add. -/
theorem c84_convolve {a k l : ℝ} {o p : Opd} (ha : 0 < a) (ho : HasExp a o k) (hp : HasExp a p l)
    (hne : (∃ x, o = .cosmo x) ∨ ∃ y, p = .cosmo y) (h1 : o.phys ≠ []) (h2 : p.phys ≠ []) :
    ∃ z, convolve o p = .ok z ∧ Conv a (k + l) z ∧ z.phys.length = o.phys.length + p.phys.length - 1 ∧
      ∀ n (h : n < z.phys.length), z.phys[n] = ((List.range (n + 1)).map (fun i => o.phys.getD i 0 * p.phys.getD (n - i) 0)).sum := by
  obtain ⟨e1, e2⟩ := wrap2_cov (f := fun u v => if u = [] ∨ v = [] then .error .value
      else .ok ((List.range (u.length + v.length - 1)).map (convAt u v))) ha ho hp (flags_ne' hne) (mul_rule ho hp hne)
    fun b u v => by
      simp only [List.map_eq_nil_iff, List.length_map]
      split
      · rfl
      · simp only [Except.map, Except.ok.injEq, List.map_map]
        refine List.map_congr_left fun n _ => ?_
        simp only [Function.comp, conv_scale, scale_mul ha]
  rw [if_neg (by simp [h1, h2])] at e1
  unfold convolve
  cases e : wrap2 mul2 (fun u v => if u = [] ∨ v = [] then .error .value
      else .ok ((List.range (u.length + v.length - 1)).map (convAt u v))) o p with
  | error _ => rw [e] at e1; simp [Except.map] at e1
  | ok z =>
    rw [e] at e1
    simp only [Except.map, Except.ok.injEq] at e1
    refine ⟨z, rfl, e2 z e, by rw [e1]; simp, ?_⟩
    intro n h
    simp only [e1, List.getElem_map, List.getElem_range]
    rfl

/-- C84: `correlate` is the convolution with the reversed second argument. -/
theorem c84_correlate {a k l : ℝ} {o p : Opd} (ha : 0 < a) (ho : HasExp a o k) (hp : HasExp a p l)
    (hne : (∃ x, o = .cosmo x) ∨ ∃ y, p = .cosmo y) (h1 : o.phys ≠ []) (h2 : p.phys ≠ []) :
    ∃ z, correlate o p = .ok z ∧ Conv a (k + l) z ∧ z.phys.length = o.phys.length + p.phys.length - 1 ∧
      ∀ n (h : n < z.phys.length),
        z.phys[n] = ((List.range (n + 1)).map (fun i => o.phys.getD i 0 * p.phys.reverse.getD (n - i) 0)).sum := by
  obtain ⟨e1, e2⟩ := wrap2_cov (f := fun u v => if u = [] ∨ v = [] then .error .value
      else .ok ((List.range (u.length + v.length - 1)).map (convAt u v.reverse))) ha ho hp (flags_ne' hne) (mul_rule ho hp hne)
    fun b u v => by
      simp only [List.map_eq_nil_iff, List.length_map]
      split
      · rfl
      · simp only [Except.map, Except.ok.injEq, List.map_map]
        refine List.map_congr_left fun n _ => ?_
        simp only [Function.comp, ← List.map_reverse, conv_scale, scale_mul ha]
  rw [if_neg (by simp [h1, h2])] at e1
  unfold correlate
  cases e : wrap2 mul2 (fun u v => if u = [] ∨ v = [] then .error .value
      else .ok ((List.range (u.length + v.length - 1)).map (convAt u v.reverse))) o p with
  | error _ => rw [e] at e1; simp [Except.map] at e1
  | ok z =>
    rw [e] at e1
    simp only [Except.map, Except.ok.injEq] at e1
    refine ⟨z, rfl, e2 z e, by rw [e1]; simp, ?_⟩
    intro n h
    simp only [e1, List.getElem_map, List.getElem_range]
    rfl

/-- C84 fails for `around`: the numbers of the frame are rounded. The same length, 3/2, becomes 3/2 in one frame and 2 in the
other. -/
theorem c84_around_fails :
    ∃ z, Cosmo.around (com (1 / 2) 1 3) = .ok z ∧ (com (1 / 2) 1 3).phys = [3 / 2] ∧ z.phys = [3 / 2] ∧
      Cosmo.around ⟨[3 / 2], some false, some ⟨some 1, some (1 / 2)⟩, true⟩
        = .ok ⟨[2], some false, some ⟨some 1, some (1 / 2)⟩, true⟩ := by
  have h3 : roundEven 3 = 3 := by
    have : ⌊(3 : ℝ)⌋ = 3 := by norm_num
    unfold roundEven
    rw [this]
    norm_num
  have h2 : roundEven (3 / 2) = 2 := by
    have : ⌊(3 / 2 : ℝ)⌋ = 1 := by norm_num
    unfold roundEven
    rw [this]
    norm_num
  refine ⟨⟨[3], some true, some ⟨some 1, some (1 / 2)⟩, true⟩, ?_, ?_, ?_, ?_⟩
  · simp [Cosmo.around, wrap1, prepare, flags, com, keep, Opd.vt, Opd.vals, h3]
  · norm_num [Arr.phys, com]
  · norm_num [Arr.phys]
  · simp [-one_div, Cosmo.around, wrap1, prepare, flags, keep, Opd.vt, Opd.vals, h2]

/-- C84: `around` gives every number of the frame the nearest integer, and of two the even one. -/
theorem c84_around_numbers {a k : ℝ} {x : Arr} (hx : Conv a k x) :
    ∃ z, Cosmo.around x = .ok z ∧ Conv a k z ∧ z.comoving = x.comoving ∧
      List.Forall₂ (fun v w : ℝ => ∃ n : ℤ, w = n ∧ |v - n| ≤ 1 / 2 ∧ (|v - n| = 1 / 2 → Even n)) x.val z.val := by
  have hr : ∀ v : ℝ, ∃ n : ℤ, roundEven v = n ∧ |v - n| ≤ 1 / 2 ∧ (|v - n| = 1 / 2 → Even n) := by
    intro v
    have f0 := Int.floor_le v
    have f1 := Int.lt_floor_add_one v
    unfold roundEven
    split_ifs with h1 h2 h3
    · refine ⟨⌊v⌋, rfl, by rw [abs_of_nonneg (by linarith)]; linarith, fun h => ?_⟩
      rw [abs_of_nonneg (by linarith)] at h
      linarith
    · refine ⟨⌊v⌋ + 1, by push_cast; rfl, ?_, fun h => ?_⟩
      · push_cast
        rw [abs_of_nonpos (by linarith)]
        linarith
      · push_cast at h
        rw [abs_of_nonpos (by linarith)] at h
        linarith
    · exact ⟨⌊v⌋, rfl, by rw [abs_of_nonneg (by linarith)]; linarith, fun _ => h3⟩
    · refine ⟨⌊v⌋ + 1, by push_cast; rfl, ?_, fun _ => ?_⟩
      · push_cast
        rw [abs_of_nonpos (by linarith)]
        linarith
      · exact (Int.not_even_iff_odd.1 h3).add_one
  have hp : ∃ b, x.comoving = some b := by
    rcases hx.framed_cases with h | h
    · exact ⟨_, h⟩
    · exact ⟨_, h⟩
  obtain ⟨b, hb⟩ := hp
  refine ⟨⟨x.val.map roundEven, some b, x.cf, true⟩, ?_, ⟨hx.pos, hx.cf, rfl, by simp⟩, hb.symm, ?_⟩
  · cases b <;> simp [Cosmo.around, wrap1, prepare, flags, hb, keep, hx.cf, Opd.vt, Opd.vals, hx.vt]
  · rw [List.forall₂_map_right_iff]
    exact List.forall₂_same.2 fun v _ => hr v

/-- C84: `isclose` with a relative tolerance alone compares the physical values. -/
theorem c84_isclose_relative {a k rtol : ℝ} {x y : Arr} (hx : Conv a k x) (hy : Conv a k y) :
    ∃ l, iscloseBare rtol 0 (.cosmo x) (.cosmo y) = .ok l ∧ l.length = min x.phys.length y.phys.length ∧
      ∀ (i : ℕ) (s t : ℝ), x.phys[i]? = some s → y.phys[i]? = some t → ∃ b, l[i]? = some b ∧ (b = true ↔ |s - t| ≤ rtol * |t|) := by
  classical
  refine ⟨_, compare_cov hx hy (f := fun u v => List.zipWith (fun s t => decide (|s - t| ≤ 0 + rtol * |t|)) u v) ?_, by simp, ?_⟩
  · intro s u v hs
    rw [List.zipWith_map]
    congr 1
    funext p q
    rw [← sub_mul, abs_mul, abs_mul, abs_of_pos hs, ← mul_assoc, zero_add, zero_add]
    rw [decide_eq_decide]
    exact mul_le_mul_iff_left₀ hs
  · intro i s t hs ht
    refine ⟨decide (|s - t| ≤ 0 + rtol * |t|), ?_, by simp⟩
    rw [List.getElem?_zipWith, hs, ht]

/-- C84 fails for `isclose` with a bare absolute tolerance: the answer for the same two lengths depends on the frame. -/
theorem c84_isclose_fails :
    iscloseBare 0 1 (.cosmo (com (1 / 2) 1 8)) (.cosmo (com (1 / 2) 1 6)) = .ok [false] ∧
    (com (1 / 2) 1 8).phys = [4] ∧ (com (1 / 2) 1 6).phys = [3] ∧
    iscloseBare 0 1 (.cosmo ⟨[4], some false, some ⟨some 1, some (1 / 2)⟩, true⟩)
      (.cosmo ⟨[3], some false, some ⟨some 1, some (1 / 2)⟩, true⟩) = .ok [true] := by
  refine ⟨?_, ?_, ?_, ?_⟩
  · simp [-one_div, iscloseBare, wrapCompare, prepare, flags, com, Opd.cf, Opd.vt, Opd.vals, without2, same_refl]
    norm_num
  · norm_num [Arr.phys, com]
  · norm_num [Arr.phys, com]
  · simp [-one_div, iscloseBare, wrapCompare, prepare, flags, Opd.cf, Opd.vt, Opd.vals, without2, same_refl]
    norm_num

/-- C84 fails for `sinc`: the same length gives 0 in one frame and not in the other, without an error. -/
theorem c84_sinc_fails :
    Cosmo.sinc (com (1 / 2) 1 1) = [0] ∧ (com (1 / 2) 1 1).phys = [1 / 2] ∧
      Cosmo.sinc ⟨[1 / 2], some false, some ⟨some 1, some (1 / 2)⟩, true⟩ ≠ [0] := by
  refine ⟨?_, ?_, ?_⟩
  · simp [Cosmo.sinc, com]
  · norm_num [Arr.phys, com]
  · have h : Real.sin (Real.pi * 2⁻¹) = 1 := by
      rw [show Real.pi * 2⁻¹ = Real.pi / 2 by ring, Real.sin_pi_div_two]
    simp [Cosmo.sinc, h, Real.pi_ne_zero]

private theorem stepFix_spec {T : ℝ} (hT : 0 < T) (d : ℝ) :
    (∃ k : ℤ, stepFix T d = k * T) ∧ |d + stepFix T d| ≤ T / 2 ∧ (|d| < T / 2 → stepFix T d = 0) ∧
      (d + stepFix T d = -(T / 2) → d ≤ 0) ∧ (d + stepFix T d = T / 2 → 0 < d) := by
  unfold stepFix
  split_ifs with h
  · refine ⟨⟨0, by simp⟩, by simpa using h.le, fun _ => rfl, ?_, ?_⟩ <;> rw [add_zero] <;> intro hd <;> linarith
  · refine ⟨?_, ?_, fun h' => absurd h' h, ?_, ?_⟩
    all_goals dsimp only
    all_goals
      have h1 := Int.floor_le ((d + T / 2) / T)
      have h2 := Int.lt_floor_add_one ((d + T / 2) / T)
      rw [le_div_iff₀ hT] at h1
      rw [div_lt_iff₀ hT] at h2
    · split_ifs with hr
      · refine ⟨-⌊(d + T / 2) / T⌋ + 1, ?_⟩
        push_cast
        linarith [hr.1]
      · exact ⟨-⌊(d + T / 2) / T⌋, by push_cast; ring⟩
    · split_ifs with hr
      · rw [show d + (T / 2 - d) = T / 2 by ring, abs_of_pos (by linarith)]
      · rw [abs_le]
        constructor <;> linarith
    · split_ifs with hr
      · intro hd
        linarith
      · intro hd
        by_contra hc
        exact hr ⟨by linarith, not_le.mp hc⟩
    · split_ifs with hr
      · exact fun _ => hr.2
      · intro hd
        linarith

private theorem unwrapFrom_spec {T : ℝ} (hT : 0 < T) : ∀ (l : List ℝ) (u c : ℝ), (∃ k : ℤ, c = k * T) →
    List.Forall₂ (fun v w => ∃ k : ℤ, w = v + k * T) l (unwrapFrom T u c l) ∧
    List.IsChain (fun v w => |w - v| ≤ T / 2) ((u + c) :: unwrapFrom T u c l)
  | [], u, c, _ => ⟨.nil, List.isChain_singleton _⟩
  | v :: l, u, c, hc => by
    obtain ⟨k, hk⟩ := hc
    obtain ⟨⟨k', hk'⟩, hs, -, -, -⟩ := stepFix_spec hT (v - u)
    have hc' : ∃ n : ℤ, c + stepFix T (v - u) = n * T := ⟨k + k', by push_cast; linarith⟩
    obtain ⟨i1, i2⟩ := unwrapFrom_spec hT l v (c + stepFix T (v - u)) hc'
    obtain ⟨n, hn⟩ := hc'
    refine ⟨.cons ⟨n, by rw [hn]⟩ i1, List.IsChain.cons_cons ?_ i2⟩
    rw [show v + (c + stepFix T (v - u)) - (u + c) = v - u + stepFix T (v - u) by ring]
    exact hs

private theorem unwrapFrom_small {T : ℝ} (hT : 0 < T) : ∀ (l : List ℝ) (u : ℝ),
    List.IsChain (fun v w => |w - v| < T / 2) (u :: l) → unwrapFrom T u 0 l = l
  | [], _, _ => rfl
  | v :: l, u, h => by
    have h1 := (List.isChain_cons_cons.mp h).1
    have h2 := (List.isChain_cons_cons.mp h).2
    have hz := (stepFix_spec hT (v - u)).2.2.1 h1
    unfold unwrapFrom
    rw [hz, add_zero, add_zero, unwrapFrom_small hT l v h2]

/-- C84. `unwrap` with a bare period keeps the first value, changes each value by a whole number of periods and leaves no
step of more than half a period; values without such steps are left as they are. Frame and scale factor are kept. -/
theorem c84_unwrap {T : ℝ} (hT : 0 < T) (x : Arr) :
    ∃ l, unwrap T x = .ok { x with val := l } ∧
      List.Forall₂ (fun v w => ∃ k : ℤ, w = v + k * T) x.val l ∧ l.head? = x.val.head? ∧
      List.IsChain (fun v w => |w - v| ≤ T / 2) l ∧
      (List.IsChain (fun v w => |w - v| < T / 2) x.val → l = x.val) := by
  refine ⟨unwrapVals T x.val, ?_, ?_⟩
  · obtain ⟨v, c, f, t⟩ := x
    rcases c with _ | _ | _ <;> simp [unwrap, wrap1, prepare, flags, keep, Opd.vt, Opd.vals]
  · rcases x.val with _ | ⟨u, l⟩
    · exact ⟨.nil, rfl, List.isChain_nil, fun _ => rfl⟩
    · obtain ⟨h1, h2⟩ := unwrapFrom_spec hT l u 0 ⟨0, by simp⟩
      rw [add_zero] at h2
      refine ⟨.cons ⟨0, by simp⟩ h1, rfl, h2, fun h => ?_⟩
      show u :: unwrapFrom T u 0 l = u :: l
      rw [unwrapFrom_small hT l u h]

/-- C84. A step of exactly half a period keeps its direction. -/
theorem c84_unwrap_half {T : ℝ} (hT : 0 < T) (u v w : ℝ) (x z : Arr) (hx : x.val = [u, v]) (h : unwrap T x = .ok z)
    (hz : z.val = [u, w]) (hw : |w - u| = T / 2) : 0 < v - u ↔ 0 < w - u := by
  have hl : unwrap T x = .ok { x with val := unwrapVals T x.val } := by
    obtain ⟨v, c, f, t⟩ := x
    rcases c with _ | _ | _ <;> simp [unwrap, wrap1, prepare, flags, keep, Opd.vt, Opd.vals]
  rw [hl] at h
  cases h
  simp only [hx, unwrapVals, unwrapFrom, List.cons.injEq, and_true, true_and, zero_add] at hz
  obtain ⟨-, -, -, h1, h2⟩ := stepFix_spec hT (v - u)
  have e : w - u = v - u + stepFix T (v - u) := by rw [← hz]; ring
  rw [← e] at h1 h2
  rcases (abs_eq (by linarith)).mp hw with hw' | hw'
  · exact ⟨fun _ => by linarith, fun _ => h2 hw'⟩
  · exact ⟨fun hd => absurd (h1 hw') (not_le.mpr hd), fun hd => by linarith⟩

/-- Angles 0, 3, 6 with period 4 become 0, -1, -2. -/
example : ∃ z, unwrap 4 ⟨[0, 3, 6], none, none, true⟩ = .ok z ∧ z.val = [0, -1, -2] := by
  have hf : ⌊((3 : ℝ) + 4 / 2) / 4⌋ = 1 := by norm_num
  have hs : stepFix 4 3 = -4 := by
    unfold stepFix
    rw [if_neg (by norm_num), hf]
    norm_num
  refine ⟨⟨[0, -1, -2], none, none, true⟩, ?_, rfl⟩
  have h3 : (6 : ℝ) - 3 = 3 := by norm_num
  simp [unwrap, wrap1, prepare, flags, keep, Opd.vt, Opd.vals, unwrapVals, unwrapFrom, h3, hs]
  norm_num

/-- C84 fails for `unwrap` with a bare period: a jump of 3 is removed in one frame and kept in the other. -/
theorem c84_unwrap_fails :
    ∃ z, unwrap 4 ⟨[0, 3], some true, some ⟨some 1, some (1 / 2)⟩, true⟩ = .ok z ∧ z.phys = [0, -(1 / 2)] ∧
      unwrap 4 ⟨[0, 3 / 2], some false, some ⟨some 1, some (1 / 2)⟩, true⟩
        = .ok ⟨[0, 3 / 2], some false, some ⟨some 1, some (1 / 2)⟩, true⟩ := by
  refine ⟨⟨[0, -1], some true, some ⟨some 1, some (1 / 2)⟩, true⟩, ?_, ?_, ?_⟩
  · have hf : ⌊((3 : ℝ) + 4 / 2) / 4⌋ = 1 := by norm_num
    have hs : stepFix 4 3 = -4 := by
      unfold stepFix
      rw [if_neg (by norm_num), hf]
      norm_num
    simp [-one_div, unwrap, wrap1, prepare, flags, keep, Opd.vt, Opd.vals, unwrapVals, unwrapFrom, hs]
    norm_num
  · norm_num [Arr.phys]
  · have hs : stepFix 4 (3 / 2) = 0 := by
      unfold stepFix
      rw [if_pos (by rw [abs_of_pos] <;> norm_num)]
    simp [-one_div, unwrap, wrap1, prepare, flags, keep, Opd.vt, Opd.vals, unwrapVals, unwrapFrom, hs]

/-- Lengths in different frames: 1 and 3 physical, 3 and 4 comoving. -/
example : Conv (1 / 2) 1 lengths ∧ Conv (1 / 2) 1 radius ∧ lengths.phys = [1, 3] ∧ radius.phys = [3] ∧
    lengths.phys.Pairwise (· ≤ ·) ∧ ¬ CF.same ⟨some 1, some (1 / 2)⟩ ⟨some 2, some (1 / 2)⟩ := by
  refine ⟨lengths_conv, radius_conv, ?_, ?_, ?_, ?_⟩
  · norm_num [Arr.phys, lengths]
  · norm_num [Arr.phys, radius]
  · norm_num [Arr.phys, lengths]
  · norm_num [CF.same, CF.aFactor, isclose]

/-- The median and another quantile of the lengths 1 and 3. -/
example : ∃ z, quantile (1 / 4) lengths = .ok z ∧ z.phys = [3 / 2] := by
  have e : lengths.phys = [1, 3] := by norm_num [Arr.phys, lengths]
  obtain ⟨z, r, hz, -, hp, -, h⟩ := (c84_quantile (1 / 4) lengths_conv).1 (by norm_num) (by norm_num)
  refine ⟨z, hz, ?_⟩
  rw [hp, h [1, 3] 0 (1 / 4) 1 3 (by rw [e]) (by norm_num) (by norm_num) (by norm_num) (by rw [e]; norm_num) rfl rfl]
  norm_num

example : quantile 2 lengths = .error .value := (c84_quantile 2 lengths_conv).2 (Or.inr (by norm_num))

/-- `5/2` becomes 2 and `7/2` becomes 4. -/
example : ∃ z, Cosmo.around ⟨[5 / 2, 7 / 2], some true, some ⟨some 1, some (1 / 2)⟩, true⟩ = .ok z ∧ z.val = [2, 4] := by
  obtain ⟨z, hz, -, -, h⟩ := c84_around_numbers (a := 1 / 2) (k := 1) (x := ⟨[5 / 2, 7 / 2], some true, some ⟨some 1, some (1 / 2)⟩, true⟩)
    ⟨by norm_num, rfl, rfl, by simp⟩
  obtain ⟨u, v, hu, ⟨n, rfl, n1, n2⟩, m, rfl, m1, m2⟩ := forall2_two h
  refine ⟨z, hz, ?_⟩
  rw [abs_le] at n1 m1
  have hn : n = 2 := by
    have a1 : (2 : ℝ) ≤ n := by linarith
    have a2 : (n : ℝ) ≤ 3 := by linarith
    have a1 : (2 : ℤ) ≤ n := by exact_mod_cast a1
    have a2 : n ≤ (3 : ℤ) := by exact_mod_cast a2
    rcases (by omega : n = 2 ∨ n = 3) with h | h
    · exact h
    · subst h
      exact absurd (n2 (by norm_num)) (by decide)
  have hm : m = 4 := by
    have a1 : (3 : ℝ) ≤ m := by linarith
    have a2 : (m : ℝ) ≤ 4 := by linarith
    have a1 : (3 : ℤ) ≤ m := by exact_mod_cast a1
    have a2 : m ≤ (4 : ℤ) := by exact_mod_cast a2
    rcases (by omega : m = 3 ∨ m = 4) with h | h
    · subst h
      exact absurd (m2 (by norm_num)) (by decide)
    · exact h
  rw [hu, hn, hm]
  norm_num

/-- The comparison is relative to the second: 2 and 3 differ by a third of 3 and by half of 2. -/
example : iscloseBare (2 / 5) 0 (.cosmo (com (1 / 2) 1 4)) (.cosmo (com (1 / 2) 1 6)) = .ok [true] := by
  obtain ⟨l, hl, h1, h2⟩ := c84_isclose_relative (rtol := 2 / 5) (com_conv (a := 1 / 2) (by norm_num) 1 4) (com_conv (a := 1 / 2) (by norm_num) 1 6)
  have e1 : (com (1 / 2) 1 4).phys = [2] := by norm_num [Arr.phys, com]
  have e2 : (com (1 / 2) 1 6).phys = [3] := by norm_num [Arr.phys, com]
  rw [e1, e2] at h1
  obtain ⟨b, hb, h⟩ := h2 0 2 3 (by rw [e1]; rfl) (by rw [e2]; rfl)
  obtain ⟨c, hc⟩ := List.length_eq_one_iff.1 (by simpa using h1)
  subst hc
  obtain rfl : c = b := by simpa using hb
  rw [hl, h.2 (by norm_num [abs_of_pos, abs_of_neg])]

/-- C84 fails for `sinc`, the numbers: whatever the frame and the factor, the function of the stored numbers, which is continuous (1 at 0). -/
theorem c84_sinc_numbers_fails (x : Arr) : Cosmo.sinc x = x.val.map (fun v => Real.sinc (Real.pi * v)) := by
  classical
  unfold Cosmo.sinc
  refine List.map_congr_left fun v _ => ?_
  unfold Real.sinc
  by_cases h : v = 0
  · simp [h]
  · rw [if_neg h, if_neg (mul_ne_zero Real.pi_ne_zero h)]

end Verif.Props
