import Verif.Model.Subset
import Verif.Spec.Subset
import Verif.Lemmas.MaskInv

namespace Verif.Mask
open Verif Verif.Spec Verif.Accel

variable {K : Type} [Field K] [LinearOrder K] {m : Nat}

/-! ### searchsorted -/

theorem lt_searchRight (xs : List Int) (hs : xs.Pairwise (· ≤ ·)) (v : Int) (i : Nat) (hi : i < xs.length) :
    i < searchRight xs v ↔ xs[i] ≤ v := by
  unfold searchRight
  induction xs generalizing i with
  | nil => simp at hi
  | cons x xs ih =>
    obtain ⟨h1, h2⟩ := List.pairwise_cons.mp hs
    by_cases hx : x ≤ v
    · rw [List.takeWhile_cons_of_pos (by simpa using hx)]
      cases i with
      | zero => simp [hx]
      | succ i =>
        simp only [List.length_cons, List.getElem_cons_succ, Nat.add_lt_add_iff_right]
        exact ih h2 i (by simpa using hi)
    · rw [List.takeWhile_cons_of_neg (by simpa using hx)]
      simp only [List.length_nil, Nat.not_lt_zero, false_iff, Int.not_le]
      cases i with
      | zero => simpa using hx
      | succ i =>
        have hi' : i < xs.length := by simpa using hi
        have := h1 xs[i] (List.getElem_mem _)
        simp only [List.getElem_cons_succ]; omega

theorem searchRight_le (xs : List Int) (v : Int) : searchRight xs v ≤ xs.length := by
  unfold searchRight
  exact (List.takeWhile_sublist _).length_le

/-! ### consecutive cells by index -/

theorem contiguous_get : ∀ (t : List (Int × Int)) (s n : Int), Contiguous s n t → ∀ (i : Nat) (hi : i < t.length),
    (i = 0 → t[i].1 = s) ∧ (∀ h : i + 1 < t.length, t[i + 1].1 = t[i].1 + t[i].2) ∧
    (i + 1 = t.length → t[i].1 + t[i].2 = n)
  | [], _, _, _, i, hi => by simp at hi
  | [c], s, n, h, i, hi => by
    obtain ⟨h1, h2, h3⟩ := h
    rw [Contiguous] at h3
    obtain rfl : i = 0 := by simpa using hi
    refine ⟨fun _ => h1, by simp, fun _ => ?_⟩
    simp only [List.getElem_cons_zero]; omega
  | c :: d :: cs, s, n, h, i, hi => by
    obtain ⟨h1, h2, h3⟩ := h
    have ih := contiguous_get (d :: cs) _ _ h3
    cases i with
    | zero =>
      refine ⟨fun _ => h1, fun _ => ?_, by simp⟩
      have := (ih 0 (by simp)).1 rfl
      simp only [List.getElem_cons_zero] at this
      simp only [List.getElem_cons_succ, List.getElem_cons_zero, Nat.zero_add]; omega
    | succ i =>
      have := ih i (by simpa using hi)
      refine ⟨by simp, fun h => ?_, fun h => ?_⟩
      · exact this.2.1 (by simpa using h)
      · exact this.2.2 (by simpa using h)

/-- number of rows of a range in a cell -/
def ovl (r : Rng) (c : Int × Int) : Int := max 0 (min r.2 (c.1 + c.2) - max r.1 c.1)

theorem offsets_sorted (t : List (Int × Int)) (s n : Int) (h : Contiguous s n t) :
    (t.map (·.1)).Pairwise (· ≤ ·) := by
  rw [List.pairwise_map]
  refine List.Pairwise.imp_of_mem ?_ (contiguous_sorted t s n h)
  intro a b ha hb hab
  have := (contiguous_mem t s n h a ha).2.1
  omega

theorem mem_cellsOfRange (t : List (Int × Int)) (r : Rng) (j : Nat) :
    j ∈ cellsOfRange t r ↔ searchRight (t.tail.map (·.1)) r.1 ≤ j ∧ j ≤ searchRight (t.tail.map (·.1)) r.2 := by
  unfold cellsOfRange
  rw [List.mem_drop_iff_getElem]
  simp only [List.getElem_range, List.length_range]
  constructor
  · rintro ⟨i, hi, rfl⟩; omega
  · rintro ⟨h1, h2⟩; exact ⟨j - searchRight (t.tail.map (·.1)) r.1, by omega, by omega⟩

/-- the amount added for a cell in the span of a range is its overlap, and cells outside the span do not overlap -/
theorem ovl_span (t : List (Int × Int)) (n : Int) (h : Contiguous 0 n t) (r : Rng) (h0 : 0 ≤ r.1) (h1 : r.1 ≤ r.2)
    (h2 : r.2 ≤ n) (j : Nat) (hj : j < t.length) :
    ovl r t[j] = if j ∈ cellsOfRange t r then min r.2 (t[j].1 + t[j].2) - max r.1 t[j].1 else 0 := by
  have hs : (t.tail.map (·.1)).Pairwise (· ≤ ·) := by
    have := offsets_sorted t 0 n h
    rw [List.map_tail]
    exact this.sublist (List.tail_sublist _)
  have hlen : (t.tail.map (·.1)).length = t.length - 1 := by simp
  have hget : ∀ i (hi : i + 1 < t.length), (t.tail.map (·.1))[i]'(by rw [hlen]; omega) = t[i + 1].1 := by
    intro i hi
    rw [List.getElem_map, List.getElem_tail]
  have key : ∀ v i (hi : i + 1 < t.length), i < searchRight (t.tail.map (·.1)) v ↔ t[i + 1].1 ≤ v := by
    intro v i hi
    rw [lt_searchRight _ hs v i (by rw [hlen]; omega), hget i hi]
  have hc := contiguous_get t 0 n h j hj
  have hm := contiguous_mem t 0 n h t[j] (List.getElem_mem hj)
  have hle := searchRight_le (t.tail.map (·.1))
  have hl1 := hle r.1
  have hl2 := hle r.2
  rw [hlen] at hl1 hl2
  unfold ovl
  by_cases hin : j ∈ cellsOfRange t r
  · rw [if_pos hin]
    rw [mem_cellsOfRange] at hin
    have ha : r.1 ≤ t[j].1 + t[j].2 := by
      by_cases hlast : j + 1 < t.length
      · have := hc.2.1 hlast
        have hk := key r.1 j hlast
        omega
      · have := hc.2.2 (by omega)
        omega
    have hb : t[j].1 ≤ r.2 := by
      cases j with
      | zero => have := hc.1 rfl; omega
      | succ j =>
        have hk := key r.2 j hj
        omega
    omega
  · rw [if_neg hin]
    rw [mem_cellsOfRange] at hin
    by_cases hlt : j < searchRight (t.tail.map (·.1)) r.1
    · have hlast : j + 1 < t.length := by omega
      have := hc.2.1 hlast
      have hk := (key r.1 j hlast).mp hlt
      omega
    · have hgt : searchRight (t.tail.map (·.1)) r.2 < j := by omega
      obtain ⟨j, rfl⟩ : ∃ i, j = i + 1 := ⟨j - 1, by omega⟩
      have hk := key r.2 j hj
      omega

theorem addCells_ok (t : List (Int × Int)) (r : Rng) : ∀ (l : List Nat) (acc : List Int), acc.length = t.length →
    l.Nodup → (∀ j ∈ l, j < t.length) →
    ∃ out, l.foldlM (addCell t r) acc = .ok out ∧ out.length = t.length ∧
      ∀ j (hj : j < t.length) (h1 : j < out.length) (h2 : j < acc.length), out[j] = acc[j] +
        if j ∈ l then min r.2 (t[j].1 + t[j].2) - max r.1 t[j].1 else 0 := by
  intro l
  induction l with
  | nil => intro acc ha _ _; exact ⟨acc, rfl, ha, by intros; simp⟩
  | cons i l ih =>
    intro acc ha hn hl
    obtain ⟨hni, hn'⟩ := List.nodup_cons.mp hn
    have hi : i < t.length := hl i (by simp)
    have hstep : addCell t r acc i = .ok (acc.modify i (fun x => x + (min r.2 (t[i].1 + t[i].2) - max r.1 t[i].1))) := by
      unfold addCell
      rw [List.getElem?_eq_getElem hi]
      dsimp only
      rw [if_pos (by omega)]
    obtain ⟨out, ho, hlen, hg⟩ := ih (acc.modify i (fun x => x + (min r.2 (t[i].1 + t[i].2) - max r.1 t[i].1)))
      (by rw [List.length_modify]; exact ha) hn' (fun j hj => hl j (by simp [hj]))
    refine ⟨out, ?_, hlen, ?_⟩
    · rw [List.foldlM_cons, hstep]; exact ho
    · intro j hj h1 h2
      rw [hg j hj h1 (by rw [List.length_modify]; exact h2), List.getElem_modify]
      by_cases hij : i = j
      · subst hij
        simp [hni]
      · have : ¬ j = i := fun h => hij h.symm
        simp [hij, this]

theorem cellsOfRange_nodup (t : List (Int × Int)) (r : Rng) : (cellsOfRange t r).Nodup :=
  List.Sublist.nodup (List.drop_sublist _ _) List.nodup_range

theorem cellsOfRange_lt (t : List (Int × Int)) (ht : t ≠ []) (r : Rng) : ∀ j ∈ cellsOfRange t r, j < t.length := by
  intro j hj
  rw [mem_cellsOfRange] at hj
  have := searchRight_le (t.tail.map (·.1)) r.2
  have h0 : 0 < t.length := List.length_pos_of_ne_nil ht
  rw [List.length_map, List.length_tail] at this
  omega

theorem rangeCounts_fold (t : List (Int × Int)) (ht : t ≠ []) (n : Int) (h : Contiguous 0 n t) :
    ∀ (rs : List Rng) (acc : List Int), acc.length = t.length → InBounds n rs →
    ∃ out, rs.foldlM (fun acc r => (cellsOfRange t r).foldlM (addCell t r) acc) acc = .ok out ∧
      out.length = t.length ∧
      ∀ j (hj : j < t.length) (h1 : j < out.length) (h2 : j < acc.length),
        out[j] = acc[j] + (rs.map (fun r => ovl r t[j])).sum := by
  intro rs
  induction rs with
  | nil => intro acc ha _; exact ⟨acc, rfl, ha, by intros; simp⟩
  | cons r rs ih =>
    intro acc ha hb
    obtain ⟨o1, e1, l1, g1⟩ := addCells_ok t r (cellsOfRange t r) acc ha (cellsOfRange_nodup t r) (cellsOfRange_lt t ht r)
    obtain ⟨o2, e2, l2, g2⟩ := ih o1 l1 (fun r hr => hb r (by simp [hr]))
    refine ⟨o2, ?_, l2, ?_⟩
    · rw [List.foldlM_cons, e1]; exact e2
    · intro j hj h1 h2
      rw [g2 j hj h1 (by omega), g1 j hj (by omega) h2, List.map_cons, List.sum_cons]
      have := hb r (by simp)
      rw [ovl_span t n h r this.1 this.2.1 this.2.2 j hj]
      omega

theorem rangeCounts_ok (t : List (Int × Int)) (ht : t ≠ []) (n : Int) (h : Contiguous 0 n t) (rs : List Rng)
    (hb : InBounds n rs) :
    rangeCounts t rs = .ok (t.map (fun c => (rs.map (fun r => ovl r c)).sum)) := by
  obtain ⟨out, e, l, g⟩ := rangeCounts_fold t ht n h rs (List.replicate t.length 0) (by simp) hb
  unfold rangeCounts
  rw [e]
  congr 1
  apply List.ext_getElem
  · simp [l]
  · intro j h1 h2
    rw [g j (by omega) h1 (by simp; omega)]
    simp

/-! ### overlap as a number of rows -/

theorem countP_range_window (a b : Int) : ∀ n : Nat,
    ((List.range n).countP (fun (i : Nat) => decide (a ≤ (i : Int)) && decide ((i : Int) < b)) : Int) =
      max 0 (min (n : Int) b - max 0 a) := by
  intro n
  induction n with
  | zero => simp
  | succ n ih =>
    rw [List.range_succ, List.countP_append, Int.natCast_add, ih, List.countP_singleton]
    by_cases h1 : a ≤ (n : Int) <;> by_cases h2 : (n : Int) < b <;> simp [h1, h2] <;> omega

theorem ovl_eq_countP (r : Rng) (h : r.1 ≤ r.2) (c : Int × Int) (hc : 0 ≤ c.2) :
    ovl r c = ((rowsOfRange r).countP (inCell c) : Int) := by
  unfold rowsOfRange
  rw [List.countP_map]
  have e : (inCell c ∘ fun (k : Nat) => r.1 + (k : Int)) =
      (fun (i : Nat) => decide (c.1 - r.1 ≤ (i : Int)) && decide ((i : Int) < c.1 + c.2 - r.1)) := by
    funext k
    unfold inCell
    simp only [Function.comp]
    congr 1 <;> exact decide_eq_decide.mpr (by omega)
  rw [e, countP_range_window]
  unfold ovl
  omega

theorem sum_ovl (rs : List Rng) (h : ∀ r ∈ rs, r.1 ≤ r.2) (c : Int × Int) (hc : 0 ≤ c.2) :
    (rs.map (fun r => ovl r c)).sum = ((rowsIn c (rowsOf rs)).length : Int) := by
  unfold rowsIn
  rw [← List.countP_eq_length_filter]
  induction rs with
  | nil => simp [rowsOf]
  | cons r rs ih =>
    rw [List.map_cons, List.sum_cons, rowsOf_cons, List.countP_append, ih (fun r hr => h r (by simp [hr])),
      ovl_eq_countP r (h r (by simp)) c hc]
    omega

theorem rangeCounts_rows (t : List (Int × Int)) (ht : t ≠ []) (n : Int) (h : Contiguous 0 n t) (rs : List Rng)
    (hb : InBounds n rs) :
    rangeCounts t rs = .ok (t.map (fun c => ((rowsIn c (rowsOf rs)).length : Int))) := by
  rw [rangeCounts_ok t ht n h rs hb]
  congr 1
  refine List.map_congr_left (fun c hc => ?_)
  exact sum_ovl rs (fun r hr => (hb r hr).2.1) c (contiguous_mem t 0 n h c hc).2.1

/-! ### counts of a boolean mask -/

theorem boolCounts_rows (t : List (Int × Int)) (bs : List Bool) (h : Contiguous 0 bs.length t) :
    boolCounts t bs = t.map (fun c => ((rowsIn c (whereTrue bs)).length : Int)) := by
  unfold boolCounts
  refine List.map_congr_left (fun c hc => ?_)
  have hm := contiguous_mem t 0 _ h c hc
  dsimp only
  have e1 : clipIdx bs.length c.1 = c.1.toNat := by unfold clipIdx; rw [if_neg (by omega)]; omega
  have e2 : clipIdx bs.length (c.1 + c.2) = (c.1 + c.2).toNat := by unfold clipIdx; rw [if_neg (by omega)]; omega
  rw [e1, e2]
  unfold rowsIn
  rw [← List.countP_eq_length_filter]
  unfold whereTrue
  rw [List.countP_map]
  congr 1
  have gen : ∀ (bs : List Bool) (k a b : Nat), 
      ((bs.take b).drop a).countP id =
        (compress bs (List.range' k bs.length)).countP (fun (i : Nat) => decide (k + a ≤ i) && decide (i < k + b)) := by
    intro bs
    induction bs with
    | nil => intro k a b; simp [compress]
    | cons x xs ih =>
      intro k a b
      rw [List.length_cons, List.range'_succ]
      cases b with
      | zero =>
        rw [List.take_zero]
        simp only [List.drop_nil, List.countP_nil]
        symm
        rw [List.countP_eq_zero]
        intro i _
        simp; omega
      | succ b =>
        have ih0 := ih (k + 1) (a - 1) b
        have hrw : (compress xs (List.range' (k + 1) xs.length)).countP
            (fun (i : Nat) => decide (k + 1 + (a - 1) ≤ i) && decide (i < k + 1 + b)) =
            (compress xs (List.range' (k + 1) xs.length)).countP
            (fun (i : Nat) => decide (k + a ≤ i) && decide (i < k + (b + 1))) := by
          refine List.countP_congr (fun i hi => ?_)
          have hi' := (compress_sublist _ _).subset hi
          rw [List.mem_range'_1] at hi'
          simp only [Bool.and_eq_true, decide_eq_true_eq]; omega
        rw [hrw] at ih0
        cases a with
        | zero =>
          rw [List.drop_zero, List.take_succ_cons]
          rw [Nat.zero_sub, List.drop_zero] at ih0
          cases x
          · rw [compress, List.countP_cons_of_neg (by simp), ih0]
          · rw [compress, List.countP_cons_of_pos (by simp), List.countP_cons_of_pos (by simp), ih0]
        | succ a =>
          rw [List.take_succ_cons, List.drop_succ_cons]
          rw [Nat.add_sub_cancel] at ih0
          cases x
          · rw [compress, ih0]
          · rw [compress, List.countP_cons_of_neg (by simp), ih0]
  rw [gen bs 0, List.range_eq_range']
  refine List.countP_congr (fun i _ => ?_)
  unfold inCell
  simp only [Function.comp, Bool.and_eq_true, decide_eq_true_eq]; omega

/-! ### offsets of the new file -/

theorem prefix_contiguous : ∀ (counts : List Int) (s : Int), counts ≠ [] → (∀ c ∈ counts, 0 ≤ c) →
    Contiguous s (s + counts.sum) ((s :: (cumsumFrom s counts).dropLast).zip counts)
  | [], _, h, _ => absurd rfl h
  | [c], s, _, h => by
    have := h c (by simp)
    simp [cumsumFrom, Contiguous, this]
  | c :: d :: cs, s, _, h => by
    have ih := prefix_contiguous (d :: cs) (s + c) (by simp) (fun x hx => h x (by simp [hx]))
    have e : (cumsumFrom s (c :: d :: cs)).dropLast = (s + c) :: (cumsumFrom (s + c) (d :: cs)).dropLast := by
      simp [cumsumFrom]
    rw [e, List.zip_cons_cons]
    refine ⟨rfl, h c (by simp), ?_⟩
    have : s + (c :: d :: cs).sum = s + c + (d :: cs).sum := by simp; omega
    rw [this]
    exact ih

theorem prefixOffsets_contiguous (counts : List Int) (h : counts ≠ []) (hn : ∀ c ∈ counts, 0 ≤ c) :
    Contiguous 0 counts.sum ((prefixOffsets counts).zip counts) := by
  have := prefix_contiguous counts 0 h hn
  rwa [Int.zero_add] at this

theorem cumsumFrom_length (s : Int) (l : List Int) : (cumsumFrom s l).length = l.length := by
  induction l generalizing s with
  | nil => rfl
  | cons x xs ih => simp [cumsumFrom, ih]

theorem prefixOffsets_length (counts : List Int) (h : counts ≠ []) : (prefixOffsets counts).length = counts.length := by
  have := List.length_pos_of_ne_nil h
  simp [prefixOffsets, cumsumFrom_length]; omega

/-- Sorted rows are cut into the rows of each cell, one cell after the other: the slice described by the running offset
and the count is the list of rows of that cell. -/
theorem rows_split : ∀ (t : List (Int × Int)) (s n : Int) (rows pre : List Int), Contiguous s n t →
    rows.Pairwise (· ≤ ·) → (∀ i ∈ rows, s ≤ i ∧ i < n) →
    ∀ (j : Nat) (hj : j < t.length),
      let counts := t.map (fun c => ((rowsIn c rows).length : Int))
      let off := ((pre.length : Int) :: (cumsumFrom pre.length counts).dropLast)
      ∃ o, off[j]? = some o ∧ ((pre ++ rows).drop o.toNat).take (rowsIn t[j] rows).length = rowsIn t[j] rows
  | [], _, _, _, _, _, _, _, j, hj => by simp at hj
  | c :: cs, s, n, rows, pre, h, hs, hb, j, hj => by
    obtain ⟨h1, h2, h3⟩ := h
    dsimp only
    -- the rows of the first cell come first
    have hsplit : rows = rowsIn c rows ++ rows.filter (fun i => decide (s + c.2 ≤ i)) := by
      clear hj
      induction rows with
      | nil => rfl
      | cons r rows ih =>
        obtain ⟨hr, hs'⟩ := List.pairwise_cons.mp hs
        have hbr := hb r (by simp)
        have ih' := ih hs' (fun i hi => hb i (by simp [hi]))
        unfold rowsIn at ih' ⊢
        by_cases hin : inCell c r = true
        · have hneg : ¬ (s + c.2 ≤ r) := by
            unfold inCell at hin; simp at hin; omega
          rw [List.filter_cons_of_pos hin, List.filter_cons_of_neg (by simpa using hneg), List.cons_append, ← ih']
        · have hpos : s + c.2 ≤ r := by
            unfold inCell at hin; simp at hin; omega
          rw [List.filter_cons_of_neg hin, List.filter_cons_of_pos (by simpa using hpos)]
          have hnil : rows.filter (inCell c) = [] := by
            rw [List.filter_eq_nil_iff]
            intro i hi
            have := hr i hi
            unfold inCell; simp; omega
          have hall : rows.filter (fun i => decide (s + c.2 ≤ i)) = rows := by
            rw [List.filter_eq_self]
            intro i hi
            have := hr i hi
            simp; omega
          rw [hnil, hall]; rfl
    cases j with
    | zero =>
      refine ⟨pre.length, by simp, ?_⟩
      simp only [List.getElem_cons_zero, Int.toNat_natCast]
      rw [List.drop_left]
      conv_lhs => rw [hsplit]
      unfold rowsIn
      rw [List.filter_append]
      rw [show (List.filter (inCell c) (List.filter (inCell c) rows) ++
        List.filter (inCell c) (List.filter (fun i => decide (s + c.2 ≤ i)) rows)).length =
          (List.filter (inCell c) rows).length by
        have : List.filter (inCell c) (List.filter (fun i => decide (s + c.2 ≤ i)) rows) = [] := by
          rw [List.filter_eq_nil_iff]
          intro i hi
          have := (List.mem_filter.mp hi).2
          simp at this
          unfold inCell; simp; omega
        rw [this, List.filter_filter]; simp]
      rw [List.take_left]
    | succ j =>
      have hj' : j < cs.length := by simpa using hj
      let rest := rows.filter (fun i => decide (s + c.2 ≤ i))
      have hrest : ∀ d ∈ cs, rowsIn d rest = rowsIn d rows := by
        intro d hd
        have := (contiguous_mem cs _ _ h3 d hd).1
        unfold rowsIn
        show List.filter _ (List.filter _ rows) = _
        rw [List.filter_filter]
        refine List.filter_congr (fun i _ => ?_)
        by_cases hin : inCell d i = true
        · have : s + c.2 ≤ i := by unfold inCell at hin; simp at hin; omega
          simp [hin, this]
        · simp [hin]
      have ih := rows_split cs (s + c.2) n rest (pre ++ rowsIn c rows) h3 (hs.sublist List.filter_sublist)
        (fun i hi => ⟨by simpa using (List.mem_filter.mp hi).2, (hb i (List.mem_filter.mp hi).1).2⟩) j hj'
      dsimp only at ih
      obtain ⟨o, ho, hsl⟩ := ih
      have hmap : cs.map (fun d => ((rowsIn d rest).length : Int)) = cs.map (fun d => ((rowsIn d rows).length : Int)) :=
        List.map_congr_left (fun d hd => by rw [hrest d hd])
      rw [hmap] at ho
      rw [hrest _ (List.getElem_mem hj')] at hsl
      refine ⟨o, ?_, ?_⟩
      · rw [List.map_cons, List.getElem?_cons_succ]
        have hne : cs.map (fun d => ((rowsIn d rows).length : Int)) ≠ [] := by
          intro he
          have := congrArg List.length he
          simp at this; simp [this] at hj'
        rw [cumsumFrom, List.dropLast_cons_of_ne_nil (by
          intro he
          have := congrArg List.length he
          rw [cumsumFrom_length] at this
          exact hne (List.eq_nil_of_length_eq_zero (by simpa using this)))]
        rw [List.length_append, Int.natCast_add] at ho
        exact ho
      · rw [List.append_assoc, ← hsplit] at hsl
        exact hsl

theorem sum_rowsIn : ∀ (t : List (Int × Int)) (s n : Int) (rows : List Int), Contiguous s n t →
    (t.map (fun c => ((rowsIn c rows).length : Int))).sum =
      ((rows.filter (fun i => decide (s ≤ i) && decide (i < n))).length : Int)
  | [], s, n, rows, h => by
    rw [Contiguous] at h
    subst h
    have : rows.filter (fun i => decide (s ≤ i) && decide (i < s)) = [] := by
      rw [List.filter_eq_nil_iff]; intro i _; simp
    simp only [List.map_nil, List.sum_nil, this, List.length_nil, Int.natCast_zero]
  | c :: cs, s, n, rows, h => by
    obtain ⟨h1, h2, h3⟩ := h
    have hle := contiguous_le cs _ _ h3
    rw [List.map_cons, List.sum_cons, sum_rowsIn cs _ _ rows h3]
    unfold rowsIn
    induction rows with
    | nil => rfl
    | cons i rows ih =>
      simp only [List.filter_cons]
      by_cases ha : s ≤ i <;> by_cases hb : i < s + c.2 <;> by_cases hd : i < n <;>
        by_cases he : s + c.2 ≤ i <;> simp [inCell, h1, ha, hb, hd, he] <;>
        (try omega) <;> simp only [inCell, h1] at ih <;> omega

end Verif.Mask
