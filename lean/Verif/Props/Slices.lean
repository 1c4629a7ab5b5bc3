import Verif.Lemmas.Slices
import Verif.Props.Ranges

/-!
# C05, C06: remote reads and the choice of read strategy
(`swiftsimio/_ordered_slices.py`, `swiftsimio/accelerated.py`)
-/

namespace Verif.Props
open Verif Verif.Spec Verif.Accel

private abbrev kept (rs : List Rng) : List Rng := rs.filter (fun r => decide (r.2 - r.1 > 0))

private def orderedOf (rs : List Rng) : List Rng :=
  if anyOverlap (kept rs) then (argsort ((kept rs).map (·.1))).filterMap (fun i => (kept rs)[i]?) else kept rs

private theorem kept_pos (rs : List Rng) : ∀ r ∈ kept rs, r.1 < r.2 := by
  intro r hr
  have := (List.mem_filter.mp hr).2
  simp at this; omega

private theorem orderedOf_perm (rs : List Rng) : (orderedOf rs).Perm (kept rs) := by
  unfold orderedOf
  split
  · exact ordered_perm (kept rs) _
  · exact List.Perm.refl _

private theorem orderedOf_pos (rs : List Rng) : ∀ r ∈ orderedOf rs, r.1 < r.2 :=
  fun r hr => kept_pos rs r ((orderedOf_perm rs).mem_iff.mp hr)

private theorem disjoint_symm : ∀ a b : Rng,
    (∀ i : Int, ¬ ((a.1 ≤ i ∧ i < a.2) ∧ (b.1 ≤ i ∧ i < b.2))) →
    (∀ i : Int, ¬ ((b.1 ≤ i ∧ i < b.2) ∧ (a.1 ≤ i ∧ i < a.2))) := by
  intro a b h i hi; exact h i ⟨hi.2, hi.1⟩

private theorem disjoint_kept (rs : List Rng) : RowsDisjoint rs ↔ RowsDisjoint (kept rs) := by
  unfold RowsDisjoint
  induction rs with
  | nil => simp [kept]
  | cons r rs ih =>
    by_cases h : r.2 - r.1 > 0
    · rw [show kept (r :: rs) = r :: kept rs from List.filter_cons_of_pos (by simpa using h),
        List.pairwise_cons, List.pairwise_cons, ih]
      constructor
      · rintro ⟨h1, h2⟩
        exact ⟨fun b hb => h1 b (List.mem_filter.mp hb).1, h2⟩
      · rintro ⟨h1, h2⟩
        refine ⟨fun b hb => ?_, h2⟩
        by_cases hb' : b.2 - b.1 > 0
        · exact h1 b (List.mem_filter.mpr ⟨hb, by simpa using hb'⟩)
        · intro i; omega
    · rw [show kept (r :: rs) = kept rs from List.filter_cons_of_neg (by simpa using h), List.pairwise_cons, ← ih]
      constructor
      · exact fun h => h.2
      · refine fun h2 => ⟨fun b hb i => by omega, h2⟩

private theorem disjoint_iff_chain (rs : List Rng) :
    RowsDisjoint rs ↔ (orderedOf rs).Pairwise (fun a b => a.2 ≤ b.1) := by
  rw [disjoint_kept]
  have hperm : RowsDisjoint (kept rs) ↔ RowsDisjoint (orderedOf rs) :=
    (List.Perm.pairwise_iff (fun {a b} h => disjoint_symm a b h) (orderedOf_perm rs)).symm
  rw [hperm]
  constructor
  · intro h
    by_cases hu : anyOverlap (kept rs)
    · have hs : (orderedOf rs).Pairwise (fun a b => a.1 ≤ b.1) := by
        unfold orderedOf; rw [if_pos hu]; exact ordered_sorted (kept rs)
      have hpos := orderedOf_pos rs
      generalize orderedOf rs = l at h hs hpos
      unfold RowsDisjoint at h
      induction l with
      | nil => exact List.Pairwise.nil
      | cons a l ih =>
        have h' := List.pairwise_cons.mp h
        have hs' := List.pairwise_cons.mp hs
        refine List.pairwise_cons.mpr ⟨?_, ih h'.2 hs'.2 (fun r hr => hpos r (by simp [hr]))⟩
        intro b hb
        have h1 := h'.1 b hb b.1
        have h2 := hs'.1 b hb
        have h3 := hpos b (by simp [hb])
        omega
    · have hu' : anyOverlap (kept rs) = false := by simpa using hu
      unfold orderedOf
      rw [if_neg hu]
      exact (anyOverlap_false_iff _ (kept_pos rs)).mp hu'
  · intro h
    unfold RowsDisjoint
    exact h.imp (fun {a b} hab i => by omega)

private theorem mk_eq (rs : List Rng) (hne : rs ≠ []) :
    mkOrderedSlices rs = if anyOverlap (orderedOf rs) then .error .runtime else .ok
      { slices := (keepStarts (orderedOf rs)).zip (keepStops (orderedOf rs))
        inverse := if anyOverlap (kept rs) then some (inverseOrder (argsort ((kept rs).map (·.1)))) else none
        lengths := (orderedOf rs).map (fun r => r.2 - r.1) } := by
  unfold mkOrderedSlices
  rw [if_neg (by simpa using hne)]
  rfl

private theorem mk_ok (rs : List Rng) (hne : rs ≠ []) (hd : RowsDisjoint rs) :
    mkOrderedSlices rs = .ok
      { slices := (keepStarts (orderedOf rs)).zip (keepStops (orderedOf rs))
        inverse := if anyOverlap (kept rs) then some (inverseOrder (argsort ((kept rs).map (·.1)))) else none
        lengths := (orderedOf rs).map (fun r => r.2 - r.1) } := by
  have hch := (anyOverlap_false_iff _ (orderedOf_pos rs)).mpr ((disjoint_iff_chain rs).mp hd)
  rw [mk_eq rs hne, hch]
  simp

private theorem inBounds_kept {n : Int} {rs : List Rng} (hb : InBounds n rs) : InBounds n (orderedOf rs) :=
  inBounds_perm (orderedOf_perm rs) (fun r hr => hb r (List.mem_filter.mp hr).1)

private theorem slices_rows (rs : List Rng) :
    rowsOf ((keepStarts (orderedOf rs)).zip (keepStops (orderedOf rs))) = rowsOf (orderedOf rs) := by
  have hpos := orderedOf_pos rs
  generalize orderedOf rs = l at hpos
  cases l with
  | nil => rfl
  | cons a l => rw [merged_eq, rowsOf_mergeGo l a (fun r hr => Int.le_of_lt (hpos r hr))]

private theorem slices_props (rs : List Rng) (hd : RowsDisjoint rs) (n : Int) (hb : InBounds n rs) :
    InBounds n ((keepStarts (orderedOf rs)).zip (keepStops (orderedOf rs))) ∧
    (∀ s ∈ (keepStarts (orderedOf rs)).zip (keepStops (orderedOf rs)), s.1 < s.2) ∧
    ((keepStarts (orderedOf rs)).zip (keepStops (orderedOf rs))).Pairwise (fun a b => a.2 < b.1) := by
  have hpos := orderedOf_pos rs
  have hch := (disjoint_iff_chain rs).mp hd
  have hbo := inBounds_kept hb
  generalize orderedOf rs = l at hpos hch hbo
  cases l with
  | nil => simp [keepStarts, keepStops, InBounds]
  | cons a l =>
    rw [merged_eq]
    obtain ⟨h1, h2⟩ := mergeGo_spec l a hpos hch
    refine ⟨?_, fun s hs => (h1 s hs).1, h2⟩
    intro r hr
    obtain ⟨g1, g2, x, hx, g3⟩ := h1 r hr
    have ha := hbo a (by simp)
    have hx' := hbo x hx
    omega

/-! ## C05 -/

/-- C05. Ranges that do not overlap can be requested in any order (empty ranges and adjacent ranges included): the
remote read returns the rows in the order the ranges were given. -/
theorem c05_remote_read {α : Type} (ds : List α) (rs : List Rng) (hne : rs ≠ []) (hb : InBounds ds.length rs)
    (hd : RowsDisjoint rs) : readStream ds rs (rowsOf rs).length = .ok (select ds (rowsOf rs)) := by
  unfold readStream
  rw [mk_ok rs hne hd]
  obtain ⟨hsb, hspos, hsp⟩ := slices_props rs hd ds.length hb
  have hrows := slices_rows rs
  have hperm := orderedOf_perm rs
  have hlenperm : (rowsOf (orderedOf rs)).length = (rowsOf rs).length := by
    have h1 : (rowsOf (orderedOf rs)).Perm (rowsOf (kept rs)) := hperm.flatMap_right _
    rw [h1.length_eq, rowsOf_filter]
  have hreq : fetchSlices ds ((keepStarts (orderedOf rs)).zip (keepStops (orderedOf rs))) (rowsOf rs).length =
      .ok (select ds (rowsOf (orderedOf rs))) := by
    unfold fetchSlices
    split
    · unfold requestSlices
      rw [if_pos (serverAccepts_ok _ _ hsb hsp), flatMap_slices ds _ hsb, hrows]
      simp only
      rw [if_pos]
      simp [select, hlenperm]
    · rename_i h0
      have h0' : (keepStarts (orderedOf rs)).zip (keepStops (orderedOf rs)) = [] :=
        List.eq_nil_of_length_eq_zero (by omega)
      rw [h0', rowsOf_nil] at hrows
      rw [← hrows] at hlenperm ⊢
      simp only [List.length_nil] at hlenperm
      rw [← hlenperm]
      rfl
  simp only [bind, Except.bind]
  rw [hreq]
  simp only
  unfold reorderResult
  by_cases hu : anyOverlap (kept rs)
  · simp only [if_pos hu]
    have hord : orderedOf rs = (argsort ((kept rs).map (·.1))).filterMap (fun i => (kept rs)[i]?) := by
      unfold orderedOf; rw [if_pos hu]
    have hkne : kept rs ≠ [] := by intro h; rw [h] at hu; simp [anyOverlap] at hu
    have hone : orderedOf rs ≠ [] := by
      intro h; rw [h] at hperm; exact hkne (List.Perm.nil_eq hperm).symm
    have hsplit : splitLens (((orderedOf rs).map (fun r => r.2 - r.1)).map Int.toNat)
        (select ds (rowsOf (orderedOf rs))) = (orderedOf rs).map (fun r => select ds (rowsOfRange r)) := by
      have h1 : select ds (rowsOf (orderedOf rs)) =
          ((orderedOf rs).map (fun r => select ds (rowsOfRange r))).flatten := select_rowsOf ds _
      have h2 : ((orderedOf rs).map (fun r => r.2 - r.1)).map Int.toNat =
          ((orderedOf rs).map (fun r => select ds (rowsOfRange r))).map List.length := by
        simp [select, rowsOfRange]
      rw [h1, h2, splitLens_flatten]
      simpa using hone
    rw [hsplit, hord]
    have hp := argsort_perm ((kept rs).map (·.1))
    rw [List.length_map] at hp
    rw [inverse_restores (kept rs) _ (by rw [hp.length_eq, List.length_range]) hp]
    simp only
    rw [← select_rowsOf, rowsOf_filter]
  · simp only [if_neg hu]
    have hord : orderedOf rs = kept rs := by unfold orderedOf; rw [if_neg hu]
    rw [hord, rowsOf_filter]

/-- C05. What is sent to the server: non-empty slices, each ending strictly before the next one starts, inside the
dataset, that together list the requested rows (as a permutation). -/
theorem c05_slices_sent (rs : List Rng) (n : Int) (hne : rs ≠ []) (hb : InBounds n rs) (os : OrderedSlices)
    (h : mkOrderedSlices rs = .ok os) :
    InBounds n os.slices ∧ (∀ s ∈ os.slices, s.1 < s.2) ∧ os.slices.Pairwise (fun a b => a.2 < b.1) ∧
      (rowsOf os.slices).Perm (rowsOf rs) := by
  by_cases hd : RowsDisjoint rs
  · rw [mk_ok rs hne hd] at h
    obtain ⟨h1, h2, h3⟩ := slices_props rs hd n hb
    injection h with h
    subst h
    refine ⟨h1, h2, h3, ?_⟩
    rw [slices_rows]
    have h4 : (rowsOf (orderedOf rs)).Perm (rowsOf (kept rs)) := (orderedOf_perm rs).flatMap_right _
    rw [rowsOf_filter] at h4
    exact h4
  · exfalso
    have hch : ¬ anyOverlap (orderedOf rs) = false := fun hf =>
      hd ((disjoint_iff_chain rs).mpr ((anyOverlap_false_iff _ (orderedOf_pos rs)).mp hf))
    have ht : anyOverlap (orderedOf rs) = true := by simpa using hch
    rw [mk_eq rs hne, if_pos ht] at h
    simp at h

/-- C05. A request in which some row belongs to two entries is refused with an error; a request without such a row
never is. -/
theorem c05_overlap_refused (rs : List Rng) (hne : rs ≠ []) :
    mkOrderedSlices rs = .error .runtime ↔ ¬ RowsDisjoint rs := by
  constructor
  · intro h hd
    rw [mk_ok rs hne hd] at h
    simp at h
  · intro hd
    have hch : ¬ anyOverlap (orderedOf rs) = false := fun hf =>
      hd ((disjoint_iff_chain rs).mpr ((anyOverlap_false_iff _ (orderedOf_pos rs)).mp hf))
    have ht : anyOverlap (orderedOf rs) = true := by simpa using hch
    rw [mk_eq rs hne, if_pos ht]

example : readStream (List.range 20) [(12, 14), (2, 4), (4, 4), (4, 6)] 6 =
    .ok (select (List.range 20) [12, 13, 2, 3, 4, 5]) := by decide +kernel
example : RowsDisjoint [(12, 14), (2, 4), (4, 4), (4, 6)] := by
  unfold RowsDisjoint
  simp only [List.pairwise_cons, List.mem_cons, List.not_mem_nil, or_false, forall_eq_or_imp, forall_eq]
  refine ⟨⟨?_, ?_, ?_⟩, ⟨?_, ?_⟩, ?_, by simp⟩ <;> intros <;> omega
example : mkOrderedSlices [(3, 6), (0, 4)] = .error .runtime := by decide +kernel

/-! ## C06 -/

/-- C06. For a non-empty list of in-bounds ranges that are increasing and do not overlap, the rows returned do not
depend on how the dataset is stored nor on which strategy the size heuristic picks. -/
theorem c06_layout_irrelevant_partial {α : Type} (lay : Layout) (hlay : ∀ c, lay = .chunked c → 0 < c) (ds : List α)
    (rs : List Rng) (hne : rs ≠ []) (hb : InBounds ds.length rs) (hd : rs.Pairwise (fun a b => a.2 ≤ b.1)) :
    readRanges lay ds rs (rowsOf rs).length = .ok (select ds (rowsOf rs)) := by
  have hord : Ordered rs := by
    unfold Ordered
    have key : ∀ l : List Rng, (∀ r ∈ l, r.1 ≤ r.2) → l.Pairwise (fun a b => a.2 ≤ b.1) →
        l.Pairwise (fun a b => a.1 ≤ b.1 ∧ a.2 ≤ b.2) := by
      intro l
      induction l with
      | nil => intro _ _; exact List.Pairwise.nil
      | cons a l ih =>
        intro h1 h2
        have h2' := List.pairwise_cons.mp h2
        refine List.pairwise_cons.mpr ⟨?_, ih (fun r hr => h1 r (by simp [hr])) h2'.2⟩
        intro b hb
        have := h2'.1 b hb
        have := h1 a (by simp)
        have := h1 b (by simp [hb])
        omega
    exact key rs (fun r hr => (hb r hr).2.1) hd
  have hdis : RowsDisjoint rs := by
    unfold RowsDisjoint
    exact hd.imp (fun {a b} hab i => by omega)
  cases lay with
  | contiguous => exact c03_unchunked_read ds rs hb
  | remote => exact c05_remote_read ds rs hne hb hdis
  | chunked c =>
    show (if _ then _ else _) = _
    split
    · exact c03_chunked_read ds c (hlay c rfl) rs hne hb hord
    · exact c03_unchunked_read ds rs hb

/-- C06. The empty range list: a local dataset returns no rows whatever its layout. -/
theorem c06_empty_local {α : Type} (lay : Layout) (hl : lay ≠ .remote) (ds : List α) :
    readRanges lay ds [] 0 = .ok [] := by
  cases lay with
  | remote => exact absurd rfl hl
  | contiguous => rfl
  | chunked c => rfl

/-- C06 fails for the empty range list (a spatial mask that selects no cell): the remote read raises an IndexError
where the local reads return no rows. -/
theorem c06_empty_fails_remote {α : Type} (ds : List α) : readRanges .remote ds [] 0 = .error .index := rfl

example : readRanges (.chunked 4) (List.range 11) [(0, 3), (3, 3), (5, 9)] 7 =
    readRanges .remote (List.range 11) [(0, 3), (3, 3), (5, 9)] 7 := by decide +kernel

end Verif.Props
