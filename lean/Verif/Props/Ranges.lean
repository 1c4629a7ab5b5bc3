import Verif.Lemmas.Ranges

/-!
# C01–C04: row ranges and chunk-aligned reads (`swiftsimio/accelerated.py`)
-/

namespace Verif.Props
open Verif Verif.Spec Verif.Accel

/-! ## C01 -/

/-- C01. Whatever the index list (sorted or not, with repeats or not), the ranges computed from it list exactly the
same rows in the same order. -/
theorem c01_rows_of_ranges (l : List Int) : rowsOf (rangesFromArray l) = l := by
  cases l with
  | nil => rfl
  | cons a as =>
    show rowsOf (rfaLoop a a as []) = _
    rw [rowsOf_rfaLoop as a a (Int.le_refl _), rowsOfRange_single]; rfl

/-- C01. The code's own expansion of the ranges gives the index list back and raises nothing. -/
theorem c01_expand_roundtrip (l : List Int) : expandRanges (rangesFromArray l) = .ok l := by
  rw [expandRanges_ok, c01_rows_of_ranges]
  intro r hr
  cases l with
  | nil => simp [rangesFromArray] at hr; subst hr; decide
  | cons a as => exact Int.le_of_lt (rfaLoop_first as a a r hr (Int.le_refl _))

example : rangesFromArray [0, 1, 2, 3, 5, 6, 7, 9, 11, 12, 13] = [(0, 4), (5, 8), (9, 10), (11, 14)] := by decide
example : expandRanges (rangesFromArray [7, 3, 4, 4, 5]) = .ok [7, 3, 4, 4, 5] := by decide

/-! ## C02 -/

/-- C02. For a strictly increasing non-empty index list every range is non-empty and consecutive ranges are
separated by at least one row that is not selected. -/
theorem c02_ranges_separated (l : List Int) (hne : l ≠ []) (hl : l.Pairwise (· < ·)) :
    (∀ r ∈ rangesFromArray l, r.1 < r.2) ∧ (rangesFromArray l).Pairwise (fun a b => a.2 < b.1) := by
  cases l with
  | nil => exact absurd rfl hne
  | cons a as =>
    exact ⟨fun r hr => rfaLoop_first as a a r hr (Int.le_refl _),
      rfaLoop_gaps as a a (Int.le_refl _) hl⟩

/-- C02. No other list of ranges that lists the same rows is shorter (for any index list). -/
theorem c02_ranges_minimal (l : List Int) (rs : List Rng) (hne : rs ≠ []) (h : rowsOf rs = l) :
    (rangesFromArray l).length ≤ rs.length := by
  have h1 := breaks_rowsOf rs
  have h2 : 0 < rs.length := List.length_pos_iff.mpr hne
  rw [h] at h1
  cases l with
  | nil => simp [rangesFromArray]; omega
  | cons a as =>
    show (rfaLoop a a as []).length ≤ _
    rw [rfaLoop_length]; omega

example : ([2, 3, 5, 9, 10] : List Int).Pairwise (· < ·) ∧ rangesFromArray [2, 3, 5, 9, 10] = [(2, 4), (5, 6), (9, 11)] := by
  decide

/-! ## C03 -/

/-- C03. Reading through whole chunks returns exactly the requested rows, for every chunk size and every list of
in-bounds ranges whose starts and ends do not decrease. No element of the result is uninitialised
(`c03_no_uninitialised`). -/
theorem c03_chunked_read {α : Type} (ds : List α) (c : Nat) (hc : 0 < c) (rs : List Rng) (hne : rs ≠ [])
    (hb : InBounds ds.length rs) (ho : Ordered rs) :
    readChunked ds (c : Int) rs = .ok (select ds (rowsOf rs)) :=
  readChunked_ok ds c (by omega) rs hne hb ho

/-- C03. Reading each range directly into a buffer of the right size returns exactly the requested rows, for any order
of the ranges. -/
theorem c03_unchunked_read {α : Type} (ds : List α) (rs : List Rng) (hb : InBounds ds.length rs) :
    readUnchunked ds rs (rowsOf rs).length = .ok (select ds (rowsOf rs)) :=
  readUnchunked_ok ds rs hb _ (rowsOf_length (fun r hr => (hb r hr).2.1))

/-- C03. Both strategies agree. -/
theorem c03_chunked_eq_unchunked {α : Type} (ds : List α) (c : Nat) (hc : 0 < c) (rs : List Rng) (hne : rs ≠ [])
    (hb : InBounds ds.length rs) (ho : Ordered rs) :
    readChunked ds (c : Int) rs = readUnchunked ds rs (rowsOf rs).length := by
  rw [c03_chunked_read ds c hc rs hne hb ho, c03_unchunked_read ds rs hb]

/-- C03. Every requested row exists, so the result holds a value of the dataset at every position. -/
theorem c03_no_uninitialised {α : Type} (ds : List α) (rs : List Rng) (hb : InBounds ds.length rs) :
    ∀ v ∈ select ds (rowsOf rs), ∃ x ∈ ds, v = some x := by
  intro v hv
  simp only [select, List.mem_map] at hv
  obtain ⟨i, hi, rfl⟩ := hv
  obtain ⟨r, hr, h1, h2⟩ := (mem_rowsOf rs i).mp hi
  obtain ⟨b0, b1, b2⟩ := hb r hr
  have h3 : i.toNat < ds.length := by omega
  refine ⟨ds[i.toNat], List.getElem_mem h3, ?_⟩
  unfold valueAt
  rw [if_neg (by omega), List.getElem?_eq_getElem h3]

/-- Ranges computed from an index list that does not decrease satisfy the hypotheses of `c03_chunked_read`. -/
theorem c03_sorted_indices_ordered (l : List Int) (hne : l ≠ []) (hl : l.Pairwise (· ≤ ·)) (n : Int)
    (hn : ∀ i ∈ l, 0 ≤ i ∧ i < n) :
    InBounds n (rangesFromArray l) ∧ Ordered (rangesFromArray l) := by
  have hrows := c01_rows_of_ranges l
  have hpos : ∀ r ∈ rangesFromArray l, r.1 < r.2 := by
    cases l with
    | nil => exact absurd rfl hne
    | cons a as => exact fun r hr => rfaLoop_first as a a r hr (Int.le_refl _)
  have hmem : ∀ r ∈ rangesFromArray l, r.1 ∈ l ∧ r.2 - 1 ∈ l := by
    intro r hr
    have hp := hpos r hr
    rw [← hrows, mem_rowsOf, mem_rowsOf]
    exact ⟨⟨r, hr, by omega, hp⟩, ⟨r, hr, by omega, by omega⟩⟩
  refine ⟨?_, ?_⟩
  · intro r hr
    have hp := hpos r hr
    have := hn _ (hmem r hr).1
    have := hn _ (hmem r hr).2
    omega
  · have key : ∀ rs : List Rng, (∀ r ∈ rs, r.1 < r.2) → (rowsOf rs).Pairwise (· ≤ ·) → Ordered rs := by
      intro rs
      induction rs with
      | nil => intro _ _; exact List.Pairwise.nil
      | cons r rs ih =>
        intro h1 h2
        rw [rowsOf_cons, List.pairwise_append] at h2
        refine List.pairwise_cons.mpr ⟨?_, ih (fun x hx => h1 x (by simp [hx])) h2.2.1⟩
        intro b hb
        have hr := h1 r (by simp)
        have hbp := h1 b (by simp [hb])
        have hb1 : b.1 ∈ rowsOf rs := (mem_rowsOf rs _).mpr ⟨b, hb, by omega, hbp⟩
        have hr2 : r.2 - 1 ∈ rowsOfRange r := (mem_rowsOfRange r _).mpr ⟨by omega, by omega⟩
        have := h2.2.2 _ hr2 _ hb1
        omega
    exact key _ hpos (by rw [hrows]; exact hl)

/-- A short last chunk, ranges that share, touch and straddle chunks, and an empty range. -/
example : readChunked (List.range 23) 5 [(1, 2), (3, 7), (7, 7), (10, 11), (21, 23)] =
    .ok (select (List.range 23) [1, 3, 4, 5, 6, 10, 21, 22]) := by decide +kernel
example : Ordered [(1, 2), (3, 7), (7, 7), (10, 11), (21, 23)] ∧
    InBounds 23 [(1, 2), (3, 7), (7, 7), (10, 11), (21, 23)] := by
  unfold Ordered InBounds; decide

/-- The order hypothesis is needed: with decreasing ranges (in bounds, disjoint) the chunked read fails, while the
direct read succeeds. -/
theorem c03_unordered_fails :
    readChunked (List.range 20) 5 [(12, 14), (2, 4)] = .error .index ∧
    readUnchunked (List.range 20) [(12, 14), (2, 4)] 4 = .ok [some 12, some 13, some 2, some 3] := by decide +kernel

/-- A nested range is also outside the hypotheses (ends decrease), and there the chunked read fails although every
range is in bounds and starts are sorted. -/
theorem c03_nested_fails :
    readChunked (List.range 40) 5 [(0, 30), (2, 3)] = .error .index := by decide +kernel

/-! ## C04 -/

/-- C04. The rows read for a request are exactly the rows of the chunks that the requested ranges reach into: row `i`
is read iff its chunk number lies between the chunk of some range's start and the last chunk that begins before that
range's end. -/
theorem c04_chunk_coverage (rs : List Rng) (c : Nat) (n : Int) (hc : 0 < c) (hb : InBounds n rs) (ho : Ordered rs)
    (i : Int) :
    i ∈ rowsOf (getChunkRanges rs c n) ↔
      i < n ∧ ∃ r ∈ rs, r.1 / (c : Int) ≤ i / c ∧ i / c * c < r.2 := by
  cases rs with
  | nil => simp [getChunkRanges, rowsOf]
  | cons b bs =>
    have hc' : (0 : Int) < c := by omega
    rw [getChunkRanges_cons, mem_chunkGo hc' bs _ (inv_init hc' hb ho), hull_iff hc']
    simp only [hull_iff hc', List.mem_cons, exists_eq_or_imp]
    constructor
    · rintro (⟨h1, h2, h3⟩ | ⟨x, hx, h1, h2, h3⟩)
      · exact ⟨h3, Or.inl ⟨h1, h2⟩⟩
      · exact ⟨h3, Or.inr ⟨x, hx, h1, h2⟩⟩
    · rintro ⟨h3, (⟨h1, h2⟩ | ⟨x, hx, h1, h2⟩)⟩
      · exact Or.inl ⟨h1, h2, h3⟩
      · exact Or.inr ⟨x, hx, h1, h2, h3⟩

/-- C04. The chunk ranges are in bounds, aligned to chunks (the last may end at the end of the dataset), and each one
ends strictly before the next one starts: no row is read twice. -/
theorem c04_chunk_ranges_wellformed (rs : List Rng) (c : Nat) (n : Int) (hc : 0 < c) (hb : InBounds n rs)
    (ho : Ordered rs) :
    InBounds n (getChunkRanges rs c n) ∧
    (∀ ch ∈ getChunkRanges rs c n, (∃ k, ch.1 = k * (c : Int)) ∧ ((∃ k, ch.2 = k * (c : Int)) ∨ ch.2 = n)) ∧
    (getChunkRanges rs c n).Pairwise (fun a b => a.2 < b.1) := by
  cases rs with
  | nil => simp [getChunkRanges, InBounds]
  | cons b bs =>
    have hc' : (0 : Int) < c := by omega
    have hinv := inv_init hc' hb ho
    rw [getChunkRanges_cons]
    refine ⟨chunkGo_inBounds hc' bs _ hinv, chunkGo_starts hc' bs _ hinv ⟨_, rfl⟩ ?_, chunkGo_separated hc' bs _ hinv⟩
    show (∃ k, chUpper c n b = k * (c : Int)) ∨ chUpper c n b = n
    unfold chUpper
    rcases Int.le_total (-((-b.2) / (c : Int)) * c) n with h | h
    · exact Or.inl ⟨_, Int.min_eq_left h⟩
    · exact Or.inr (Int.min_eq_right h)

/-- C04. In particular every requested row is read. -/
theorem c04_requested_rows_read (rs : List Rng) (c : Nat) (n : Int) (hc : 0 < c) (hb : InBounds n rs)
    (ho : Ordered rs) (i : Int) (hi : i ∈ rowsOf rs) : i ∈ rowsOf (getChunkRanges rs c n) := by
  rw [c04_chunk_coverage rs c n hc hb ho]
  obtain ⟨r, hr, h1, h2⟩ := (mem_rowsOf rs i).mp hi
  have hc' : (0 : Int) < c := by omega
  obtain ⟨b0, b1, b2⟩ := hb r hr
  refine ⟨by omega, r, hr, Int.ediv_le_ediv hc' h1, ?_⟩
  have := Int.ediv_mul_le i (b := (c : Int)) (by omega)
  omega

example : getChunkRanges [(1, 2), (3, 7), (7, 7), (10, 11), (21, 23)] 5 23 = [(0, 15), (20, 23)] := by decide

end Verif.Props
