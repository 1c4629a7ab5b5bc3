import Verif.Lemmas.Subset
import Verif.Props.Mask
import Verif.Props.Spatial

/-!
# C16 - C18, C20: subset files (`swiftsimio/subset_writer.py`)
-/

namespace Verif.Props
open Verif Verif.Spec Verif.Accel Verif.Mask

variable {K : Type} [Field K] [LinearOrder K] {m : Nat}

/-- A dataset that stores the number of each row. -/
def rowNumbers (n : Nat) : List Int := (List.range n).map (fun (i : Nat) => (i : Int))

/-- `rows` is what a load of the row numbers of key `k` through the mask returns. -/
def LoadsRows (f : File K m) (s : State m) (k : Fin m) (rows : List Int) : Prop :=
  load s .contiguous (rowNumbers (f.rows k)) k = .ok (rows.map some)

theorem select_rowNumbers (n : Nat) (rows : List Int) (h : ∀ i ∈ rows, 0 ≤ i ∧ i < n) :
    select (rowNumbers n) rows = rows.map some := by
  unfold select
  refine List.map_congr_left (fun i hi => ?_)
  have := h i hi
  unfold valueAt rowNumbers
  rw [if_neg (by omega), List.getElem?_map, List.getElem?_range (by omega)]
  simp; omega

/-- The exception raised, if any. -/
def raised {β : Type} : Except Err β → Option Err
  | .error e => some e
  | .ok _ => none

variable [IsStrictOrderedRing K]

/-- what a mask holds once converted to ranges -/
theorem inv_ranges (f : File K m) (s : State m) (a : Abs m) (h0 : Inv f s a) :
    ∃ r, (toRanges s).rep = .ranges r ∧ ∀ k, Good (f.rows k) (r k) ∧
      (toRanges s).size k = (rowsOf (r k)).length ∧
      (∀ i ∈ rowsOf (r k), 0 ≤ i ∧ i < f.rows k) ∧ LoadsRows f s k (rowsOf (r k)) := by
  have h1 := inv_toRanges f _ _ h0
  have hrep : ∃ r, (toRanges s).rep = .ranges r := by
    cases hs : s.rep with
    | bools b => exact ⟨_, by unfold toRanges; rw [hs]⟩
    | ranges r => exact ⟨r, by unfold toRanges; rw [hs]; exact hs⟩
  obtain ⟨r, hr⟩ := hrep
  refine ⟨r, hr, fun k => ?_⟩
  obtain ⟨_, hk⟩ := h1.ranges r hr
  obtain ⟨hg, hm, hsz, hst⟩ := hk k
  have hb : ∀ i ∈ rowsOf (r k), 0 ≤ i ∧ i < f.rows k := fun i hi' => h0.bnd k i ((hm i).mp hi')
  refine ⟨hg, hsz, hb, ?_⟩
  unfold LoadsRows load
  rw [hr]
  dsimp only
  rw [hsz, Int.toNat_natCast]
  have hib : InBounds (rowNumbers (f.rows k)).length (r k) := by simpa [rowNumbers] using hg.inb
  rw [← select_rowNumbers (f.rows k) _ hb]
  exact c03_unchunked_read _ (r k) hib

theorem run_ranges (f : File K m) (hf : WF f) (ops : List (Op K)) (hi : ∀ op ∈ ops, IndicesOk f op) :
    ∃ r, (toRanges (run f ops)).rep = .ranges r ∧ ∀ k, Good (f.rows k) (r k) ∧
      (toRanges (run f ops)).size k = (rowsOf (r k)).length ∧
      (∀ i ∈ rowsOf (r k), 0 ≤ i ∧ i < f.rows k) ∧ LoadsRows f (run f ops) k (rowsOf (r k)) :=
  inv_ranges f _ _ (inv_run f hf ops hi)

theorem loadsRows_unique (f : File K m) (s : State m) (k : Fin m) (r1 r2 : List Int) (h1 : LoadsRows f s k r1)
    (h2 : LoadsRows f s k r2) : r1 = r2 := by
  unfold LoadsRows at h1 h2
  rw [h1] at h2
  have := Except.ok.inj h2
  exact List.map_injective_iff.mpr (Option.some_injective _) this

/-! ## C16 -/

/-- `c16_counts` for any state of a mask -/
theorem inv_counts (f : File K m) (hf : WF f) (hc : ∀ k, f.cells k ≠ []) (s : State m)
    (a : Abs m) (h0 : Inv f s a) (k : Fin m) :
    ∃ rows counts, LoadsRows f s k rows ∧
      maskedCounts f s k = .ok counts ∧ maskedCounts f (toRanges s) k = .ok counts ∧
      counts = (table (f.cells k)).map (fun c => ((rowsIn c rows).length : Int)) ∧
      counts.sum = advertised s k ∧
      Contiguous 0 rows.length ((prefixOffsets counts).zip counts) ∧
      ∀ (j : Nat) (hj : j < (table (f.cells k)).length), ∃ o n, (prefixOffsets counts)[j]? = some o ∧
        counts[j]? = some n ∧ (rows.drop o.toNat).take n.toNat = rowsIn (table (f.cells k))[j] rows := by
  obtain ⟨r, hr, hk⟩ := inv_ranges f s a h0
  obtain ⟨hg, hsz, hb, hl⟩ := hk k
  have hne : table (f.cells k) ≠ [] := by simpa [table] using hc k
  have hcon := hf.contiguous k
  have hr' := rangeCounts_rows (table (f.cells k)) hne _ hcon (r k) hg.inb
  have hm2 : maskedCounts f (toRanges s) k =
      .ok ((table (f.cells k)).map (fun c => ((rowsIn c (rowsOf (r k))).length : Int))) := by
    unfold maskedCounts
    rw [hr]
    exact hr'
  have hnn : ∀ c ∈ (table (f.cells k)).map (fun c => ((rowsIn c (rowsOf (r k))).length : Int)), 0 ≤ c := by
    intro c hc'
    obtain ⟨_, _, rfl⟩ := List.mem_map.mp hc'
    exact Int.natCast_nonneg _
  have hsum : ((table (f.cells k)).map (fun c => ((rowsIn c (rowsOf (r k))).length : Int))).sum =
      (rowsOf (r k)).length := by
    rw [sum_rowsIn _ _ _ _ hcon, List.filter_eq_self.mpr]
    intro i hi'
    have := hb i hi'
    simp [this]
  refine ⟨rowsOf (r k), _, hl, ?_, hm2, rfl, ?_, ?_, ?_⟩
  · cases hs : s.rep with
    | ranges r0 =>
      have : toRanges s = s := by unfold toRanges; rw [hs]
      rw [this] at hm2
      exact hm2
    | bools b =>
      have hlen := ((h0.bools b hs).2 k).1
      unfold maskedCounts
      rw [hs]
      dsimp only
      have hrk : r k = rangesFromArray (whereTrue (b k)) := by
        have : (toRanges s).rep = .ranges (fun k => rangesFromArray (whereTrue (b k))) := by
          unfold toRanges; rw [hs]
        rw [this] at hr
        injection hr with hr
        rw [← hr]
      rw [hrk, rfa_rows]
      show Except.ok (boolCounts (table (f.cells k)) (b k)) = _
      rw [boolCounts_rows _ _ (by rw [hlen]; exact hcon)]
  · rw [hsum, advertised, hsz]
  · rw [← hsum]
    exact prefixOffsets_contiguous _ (by simpa using hne) hnn
  · intro j hj
    obtain ⟨o, ho, hs⟩ := rows_split (table (f.cells k)) 0 _ (rowsOf (r k)) [] hcon hg.sorted hb j hj
    refine ⟨o, ((rowsIn (table (f.cells k))[j] (rowsOf (r k))).length : Int), ho, ?_, ?_⟩
    · rw [List.getElem?_map, List.getElem?_eq_getElem hj]; rfl
    · rw [Int.toNat_natCast]; exact hs

/-- C16. For any history, in either representation, the count computed for a cell is the number of loaded rows that lie
in the cell, the counts add up to the size of the mask, and cell `j` of the subset -- the slice given by the new offset
and count -- holds exactly the loaded rows of the old cell `j`, in order. -/
theorem c16_counts (f : File K m) (hf : WF f) (hc : ∀ k, f.cells k ≠ []) (ops : List (Op K))
    (hi : ∀ op ∈ ops, IndicesOk f op) (k : Fin m) :
    ∃ rows counts, LoadsRows f (run f ops) k rows ∧
      maskedCounts f (run f ops) k = .ok counts ∧ maskedCounts f (toRanges (run f ops)) k = .ok counts ∧
      counts = (table (f.cells k)).map (fun c => ((rowsIn c rows).length : Int)) ∧
      counts.sum = advertised (run f ops) k ∧
      Contiguous 0 rows.length ((prefixOffsets counts).zip counts) ∧
      ∀ (j : Nat) (hj : j < (table (f.cells k)).length), ∃ o n, (prefixOffsets counts)[j]? = some o ∧
        counts[j]? = some n ∧ (rows.drop o.toNat).take n.toNat = rowsIn (table (f.cells k))[j] rows :=
  inv_counts f hf hc _ _ (inv_run f hf ops hi) k

example : maskedCounts exFile (run exFile [.spatial [some [1/4, 3/2], none, none] false]) 0 = .ok [2, 1, 0, 0] ∧
    maskedCounts exFile (run exFile [.property "gas" "masses" 2 5]) 0 = .ok [0, 1, 1, 1] ∧
    prefixOffsets [0, 1, 1, 1] = [0, 0, 1, 2] := by decide +kernel

/-! ## C17 -/

/-- Datasets that can be written: known to the file, in a known group, with at least one row, stored locally. -/
def Writable (f : File K m) (lay : String × String → Layout) (n : String × String) : Prop :=
  (∃ k vals, f.group n.1 = some k ∧ f.field n.1 n.2 = some vals ∧ vals ≠ []) ∧ lay n ≠ .remote ∧
    ∀ c, lay n = .chunked c → 0 < c

private theorem forKeys_ok {β : Type} (g : Fin m → Except Err β) (v : Fin m → β) (h : ∀ k, g k = .ok (v k)) :
    forKeys g = .ok v := by
  unfold forKeys
  rw [dif_pos (fun k => by rw [h k]; rfl)]
  congr 1
  funext k
  have : ∀ (e : Except Err β) (he : e.isOk = true) (w : β), e = .ok w → okVal e he = w := by
    intro e he w hw; subst hw; rfl
  exact this _ _ _ (h k)

private theorem lookup_map {β : Type} (names : List (String × String)) (v : String × String → β)
    (n : String × String) :
    (names.map (fun n => (n, v n))).lookup n = if n ∈ names then some (v n) else none := by
  induction names with
  | nil => simp
  | cons a as ih =>
    rw [List.map_cons, List.lookup_cons, ih]
    by_cases h : n = a
    · subst h; simp
    · have hb : (n == a) = false := by simpa using h
      rw [hb]
      simp [h]

/-- the rows of every key, as lists -/
private theorem all_rows (f : File K m) (hf : WF f) (ops : List (Op K)) (hi : ∀ op ∈ ops, IndicesOk f op) :
    ∃ rows : Fin m → List Int, ∀ k, LoadsRows f (run f ops) k (rows k) := by
  obtain ⟨r, _, hk⟩ := run_ranges f hf ops hi
  exact ⟨fun k => rowsOf (r k), fun k => (hk k).2.2.2⟩

theorem readLocal {α : Type} (ds : List α) (rs : List Rng) (hg : Good ds.length rs) (lay : Layout)
    (hlay : lay ≠ .remote) (hc : ∀ c, lay = .chunked c → 0 < c) :
    readRanges lay ds rs (rowsOf rs).length = .ok (select ds (rowsOf rs)) := by
  cases lay with
  | remote => exact absurd rfl hlay
  | contiguous => exact c03_unchunked_read ds rs hg.inb
  | chunked c =>
    unfold readRanges
    dsimp only
    by_cases hmb : meanBelow rs 500000 = true
    · rw [if_pos hmb]
      refine c03_chunked_read ds c (hc c rfl) rs ?_ hg.inb hg.ord
      intro he
      rw [he] at hmb
      simp [meanBelow] at hmb
    · rw [if_neg hmb]
      exact c03_unchunked_read ds rs hg.inb

/-- values of a dataset at the given rows, as a plain list -/
def pick {α : Type} (ds : List α) (rows : List Int) : List α := rows.filterMap (valueAt ds)

theorem pick_some {α : Type} (ds : List α) (rows : List Int) (h : ∀ i ∈ rows, 0 ≤ i ∧ i < ds.length) :
    (pick ds rows).map some = select ds rows := by
  unfold pick select
  induction rows with
  | nil => rfl
  | cons i rows ih =>
    have hi := h i (by simp)
    have hv : ∃ v, valueAt ds i = some v := by
      unfold valueAt
      rw [if_neg (by omega)]
      exact ⟨_, List.getElem?_eq_getElem (by omega)⟩
    obtain ⟨v, hv⟩ := hv
    rw [List.filterMap_cons_some hv, List.map_cons, List.map_cons, ih (fun j hj => h j (by simp [hj])), hv]

theorem pick_length {α : Type} (ds : List α) (rows : List Int) (h : ∀ i ∈ rows, 0 ≤ i ∧ i < ds.length) :
    (pick ds rows).length = rows.length := by
  have := congrArg List.length (pick_some ds rows h)
  simpa [select] using this

/-- What a subset file must contain, given the rows loaded for each key: the header counts, the cell metadata and the
picked values of every dataset. -/
structure IsSubset (f : File K m) (names : List (String × String)) (rows : Fin m → List Int) (g : File K m) :
    Prop where
  box : g.box = f.box
  rows_eq : ∀ k, g.rows k = (rows k).length
  group : g.group = f.group
  homogeneous : g.homogeneous = f.homogeneous
  fields : ∀ n k vals, n ∈ names → f.group n.1 = some k → f.field n.1 n.2 = some vals →
    g.field n.1 n.2 = some (pick vals (rows k))
  cells_len : ∀ k, (g.cells k).length = (f.cells k).length
  cells : ∀ k j (h1 : j < (g.cells k).length) (h2 : j < (f.cells k).length),
    (g.cells k)[j].lo = (f.cells k)[j].lo ∧ (g.cells k)[j].hi = (f.cells k)[j].hi ∧
    ∀ i : Nat, ∀ v, (rows k)[i]? = some v → (Holds (g.cells k)[j] i ↔ Holds (f.cells k)[j] v)

private theorem writeData_ok (f : File K m) (hf : WF f) (r : Fin m → List Rng) (size : Fin m → Int)
    (hg : ∀ k, Good (f.rows k) (r k)) (hs : ∀ k, size k = (rowsOf (r k)).length) (lay : String × String → Layout) :
    ∀ names, (∀ n ∈ names, Writable f lay n) →
    ∃ v : String × String → List (Option K), writeData f r size lay names = .ok (names.map (fun n => (n, v n))) ∧
      ∀ n ∈ names, ∀ k vals, f.group n.1 = some k → f.field n.1 n.2 = some vals → v n = select vals (rowsOf (r k)) := by
  classical
  intro names hw
  refine ⟨fun n => match f.group n.1, f.field n.1 n.2 with
    | some k, some vals => select vals (rowsOf (r k))
    | _, _ => [], ?_, ?_⟩
  · induction names with
    | nil => rfl
    | cons n ns ih =>
      obtain ⟨⟨k, vals, h1, h2, h3⟩, h4, h5⟩ := hw n (by simp)
      have hlen := hf.fields n.1 n.2 k vals h1 h2
      have hd : writeDataset f r size (lay n) n = .ok (select vals (rowsOf (r k))) := by
        unfold writeDataset
        rw [h2, h1]
        dsimp only
        rw [if_neg (by simpa using h3), hs k, Int.toNat_natCast]
        exact readLocal vals (r k) (by rw [hlen]; exact hg k) _ h4 h5
      unfold writeData
      rw [hd, ih (fun n hn => hw n (by simp [hn]))]
      simp only [List.map_cons, h1, h2]
      rfl
  · intro n _ k vals h1 h2
    simp only [h1, h2]

/-- `reopen_isSubset` for any state of a mask -/
theorem inv_reopen (f : File K m) (hf : WF f) (hc : ∀ k, f.cells k ≠ []) (s : State m)
    (a : Abs m) (h0 : Inv f s a) (names : List (String × String)) (lay : String × String → Layout)
    (hw : ∀ n ∈ names, Writable f lay n) :
    ∃ out rows, writeBody f s names lay = .ok out ∧ (∀ k, LoadsRows f s k (rows k)) ∧
      (∀ k, ∀ i ∈ rows k, 0 ≤ i ∧ i < (f.rows k : Int)) ∧
      IsSubset f names rows (reopen f out) ∧ WF (reopen f out) ∧ (∀ k, (reopen f out).cells k ≠ []) ∧
      (∀ k, out.numPart k = advertised s k) ∧
      (∀ n k vals, n ∈ names → f.group n.1 = some k → f.field n.1 n.2 = some vals →
        out.data.lookup n = some (select vals (rows k))) ∧
      (∀ n, n ∉ names → out.data.lookup n = none) := by
  obtain ⟨r, hr, hk⟩ := inv_ranges f s a h0
  have hcnt : ∀ k, ∃ counts, maskedCounts f (toRanges s) k = .ok counts ∧
      counts = (table (f.cells k)).map (fun c => ((rowsIn c (rowsOf (r k))).length : Int)) ∧
      counts.sum = (rowsOf (r k)).length ∧
      Contiguous 0 (rowsOf (r k)).length ((prefixOffsets counts).zip counts) ∧
      ∀ (j : Nat) (hj : j < (table (f.cells k)).length), ∃ o n, (prefixOffsets counts)[j]? = some o ∧
        counts[j]? = some n ∧ ((rowsOf (r k)).drop o.toNat).take n.toNat = rowsIn (table (f.cells k))[j] (rowsOf (r k)) := by
    intro k
    obtain ⟨rows, counts, h1, _, h3, h4, h5, h6, h7⟩ := inv_counts f hf hc s a h0 k
    obtain rfl := loadsRows_unique f _ k _ _ h1 (hk k).2.2.2
    refine ⟨counts, h3, h4, ?_, h6, h7⟩
    rw [h5, advertised, (hk k).2.1]
  choose counts hc1 hc2 hc3 hc4 hc5 using hcnt
  obtain ⟨v, hv1, hv2⟩ := writeData_ok f hf r (toRanges s).size (fun k => (hk k).1) (fun k => (hk k).2.1)
    lay names hw
  have hnum : ∀ k, headerCount f (toRanges s).size k = (rowsOf (r k)).length := by
    intro k
    unfold headerCount
    by_cases h0 : f.rows k = 0
    · rw [if_pos h0]
      have : rowsOf (r k) = [] := by
        rw [List.eq_nil_iff_forall_not_mem]
        intro i hi'
        have := (hk k).2.2.1 i hi'
        omega
      rw [this]; rfl
    · rw [if_neg h0, (hk k).2.1]
  let out : SubsetOut K m :=
    { numPart := headerCount f (toRanges s).size
      counts := counts
      offsets := fun k => prefixOffsets (counts k)
      data := names.map (fun n => (n, v n)) }
  have hlookup : ∀ n, out.data.lookup n = if n ∈ names then some (v n) else none := fun n => lookup_map names v n
  have hcl : ∀ k, (counts k).length = (f.cells k).length := by
    intro k; rw [hc2 k]; simp [table]
  have hcne : ∀ k, counts k ≠ [] := by
    intro k he
    have := hcl k
    rw [he] at this
    exact hc k (List.eq_nil_of_length_eq_zero this.symm)
  have hol : ∀ k, (prefixOffsets (counts k)).length = (f.cells k).length := by
    intro k; rw [prefixOffsets_length _ (hcne k), hcl]
  have htab : ∀ k, table ((reopen f out).cells k) = (prefixOffsets (counts k)).zip (counts k) := by
    intro k
    apply List.ext_getElem
    · simp [table, reopen, hcl k, hol k, out]
    · intro j h1 h2
      simp [table, reopen, out]
  have hclen : ∀ k, ((reopen f out).cells k).length = (f.cells k).length := by
    intro k; simp [reopen, hcl k, hol k, out]
  have hrows : ∀ k, (reopen f out).rows k = (rowsOf (r k)).length := by
    intro k
    show (headerCount f (toRanges s).size k).toNat = _
    rw [hnum k, Int.toNat_natCast]
  have hfield : ∀ n, n ∈ names → ∀ k vals, f.group n.1 = some k → f.field n.1 n.2 = some vals →
      (reopen f out).field n.1 n.2 = some (pick vals (rowsOf (r k))) := by
    intro n hn k vals h1 h2
    show (out.data.lookup (n.1, n.2)).map _ = _
    rw [hlookup, if_pos hn, hv2 n hn k vals h1 h2]
    simp only [Option.map_some, select, pick, List.filterMap_map]
    rfl
  refine ⟨out, fun k => rowsOf (r k), ?_, fun k => (hk k).2.2.2, fun k => (hk k).2.2.1, ?_, ?_, ?_, ?_, ?_, ?_⟩
  · unfold writeBody
    rw [hr]
    dsimp only
    rw [forKeys_ok _ counts hc1, hv1]
    rfl
  · refine ⟨rfl, hrows, rfl, rfl, fun n k vals hn h1 h2 => hfield n hn k vals h1 h2, hclen, ?_⟩
    intro k j h1 h2
    have hcell : ((reopen f out).cells k)[j] =
        { (f.cells k)[j] with offset := (prefixOffsets (counts k))[j]'(by rw [hol]; exact h2),
                              count := (counts k)[j]'(by rw [hcl]; exact h2) } := by
      simp [reopen, out]
    rw [hcell]
    refine ⟨rfl, rfl, fun i v hv => ?_⟩
    -- position i of the loaded rows lies in the new cell iff its row lies in the old one
    have hj : j < (table (f.cells k)).length := by simpa [table] using h2
    have hT : (table (f.cells k))[j] = ((f.cells k)[j].offset, (f.cells k)[j].count) := by simp [table]
    have hsl : ∀ (j' : Nat) (hj' : j' < (f.cells k).length) (i : Nat) (v : Int), (rowsOf (r k))[i]? = some v →
        (prefixOffsets (counts k))[j']'(by rw [hol]; exact hj') ≤ i →
        (i : Int) < (prefixOffsets (counts k))[j']'(by rw [hol]; exact hj') + (counts k)[j']'(by rw [hcl]; exact hj') →
        Holds (f.cells k)[j'] v := by
      intro j' hj' i v hv ha hb
      have hj2 : j' < (table (f.cells k)).length := by simpa [table] using hj'
      obtain ⟨o, n, e1, e2, e3⟩ := hc5 k j' hj2
      rw [List.getElem?_eq_getElem (by rw [hol]; exact hj')] at e1
      rw [List.getElem?_eq_getElem (by rw [hcl]; exact hj')] at e2
      injection e1 with e1
      injection e2 with e2
      rw [e1] at ha hb
      rw [e2] at hb
      have hnn : 0 ≤ o := by
        have hz : ((prefixOffsets (counts k)).zip (counts k))[j']'(by simp [hol, hcl]; exact hj') = (o, n) := by
          simp [e1, e2]
        exact (contiguous_mem _ _ _ (hc4 k) (o, n) (hz ▸ List.getElem_mem _)).1
      have hmem : v ∈ ((rowsOf (r k)).drop o.toNat).take n.toNat := by
        rw [List.mem_iff_getElem?]
        refine ⟨i - o.toNat, ?_⟩
        rw [List.getElem?_take_of_lt (by omega), List.getElem?_drop]
        rw [show o.toNat + (i - o.toNat) = i by omega]
        exact hv
      rw [e3] at hmem
      have := (List.mem_filter.mp hmem).2
      unfold inCell at this
      simp [table] at this
      exact this
    constructor
    · rintro ⟨ha, hb⟩
      exact hsl j h2 i v hv ha hb
    · intro hh
      -- the position lies in some new cell; its row then lies in that old cell, which must be cell j
      have hib : (i : Int) < (rowsOf (r k)).length := by
        have := (List.getElem?_eq_some_iff.mp hv).1
        omega
      obtain ⟨c, hcm, hc1', hc2'⟩ := contiguous_cover _ _ _ (hc4 k) i (by omega) hib
      obtain ⟨j', hj', he⟩ := List.mem_iff_getElem.mp hcm
      have hj'' : j' < (f.cells k).length := by
        have := hj'; simp [hol k, hcl k] at this; exact this
      simp only [List.getElem_zip] at he
      have ha : (prefixOffsets (counts k))[j']'(by rw [hol]; exact hj'') = c.1 := by rw [← he]
      have hb : (counts k)[j']'(by rw [hcl]; exact hj'') = c.2 := by rw [← he]
      have hold := hsl j' hj'' i v hv (by rw [ha]; exact hc1') (by rw [ha, hb]; exact hc2')
      have hjj : j' = j := by
        by_contra hne
        have hpw := hf.sorted k
        rw [List.pairwise_iff_getElem] at hpw
        unfold Holds at hold hh
        rcases Nat.lt_or_gt_of_ne hne with hlt | hgt
        · have := hpw j' j hj'' h2 hlt
          omega
        · have := hpw j j' h2 hj'' hgt
          omega
      subst hjj
      refine ⟨?_, ?_⟩
      · dsimp only; rw [ha]; exact hc1'
      · dsimp only; rw [ha, hb]; exact hc2'
  · refine ⟨hf.box_pos, ?_, ?_, ?_⟩
    · intro k
      rw [htab, hrows]
      exact hc4 k
    · intro k c hcm d
      obtain ⟨j, hj, rfl⟩ := List.mem_iff_getElem.mp hcm
      have hj2 : j < (f.cells k).length := by rw [← hclen]; exact hj
      have := hf.near k (f.cells k)[j] (List.getElem_mem hj2) d
      simpa [reopen, out] using this
    · intro g q k vals hg hq
      have hq' : (out.data.lookup (g, q)).map (fun l => l.filterMap id) = some vals := hq
      rw [hlookup] at hq'
      by_cases hn : (g, q) ∈ names
      · obtain ⟨⟨k', vals', h1, h2, _⟩, _, _⟩ := hw (g, q) hn
        have hkk : k' = k := by
          have : f.group g = some k := hg
          rw [h1] at this
          exact Option.some.inj this
        subst hkk
        have := hfield (g, q) hn k' vals' h1 h2
        rw [show (reopen f out).field g q = some vals from hq] at this
        rw [Option.some.inj this, hrows, pick_length]
        rw [hf.fields g q k' vals' h1 h2]
        exact (hk k').2.2.1
      · rw [if_neg hn] at hq'; simp at hq'
  · intro k he
    have := hclen k
    rw [he] at this
    exact hc k (List.eq_nil_of_length_eq_zero this.symm)
  · intro k
    show headerCount f _ k = _
    rw [hnum k, advertised, (hk k).2.1]
  · intro n k vals hn h1 h2
    rw [hlookup, if_pos hn, hv2 n hn k vals h1 h2]
  · intro n hn
    rw [hlookup, if_neg hn]

theorem reopen_isSubset (f : File K m) (hf : WF f) (hc : ∀ k, f.cells k ≠ []) (ops : List (Op K))
    (hi : ∀ op ∈ ops, IndicesOk f op) (names : List (String × String)) (lay : String × String → Layout)
    (hw : ∀ n ∈ names, Writable f lay n) :
    ∃ out rows, writeBody f (run f ops) names lay = .ok out ∧ (∀ k, LoadsRows f (run f ops) k (rows k)) ∧
      (∀ k, ∀ i ∈ rows k, 0 ≤ i ∧ i < (f.rows k : Int)) ∧
      IsSubset f names rows (reopen f out) ∧ WF (reopen f out) ∧ (∀ k, (reopen f out).cells k ≠ []) ∧
      (∀ k, out.numPart k = advertised (run f ops) k) ∧
      (∀ n k vals, n ∈ names → f.group n.1 = some k → f.field n.1 n.2 = some vals →
        out.data.lookup n = some (select vals (rows k))) ∧
      (∀ n, n ∉ names → out.data.lookup n = none) :=
  inv_reopen f hf hc _ _ (inv_run f hf ops hi) names lay hw

/-- C17 (missing part: datasets without rows, `c17_empty_dataset_fails`). For every history that leaves the mask constrained (or with the override), writing succeeds for any set of
datasets that have rows; the header counts are the advertised sizes; every dataset holds exactly the rows that a masked
load of the original returns; and loading it from the new file without a mask gives the same values as the masked load,
whatever the storage of the new file. -/
theorem c17_subset_partial (f : File K m) (hf : WF f) (hc : ∀ k, f.cells k ≠ []) (ops : List (Op K))
    (hi : ∀ op ∈ ops, IndicesOk f op) (allow : Bool) (ha : (run f ops).constrained ≠ none ∨ allow = true)
    (names : List (String × String)) (lay : String × String → Layout) (hw : ∀ n ∈ names, Writable f lay n) :
    ∃ out, writeSubset f (run f ops) allow names lay = .ok out ∧
      (∀ k, out.numPart k = advertised (run f ops) k) ∧
      (∀ n ∈ names, ∀ k vals, f.group n.1 = some k → f.field n.1 n.2 = some vals →
        ∃ new, load (run f ops) (lay n) vals k = .ok (new.map some) ∧
          out.data.lookup n = some (new.map some) ∧ (new.length : Int) = out.numPart k ∧
          (reopen f out).field n.1 n.2 = some new ∧
          ∀ lay', lay' ≠ .remote → (∀ c, lay' = .chunked c → 0 < c) →
            load (init (reopen f out)) lay' new k = .ok (new.map some)) ∧
      (∀ n, n ∉ names → out.data.lookup n = none) := by
  obtain ⟨out, rows, h1, h2, h3, h4, h5, h6, h7, h8, h9⟩ := reopen_isSubset f hf hc ops hi names lay hw
  refine ⟨out, ?_, h7, ?_, h9⟩
  · unfold writeSubset
    rw [if_neg, h1]
    rintro ⟨e1, e2⟩
    rcases ha with ha | ha
    · exact ha e1
    · rw [ha] at e2; cases e2
  · intro n hn k vals hg hv
    have hlen := hf.fields n.1 n.2 k vals hg hv
    have hb : ∀ i ∈ rows k, 0 ≤ i ∧ i < vals.length := by rw [hlen]; exact h3 k
    refine ⟨pick vals (rows k), ?_, ?_, ?_, h4.fields n k vals hn hg hv, ?_⟩
    · obtain ⟨_, hl1, hl2⟩ := hw n hn
      obtain ⟨rows', e1, e2, e3, e4, e5, e6⟩ := c07_masked_read f hf ops hi k vals hlen (lay n) hl1 hl2
      rw [e1, pick_some vals _ hb]
      -- both lists are the rows loaded
      obtain ⟨r, hr, hk⟩ := run_ranges f hf ops hi
      have hr1 := loadsRows_unique f _ k _ _ (h2 k) (hk k).2.2.2
      have : load (run f ops) (lay n) vals k = .ok (select vals (rowsOf (r k))) := by
        unfold load
        rw [hr]
        dsimp only
        rw [(hk k).2.1, Int.toNat_natCast]
        exact readLocal vals (r k) (by rw [hlen]; exact (hk k).1) _ hl1 hl2
      rw [hr1, ← this, e1]
    · rw [h8 n k vals hn hg hv, pick_some vals _ hb]
    · rw [h7, pick_length vals _ hb, ← h7]
      have := h4.rows_eq k
      have hz : (reopen f out).rows k = (out.numPart k).toNat := rfl
      have hnn : 0 ≤ out.numPart k := by
        rw [h7, advertised]
        obtain ⟨r, hr, hk⟩ := run_ranges f hf ops hi
        rw [(hk k).2.1]; exact Int.natCast_nonneg _
      omega
    · intro lay' hl1 hl2
      have hlen' : (pick vals (rows k)).length = (reopen f out).rows k := by
        rw [pick_length vals _ hb, h4.rows_eq]
      obtain ⟨rows', e1, e2, e3, e4, e5, e6⟩ := c07_masked_read (reopen f out) h5 [] (by simp) k _ hlen' lay' hl1 hl2
      have hlt := e6 (by simp [run, init, updateRangeMasks]) (by simp [run, init, updateRangeMasks])
      have hrun : run (reopen f out) [] = init (reopen f out) := rfl
      rw [hrun] at e1 e3
      rw [e1]
      have hinv := inv_initial (reopen f out) h5
      have hfull : ∀ i, i ∈ rows' ↔ 0 ≤ i ∧ i < ((pick vals (rows k)).length : Int) := by
        intro i
        rw [e3, hinv.selects k i, hinv.all rfl k i, hlen']
      have heq : rows' = rowNumbers (pick vals (rows k)).length := by
        refine List.Perm.eq_of_pairwise (le := (· < ·)) ?_ hlt ?_ ?_
        · intro a b _ _ h1 h2; omega
        · unfold rowNumbers
          rw [List.pairwise_map]
          exact List.pairwise_lt_range.imp (fun h => by omega)
        · rw [List.perm_ext_iff_of_nodup]
          · intro i
            rw [hfull]
            simp only [rowNumbers, List.mem_map, List.mem_range]
            constructor
            · rintro ⟨h1, h2⟩; exact ⟨i.toNat, by omega, by omega⟩
            · rintro ⟨j, h1, rfl⟩; omega
          · exact hlt.imp (fun h => by omega)
          · exact List.Nodup.map (fun a b h => by simpa using h) List.nodup_range
      rw [heq]
      congr 1
      unfold select rowNumbers
      apply List.ext_getElem
      · simp
      · intro j h1 h2
        simp only [List.getElem_map, List.getElem_range, valueAt_natCast]
        rw [List.getElem?_eq_getElem]

example : (writeSubset exFile (run exFile [.property "gas" "masses" 2 5]) false
    [("gas", "masses"), ("stars", "masses")] (fun _ => .contiguous)).toOption.map
      (fun o => (o.numPart 0, o.data)) =
    some (3, [(("gas", "masses"), [some 3, some 4, some 5]), (("stars", "masses"), [some 1, some 2, some 3])]) := by
  decide +kernel

/-- A file with one particle type that has no rows. -/
def exEmpty : File ℚ 1 where
  box := fun _ => 4
  rows := fun _ => 0
  cells := fun _ => [exCell 0 0 0]
  homogeneous := false
  group := fun g => if g = "gas" then some 0 else none
  field := fun g q => if g = "gas" ∧ q = "masses" then some [] else none

/-- C17 fails for a dataset without rows: the writer reads its first row and raises, although the masked load returns an
empty array. -/
theorem c17_empty_dataset_fails :
    load (run exEmpty [.spatial [some [0, 1], none, none] false]) .contiguous ([] : List Nat) 0 = .ok [] ∧
    raised (writeSubset exEmpty (run exEmpty [.spatial [some [0, 1], none, none] false]) false [("gas", "masses")]
      (fun _ => .contiguous)) = some .index := by decide +kernel

/-! ## C18 -/

/-- C18. Two subsets in a row: if a first history on the original and a second history on the first subset are both
written, then the dataset in the second subset holds the original values at the composed rows -- the rows of the second
selection looked up among the rows of the first -- and the cells of both subsets are again partitions of their rows,
with cell `j` holding what came from the original cell `j`. (Missing part: a first subset that leaves a particle type
without rows cannot be written again, `c18_emptied_type_fails`.) -/
theorem c18_subset_of_subset_partial (f : File K m) (hf : WF f) (hc : ∀ k, f.cells k ≠ []) (ops1 ops2 : List (Op K))
    (hi1 : ∀ op ∈ ops1, IndicesOk f op) (names : List (String × String))
    (lay1 lay2 : String × String → Layout) (hw : ∀ n ∈ names, Writable f lay1 n) :
    ∃ out1, ∃ rows1 : Fin m → List Int, writeSubset f (run f ops1) true names lay1 = .ok out1 ∧
      (∀ k, LoadsRows f (run f ops1) k (rows1 k)) ∧ WF (reopen f out1) ∧ IsSubset f names rows1 (reopen f out1) ∧
      ((∀ op ∈ ops2, IndicesOk (reopen f out1) op) → (∀ n ∈ names, Writable (reopen f out1) lay2 n) →
        ∃ out2, ∃ rows2 : Fin m → List Int, writeSubset (reopen f out1) (run (reopen f out1) ops2) true names lay2 = .ok out2 ∧
          (∀ k, LoadsRows (reopen f out1) (run (reopen f out1) ops2) k (rows2 k)) ∧
          (∀ k, ∀ i ∈ rows2 k, 0 ≤ i ∧ i < (rows1 k).length) ∧
          WF (reopen (reopen f out1) out2) ∧
          IsSubset f names (fun k => pick (rows1 k) (rows2 k)) (reopen (reopen f out1) out2) ∧
          ∀ n ∈ names, ∀ k vals, f.group n.1 = some k → f.field n.1 n.2 = some vals →
            out2.data.lookup n = some (select vals (pick (rows1 k) (rows2 k)))) := by
  obtain ⟨out1, rows1, a1, a2, a3, a4, a5, a6, a7, a8, a9⟩ := reopen_isSubset f hf hc ops1 hi1 names lay1 hw
  refine ⟨out1, rows1, ?_, a2, a5, a4, ?_⟩
  · unfold writeSubset; rw [if_neg (by simp), a1]
  intro hi2 hw2
  obtain ⟨out2, rows2, b1, b2, b3, b4, b5, b6, b7, b8, b9⟩ :=
    reopen_isSubset (reopen f out1) a5 a6 ops2 hi2 names lay2 hw2
  have hb2 : ∀ k, ∀ i ∈ rows2 k, 0 ≤ i ∧ i < ((rows1 k).length : Int) := by
    intro k i hi'
    have := b3 k i hi'
    rwa [a4.rows_eq] at this
  have hpickpick : ∀ k (vals : List K), vals.length = f.rows k →
      pick (pick vals (rows1 k)) (rows2 k) = pick vals (pick (rows1 k) (rows2 k)) := by
    intro k vals hlen
    have hb1 : ∀ i ∈ rows1 k, 0 ≤ i ∧ i < (vals.length : Int) := by rw [hlen]; exact a3 k
    have hb12 : ∀ i ∈ pick (rows1 k) (rows2 k), 0 ≤ i ∧ i < (vals.length : Int) := by
      intro i hi'
      obtain ⟨j, hj, he⟩ := List.mem_filterMap.mp hi'
      unfold valueAt at he
      rw [if_neg (by have := hb2 k j hj; omega)] at he
      exact hb1 i (List.mem_of_getElem? he)
    have hl1 : (pick vals (rows1 k)).length = (rows1 k).length := pick_length _ _ hb1
    apply List.map_injective_iff.mpr (Option.some_injective _)
    rw [pick_some _ _ (by rw [hl1]; exact hb2 k), pick_some _ _ hb12]
    have e1 := pick_some (rows1 k) (rows2 k) (hb2 k)
    have e0 := pick_some vals (rows1 k) hb1
    apply List.ext_getElem
    · simp [select, pick_length _ _ (hb2 k)]
    · intro j h1 h2
      simp only [select, List.getElem_map]
      have h3 : j < (rows2 k).length := by simpa [select] using h1
      have hj := hb2 k (rows2 k)[j] (List.getElem_mem h3)
      have hp : j < (pick (rows1 k) (rows2 k)).length := by rw [pick_length _ _ (hb2 k)]; exact h3
      have hpj : (pick (rows1 k) (rows2 k))[j] = (rows1 k)[(rows2 k)[j].toNat]'(by omega) := by
        have := congrArg (fun l => l[j]?) e1
        simp only [List.getElem?_map, List.getElem?_eq_getElem hp, Option.map_some, select,
          List.getElem?_eq_getElem h3, Option.some.injEq] at this
        unfold valueAt at this
        rw [if_neg (by omega), List.getElem?_eq_getElem (by omega)] at this
        exact Option.some.inj this
      have hvj : (pick vals (rows1 k))[(rows2 k)[j].toNat]? = valueAt vals ((rows1 k)[(rows2 k)[j].toNat]'(by omega)) := by
        have := congrArg (fun l => l[(rows2 k)[j].toNat]?) e0
        simp only [List.getElem?_map, select] at this
        rw [List.getElem?_eq_getElem (by omega), List.getElem?_eq_getElem (by omega)] at this
        simp only [Option.map_some, Option.some.injEq] at this
        rw [List.getElem?_eq_getElem (by omega), this]
      rw [hpj, ← hvj]
      unfold valueAt
      rw [if_neg (by omega)]
  refine ⟨out2, rows2, ?_, b2, hb2, b5, ?_, ?_⟩
  · unfold writeSubset; rw [if_neg (by simp), b1]
  · refine ⟨b4.box.trans a4.box, ?_, b4.group.trans a4.group, b4.homogeneous.trans a4.homogeneous, ?_,
      fun k => (b4.cells_len k).trans (a4.cells_len k), ?_⟩
    · intro k; rw [b4.rows_eq, pick_length _ _ (hb2 k)]
    · intro n k vals hn hg hv
      have hlen := hf.fields n.1 n.2 k vals hg hv
      rw [b4.fields n k _ hn (by rw [a4.group]; exact hg) (a4.fields n k vals hn hg hv), hpickpick k vals hlen]
    · intro k j h1 h2
      have h3 : j < ((reopen f out1).cells k).length := by rw [a4.cells_len]; exact h2
      have c1 := b4.cells k j h1 h3
      have c2 := a4.cells k j h3 h2
      refine ⟨c1.1.trans c2.1, c1.2.1.trans c2.2.1, ?_⟩
      intro i v hv
      have hi' : i < (rows2 k).length := by
        have := (List.getElem?_eq_some_iff.mp hv).1
        rwa [pick_length _ _ (hb2 k)] at this
      have hw' := hb2 k (rows2 k)[i] (List.getElem_mem hi')
      have d1 := c1.2.2 i (rows2 k)[i] (List.getElem?_eq_getElem hi')
      have e1 := congrArg (fun l => l[i]?) (pick_some (rows1 k) (rows2 k) (hb2 k))
      simp only [List.getElem?_map, hv, Option.map_some, select, List.getElem?_eq_getElem hi',
        Option.some.injEq] at e1
      unfold valueAt at e1
      rw [if_neg (by omega)] at e1
      have d2 := c2.2.2 (rows2 k)[i].toNat v e1.symm
      rw [d1, ← d2]
      have : (((rows2 k)[i].toNat : Nat) : Int) = (rows2 k)[i] := by omega
      rw [this]
  · intro n hn k vals hg hv
    have hlen := hf.fields n.1 n.2 k vals hg hv
    rw [b8 n k _ hn (by rw [a4.group]; exact hg) (a4.fields n k vals hn hg hv)]
    have hb1 : ∀ i ∈ rows1 k, 0 ≤ i ∧ i < (vals.length : Int) := by rw [hlen]; exact a3 k
    have hb12 : ∀ i ∈ pick (rows1 k) (rows2 k), 0 ≤ i ∧ i < (vals.length : Int) := by
      intro i hi'
      obtain ⟨j, hj, he⟩ := List.mem_filterMap.mp hi'
      unfold valueAt at he
      rw [if_neg (by have := hb2 k j hj; omega)] at he
      exact hb1 i (List.mem_of_getElem? he)
    rw [← pick_some _ _ (by rw [pick_length _ _ hb1]; exact hb2 k), hpickpick k vals hlen, pick_some _ _ hb12]

/-- C18. The cells of a written subset are in increasing order for every key, so opening it with a new mask does not
re-order them. -/
theorem c18_order_kept (f : File K (m + 1)) (hf : WF f) (hc : ∀ k, f.cells k ≠ []) (N : Nat)
    (hN : ∀ k, (f.cells k).length = N) (ops : List (Op K)) (hi : ∀ op ∈ ops, IndicesOk f op)
    (names : List (String × String)) (lay : String × String → Layout) (hw : ∀ n ∈ names, Writable f lay n) :
    ∃ out, writeSubset f (run f ops) true names lay = .ok out ∧
      ∀ k, sortedTables (fun k => (out.offsets k).zip (out.counts k)) k = (out.offsets k).zip (out.counts k) := by
  obtain ⟨out, rows, h1, h2, h3, h4, h5, h6, h7, h8, h9⟩ := reopen_isSubset f hf hc ops hi names lay hw
  refine ⟨out, by unfold writeSubset; rw [if_neg (by simp), h1], ?_⟩
  -- the tables are those of the reopened file
  have hshape : ∀ k, table ((reopen f out).cells k) = ((out.offsets k).zip (out.counts k)).take (f.cells k).length := by
    intro k
    apply List.ext_getElem
    · simp [table, reopen]
    · intro j a b; simp [table, reopen]
  have hlen : ∀ k, ((out.offsets k).zip (out.counts k)).length = (f.cells k).length := by
    intro k
    unfold writeBody at h1
    obtain ⟨r, hr, hk⟩ := run_ranges f hf ops hi
    rw [hr] at h1
    dsimp only at h1
    have hcnt : ∀ k, ∃ counts, maskedCounts f (toRanges (run f ops)) k = .ok counts ∧
        counts.length = (f.cells k).length := by
      intro k
      obtain ⟨_, counts, _, _, e, e4, _⟩ := c16_counts f hf hc ops hi k
      exact ⟨counts, e, by rw [e4]; simp [table]⟩
    choose counts hc1 hc2 using hcnt
    rw [forKeys_ok _ counts hc1] at h1
    cases hd : writeData f r (toRanges (run f ops)).size lay names with
    | error e => rw [hd] at h1; cases h1
    | ok d =>
      rw [hd] at h1
      have := Except.ok.inj h1
      rw [← this]
      have hne : counts k ≠ [] := by
        intro he
        have := hc2 k
        rw [he] at this
        exact hc k (List.eq_nil_of_length_eq_zero this.symm)
      simp [prefixOffsets_length _ hne, hc2]
  have heq : ∀ k, table ((reopen f out).cells k) = (out.offsets k).zip (out.counts k) := by
    intro k; rw [hshape, List.take_of_length_le (by rw [hlen])]
  intro k
  refine c55_written_in_index_order _ N (fun k => by rw [hlen, hN]) (fun k => (reopen f out).rows k) (fun k => ?_) k
  rw [← heq]
  exact h5.contiguous k

/-- C18 fails when the first subset keeps no row of some particle type: the empty dataset is written, but a subset of the
subset cannot be taken, even one that keeps everything. -/
theorem c18_emptied_type_fails :
    (writeSubset exFile (run exFile [.spatial [some [5/4, 7/4], none, none] false]) false
        [("gas", "masses"), ("stars", "masses")] (fun _ => .contiguous)).toOption.map (fun out =>
      (out.numPart 0, out.numPart 1,
        raised (writeSubset (reopen exFile out) (run (reopen exFile out) [.spatial [none, none, none] false]) false
          [("gas", "masses"), ("stars", "masses")] (fun _ => .contiguous)))) =
    some (1, 0, some .index) := by decide +kernel

/-! ## C20 -/

/-- A call that constrains the mask (as opposed to one that only changes its representation). -/
def IsConstraint : Op K → Prop
  | .toBool => False
  | .toRanges => False
  | _ => True

/-- Some constraint call of the history returned without an exception. -/
def SomeConstraintAccepted (f : File K m) (ops : List (Op K)) : Prop :=
  ∃ pre op post, ops = pre ++ op :: post ∧ IsConstraint op ∧ (step f (run f pre) op).2 = none

omit [IsStrictOrderedRing K] in
private theorem step_constrained (f : File K m) (s : State m) (op : Op K) :
    (step f s op).1.constrained ≠ none ↔ s.constrained ≠ none ∨ (IsConstraint op ∧ (step f s op).2 = none) := by
  have hdec : ∀ (kind : Kind) (r : State m × Option Err), r.1.constrained = s.constrained →
      ((decorate kind r).1.constrained ≠ none ↔ s.constrained ≠ none ∨ (True ∧ (decorate kind r).2 = none)) := by
    rintro kind ⟨s', e⟩ h
    cases e with
    | none => simp [decorate]
    | some e => simp only [decorate]; rw [h]; simp
  have htb : ∀ s : State m, (Mask.toBool f s).constrained = s.constrained := by
    intro s; unfold Mask.toBool; cases s.rep <;> rfl
  have htr : ∀ s : State m, (toRanges s).constrained = s.constrained := by
    intro s; unfold toRanges; cases s.rep <;> rfl
  have hup : ∀ s : State m, (updateRangeMasks f s).constrained = s.constrained := by
    intro s; unfold updateRangeMasks; cases s.rep <;> rfl
  have hind : ∀ l, (indicesBody f s l).1.constrained = s.constrained := by
    intro l
    unfold indicesBody
    split
    · rfl
    · split
      · rfl
      · cases s.rep with
        | ranges r => rfl
        | bools b => dsimp only; split <;> rfl
  cases op with
  | toBool => simp only [step, IsConstraint, htb]; simp
  | toRanges => simp only [step, IsConstraint, htr]; simp
  | spatial region union =>
    refine hdec _ _ ?_
    unfold spatialBody
    cases sanitizeRegion f.box region with
    | error e => rfl
    | ok reg =>
      dsimp only
      repeat' split
      all_goals first | rfl | (rw [hup]; rfl)
  | property g q lo hi =>
    refine hdec _ _ ?_
    unfold propertyBody
    have := htb s
    dsimp only
    repeat' split
    all_goals first | exact this
  | indices l => exact hdec _ _ (hind l)
  | index i =>
    simp only [step, indexBody, IsConstraint]
    by_cases h : s.constrained = none
    · rw [if_neg (by simpa using h)]
      have := hind [i]
      cases hb : indicesBody f s [i] with
      | mk s' e =>
        rw [hb] at this
        cases e with
        | none => simp [decorate]
        | some e => simp only [decorate]; rw [this]; simp
    · rw [if_pos h]; simp [decorate]

omit [IsStrictOrderedRing K] in
/-- C20. For every file and every history: without the override, `write_subset` raises ValueError exactly for the reason
of an unconstrained mask when no constraint call was accepted, and otherwise behaves as with the override. Calls that
raised, and conversions between representations, do not count. -/
theorem c20_guard (f : File K m) (ops : List (Op K)) (names : List (String × String)) (lay : String × String → Layout) :
    (¬ SomeConstraintAccepted f ops → writeSubset f (run f ops) false names lay = .error .value) ∧
    (SomeConstraintAccepted f ops →
      writeSubset f (run f ops) false names lay = writeSubset f (run f ops) true names lay) ∧
    writeSubset f (run f ops) true names lay = writeBody f (run f ops) names lay := by
  have key : (run f ops).constrained ≠ none ↔ SomeConstraintAccepted f ops := by
    induction ops using List.reverseRecOn with
    | nil =>
      refine ⟨fun h => absurd (by simp [run, init, updateRangeMasks]) h, ?_⟩
      rintro ⟨pre, op, post, h, _⟩
      simp at h
    | append_singleton ops op ih =>
      have hrun : run f (ops ++ [op]) = (step f (run f ops) op).1 := by simp [run]
      rw [hrun, step_constrained, ih]
      constructor
      · rintro (⟨pre, o, post, h1, h2, h3⟩ | ⟨h1, h2⟩)
        · exact ⟨pre, o, post ++ [op], by rw [h1]; simp, h2, h3⟩
        · exact ⟨ops, op, [], rfl, h1, h2⟩
      · rintro ⟨pre, o, post, h1, h2, h3⟩
        rcases List.eq_nil_or_concat post with rfl | ⟨post', x, rfl⟩
        · have := List.append_inj' h1 rfl
          obtain ⟨rfl, h⟩ := this
          obtain rfl : op = o := by simpa using h
          exact Or.inr ⟨h2, h3⟩
        · have h1' : ops ++ [op] = (pre ++ o :: post') ++ [x] := by rw [h1]; simp
          have := List.append_inj' h1' rfl
          exact Or.inl ⟨pre, o, post', this.1, h2, h3⟩
  refine ⟨fun h => ?_, fun h => ?_, ?_⟩
  · unfold writeSubset
    rw [if_pos ⟨by by_contra hc; exact h (key.mp hc), rfl⟩]
  · unfold writeSubset
    rw [if_neg (fun hc => key.mpr h hc.1), if_neg (by simp)]
  · unfold writeSubset
    rw [if_neg (by simp)]

example : SomeConstraintAccepted exFile [.toBool, .indices [1], .spatial [none, none, none] false] ∧
    raised (writeSubset exFile (run exFile [.toBool, .indices [1]]) false [("gas", "masses")] (fun _ => .contiguous))
      = some .value := by
  refine ⟨⟨[.toBool, .indices [1]], _, [], rfl, trivial, by decide +kernel⟩, by decide +kernel⟩

end Verif.Props
