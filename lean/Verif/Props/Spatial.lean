import Verif.Props.Mask
import Verif.Model.CellSort

/-!
# C12, C13, C14, C55: spatial masks, cell bounding boxes and cell order (`swiftsimio/masks.py`)
-/

namespace Verif.Props
open Verif Verif.Spec Verif.Accel Verif.Mask

variable {K : Type} [Field K] [LinearOrder K] [IsStrictOrderedRing K] {m : Nat}

/-! ## C12 -/

/-- A particle at `x` lies strictly inside the requested interval, up to whole boxes. -/
def InsideAxis (L lower upper x : K) : Prop :=
  ∃ j : ℤ, lower < x + (j : K) * L ∧ x + (j : K) * L < wrapUpper L lower upper

/-- one axis of C12 -/
theorem c12_axis (box : Fin 3 → K) (reg : Fin 3 → K × K) (d : Fin 3) (c : Cell K) (x : K) (hL : 0 < box d)
    (hl : -box d / 2 ≤ (reg d).1 ∧ (reg d).1 ≤ 3 * box d / 2)
    (hu : -box d / 2 ≤ (reg d).2 ∧ (reg d).2 ≤ 3 * box d / 2)
    (hx : 0 ≤ x ∧ x ≤ box d) (hc : c.lo d ≤ x ∧ x ≤ c.hi d) (hin : InsideAxis (box d) (reg d).1 (reg d).2 x) :
    keepsAxis box reg d c = true := by
  unfold keepsAxis
  by_cases hw : |(reg d).2 - (reg d).1| > box d
  · simp [hw]
  · obtain ⟨n1, n2, _⟩ := normalise_window hl hu hw
    obtain ⟨s, e1, e2⟩ := normalise_shift (L := box d) (reg d).1 (reg d).2
    obtain ⟨j, ha, hb⟩ := hin
    rw [if_neg hw]
    have hx' : axisKeep (box d) (normaliseAxis (box d) (reg d).1 (reg d).2).1
        (normaliseAxis (box d) (reg d).1 (reg d).2).2 x x = true := by
      rw [axisKeep_iff_any hL n1 n2 (by linarith) (by linarith), e1, e2]
      refine ⟨j + s, ?_, ?_⟩ <;> push_cast <;> linarith
    rw [axisKeep_iff] at hx' ⊢
    obtain ⟨j', hj, h1, h2⟩ := hx'
    exact ⟨j', hj, by linarith, by linarith⟩

/-- C12. A particle whose position lies strictly inside the requested box, along every axis and up to periodic copies,
belongs to a selected cell, for every region in the accepted window (inverted intervals wrap around) and every cell
whose bounding box contains the particle. -/
theorem c12_complete_cells (box : Fin 3 → K) (hL : ∀ d, 0 < box d) (reg : Fin 3 → K × K) (hw : InWindow box reg)
    (cells : List (Cell K)) (n : Nat) (c : Cell K) (hn : cells[n]? = some c) (x : Fin 3 → K)
    (hx : ∀ d, 0 ≤ x d ∧ x d ≤ box d) (hc : ∀ d, c.lo d ≤ x d ∧ x d ≤ c.hi d)
    (hin : ∀ d, InsideAxis (box d) (reg d).1 (reg d).2 (x d)) :
    (cellMaskOf box reg cells)[n]? = some true := by
  rw [cellMaskOf_eq, List.getElem?_map, hn]
  have key : ∀ d, keepsAxis box reg d c = true := fun d =>
    c12_axis box reg d c (x d) (hL d) (hw d).1 (hw d).2 (hx d) (hc d) (hin d)
  simp [key]

/-- C12 for the mask object: after `constrain_spatial` on a fresh mask every such particle's row is selected. -/
theorem c12_complete_rows (f : File K m) (hf : WF f) (rows : List (Option (List K))) (reg : Fin 3 → K × K)
    (hr : RegionIs f.box rows reg) (hw : InWindow f.box reg) (union : Bool) (k : Fin m) (i : Int) (c : Cell K)
    (hc : c ∈ f.cells k) (hh : Holds c i) (x : Fin 3 → K) (hx : ∀ d, c.lo d ≤ x d ∧ x d ≤ c.hi d)
    (hin : ∀ d, InsideAxis (f.box d) (reg d).1 (reg d).2 (x d)) :
    Selects (run f [.spatial rows union]) k i := by
  rw [c09_history_as_built f hf _ (by simp [IndicesOk])]
  unfold builtRun
  simp only [List.foldl_cons, List.foldl_nil, builtStep]
  have hacc : Accepts f (absInit f) (.spatial rows union) := ⟨⟨reg, hr, hw⟩, Or.inl rfl⟩
  rw [if_pos hacc]
  have hne := hf.nonneg k c hc
  have hb : (absInit f).sel k i := by
    unfold Holds at hh
    show 0 ≤ i ∧ i < f.rows k
    omega
  refine ⟨Or.inl ⟨reg, hr, c, hc, hh, fun d => Or.inr ?_⟩, fun _ => hb⟩
  obtain ⟨j, h1, h2⟩ := hin d
  exact ⟨j, by linarith [(hx d).2], by linarith [(hx d).1]⟩

/-- worked example: an inverted interval through the boundary of the box finds the particle at 1/4 -/
example : InsideAxis (4 : ℚ) (7/2) (1/2) (1/4) ∧
    rowsLoaded (run exFile [.spatial [some [7/2, 1/2], none, none] false]) 0 6
      = .ok [some 0, some 1, some 4, some 5] := by
  refine ⟨⟨1, by norm_num, by norm_num [wrapUpper]⟩, by decide +kernel⟩

/-- C12 is about open regions: a particle exactly on the upper face of the region, in a cell that starts there, is not
selected. -/
theorem c12_closed_region_fails :
    cellMaskOf (fun _ => (4 : ℚ)) (fun _ => (0, 1)) [exCell 0 1 1] = [false] := by decide +kernel

/-! ## C13 -/

/-- C13. For cells whose bounding boxes are within half a box of the box, a cell is selected exactly if along every
axis its box overlaps the region or a periodic copy of it, or the region is longer than the box there. -/
theorem c13_selected_iff (box : Fin 3 → K) (hL : ∀ d, 0 < box d) (reg : Fin 3 → K × K) (hw : InWindow box reg)
    (cells : List (Cell K)) (n : Nat) (c : Cell K) (hn : cells[n]? = some c)
    (hc : ∀ d, -box d / 2 ≤ c.lo d ∧ c.hi d ≤ 3 * box d / 2) :
    (cellMaskOf box reg cells)[n]? = some true ↔ Meets box reg c := by
  rw [cellMaskOf_eq, List.getElem?_map, hn]
  have key : ∀ d, keepsAxis box reg d c = true ↔ MeetsAxis (box d) (reg d).1 (reg d).2 (c.lo d) (c.hi d) := fun d =>
    keepsAxis_iff box reg d c (hL d) (hw d).1 (hw d).2 (hc d).1 (hc d).2
  simp only [Option.map_some, Option.some.injEq, Bool.and_eq_true, key, Meets]
  constructor
  · rintro ⟨⟨h0, h1⟩, h2⟩ d
    fin_cases d
    · exact h0
    · exact h1
    · exact h2
  · exact fun h => ⟨⟨h 0, h 1⟩, h 2⟩

/-- C13. Tightness needs no assumption on cells or region: every selected cell overlaps the region. -/
theorem c13_selected_meets (box : Fin 3 → K) (reg : Fin 3 → K × K) (cells : List (Cell K)) (n : Nat) (c : Cell K)
    (hn : cells[n]? = some c) (h : (cellMaskOf box reg cells)[n]? = some true) : Meets box reg c := by
  rw [cellMaskOf_eq, List.getElem?_map, hn] at h
  simp only [Option.map_some, Option.some.injEq, Bool.and_eq_true] at h
  have key : ∀ d, keepsAxis box reg d c = true → MeetsAxis (box d) (reg d).1 (reg d).2 (c.lo d) (c.hi d) := by
    intro d hd
    unfold keepsAxis at hd
    unfold MeetsAxis
    by_cases hw : |(reg d).2 - (reg d).1| > box d
    · exact Or.inl hw
    · rw [if_neg hw, axisKeep_iff] at hd
      obtain ⟨j, _, h1, h2⟩ := hd
      right
      by_cases hinv : (reg d).2 < (reg d).1
      · simp only [normaliseAxis, hinv, if_true, wrapUpper] at h1 h2 ⊢
        by_cases h3 : (reg d).1 > box d / 2
        · simp only [h3, if_true] at h1 h2
          refine ⟨j + 1, ?_, ?_⟩
          · push_cast; linarith
          · push_cast; linarith
        · simp only [h3, if_false] at h1 h2
          split_ifs at h1 h2 with h4
          · exact ⟨j, h1, h2⟩
          · exact absurd (lt_of_lt_of_le hinv (not_lt.mp h3)) h4
      · simp only [normaliseAxis, hinv, if_false, wrapUpper] at h1 h2 ⊢
        exact ⟨j, h1, h2⟩
  intro d
  fin_cases d
  · exact key 0 h.1.1
  · exact key 1 h.1.2
  · exact key 2 h.2

omit [IsStrictOrderedRing K] in
/-- C13. A region with an end outside the accepted window raises a ValueError and leaves the mask as it was. -/
theorem c13_window_raises (f : File K m) (s : State m) (rows : List (Option (List K))) (union : Bool)
    (reg : Fin 3 → K × K) (hr : RegionIs f.box rows reg) (hw : ¬ InWindow f.box reg)
    (ho : OrderOk s.constrained (.spatial rows union : Op K)) :
    step f s (.spatial rows union) = (s, some .value) := by
  have hno : ¬ regionOk f.box reg = true := fun h => hw ((regionOk_iff _ _).mp h)
  simp only [step, spatialBody, (sanitize_ok_iff f.box rows reg).mpr hr, hno]
  simp only [OrderOk] at ho
  by_cases h1 : s.constrained = some .spatial ∧ union = true
  · simp [h1, decorate]
  · have h2 : s.constrained = none := by
      rcases ho with h | h
      · exact h
      · exact absurd h h1
    simp [h2, decorate]

/-- C13. An axis given as `None`, or longer than the box, is no restriction: every cell with a proper extent passes. -/
theorem c13_free_axis (box : Fin 3 → K) (reg : Fin 3 → K × K) (d : Fin 3) (c : Cell K) (hL : 0 < box d)
    (hc : -box d / 2 ≤ c.lo d ∧ c.lo d < c.hi d ∧ c.hi d ≤ 3 * box d / 2)
    (hfree : reg d = (0, box d) ∨ |(reg d).2 - (reg d).1| > box d) :
    MeetsAxis (box d) (reg d).1 (reg d).2 (c.lo d) (c.hi d) := by
  rcases hfree with h | h
  · right
    rw [h]
    have hno : ¬ (box d < 0) := by linarith
    simp only [wrapUpper, hno, if_false]
    obtain ⟨h1, h2, h3⟩ := hc
    by_cases ha : c.hi d ≤ 0
    · exact ⟨1, by push_cast; linarith, by push_cast; linarith⟩
    · by_cases hb : box d ≤ c.lo d
      · exact ⟨-1, by push_cast; linarith, by push_cast; linarith⟩
      · exact ⟨0, by push_cast; linarith, by push_cast; linarith⟩
  · exact Or.inl h

example : step exFile (init exFile) (.spatial [some [-3, 1], none, none] false) = (init exFile, some .value) :=
  c13_window_raises exFile (init exFile) _ _ (fun d => if d = 0 then (-3, 1) else (0, 4))
    ⟨rfl, fun d => by fin_cases d <;> simp [exFile]⟩
    (fun h => by have := (h 0).1.1; norm_num [exFile] at this) (Or.inl rfl)

example : (cellMaskOf (fun _ => (4 : ℚ)) (fun d => if d = 0 then (7/2, 1/2) else (0, 4))
    [exCell 0 1 0, exCell 1 1 1, exCell 2 1 2, exCell 3 1 3]) = [true, false, false, true] := by decide +kernel

/-! ## C14 -/

/-- C14. The bounding box of a cell contains the geometric cell. -/
theorem c14_contains_geometric (size : Fin 3 → K) (hs : ∀ d, 0 ≤ size d) (pad : K) (hp : 0 ≤ pad) (c : RawCell K)
    (d : Fin 3) :
    (boundingBox size pad c).lo d ≤ c.centre d - size d / 2 ∧ c.centre d + size d / 2 ≤ (boundingBox size pad c).hi d := by
  have h1 : 0 ≤ pad * size d := mul_nonneg hp (hs d)
  unfold boundingBox
  rcases c.extent with _ | ⟨mn, mx⟩
  · dsimp only
    constructor <;> linarith
  · dsimp only
    constructor <;> split_ifs <;> linarith

/-- C14. With recorded extents, the bounding box contains them, hence every particle the file assigns to the cell. -/
theorem c14_contains_extents (size : Fin 3 → K) (pad : K) (c : RawCell K) (mn mx : Fin 3 → K)
    (he : c.extent = some (mn, mx)) (d : Fin 3) :
    (boundingBox size pad c).lo d ≤ mn d ∧ mx d ≤ (boundingBox size pad c).hi d := by
  unfold boundingBox
  rw [he]
  dsimp only
  constructor <;> split_ifs <;> linarith

/-- C14. Without recorded extents, the bounding box contains every particle that drifted out of the cell by at most
`pad` cell sizes. -/
theorem c14_contains_drifted (size : Fin 3 → K) (pad : K) (c : RawCell K) (he : c.extent = none) (d : Fin 3) (x : K)
    (h1 : c.centre d - size d / 2 - pad * size d ≤ x) (h2 : x ≤ c.centre d + size d / 2 + pad * size d) :
    (boundingBox size pad c).lo d ≤ x ∧ x ≤ (boundingBox size pad c).hi d := by
  unfold boundingBox
  rw [he]
  dsimp only
  constructor <;> linarith

/-- C14. The box is no larger than needed: without extents it is the cell padded by exactly `pad` cell sizes, with
extents each face is that of the cell or that of the extents. -/
theorem c14_no_larger (size : Fin 3 → K) (pad : K) (c : RawCell K) (d : Fin 3) :
    match c.extent with
    | none => (boundingBox size pad c).lo d = c.centre d - size d / 2 - pad * size d ∧
        (boundingBox size pad c).hi d = c.centre d + size d / 2 + pad * size d
    | some e => (boundingBox size pad c).lo d = min (c.centre d - size d / 2) (e.1 d) ∧
        (boundingBox size pad c).hi d = max (c.centre d + size d / 2) (e.2 d) := by
  unfold boundingBox
  rcases c.extent with _ | ⟨mn, mx⟩
  · dsimp only
    constructor <;> ring
  · dsimp only
    have e : 1 / 2 * size d = size d / 2 := by ring
    rw [e]
    constructor
    · split_ifs with h
      · rw [min_eq_left h.le]
      · rw [min_eq_right (not_lt.mp h)]
    · split_ifs with h
      · rw [max_eq_left h.le]
      · rw [max_eq_right (not_lt.mp h)]

omit [LinearOrder K] [IsStrictOrderedRing K] in
/-- C14. The padding of particle snapshots is what the user asked for, `True` being a tenth of a cell; group catalogues
are not padded. -/
theorem c14_padding (x : K) : padCells false (.frac x) = x ∧ padCells false (.flag true : Padding K) = 1 / 10 ∧
    padCells false (.flag false : Padding K) = 0 ∧ ∀ p : Padding K, padCells true p = 0 := by
  simp [padCells]

example : (boundingBox (fun _ => (2 : ℚ)) (1/10) ⟨0, 3, fun _ => 5, some (fun _ => 7/2, fun _ => 5)⟩).lo 0 = 7/2 ∧
    (boundingBox (fun _ => (2 : ℚ)) (1/10) ⟨0, 3, fun _ => 5, some (fun _ => 7/2, fun _ => 5)⟩).hi 0 = 6 := by
  constructor <;> norm_num [boundingBox]

/-! ## C55 -/

private theorem insertionSort_sorted_eq {β : Type} (key : β → Int) :
    ∀ l : List β, l.Pairwise (fun a b => key a ≤ key b) → l.insertionSort (fun a b => key a ≤ key b) = l := by
  intro l h
  induction l with
  | nil => rfl
  | cons a l ih =>
    have h' := List.pairwise_cons.mp h
    rw [List.insertionSort_cons, ih h'.2]
    cases l with
    | nil => rfl
    | cons b l =>
      exact List.orderedInsert_cons_of_le (fun a b => key a ≤ key b) l (h'.1 b (by simp))

/-- already sorted values keep their places -/
private theorem argsort_sorted (xs : List Int) (h : xs.Pairwise (· ≤ ·)) : argsort xs = List.range xs.length := by
  unfold argsort
  have hp : xs.zipIdx.Pairwise (fun a b => a.1 ≤ b.1) := by
    have : (xs.zipIdx.map Prod.fst).Pairwise (· ≤ ·) := by rw [List.zipIdx_map_fst]; exact h
    exact List.pairwise_map.mp this
  rw [insertionSort_sorted_eq (fun p : Int × Nat => p.1) _ hp]
  rw [List.zipIdx_map_snd, List.range_eq_range']

private theorem applySort_range {β : Type} (xs : List β) : applySort (List.range xs.length) xs = xs := by
  unfold applySort
  induction xs with
  | nil => simp
  | cons x xs ih =>
    rw [List.length_cons, List.range_succ_eq_map, List.filterMap_cons]
    simp only [List.getElem?_cons_zero, List.filterMap_map]
    congr 1

/-- C55. If the cells were written in index order (a run on one node, or a subset file), the order used by the mask is
the file order, so for every particle type the cells follow each other: empty cells of any type do not matter. -/
theorem c55_written_in_index_order (tables : Fin (m + 1) → CellTable) (N : Nat) (hN : ∀ k, (tables k).length = N)
    (n : Fin (m + 1) → Int) (h : ∀ k, Contiguous 0 (n k) (tables k)) (k : Fin (m + 1)) : sortedTables tables k = tables k := by
  have hs : ((tables 0).map (·.1)).Pairwise (· ≤ ·) := by
    rw [List.pairwise_map]
    refine List.Pairwise.imp_of_mem ?_ (contiguous_sorted _ _ _ (h 0))
    intro a b ha hb hab
    have := (contiguous_mem _ _ _ (h 0) a ha).2.1
    omega
  unfold sortedTables cellSort
  rw [argsort_sorted _ hs, List.length_map, hN 0, ← hN k]
  exact applySort_range _

private theorem perm_sorted_unique {β : Type} (key : β → Int) (l1 l2 : List β) (hp : l1.Perm l2)
    (h1 : l1.Pairwise (fun a b => key a < key b)) (h2 : l2.Pairwise (fun a b => key a ≤ key b)) : l1 = l2 := by
  have h2' : l2.Pairwise (fun a b => key a < key b) := by
    have hinj : ∀ a ∈ l1, ∀ b ∈ l1, key a = key b → a = b := by
      intro a ha b hb hab
      by_contra hne
      have hsym : (l1).Pairwise (fun a b => key a ≠ key b) := h1.imp (fun h => ne_of_lt h)
      have : Std.Symm (fun a b : β => key a ≠ key b) := ⟨fun _ _ h => h.symm⟩
      exact hsym.forall ha hb hne hab
    have hnd1 : l1.Nodup := h1.imp (fun h he => by rw [he] at h; exact absurd h (lt_irrefl _))
    have hnd : l2.Nodup := hp.nodup_iff.mp hnd1
    refine List.Pairwise.imp_of_mem ?_ (h2.and hnd)
    intro a b ha hb hab
    refine lt_of_le_of_ne hab.1 (fun he => hab.2 ?_)
    exact hinj a (hp.mem_iff.mpr ha) b (hp.mem_iff.mpr hb) he
  refine List.Perm.eq_of_pairwise (le := fun a b => key a < key b) ?_ h1 h2' hp
  intro a b _ _ hab hba
  exact absurd hab (not_lt.mpr hba.le)

/-- C55. If the cells were written in any order `ord` and every cell holds at least one particle of the first type, the
mask recovers that order, so for every particle type the cells follow each other. -/
theorem c55_written_in_any_order_partial (tables : Fin (m + 1) → CellTable) (N : Nat)
    (hN : ∀ k, (tables k).length = N) (ord : List Nat) (hord : ord.Perm (List.range N))
    (n : Fin (m + 1) → Int) (h : ∀ k, Contiguous 0 (n k) (applySort ord (tables k))) (hpos : ∀ c ∈ tables 0, 0 < c.2) (k : Fin (m + 1)) :
    Contiguous 0 (n k) (sortedTables tables k) := by
  suffices hs : cellSort (tables 0) = ord by
    unfold sortedTables; rw [hs]; exact h k
  have hlt : ∀ i ∈ ord, i < N := fun i hi => List.mem_range.mp (hord.mem_iff.mp hi)
  have hget : ∀ i (hi : i < N), (tables 0)[i]? = some ((tables 0)[i]'(by rw [hN]; exact hi)) := fun i hi =>
    List.getElem?_eq_getElem _
  -- offsets along `ord` increase strictly
  let key : Nat → Int := fun i => ((tables 0)[i]?.map (·.1)).getD 0
  have hpw : ord.Pairwise (fun a b => key a < key b) := by
    have hc := contiguous_sorted _ _ _ (h 0)
    unfold applySort at hc
    rw [List.pairwise_filterMap] at hc
    refine List.Pairwise.imp_of_mem ?_ hc
    intro a b ha hb hab
    have ha' := hget a (hlt a ha)
    have hb' := hget b (hlt b hb)
    have h1 := hab _ ha' _ hb'
    have h2 := hpos _ (List.getElem_mem (l := tables 0) (n := a) (by rw [hN]; exact hlt a ha))
    simp only [key, ha', hb', Option.map_some, Option.getD_some]
    omega
  have hsort : (cellSort (tables 0)).Pairwise (fun a b => key a ≤ key b) := by
    unfold cellSort argsort
    rw [List.pairwise_map]
    have hso : (((tables 0).map (·.1)).zipIdx.insertionSort (fun a b : Int × Nat => a.1 ≤ b.1)).Pairwise
        (fun a b => a.1 ≤ b.1) := by
      have : Std.Total (fun a b : Int × Nat => a.1 ≤ b.1) := ⟨fun a b => Int.le_total a.1 b.1⟩
      have : IsTrans (Int × Nat) (fun a b : Int × Nat => a.1 ≤ b.1) := ⟨fun a b c h1 h2 => Int.le_trans h1 h2⟩
      exact List.pairwise_insertionSort _ _
    refine List.Pairwise.imp_of_mem ?_ hso
    intro a b ha hb hab
    have hka : ∀ p ∈ ((tables 0).map (·.1)).zipIdx, key p.2 = p.1 := by
      intro p hp
      obtain ⟨x, n⟩ := p
      have := List.mem_zipIdx_iff_getElem?.mp hp
      simp only [List.getElem?_map] at this
      simp only [key, this, Option.getD_some]
    have ha' := hka a ((List.perm_insertionSort _ _).mem_iff.mp ha)
    have hb' := hka b ((List.perm_insertionSort _ _).mem_iff.mp hb)
    rw [ha', hb']; exact hab
  have hperm : ord.Perm (cellSort (tables 0)) := by
    refine hord.trans ?_
    have := argsort_perm ((tables 0).map (·.1))
    rw [List.length_map, hN] at this
    exact this.symm
  exact (perm_sorted_unique key ord _ hperm hpw hsort).symm

/-- The two cells of a snapshot written by two nodes: cell 1 first, then cell 0. Cell 1 holds no gas. -/
def exTables : Fin 2 → CellTable := fun k => if k = 0 then [(0, 3), (0, 0)] else [(2, 3), (0, 2)]

/-- C55 fails when a cell holds no particle of the first type: both tables are contiguous in the order in which the cells
were written, but the cells of the second type come out in decreasing order, and a chunked load of that type through the
fresh mask raises. -/
theorem c55_empty_first_type_fails :
    (∀ k, Contiguous 0 (if k = 0 then 3 else 5) (applySort [1, 0] (exTables k))) ∧
    sortedTables exTables 1 = [(2, 3), (0, 2)] ∧
    readRanges (.chunked 2) (List.range 5) ((sortedTables exTables 1).map (fun c => (c.1, c.2 + c.1))) 5
      = .error .index := by
  refine ⟨fun k => ?_, by decide +kernel, by decide +kernel⟩
  fin_cases k <;> simp [exTables, applySort, Contiguous]

example : sortedTables (fun k : Fin 2 => if k = 0 then [(4, 3), (0, 4)] else [(1, 2), (0, 1)]) 1 = [(0, 1), (1, 2)] := by
  decide +kernel

end Verif.Props
