import Verif.Props.RoundedPrograms
import Verif.Props.Subset

/-!
# C149: subsets written with masks of regions and cuts in double precision (`swiftsimio/subset_writer.py`, `swiftsimio/masks.py`)
-/

namespace Verif.Props
open Verif Verif.Spec Verif.Accel Verif.Mask Verif.RoundedBounds

variable {K : Type} [Field K] [LinearOrder K] [IsStrictOrderedRing K] {m : Nat}

/-- The rows that a mask of regions and cuts is to have. -/
def ProgramRows (fl flx flq : K → K) (f : File K m) (disk : String → String → Option (Column K)) (regions : List (List (Option (List K))))
    (cuts : List (RoundedBounds.Call K)) (rows : Fin m → List Int) : Prop :=
  ∀ k, (rows k).Pairwise (· < ·) ∧ (∀ i ∈ rows k, 0 ≤ i ∧ i < (f.rows k : Int)) ∧
    ∀ i, i ∈ rows k ↔ Selects (RoundedMask.spatials fl f regions) k i ∧ ∀ t ∈ cuts, f.group t.group = some k → BetweenBounds flx flq disk t i

/-- C149. A subset that is written with a mask of rounded regions and cuts has exactly the rows that the mask selects: its header counts, its cells
and its datasets are those of these rows, and it is a file that masks can be made from again. -/
theorem c149_subset (fl flx flq : K → K) (f : File K m) (hf : WF f) (hc : ∀ k, f.cells k ≠ []) (disk : String → String → Option (Column K))
    (hd : ColumnsFit f disk) (regions : List (List (Option (List K)))) (cuts : List (RoundedBounds.Call K)) (allow : Bool)
    (ha : (RoundedBounds.properties flx flq f disk (RoundedMask.spatials fl f regions) cuts).constrained ≠ none ∨ allow = true)
    (names : List (String × String)) (lay : String × String → Layout) (hw : ∀ n ∈ names, Writable f lay n) :
    ∃ out rows, writeSubset f (RoundedBounds.properties flx flq f disk (RoundedMask.spatials fl f regions) cuts) allow names lay = .ok out ∧
      ProgramRows fl flx flq f disk regions cuts rows ∧ IsSubset f names rows (reopen f out) ∧ WF (reopen f out) ∧
      (∀ k, (reopen f out).cells k ≠ []) ∧ (∀ k, out.numPart k = (rows k).length) ∧
      (∀ n k vals, n ∈ names → f.group n.1 = some k → f.field n.1 n.2 = some vals → out.data.lookup n = some (select vals (rows k))) ∧
      ∀ n, n ∉ names → out.data.lookup n = none := by
  obtain ⟨a, h0⟩ := program_inv fl flx flq f hf disk hd regions cuts
  have hrd := fun k => c147_read fl flx flq f hf disk hd regions cuts k (rowNumbers (f.rows k)) (by simp [rowNumbers]) .contiguous (by simp) (by simp)
  obtain ⟨out, rows, h1, h2, h3, h4, h5, h6, h7, h8, h9⟩ := inv_reopen f hf hc _ a h0 names lay hw
  refine ⟨out, rows, ?_, fun k => ?_, h4, h5, h6, fun k => ?_, h8, h9⟩
  · unfold writeSubset
    rw [if_neg, h1]
    rintro ⟨e1, e2⟩
    rcases ha with ha | ha
    · exact ha e1
    · rw [ha] at e2; cases e2
  · obtain ⟨l, r1, r2, r3, r4⟩ := hrd k
    have hb : ∀ i ∈ l, 0 ≤ i ∧ i < (f.rows k : Int) := fun i hi => by simpa [rowNumbers] using r4 i hi
    have e : rows k = l := loadsRows_unique f _ k _ _ (h2 k) (by unfold LoadsRows; rw [r1, select_rowNumbers _ _ hb])
    rw [e]
    exact ⟨r2, hb, r3⟩
  · rw [h7]
    obtain ⟨r, hr, hk⟩ := inv_ranges f _ a h0
    rw [advertised, (hk k).2.1, loadsRows_unique f _ k _ _ (h2 k) (hk k).2.2.2]

/-- The columns of the subset are those of the file at the rows of the subset, in the same frame. -/
def ColumnsOfSubset (f : File K m) (rows : Fin m → List Int) (disk disk' : String → String → Option (Column K)) : Prop :=
  ∀ g q k, f.group g = some k → disk' g q = (disk g q).map fun c => { c with numbers := pick c.numbers (rows k) }

private theorem valueAt_pick {α : Type} (ds : List α) (rows : List Int) (h : ∀ i ∈ rows, 0 ≤ i ∧ i < ds.length) (j : Int) :
    valueAt (pick ds rows) j = (valueAt rows j).bind (valueAt ds) := by
  have hp := pick_some ds rows h
  unfold valueAt
  split_ifs with hj
  · rfl
  · have h1 : ((pick ds rows).map some)[j.toNat]? = (select ds rows)[j.toNat]? := by rw [hp]
    unfold select at h1
    rw [List.getElem?_map, List.getElem?_map] at h1
    cases hr : rows[j.toNat]? with
    | none =>
      rw [hr] at h1
      simp only [Option.map_none, Option.map_eq_none_iff] at h1
      rw [h1]
      rfl
    | some i =>
      rw [hr] at h1
      obtain ⟨v, e1, e2⟩ := Option.map_eq_some_iff.1 h1
      rw [e1, e2]
      rfl

private theorem rows_same {l l' : List Int} (h : l.Pairwise (· < ·)) (h' : l'.Pairwise (· < ·)) (hs : ∀ i, i ∈ l ↔ i ∈ l') : l = l' :=
  List.Perm.eq_of_pairwise (fun a b _ _ h1 h2 => absurd h1 (not_lt.2 h2.le)) h h'
    ((List.perm_ext_iff_of_nodup (h.imp fun h => ne_of_lt h) (h'.imp fun h => ne_of_lt h)).2 hs)

private theorem pick_sorted {rows l : List Int} (hr : rows.Pairwise (· < ·)) (hl : l.Pairwise (· < ·)) : (pick rows l).Pairwise (· < ·) := by
  unfold pick
  rw [List.pairwise_filterMap]
  refine hl.imp fun {i j} hij a ha b hb => ?_
  unfold valueAt at ha hb
  split_ifs at ha hb
  obtain ⟨h1, rfl⟩ := List.getElem?_eq_some_iff.1 ha
  obtain ⟨h2, rfl⟩ := List.getElem?_eq_some_iff.1 hb
  exact List.pairwise_iff_getElem.1 hr _ _ h1 h2 (by omega)

/-- C149. Cuts that are made in the subset give the values that one mask with all cuts gives in the file, to the last digit and in the same order. -/
theorem c149_again {α : Type} (fl flx flq : K → K) (f g : File K m) (hf : WF f) (hg : WF g) (disk disk' : String → String → Option (Column K))
    (hd : ColumnsFit f disk) (regions : List (List (Option (List K)))) (cuts more : List (RoundedBounds.Call K)) (rows : Fin m → List Int)
    (hrows : ProgramRows fl flx flq f disk regions cuts rows) (names : List (String × String)) (hsub : IsSubset f names rows g)
    (hd' : ColumnsOfSubset f rows disk disk') (k : Fin m) (vals : List α) (hv : vals.length = f.rows k) (lay lay' : Layout) (hlay : lay ≠ .remote)
    (hlay' : lay' ≠ .remote) (hch : ∀ c, lay = .chunked c → 0 < c) (hch' : ∀ c, lay' = .chunked c → 0 < c) :
    load (RoundedBounds.properties flx flq g disk' (RoundedMask.spatials fl g []) more) lay' (pick vals (rows k)) k =
      load (RoundedBounds.properties flx flq f disk (RoundedMask.spatials fl f regions) (cuts ++ more)) lay vals k := by
  obtain ⟨hs, hb, hm⟩ := hrows k
  have hbv : ∀ i ∈ rows k, 0 ≤ i ∧ i < vals.length := by rw [hv]; exact hb
  have hfit : ColumnsFit g disk' := by
    intro gr q k' c hgr hc
    rw [hsub.group] at hgr
    rw [hd' gr q k' hgr] at hc
    obtain ⟨c0, h0, rfl⟩ := Option.map_eq_some_iff.1 hc
    have hl := hd gr q k' c0 hgr h0
    rw [hsub.rows_eq k']
    exact pick_length _ _ (by rw [hl]; exact (hrows k').2.1)
  obtain ⟨l, r1, r2, r3, r4⟩ := c147_read fl flx flq f hf disk hd regions (cuts ++ more) k vals hv lay hlay hch
  obtain ⟨l', q1, q2, q3, q4⟩ := c147_read fl flx flq g hg disk' hfit [] more k (pick vals (rows k))
    (by rw [pick_length _ _ hbv, hsub.rows_eq k]) lay' hlay' hch'
  rw [q1, r1]
  have hb' : ∀ j ∈ l', 0 ≤ j ∧ j < (rows k).length := fun j hj => by
    have := q4 j hj
    rwa [pick_length _ _ hbv] at this
  -- a cut in the subset is the cut of the row it came from
  have hcut : ∀ t : RoundedBounds.Call K, f.group t.group = some k → ∀ j i, valueAt (rows k) j = some i →
      (BetweenBounds flx flq disk' t j ↔ BetweenBounds flx flq disk t i) := by
    intro t ht j i hji
    unfold BetweenBounds
    rw [hd' _ _ k ht]
    cases hc : disk t.group t.quantity with
    | none => simp
    | some c =>
      have hl := hd _ _ k c ht hc
      have hva := valueAt_pick c.numbers (rows k) (by rw [hl]; exact hb) j
      rw [hji, Option.bind_some] at hva
      simp only [Option.map_some, Option.some.injEq, forall_eq', hva]
      rfl
  have hsel : ∀ j, Selects (RoundedMask.spatials fl g []) k j ↔ 0 ≤ j ∧ j < ((rows k).length : Int) := by
    intro j
    rw [selects_iff_keeps fl g hg]
    simp [absInit, hsub.rows_eq k]
  have hl : l = pick (rows k) l' := by
    refine rows_same r2 (pick_sorted hs q2) fun i => ?_
    unfold pick
    rw [r3, List.mem_filterMap]
    constructor
    · rintro ⟨h1, h2⟩
      have hi : i ∈ rows k := (hm i).2 ⟨h1, fun t ht => h2 t (List.mem_append_left _ ht)⟩
      obtain ⟨n, hn, e⟩ := List.mem_iff_getElem.1 hi
      have hji : valueAt (rows k) (n : Int) = some i := by
        unfold valueAt
        rw [if_neg (by omega), Int.toNat_natCast, List.getElem?_eq_getElem hn, e]
      refine ⟨n, (q3 n).2 ⟨(hsel n).2 ⟨by omega, by omega⟩, fun t ht hgt => ?_⟩, hji⟩
      rw [hsub.group] at hgt
      exact (hcut t hgt n i hji).2 (h2 t (List.mem_append_right _ ht) hgt)
    · rintro ⟨j, hj, hji⟩
      have hi : i ∈ rows k := by
        unfold valueAt at hji
        split_ifs at hji
        exact List.mem_of_getElem? hji
      refine ⟨((hm i).1 hi).1, fun t ht hgt => ?_⟩
      rcases List.mem_append.1 ht with ht | ht
      · exact ((hm i).1 hi).2 t ht hgt
      · exact (hcut t hgt j i hji).1 (((q3 j).1 hj).2 t ht (by rw [hsub.group]; exact hgt))
  rw [hl]
  congr 1
  have hps := pick_some (rows k) l' hb'
  unfold select
  have e1 : l'.map (valueAt (pick vals (rows k))) = (select (rows k) l').map fun o => o.bind (valueAt vals) := by
    unfold select
    rw [List.map_map]
    exact List.map_congr_left fun j _ => valueAt_pick vals (rows k) hbv j
  rw [e1, ← hps, List.map_map]
  rfl

private theorem keeps_same {fl : K → K} {box : Fin 3 → K} {reg : Fin 3 → K × K} {d : Fin 3} {c c' : Cell K} (h1 : c.lo = c'.lo) (h2 : c.hi = c'.hi) :
    RoundedMask.keeps fl box reg d c = RoundedMask.keeps fl box reg d c' := by
  unfold RoundedMask.keeps
  rw [h1, h2]

/-- C149. Regions that are given to a mask of the subset select, to the last digit, the rows of the subset that they select in the file. -/
theorem c149_regions (fl flx flq : K → K) (f g : File K m) (hf : WF f) (hg : WF g) (disk : String → String → Option (Column K))
    (regions : List (List (Option (List K)))) (cuts : List (RoundedBounds.Call K)) (rows : Fin m → List Int)
    (hrows : ProgramRows fl flx flq f disk regions cuts rows) (names : List (String × String)) (hsub : IsSubset f names rows g)
    (more : List (List (Option (List K)))) (k : Fin m) (j : Int) :
    Selects (RoundedMask.spatials fl g more) k j ↔ ∃ i, valueAt (rows k) j = some i ∧ Selects (RoundedMask.spatials fl f more) k i := by
  have hget : ∀ j : Int, 0 ≤ j ∧ j < ((rows k).length : Int) ↔ ∃ i, valueAt (rows k) j = some i := by
    intro j
    unfold valueAt
    constructor
    · rintro ⟨h1, h2⟩
      rw [if_neg (by omega)]
      exact ⟨_, List.getElem?_eq_getElem (by omega)⟩
    · rintro ⟨i, hi⟩
      split_ifs at hi with h
      obtain ⟨h1, -⟩ := List.getElem?_eq_some_iff.1 hi
      omega
  obtain ⟨a, ha, -⟩ := spatials_inv fl g hg more
  have hbnd : Selects (RoundedMask.spatials fl g more) k j → 0 ≤ j ∧ j < ((rows k).length : Int) := fun h => by
    have := ha.bnd k j ((ha.selects k j).1 h)
    rwa [hsub.rows_eq k] at this
  suffices h : ∀ i, valueAt (rows k) j = some i → (Selects (RoundedMask.spatials fl g more) k j ↔ Selects (RoundedMask.spatials fl f more) k i) by
    constructor
    · intro hs
      obtain ⟨i, hi⟩ := (hget j).1 (hbnd hs)
      exact ⟨i, hi, (h i hi).1 hs⟩
    · rintro ⟨i, hi, hs⟩
      exact (h i hi).2 hs
  intro i hi
  have hj := (hget j).2 ⟨i, hi⟩
  have hib : 0 ≤ i ∧ i < (f.rows k : Int) := by
    refine (hrows k).2.1 i ?_
    unfold valueAt at hi
    split_ifs at hi
    exact List.mem_of_getElem? hi
  have hi' : (rows k)[j.toNat]? = some i := by
    unfold valueAt at hi
    rwa [if_neg (by omega)] at hi
  have hjn : ((j.toNat : Nat) : Int) = j := Int.toNat_of_nonneg hj.1
  rw [selects_iff_keeps fl g hg, selects_iff_keeps fl f hf, hsub.box]
  refine or_congr (exists_congr fun r => and_congr_right fun _ => exists_congr fun reg => and_congr_right fun _ => and_congr_right fun _ => ?_) ?_
  · constructor
    · rintro ⟨c, hc, hh, hk⟩
      obtain ⟨n, hn, rfl⟩ := List.mem_iff_getElem.1 hc
      have hn' : n < (f.cells k).length := hsub.cells_len k ▸ hn
      obtain ⟨e1, e2, e3⟩ := hsub.cells k n hn hn'
      refine ⟨(f.cells k)[n], List.getElem_mem hn', (e3 _ i hi').1 (by rw [hjn]; exact hh), fun d => ?_⟩
      rw [← keeps_same e1 e2]
      exact hk d
    · rintro ⟨c, hc, hh, hk⟩
      obtain ⟨n, hn', rfl⟩ := List.mem_iff_getElem.1 hc
      have hn : n < (g.cells k).length := (hsub.cells_len k).symm ▸ hn'
      obtain ⟨e1, e2, e3⟩ := hsub.cells k n hn hn'
      refine ⟨(g.cells k)[n], List.getElem_mem hn, ?_, fun d => ?_⟩
      · have := (e3 _ i hi').2 hh
        rwa [hjn] at this
      · rw [keeps_same e1 e2]
        exact hk d
  · refine and_congr_right fun _ => ?_
    simp only [absInit, hsub.rows_eq k]
    exact ⟨fun _ => hib, fun _ => hj⟩

-- The hypotheses can be met in double precision: a subset of a region with a cut, and a further cut in the subset and in the file.
example :
    let fl := nearest 53 (-1074) toEven
    let b : ℚ → Bound ℚ := fun v => ⟨v, true, 1, none⟩
    let s := RoundedMask.spatials fl exFile [[some [1 / 2, 7 / 2], none, none]]
    let rows : Fin 2 → List Int := fun k => if k = 0 then [1, 2, 3, 4] else [0, 1, 2]
    WF exFile ∧ (∀ k, exFile.cells k ≠ []) ∧ ColumnsFit exFile cutDisk ∧
      Writable exFile (fun _ => .contiguous) ("gas", "masses") ∧
      (RoundedBounds.properties fl fl exFile cutDisk s [⟨"gas", "masses", b 1, b 5⟩]).constrained ≠ none ∧
      ((writeSubset exFile (RoundedBounds.properties fl fl exFile cutDisk s [⟨"gas", "masses", b 1, b 5⟩]) false [("gas", "masses")]
        (fun _ => .contiguous)).toOption.map fun o => (o.numPart 0, o.data)) =
        some (4, [(("gas", "masses"), [some 2, some 3, some 4, some 5])]) ∧
      ColumnsOfSubset exFile rows cutDisk
        (fun g q => (exFile.group g).bind fun k => (cutDisk g q).map fun c => { c with numbers := pick c.numbers (rows k) }) ∧
      rowsLoaded (RoundedBounds.properties fl fl exFile cutDisk s [⟨"gas", "masses", b 1, b 5⟩, ⟨"gas", "smoothing_lengths", b 2, b 3⟩]) 0 6 =
        .ok [some 1, some 3] := by
  refine ⟨exFile_wf, fun k => by fin_cases k <;> decide +kernel, cutDisk_fits, ⟨⟨0, [1, 2, 3, 4, 5, 6], by decide +kernel, by decide +kernel, by simp⟩, by simp,
    by simp⟩, by decide +kernel, by decide +kernel, fun g q k hg => by simp [hg], by decide +kernel⟩

end Verif.Props
