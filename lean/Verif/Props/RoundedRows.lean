import Verif.Props.RoundedMask
import Verif.Props.Mask

/-!
# C138 for the mask object: rows selected and read (`swiftsimio/masks.py`)
-/

namespace Verif.Props
open Verif Verif.Spec Verif.Accel Verif.Mask

variable {K : Type} [Field K] [LinearOrder K] [IsStrictOrderedRing K] {m : Nat}

/-- which rows the calls accepted so far keep -/
private def Kept (fl : K → K) (f : File K m) (calls : List (List (Option (List K)))) (k : Fin m) (i : Int) : Prop :=
  ∃ rows ∈ calls, ∃ reg, RegionIs f.box rows reg ∧ RoundedMask.regionOk fl f.box reg = true ∧
    ∃ c ∈ f.cells k, Holds c i ∧ ∀ d, RoundedMask.keeps fl f.box reg d c = true

/-- one of the calls is accepted -/
private def AnyAccepted (fl : K → K) (f : File K m) (calls : List (List (Option (List K)))) : Prop :=
  ∃ rows ∈ calls, ∃ reg, RegionIs f.box rows reg ∧ RoundedMask.regionOk fl f.box reg = true

omit [IsStrictOrderedRing K] in
private theorem step_spatial (fl : K → K) (f : File K m) (hf : WF f) (s : State m) (a : Abs m) (h : Inv f s a)
    (hl : a.last = none ∨ a.last = some .spatial) (hb : ¬ a.asBool) (rows : List (Option (List K))) :
    ∃ a', Inv f (RoundedMask.spatial fl f s rows true).1 a' ∧ ¬ a'.asBool ∧
      (((∃ reg, RegionIs f.box rows reg ∧ RoundedMask.regionOk fl f.box reg = true) ∧ a'.last = some .spatial ∧
        (∀ k i, a'.region k i ↔ (a.last = some .spatial ∧ a.region k i) ∨ Kept fl f [rows] k i) ∧
        (∀ k i, a'.sel k i ↔ a'.region k i)) ∨
       ((¬ ∃ reg, RegionIs f.box rows reg ∧ RoundedMask.regionOk fl f.box reg = true) ∧ a' = a)) := by
  unfold RoundedMask.spatial
  cases hsr : sanitizeRegion f.box rows with
  | error e =>
    refine ⟨a, h, hb, Or.inr ⟨?_, rfl⟩⟩
    rintro ⟨reg, h1, -⟩
    rw [(sanitize_ok_iff f.box rows reg).mpr h1] at hsr
    cases hsr
  | ok reg =>
    have hreg := (sanitize_ok_iff f.box rows reg).mp hsr
    have huniq : ∀ reg', RegionIs f.box rows reg' → reg' = reg := fun reg' h' => by
      have := (sanitize_ok_iff f.box rows reg').mpr h'
      rw [hsr] at this
      cases this
      rfl
    have hkept : ∀ k i, RoundedMask.regionOk fl f.box reg = true → (Kept fl f [rows] k i ↔ ∃ c ∈ f.cells k, Holds c i ∧
        (RoundedMask.keeps fl f.box reg 0 c && RoundedMask.keeps fl f.box reg 1 c &&
          RoundedMask.keeps fl f.box reg 2 c) = true) := by
      intro k i hok
      constructor
      · rintro ⟨r, hr, reg', h1, -, c, hc, hh, hk⟩
        rw [List.mem_singleton] at hr
        subst hr
        rw [huniq reg' h1] at hk
        exact ⟨c, hc, hh, (RoundedMask.keeps_all fl f.box reg c).mpr hk⟩
      · rintro ⟨c, hc, hh, hk⟩
        exact ⟨rows, by simp, reg, hreg, hok, c, hc, hh, (RoundedMask.keeps_all fl f.box reg c).mp hk⟩
    have hlast := h.last
    dsimp only
    by_cases hok : RoundedMask.regionOk fl f.box reg = true
    · have hex : ∃ reg, RegionIs f.box rows reg ∧ RoundedMask.regionOk fl f.box reg = true := ⟨reg, hreg, hok⟩
      rcases hl with hl | hl
      · rw [hl] at hlast
        simp only [hlast, hok, decorate, reduceCtorEq, false_and, if_false, if_true]
        refine ⟨_, inv_update f hf s a h
          (fun _ c => RoundedMask.keeps fl f.box reg 0 c && RoundedMask.keeps fl f.box reg 1 c &&
            RoundedMask.keeps fl f.box reg 2 c)
          _ (fun k => RoundedMask.cellMaskOf_eq fl f.box reg (f.cells k)) (fun k i => Kept fl f [rows] k i)
          (fun k i => hkept k i hok), hb, Or.inl ⟨hex, rfl, ?_, ?_⟩⟩
        · intro k i
          simp [hl]
        · intro k i
          exact ⟨fun h => h.1, fun h => ⟨h, fun hb' => absurd hb' hb⟩⟩
      · rw [hl] at hlast
        simp only [hlast, hok, decorate, and_self, if_true]
        choose p hp1 hp2 using h.cm
        refine ⟨_, inv_update f hf s a h
          (fun k c => p k c || (RoundedMask.keeps fl f.box reg 0 c && RoundedMask.keeps fl f.box reg 1 c &&
            RoundedMask.keeps fl f.box reg 2 c)) _ (fun k => ?_)
          (fun k i => a.region k i ∨ Kept fl f [rows] k i) (fun k i => ?_), hb, Or.inl ⟨hex, rfl, ?_, ?_⟩⟩
        · rw [hp1 k, RoundedMask.cellMaskOf_eq, List.zipWith_map]
          simp
        · rw [hkept k i hok, hp2 k i]
          constructor
          · rintro (⟨c, hc, hh, hq⟩ | ⟨c, hc, hh, hq⟩)
            · exact ⟨c, hc, hh, by simp [hq]⟩
            · exact ⟨c, hc, hh, by rw [hq]; simp⟩
          · rintro ⟨c, hc, hh, hq⟩
            rcases (Bool.or_eq_true _ _).mp hq with hq | hq
            · exact Or.inl ⟨c, hc, hh, hq⟩
            · exact Or.inr ⟨c, hc, hh, hq⟩
        · intro k i
          simp [hl]
        · intro k i
          exact ⟨fun h => h.1, fun h => ⟨h, fun hb' => absurd hb' hb⟩⟩
    · have hno : ¬ ∃ reg, RegionIs f.box rows reg ∧ RoundedMask.regionOk fl f.box reg = true := by
        rintro ⟨reg', h1, h2⟩
        rw [huniq reg' h1] at h2
        exact hok h2
      refine ⟨a, ?_, hb, Or.inr ⟨hno, rfl⟩⟩
      split_ifs <;> exact h

omit [IsStrictOrderedRing K] in
private theorem inv_spatials (fl : K → K) (f : File K m) (hf : WF f) (calls : List (List (Option (List K)))) :
    ∃ a, Inv f (RoundedMask.spatials fl f calls) a ∧ ¬ a.asBool ∧
      ((AnyAccepted fl f calls ∧ a.last = some .spatial ∧ (∀ k i, a.region k i ↔ Kept fl f calls k i) ∧
        (∀ k i, a.sel k i ↔ a.region k i)) ∨ (¬ AnyAccepted fl f calls ∧ a = absInit f)) := by
  induction calls using List.reverseRecOn with
  | nil => exact ⟨absInit f, inv_initial f hf, id, Or.inr ⟨by simp [AnyAccepted], rfl⟩⟩
  | append_singleton calls rows ih =>
    obtain ⟨a, hi, hb, hcase⟩ := ih
    have hl : a.last = none ∨ a.last = some .spatial := by
      rcases hcase with ⟨-, h, -⟩ | ⟨-, rfl⟩
      · exact Or.inr h
      · exact Or.inl rfl
    obtain ⟨a', hi', hb', hstep⟩ := step_spatial fl f hf _ a hi hl hb rows
    have hrun : RoundedMask.spatials fl f (calls ++ [rows])
        = (RoundedMask.spatial fl f (RoundedMask.spatials fl f calls) rows true).1 := by
      simp [RoundedMask.spatials]
    have hkapp : ∀ k i, Kept fl f (calls ++ [rows]) k i ↔ Kept fl f calls k i ∨ Kept fl f [rows] k i := by
      intro k i
      simp [Kept, or_and_right, exists_or]
    refine ⟨a', by rw [hrun]; exact hi', hb', ?_⟩
    rcases hstep with ⟨⟨reg, h1, h2⟩, hlast, hr, hs⟩ | ⟨hno, rfl⟩
    · refine Or.inl ⟨⟨rows, by simp, reg, h1, h2⟩, hlast, fun k i => ?_, hs⟩
      rw [hr k i, hkapp]
      rcases hcase with ⟨-, h, hreg, -⟩ | ⟨hn, rfl⟩
      · simp [h, hreg]
      · have : ¬ Kept fl f calls k i := by
          rintro ⟨r, hr, reg', q1, q2, -⟩
          exact hn ⟨r, hr, reg', q1, q2⟩
        simp [absInit, this]
    · have hnk : ∀ k i, ¬ Kept fl f [rows] k i := by
        rintro k i ⟨r, hr, reg', q1, q2, -⟩
        rw [List.mem_singleton] at hr
        subst hr
        exact hno ⟨reg', q1, q2⟩
      rcases hcase with ⟨⟨r, hr, reg, q1, q2⟩, h, hreg, hs⟩ | ⟨hn, rfl⟩
      · exact Or.inl ⟨⟨r, by simp [hr], reg, q1, q2⟩, h, fun k i => by rw [hreg, hkapp]; simp [hnk], hs⟩
      · refine Or.inr ⟨?_, rfl⟩
        rintro ⟨r, hr, reg, q1, q2⟩
        rcases List.mem_append.mp hr with hr | hr
        · exact hn ⟨r, hr, reg, q1, q2⟩
        · rw [List.mem_singleton] at hr
          subst hr
          exact hno ⟨reg, q1, q2⟩

omit [IsStrictOrderedRing K] in
/-- the rows of a cell that an accepted call keeps are selected -/
theorem selects_of_keeps (fl : K → K) (f : File K m) (hf : WF f) (calls : List (List (Option (List K))))
    (rows : List (Option (List K))) (hr : rows ∈ calls) (reg : Fin 3 → K × K) (hreg : RegionIs f.box rows reg)
    (hok : RoundedMask.regionOk fl f.box reg = true) (k : Fin m) (c : Cell K) (hc : c ∈ f.cells k) (i : Int) (hi : Holds c i)
    (hk : ∀ d, RoundedMask.keeps fl f.box reg d c = true) : Selects (RoundedMask.spatials fl f calls) k i := by
  obtain ⟨a, hinv, -, hcase⟩ := inv_spatials fl f hf calls
  rw [hinv.selects k i]
  rcases hcase with ⟨-, -, h1, h2⟩ | ⟨hn, -⟩
  · rw [h2, h1]
    exact ⟨rows, hr, reg, hreg, hok, c, hc, hi, hk⟩
  · exact absurd ⟨rows, hr, reg, hreg, hok⟩ hn

omit [IsStrictOrderedRing K] in
/-- the invariant of masks holds after rounded calls -/
theorem spatials_inv (fl : K → K) (f : File K m) (hf : WF f) (calls : List (List (Option (List K)))) :
    ∃ a, Inv f (RoundedMask.spatials fl f calls) a ∧ (a.last = none ∨ a.last = some .spatial) := by
  obtain ⟨a, hinv, -, hcase⟩ := inv_spatials fl f hf calls
  refine ⟨a, hinv, ?_⟩
  rcases hcase with ⟨-, h, -⟩ | ⟨-, rfl⟩
  · exact .inr h
  · exact .inl rfl

omit [IsStrictOrderedRing K] in
/-- what is selected: the rows of the cells that an accepted call keeps, and all rows that a fresh mask has if none is accepted -/
theorem selects_iff_keeps (fl : K → K) (f : File K m) (hf : WF f) (calls : List (List (Option (List K)))) (k : Fin m) (i : Int) :
    Selects (RoundedMask.spatials fl f calls) k i ↔
      (∃ rows ∈ calls, ∃ reg, RegionIs f.box rows reg ∧ RoundedMask.regionOk fl f.box reg = true ∧
        ∃ c ∈ f.cells k, Holds c i ∧ ∀ d, RoundedMask.keeps fl f.box reg d c = true) ∨
      ((¬ ∃ rows ∈ calls, ∃ reg, RegionIs f.box rows reg ∧ RoundedMask.regionOk fl f.box reg = true) ∧ (absInit f).sel k i) := by
  obtain ⟨a, hinv, -, hcase⟩ := inv_spatials fl f hf calls
  rw [hinv.selects k i]
  rcases hcase with ⟨hy, -, h1, h2⟩ | ⟨hn, rfl⟩
  · rw [h2, h1]
    exact ⟨Or.inl, fun h => h.resolve_right fun h => h.1 hy⟩
  · exact ⟨fun h => Or.inr ⟨hn, h⟩, fun h => (h.resolve_left fun ⟨rows, hr, reg, q1, q2, _⟩ => hn ⟨rows, hr, reg, q1, q2⟩).2⟩

/-- C138 for any number of calls of `constrain_spatial` whose regions are joined: the row of every particle inside one of the
accepted regions, by more than twice the rounding error, is selected. -/
theorem c138_rows (fl : K → K) (f : File K m) (hf : WF f) (ε : Fin 3 → K) (R : ∀ d, Rounding fl (f.box d) (ε d))
    (calls : List (List (Option (List K)))) (rows : List (Option (List K))) (hr : rows ∈ calls) (reg : Fin 3 → K × K)
    (hreg : RegionIs f.box rows reg) (hok : RoundedMask.regionOk fl f.box reg = true) (k : Fin m) (c : Cell K)
    (hc : c ∈ f.cells k) (i : Int) (hi : Holds c i) (x : Fin 3 → K) (hx : ∀ d, 0 ≤ x d ∧ x d ≤ f.box d)
    (hxc : ∀ d, c.lo d ≤ x d ∧ x d ≤ c.hi d)
    (hin : ∀ d, WellInside (2 * ε d) (f.box d) (reg d).1 (reg d).2 (x d)) :
    Selects (RoundedMask.spatials fl f calls) k i := by
  obtain ⟨a, hinv, -, hcase⟩ := inv_spatials fl f hf calls
  rw [hinv.selects k i]
  have hkept : Kept fl f calls k i := ⟨rows, hr, reg, hreg, hok, c, hc, hi, fun d =>
    c138_axis f.box reg d c (R d) (hf.box_pos d) ((RoundedMask.regionOk_iff fl f.box reg).mp hok d) (hx d) (hxc d) (hin d)⟩
  rcases hcase with ⟨-, -, h1, h2⟩ | ⟨hn, -⟩
  · rw [h2, h1]
    exact hkept
  · exact absurd ⟨rows, hr, reg, hreg, hok⟩ hn

/-- C138. No row is selected without reason: its cell overlaps one of the accepted regions up to twice the rounding error, or
the region is longer than the box up to the rounding error, or no call was accepted. -/
theorem c138_rows_sound (fl : K → K) (f : File K m) (hf : WF f) (ε : Fin 3 → K) (R : ∀ d, Rounding fl (f.box d) (ε d))
    (calls : List (List (Option (List K)))) (k : Fin m) (i : Int) (h : Selects (RoundedMask.spatials fl f calls) k i) :
    (∃ rows ∈ calls, ∃ reg, RegionIs f.box rows reg ∧ RoundedMask.regionOk fl f.box reg = true ∧
      ∃ c ∈ f.cells k, Holds c i ∧ ∀ d, f.box d - ε d < |(reg d).2 - (reg d).1| ∨
        NearlyMeets (2 * ε d) (f.box d) (reg d).1 (reg d).2 (c.lo d) (c.hi d)) ∨
    (∀ rows ∈ calls, ∀ reg, RegionIs f.box rows reg → RoundedMask.regionOk fl f.box reg = false) := by
  obtain ⟨a, hinv, -, hcase⟩ := inv_spatials fl f hf calls
  rw [hinv.selects k i] at h
  rcases hcase with ⟨-, -, h1, h2⟩ | ⟨hn, -⟩
  · rw [h2, h1] at h
    obtain ⟨rows, hr, reg, hreg, hok, c, hc, hi, hk⟩ := h
    refine Or.inl ⟨rows, hr, reg, hreg, hok, c, hc, hi, fun d => ?_⟩
    have hone : RoundedMask.cellMask fl f.box reg [c] = .ok (RoundedMask.cellMaskOf fl f.box reg [c]) := by
      unfold RoundedMask.cellMask
      rw [if_pos hok]
    have hsel := (RoundedMask.selected_iff fl f.box reg [c] _ hone 0 c rfl).mpr hk
    refine c138_sound fl f.box ε hf.box_pos R reg [c] _ hone 0 c rfl (fun d => ?_) hsel d
    have hb := hf.box_pos d
    obtain ⟨n1, n2, n3⟩ := hf.near k c hc d
    refine ⟨by linarith, by linarith, by linarith, by linarith⟩
  · right
    intro rows hr reg hreg
    by_contra hcon
    exact hn ⟨rows, hr, reg, hreg, by simpa using hcon⟩

omit [IsStrictOrderedRing K] in
/-- C138. Reading with such a mask gives exactly the selected rows, once each and in the order of the file. -/
theorem c138_read {α : Type} (fl : K → K) (f : File K m) (hf : WF f) (calls : List (List (Option (List K)))) (k : Fin m)
    (ds : List α) (hds : ds.length = f.rows k) (lay : Layout) (hlay : lay ≠ .remote) (hc : ∀ c, lay = .chunked c → 0 < c) :
    ∃ l : List Int, load (RoundedMask.spatials fl f calls) lay ds k = .ok (select ds l) ∧ l.Pairwise (· < ·) ∧
      (∀ i, i ∈ l ↔ Selects (RoundedMask.spatials fl f calls) k i) ∧ ∀ i ∈ l, 0 ≤ i ∧ i < ds.length := by
  obtain ⟨a, h0, hb, hcase⟩ := inv_spatials fl f hf calls
  cases hs : (RoundedMask.spatials fl f calls).rep with
  | bools b => exact absurd (h0.bools b hs).1 hb
  | ranges r =>
    obtain ⟨-, hk⟩ := h0.ranges r hs
    obtain ⟨hg, hm, hsz, hst⟩ := hk k
    have hto : toRanges (RoundedMask.spatials fl f calls) = RoundedMask.spatials fl f calls := by
      unfold toRanges
      rw [hs]
    have hlast : a.last = none ∨ a.last = some .spatial := by
      rcases hcase with ⟨-, h, -⟩ | ⟨-, rfl⟩
      · exact Or.inr h
      · exact Or.inl rfl
    have hsize : ((RoundedMask.spatials fl f calls).size k).toNat = (rowsOf (r k)).length := by rw [hsz]; simp
    refine ⟨rowsOf (r k), ?_, ?_, ?_, ?_⟩
    · unfold load
      rw [hto, hs]
      dsimp only
      rw [hsize]
      have hib : InBounds ds.length (r k) := by rw [hds]; exact hg.inb
      cases lay with
      | remote => exact absurd rfl hlay
      | contiguous => exact c03_unchunked_read ds (r k) hib
      | chunked c =>
        unfold readRanges
        dsimp only
        by_cases hmb : meanBelow (r k) 500000 = true
        · rw [if_pos hmb]
          refine c03_chunked_read ds c (hc c rfl) (r k) ?_ hib hg.ord
          intro he
          rw [he] at hmb
          simp [meanBelow] at hmb
        · rw [if_neg hmb]
          exact c03_unchunked_read ds (r k) hib
    · refine (hst ?_ ?_).rows_sorted hg.inb
      · rcases hlast with h | h <;> rw [h] <;> simp
      · rcases hlast with h | h <;> rw [h] <;> simp
    · intro i
      rw [hm, h0.selects k i]
    · intro i hi
      rw [hds]
      exact h0.bnd k i ((hm i).mp hi)

/-- worked example in double precision: two regions joined, the second through the side of the box; a third region outside
of the accepted window changes nothing -/
example :
    rowsLoaded (RoundedMask.spatials (nearest 53 (-1074) toEven) exFile
      [[some [7/2, 9/2], none, none], [some [3/2, 5/2], none, none], [some [9, 10], none, none]]) 0 6
      = rowsLoaded (run exFile [.spatial [some [7/2, 9/2], none, none] false, .spatial [some [3/2, 5/2], none, none] true]) 0 6 := by
  decide +kernel

end Verif.Props
