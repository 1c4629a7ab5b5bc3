import Verif.Lemmas.MaskRows
import Verif.Props.Ranges
import Mathlib.Data.List.Pairwise

namespace Verif.Mask
open Verif Verif.Spec Verif.Accel

variable {K : Type} [Field K] [LinearOrder K] {m : Nat}

/-- range lists a mask may hold -/
structure Good (n : Int) (rs : List Rng) : Prop where
  inb : InBounds n rs
  ord : Ordered rs
  sorted : (rowsOf rs).Pairwise (· ≤ ·)

theorem Strict.good {n : Int} {rs : List Rng} (hb : InBounds n rs) (h : Strict rs) : Good n rs :=
  ⟨hb, h.ordered hb, (h.rows_sorted hb).imp (fun h => by omega)⟩

/-- the mask state represents the abstract state -/
structure Inv (f : File K m) (s : State m) (a : Abs m) : Prop where
  last : s.constrained = a.last
  cm : ∀ k, ∃ p : Cell K → Bool, s.cellMask k = (f.cells k).map p ∧
    ∀ i, a.region k i ↔ ∃ c ∈ f.cells k, Holds c i ∧ p c = true
  sub : a.last = none ∨ a.last = some .spatial → ∀ k i, a.sel k i → a.region k i
  all : a.last = none → ∀ k i, a.sel k i ↔ 0 ≤ i ∧ i < f.rows k
  bnd : ∀ k i, a.sel k i → 0 ≤ i ∧ i < f.rows k
  fresh : a.last = none → ∀ k i, a.region k i ↔ 0 ≤ i ∧ i < f.rows k
  ranges : ∀ r, s.rep = .ranges r → ¬ a.asBool ∧ ∀ k, Good (f.rows k) (r k) ∧
    (∀ i, i ∈ rowsOf (r k) ↔ a.sel k i) ∧ s.size k = (rowsOf (r k)).length ∧
    (a.last ≠ some .indices → a.last ≠ some .index → Strict (r k))
  bools : ∀ b, s.rep = .bools b → a.asBool ∧ ∀ k, (b k).length = f.rows k ∧
    ∀ i : Nat, (b k)[i]? = some true ↔ a.sel k i

/-! ### ranges of cells -/

theorem cellRanges_map (cells : List (Cell K)) (p : Cell K → Bool) :
    cellRanges cells (cells.map p) = (cells.filter p).map (fun c => (c.offset, c.count + c.offset)) := by
  unfold cellRanges; rw [compress_map]

theorem cellRanges_inBounds (f : File K m) (hf : WF f) (k : Fin m) (p : Cell K → Bool) :
    InBounds (f.rows k) (cellRanges (f.cells k) ((f.cells k).map p)) := by
  rw [cellRanges_map]
  intro r hr
  obtain ⟨c, hc, rfl⟩ := List.mem_map.mp hr
  have := hf.nonneg k c (List.mem_filter.mp hc).1
  dsimp only; omega

theorem cellRanges_strict (f : File K m) (hf : WF f) (k : Fin m) (p : Cell K → Bool) :
    Strict (cellRanges (f.cells k) ((f.cells k).map p)) := by
  rw [cellRanges_map]
  unfold Strict
  rw [List.pairwise_map]
  refine ((hf.sorted k).sublist List.filter_sublist).imp ?_
  intro a b h; dsimp only; omega

theorem mem_cellRanges (f : File K m) (k : Fin m) (p : Cell K → Bool) (i : Int) :
    i ∈ rowsOf (cellRanges (f.cells k) ((f.cells k).map p)) ↔ ∃ c ∈ f.cells k, Holds c i ∧ p c = true := by
  rw [cellRanges_map, mem_rowsOf]
  constructor
  · rintro ⟨r, hr, h1, h2⟩
    obtain ⟨c, hc, rfl⟩ := List.mem_map.mp hr
    obtain ⟨hc1, hc2⟩ := List.mem_filter.mp hc
    exact ⟨c, hc1, ⟨h1, by dsimp only at h2; omega⟩, hc2⟩
  · rintro ⟨c, hc, ⟨h1, h2⟩, hp⟩
    exact ⟨_, List.mem_map.mpr ⟨c, List.mem_filter.mpr ⟨hc, hp⟩, rfl⟩, h1, by dsimp only; omega⟩

theorem cellCount_map (f : File K m) (hf : WF f) (k : Fin m) (p : Cell K → Bool) :
    cellCount (f.cells k) ((f.cells k).map p) =
      (rowsOf (cellRanges (f.cells k) ((f.cells k).map p))).length := by
  rw [rowsOf_length (fun r hr => (cellRanges_inBounds f hf k p r hr).2.1), cellRanges_map]
  unfold cellCount total
  rw [compress_map, List.map_map]
  congr 2
  funext c
  simp only [Function.comp]; omega

/-! ### unselected cells in a boolean mask -/

theorem clearCells_length (cells : List (Cell K)) (mask bs : List Bool) :
    (clearCells cells mask bs).length = bs.length := by
  unfold clearCells
  generalize compress (mask.map (fun b => !b)) cells = cs
  induction cs generalizing bs with
  | nil => rfl
  | cons c cs ih => rw [List.foldl_cons, ih, setSlice_length]

theorem clearCells_get (f : File K m) (hf : WF f) (k : Fin m) (p : Cell K → Bool) (bs : List Bool) (i : Nat)
    (hi : (i : Int) < f.rows k) :
    (clearCells (f.cells k) ((f.cells k).map p) bs)[i]? = some true ↔
      bs[i]? = some true ∧ ∃ c ∈ f.cells k, Holds c i ∧ p c = true := by
  unfold clearCells
  have e : ((f.cells k).map p).map (fun b => !b) = (f.cells k).map (fun c => !p c) := by
    rw [List.map_map]; rfl
  have e2 : ∀ cs : List (Cell K), cs.foldl (fun bs c => setSlice bs (c.offset, c.count + c.offset) false) bs =
      (cs.map (fun c => ((c.offset, c.count + c.offset) : Rng))).foldl (fun bs rg => setSlice bs rg false) bs := by
    intro cs; rw [List.foldl_map]
  rw [e, compress_map, e2, foldl_setFalse]
  · refine and_congr_right (fun _ => ?_)
    constructor
    · intro h
      obtain ⟨c, hc, hh⟩ := hf.cover k i (by omega) hi
      refine ⟨c, hc, hh, ?_⟩
      by_contra hp
      refine h _ (List.mem_map.mpr ⟨c, List.mem_filter.mpr ⟨hc, by simpa using hp⟩, rfl⟩) ?_
      unfold Holds at hh
      dsimp only; omega
    · rintro ⟨c, hc, hh, hp⟩ r hr hin
      obtain ⟨c', hc', rfl⟩ := List.mem_map.mp hr
      obtain ⟨hm, hn⟩ := List.mem_filter.mp hc'
      have hne : c ≠ c' := by
        rintro rfl; simp [hp] at hn
      have hsym : ∀ a b : Cell K, (¬ ∃ i : Int, Holds a i ∧ Holds b i) → ¬ ∃ i : Int, Holds b i ∧ Holds a i := by
        rintro a b h ⟨i, h1, h2⟩; exact h ⟨i, h2, h1⟩
      have hpw : (f.cells k).Pairwise (fun a b => ¬ ∃ i : Int, Holds a i ∧ Holds b i) := by
        refine (hf.sorted k).imp ?_
        rintro a b hab ⟨i, h1, h2⟩
        unfold Holds at h1 h2; omega
      haveI : Std.Symm (fun a b : Cell K => ¬ ∃ i : Int, Holds a i ∧ Holds b i) := ⟨hsym⟩
      have := hpw.forall hc hm hne
      apply this
      refine ⟨i, hh, ?_⟩
      unfold Holds
      dsimp only at hin; omega
  · intro r hr
    obtain ⟨c, hc, rfl⟩ := List.mem_map.mp hr
    have := hf.nonneg k c (List.mem_filter.mp hc).1
    dsimp only; omega

/-! ### the initial state -/

theorem inv_initial (f : File K m) (hf : WF f) : Inv f (init f) (absInit f) := by
  have hrep : ∀ k, List.replicate (f.cells k).length true = (f.cells k).map (fun _ => true) := by
    intro k; simp
  have hreg : ∀ (k : Fin m) (i : Int), (0 ≤ i ∧ i < f.rows k) ↔ ∃ c ∈ f.cells k, Holds c i ∧ (fun _ : Cell K => true) c = true := by
    intro k i
    constructor
    · rintro ⟨h0, h1⟩
      obtain ⟨c, hc, hh⟩ := hf.cover k i h0 h1
      exact ⟨c, hc, hh, rfl⟩
    · rintro ⟨c, hc, hh, _⟩
      have := hf.nonneg k c hc
      unfold Holds at hh; omega
  refine ⟨rfl, ?_, fun _ _ _ h => h, fun _ _ _ => Iff.rfl, fun _ _ h => h, fun _ _ _ => Iff.rfl, ?_, ?_⟩
  · intro k
    exact ⟨fun _ => true, hrep k, hreg k⟩
  · intro r hr
    have hr' : r = fun k => cellRanges (f.cells k) ((f.cells k).map (fun _ => true)) := by
      have : Rep.ranges r = Rep.ranges (fun k => cellRanges (f.cells k) (List.replicate (f.cells k).length true)) := by
        rw [← hr]; rfl
      injection this with this
      rw [this]; funext k; rw [hrep]
    subst hr'
    refine ⟨id, fun k => ⟨(cellRanges_strict f hf k _).good (cellRanges_inBounds f hf k _), ?_, ?_,
      fun _ _ => cellRanges_strict f hf k _⟩⟩
    · intro i
      rw [mem_cellRanges]; exact (hreg k i).symm
    · rw [← cellCount_map f hf]
      show cellCount (f.cells k) (List.replicate (f.cells k).length true) = _
      rw [hrep]
  · intro b hb
    simp [init, updateRangeMasks] at hb

/-! ### conversions -/

theorem inv_toBool (f : File K m) (s : State m) (a : Abs m) (h : Inv f s a) :
    Inv f (toBool f s) { a with asBool := True } := by
  unfold toBool
  cases hs : s.rep with
  | bools b =>
    refine ⟨h.last, h.cm, h.sub, h.all, h.bnd, h.fresh, ?_, ?_⟩
    · intro r hr; dsimp only at hr; rw [hs] at hr; cases hr
    · intro b' hb'
      exact ⟨trivial, (h.bools b' hb').2⟩
  | ranges r =>
    obtain ⟨_, hk⟩ := h.ranges r hs
    refine ⟨h.last, h.cm, h.sub, h.all, h.bnd, h.fresh, ?_, ?_⟩
    · intro r' hr'; cases hr'
    · intro b hb
      injection hb with hb
      subst hb
      refine ⟨trivial, fun k => ⟨?_, ?_⟩⟩
      · rw [foldl_setSlice_length, List.length_replicate]
      · intro i
        obtain ⟨hg, hm, -, -⟩ := hk k
        rw [foldl_setTrue _ _ (fun x hx => by have := hg.inb x hx; omega), List.length_replicate]
        dsimp only
        rw [← hm, mem_rowsOf]
        constructor
        · rintro ⟨hi, (h1 | h1)⟩
          · simp [List.getElem?_replicate] at h1
          · exact h1
        · rintro ⟨x, hx, h1, h2⟩
          have := hg.inb x hx
          exact ⟨by omega, Or.inr ⟨x, hx, h1, h2⟩⟩

theorem inv_toRanges (f : File K m) (s : State m) (a : Abs m) (h : Inv f s a) :
    Inv f (toRanges s) { a with asBool := False } := by
  unfold toRanges
  cases hs : s.rep with
  | ranges r =>
    refine ⟨h.last, h.cm, h.sub, h.all, h.bnd, h.fresh, ?_, ?_⟩
    · intro r' hr'
      exact ⟨id, (h.ranges r' hr').2⟩
    · intro b hb; dsimp only at hb; rw [hs] at hb; cases hb
  | bools b =>
    obtain ⟨_, hk⟩ := h.bools b hs
    refine ⟨h.last, h.cm, h.sub, h.all, h.bnd, h.fresh, ?_, ?_⟩
    · intro r hr
      injection hr with hr
      subst hr
      refine ⟨id, fun k => ?_⟩
      have hmem : ∀ i, i ∈ whereTrue (b k) ↔ a.sel k i := by
        intro i
        rw [mem_whereTrue]
        constructor
        · rintro ⟨h0, h1⟩
          have := ((hk k).2 i.toNat).mp h1
          rwa [Int.toNat_of_nonneg h0] at this
        · intro h1
          have h0 := (h.bnd k i h1).1
          refine ⟨h0, ((hk k).2 i.toNat).mpr ?_⟩
          rwa [Int.toNat_of_nonneg h0]
      have hst := rfa_strict _ (whereTrue_sorted (b k))
      have hib := rfa_inBounds (f.rows k) (by omega) (whereTrue (b k)) (fun i hi => h.bnd k i ((hmem i).mp hi))
      refine ⟨hst.good hib, ?_, ?_, fun _ _ => hst⟩
      · intro i; rw [rfa_rows]; exact hmem i
      · rw [rfa_rows]
    · intro b' hb'; cases hb'

/-! ### property constraints -/

theorem inv_property (f : File K m) (hf : WF f) (s : State m) (a : Abs m) (h : Inv f s a) (g q : String)
    (lo hi : K) :
    Inv f (step f s (.property g q lo hi)).1 (builtStep f a (.property g q lo hi)) ∧
    ((step f s (.property g q lo hi)).2 = none ↔ Accepts f a (.property g q lo hi)) := by
  have ht := inv_toBool f s a h
  have hrep : ∃ b, (toBool f s).rep = .bools b := by
    cases hs : s.rep with
    | bools b => exact ⟨b, by unfold toBool; rw [hs]; exact hs⟩
    | ranges r => exact ⟨_, by unfold toBool; rw [hs]⟩
  obtain ⟨b, hb⟩ := hrep
  unfold builtStep
  simp only [step, propertyBody, decorate]
  cases hg : f.group g with
  | none =>
    have hn : ¬ Accepts f a (.property g q lo hi) := by
      rintro ⟨⟨k, hk⟩, _⟩; rw [hg] at hk; cases hk
    rw [if_neg hn]
    exact ⟨ht, by simp [hn]⟩
  | some k =>
    cases hq : f.field g q with
    | none =>
      have hn : ¬ Accepts f a (.property g q lo hi) := by
        rintro ⟨_, ⟨v, hv⟩⟩; rw [hq] at hv; cases hv
      rw [if_neg hn]
      exact ⟨ht, by simp [hn]⟩
    | some vals =>
      have hy : Accepts f a (.property g q lo hi) := ⟨⟨k, hg⟩, ⟨vals, hq⟩⟩
      rw [if_pos hy, hb]
      dsimp only
      refine ⟨?_, by simp [hy]⟩
      obtain ⟨_, hbk⟩ := ht.bools b hb
      have hlen : (b k).length = vals.length := by rw [(hbk k).1, hf.fields g q k vals hg hq]
      refine ⟨rfl, ht.cm, ?_, ?_, ?_, ?_, ?_, ?_⟩
      · intro hh; simp [builtApply, absApply] at hh
      · intro hh; simp [builtApply, absApply] at hh
      · intro k' i hs'
        exact h.bnd k' i hs'.1
      · intro hh; simp [builtApply, absApply] at hh
      · intro r hr; simp at hr
      · intro b' hb'
        simp only [Rep.bools.injEq] at hb'
        subst hb'
        refine ⟨trivial, fun k' => ?_⟩
        by_cases hk : k' = k
        · subst hk
          simp only [if_true]
          refine ⟨by rw [maskedAssign_length, (hbk k').1], fun i => ?_⟩
          rw [maskedAssign_get _ _ _ hlen, (hbk k').2 i]
          simp only [builtApply, absApply, hg, hq, Option.some.injEq, forall_const, Bool.and_eq_true, decide_eq_true_eq]
          refine and_congr_right (fun _ => ?_)
          constructor
          · rintro ⟨x, hx, h1, h2⟩
            exact ⟨vals, x, rfl, by rw [valueAt_natCast]; exact hx, h1, h2⟩
          · rintro ⟨_, x, rfl, hx, h1, h2⟩
            rw [valueAt_natCast] at hx
            exact ⟨x, hx, h1, h2⟩
        · simp only [hk, if_false]
          refine ⟨(hbk k').1, fun i => ?_⟩
          rw [(hbk k').2 i]
          simp only [builtApply, absApply]
          constructor
          · intro h1
            refine ⟨h1, fun h2 => ?_⟩
            rw [hg] at h2
            exact absurd (Option.some.inj h2).symm hk
          · exact fun h1 => h1.1

/-! ### spatial constraints -/

variable [IsStrictOrderedRing K]

/-- the cell predicate of a region as the code computes it -/
def keeps (f : File K m) (reg : Fin 3 → K × K) (c : Cell K) : Bool :=
  keepsAxis f.box reg 0 c && keepsAxis f.box reg 1 c && keepsAxis f.box reg 2 c

omit [IsStrictOrderedRing K] in
theorem regionIs_unique {box : Fin 3 → K} {rows : List (Option (List K))} {r1 r2 : Fin 3 → K × K}
    (h1 : RegionIs box rows r1) (h2 : RegionIs box rows r2) : r1 = r2 := by
  have e1 := (sanitize_ok_iff box rows r1).mpr h1
  have e2 := (sanitize_ok_iff box rows r2).mpr h2
  rw [e1] at e2
  exact Except.ok.inj e2

theorem inRegion_iff (f : File K m) (hf : WF f) (rows : List (Option (List K))) (reg : Fin 3 → K × K)
    (h : RegionIs f.box rows reg) (hw : InWindow f.box reg) (k : Fin m) (i : Int) :
    InRegion f rows k i ↔ ∃ c ∈ f.cells k, Holds c i ∧ keeps f reg c = true := by
  constructor
  · rintro ⟨reg', hr, c, hc, hh, hm⟩
    rw [regionIs_unique hr h] at hm
    exact ⟨c, hc, hh, (cellMask_meets f hf reg hw k c hc).mpr hm⟩
  · rintro ⟨c, hc, hh, hk⟩
    exact ⟨reg, h, c, hc, hh, (cellMask_meets f hf reg hw k c hc).mp hk⟩

omit [IsStrictOrderedRing K] in
/-- replacing the cell mask and updating the rows -/
theorem inv_update (f : File K m) (hf : WF f) (s : State m) (a : Abs m) (h : Inv f s a)
    (p : Fin m → Cell K → Bool) (cmask : Fin m → List Bool) (hc : ∀ k, cmask k = (f.cells k).map (p k))
    (reg : Fin m → Int → Prop) (hreg : ∀ k i, reg k i ↔ ∃ c ∈ f.cells k, Holds c i ∧ p k c = true) :
    Inv f { updateRangeMasks f (withCells s cmask) with constrained := some .spatial }
      { a with last := some .spatial, region := reg, sel := fun k i => reg k i ∧ (a.asBool → a.sel k i) } := by
  have hbnd : ∀ k i, reg k i → 0 ≤ i ∧ i < f.rows k := by
    intro k i hi
    obtain ⟨c, hc', hh, _⟩ := (hreg k i).mp hi
    have := hf.nonneg k c hc'
    unfold Holds at hh; omega
  have hcm : (updateRangeMasks f (withCells s cmask)).cellMask = cmask := by
    unfold updateRangeMasks withCells; cases s.rep <;> rfl
  refine ⟨rfl, ?_, fun _ _ _ h => h.1, by simp, fun k i h => hbnd k i h.1, by simp, ?_, ?_⟩
  · intro k
    refine ⟨p k, ?_, hreg k⟩
    show (updateRangeMasks f (withCells s cmask)).cellMask k = _
    rw [hcm, hc]
  · intro r hr
    dsimp only at hr ⊢
    unfold updateRangeMasks withCells at hr ⊢
    cases hs : s.rep with
    | bools b => simp [hs] at hr
    | ranges r0 =>
      simp only [hs] at hr ⊢
      injection hr with hr
      subst hr
      have hnb := (h.ranges r0 hs).1
      refine ⟨hnb, fun k => ?_⟩
      simp only [hc]
      refine ⟨(cellRanges_strict f hf k _).good (cellRanges_inBounds f hf k _), ?_, ?_,
        fun _ _ => cellRanges_strict f hf k _⟩
      · intro i
        rw [mem_cellRanges, hreg]
        exact ⟨fun h => ⟨h, fun hb => absurd hb hnb⟩, fun h => h.1⟩
      · rw [cellCount_map f hf]
  · intro b hb'
    dsimp only at hb' ⊢
    unfold updateRangeMasks withCells at hb'
    cases hs : s.rep with
    | ranges r0 => simp [hs] at hb'
    | bools b0 =>
      simp only [hs] at hb'
      injection hb' with hb'
      subst hb'
      obtain ⟨hB, hk⟩ := h.bools b0 hs
      refine ⟨hB, fun k => ⟨by rw [clearCells_length, (hk k).1], fun i => ?_⟩⟩
      dsimp only
      rw [hc, hreg]
      by_cases hi : (i : Int) < f.rows k
      · rw [clearCells_get f hf k _ _ i hi, (hk k).2 i]
        constructor
        · exact fun h => ⟨h.2, fun _ => h.1⟩
        · exact fun h => ⟨h.2 hB, h.1⟩
      · constructor
        · intro hx
          have := (List.getElem?_eq_some_iff.mp hx).1
          rw [clearCells_length, (hk k).1] at this
          omega
        · rintro ⟨⟨c, hc', hh, _⟩, _⟩
          have := hf.nonneg k c hc'
          unfold Holds at hh; omega

theorem inv_spatial (f : File K m) (hf : WF f) (s : State m) (a : Abs m) (h : Inv f s a)
    (rows : List (Option (List K))) (union : Bool) :
    Inv f (step f s (.spatial rows union)).1 (builtStep f a (.spatial rows union)) ∧
    ((step f s (.spatial rows union)).2 = none ↔ Accepts f a (.spatial rows union)) := by
  have hlast := h.last
  unfold builtStep
  simp only [step, spatialBody, decorate]
  cases hsr : sanitizeRegion f.box rows with
  | error e =>
    have hn : ¬ Accepts f a (.spatial rows union) := by
      rintro ⟨⟨reg, h1, _⟩, _⟩
      rw [(sanitize_ok_iff f.box rows reg).mpr h1] at hsr; cases hsr
    rw [if_neg hn]
    exact ⟨h, by simp [hn]⟩
  | ok reg =>
    have hreg := (sanitize_ok_iff f.box rows reg).mp hsr
    have hwin : regionOk f.box reg = true ↔ ∃ reg', RegionIs f.box rows reg' ∧ InWindow f.box reg' := by
      rw [regionOk_iff]
      constructor
      · exact fun h => ⟨reg, hreg, h⟩
      · rintro ⟨r', h1, h2⟩; rwa [regionIs_unique h1 hreg] at h2
    dsimp only
    rw [hlast]
    by_cases hsp : a.last = some .spatial ∧ union = true
    · rw [if_pos hsp]
      by_cases hok : regionOk f.box reg = true
      · have hy : Accepts f a (.spatial rows union) := ⟨hwin.mp hok, Or.inr hsp⟩
        rw [if_pos hok, if_pos hy]
        refine ⟨?_, by simp [hy]⟩
        dsimp only
        choose p hp1 hp2 using h.cm
        refine inv_update f hf s a h (fun k c => p k c || keeps f reg c) _ ?_ _ ?_
        · intro k
          rw [hp1, cellMaskOf_eq, List.zipWith_map, List.zipWith_self]
          rfl
        · intro k i
          rw [inRegion_iff f hf rows reg hreg ((regionOk_iff _ _).mp hok), hp2]
          simp only [hsp.1, true_and, Bool.or_eq_true]
          constructor
          · rintro (⟨c, h1, h2, h3⟩ | ⟨c, h1, h2, h3⟩)
            · exact ⟨c, h1, h2, Or.inr h3⟩
            · exact ⟨c, h1, h2, Or.inl h3⟩
          · rintro ⟨c, h1, h2, (h3 | h3)⟩
            · exact Or.inr ⟨c, h1, h2, h3⟩
            · exact Or.inl ⟨c, h1, h2, h3⟩
      · have hn : ¬ Accepts f a (.spatial rows union) := fun hh => hok (hwin.mpr hh.1)
        rw [if_neg hok, if_neg hn]
        exact ⟨h, by simp [hn]⟩
    · rw [if_neg hsp]
      by_cases hnone : a.last = none
      · rw [if_pos hnone]
        by_cases hok : regionOk f.box reg = true
        · have hy : Accepts f a (.spatial rows union) := ⟨hwin.mp hok, Or.inl hnone⟩
          rw [if_pos hok, if_pos hy]
          refine ⟨?_, by simp [hy]⟩
          dsimp only
          refine inv_update f hf s a h (fun _ c => keeps f reg c) _ ?_ _ ?_
          · intro k; rw [cellMaskOf_eq]; rfl
          · intro k i
            rw [inRegion_iff f hf rows reg hreg ((regionOk_iff _ _).mp hok)]
            simp [hnone]
        · have hn : ¬ Accepts f a (.spatial rows union) := fun hh => hok (hwin.mpr hh.1)
          rw [if_neg hok, if_neg hn]
          exact ⟨h, by simp [hn]⟩
      · have hn : ¬ Accepts f a (.spatial rows union) := by
          rintro ⟨_, (h1 | h1)⟩
          · exact hnone h1
          · exact hsp h1
        rw [if_neg hnone, if_neg hn]
        exact ⟨h, by simp [hn]⟩

/-! ### row indices -/

theorem isSorted_iff : ∀ l : List Int, isSorted l = true ↔ l.Pairwise (· ≤ ·)
  | [] => by simp [isSorted]
  | [a] => by simp [isSorted]
  | a :: b :: l => by
    rw [isSorted, Bool.and_eq_true, isSorted_iff (b :: l), decide_eq_true_eq]
    constructor
    · rintro ⟨h1, h2⟩
      refine List.pairwise_cons.mpr ⟨?_, h2⟩
      intro x hx
      rcases List.mem_cons.mp hx with rfl | hx
      · exact h1
      · have := (List.pairwise_cons.mp h2).1 x hx
        omega
    · intro h
      have := List.pairwise_cons.mp h
      exact ⟨this.1 b (by simp), this.2⟩

theorem sortIndices_sorted (l : List Int) : (sortIndices l).Pairwise (· ≤ ·) := by
  unfold sortIndices
  split
  · rename_i h; exact (isSorted_iff l).mp h
  · exact List.pairwise_insertionSort _ _

theorem sortIndices_perm (l : List Int) : (sortIndices l).Perm l := by
  unfold sortIndices
  split
  · exact List.Perm.refl _
  · exact List.perm_insertionSort _ _

theorem rfa_good (n : Int) (hn : 0 ≤ n) (l : List Int) (hl : l.Pairwise (· ≤ ·)) (h : ∀ i ∈ l, 0 ≤ i ∧ i < n) :
    Good n (rangesFromArray l) := by
  by_cases hne : l = []
  · subst hne
    refine ⟨rfa_inBounds n hn _ (by simp), ?_, by rw [rfa_rows]; exact hl⟩
    simp [rangesFromArray, Ordered]
  · obtain ⟨h1, h2⟩ := Verif.Props.c03_sorted_indices_ordered l hne hl n h
    exact ⟨h1, h2, by rw [rfa_rows]; exact hl⟩

theorem andMarked_length (bs : List Bool) (l : List Int) : (andMarked bs l).length = bs.length := by
  simp [andMarked, markIndices]

theorem andMarked_get (bs : List Bool) (l : List Int) (h : ∀ i ∈ l, 0 ≤ i ∧ i < (bs.length : Int)) (i : Nat) :
    (andMarked bs l)[i]? = some true ↔ bs[i]? = some true ∧ (i : Int) ∈ l := by
  unfold andMarked markIndices
  by_cases hi : i < bs.length
  · rw [List.getElem?_zipWith, List.getElem?_eq_getElem hi, List.getElem?_map, List.getElem?_range hi]
    simp only [Option.map_some, Option.some.injEq, Bool.and_eq_true, List.any_eq_true, Bool.or_eq_true,
      decide_eq_true_eq]
    refine and_congr_right (fun _ => ?_)
    constructor
    · rintro ⟨x, hx, (h1 | h1)⟩
      · rwa [h1] at hx
      · have := h x hx; omega
    · exact fun h => ⟨_, h, Or.inl rfl⟩
  · rw [List.getElem?_eq_none (by simp; omega), List.getElem?_eq_none (by omega)]
    simp

omit [IsStrictOrderedRing K] in
theorem inv_indices_body (f : File K m) (s : State m) (a : Abs m) (h : Inv f s a) (l : List Int)
    (hi : ∀ k : Fin m, ∀ i ∈ l, 0 ≤ i ∧ i < f.rows k) (kind : Kind) (hkind : kind = .indices ∨ kind = .index) :
    if a.last = none ∧ f.homogeneous = true then
      (indicesBody f s l).2 = none ∧
      Inv f { (indicesBody f s l).1 with constrained := some kind }
        { a with last := some kind, sel := fun _ i => i ∈ l }
    else (indicesBody f s l).2 ≠ none ∧ (indicesBody f s l).1 = s := by
  have hlast := h.last
  unfold indicesBody
  rw [hlast]
  by_cases hn : a.last = none
  · by_cases hh : f.homogeneous = true
    · rw [if_pos ⟨hn, hh⟩, if_neg (by simp [hn]), if_neg (by simp [hh])]
      have hkn : (some kind = (none : Option Kind) ∨ some kind = some Kind.spatial) → False := by
        rcases hkind with rfl | rfl <;> simp
      cases hs : s.rep with
      | ranges r =>
        refine ⟨rfl, rfl, h.cm, fun hx => (hkn hx).elim, fun hx => (hkn (Or.inl hx)).elim, fun k i hx => hi k i hx, 
          fun hx => (hkn (Or.inl hx)).elim, ?_, ?_⟩
        · intro r' hr'
          injection hr' with hr'
          subst hr'
          refine ⟨(h.ranges r hs).1, fun k => ⟨?_, ?_, ?_, ?_⟩⟩
          · exact rfa_good _ (by omega) _ (sortIndices_sorted l)
              (fun i hx => hi k i ((sortIndices_perm l).mem_iff.mp hx))
          · intro i; rw [rfa_rows]; exact (sortIndices_perm l).mem_iff
          · rw [rfa_rows, (sortIndices_perm l).length_eq]
          · intro h1 h2
            rcases hkind with rfl | rfl
            · exact absurd rfl h1
            · exact absurd rfl h2
        · intro b hb; cases hb
      | bools b =>
        obtain ⟨hB, hk⟩ := h.bools b hs
        have hfit : (List.finRange m).all (fun k => indicesFit (b k).length l) = true := by
          rw [List.all_eq_true]
          intro k _
          unfold indicesFit
          rw [List.all_eq_true]
          intro i hx
          have := hi k i hx
          rw [(hk k).1]
          simp only [Bool.and_eq_true, decide_eq_true_eq]
          omega
        dsimp only
        rw [if_pos hfit]
        refine ⟨rfl, rfl, h.cm, fun hx => (hkn hx).elim, fun hx => (hkn (Or.inl hx)).elim, fun k i hx => hi k i hx, 
          fun hx => (hkn (Or.inl hx)).elim, ?_, ?_⟩
        · intro r hr; cases hr
        · intro b' hb'
          injection hb' with hb'
          subst hb'
          refine ⟨hB, fun k => ⟨by rw [andMarked_length, (hk k).1], fun i => ?_⟩⟩
          rw [andMarked_get _ _ (fun i hx => by rw [(hk k).1]; exact hi k i hx), (hk k).2 i,
            h.all hn]
          constructor
          · exact fun h => h.2
          · exact fun hx => ⟨hi k i hx, hx⟩
    · rw [if_neg (by simp [hh]), if_neg (by simp [hn]), if_pos (by simpa using hh)]
      simp
  · rw [if_neg (by simp [hn]), if_pos hn]
    simp

omit [IsStrictOrderedRing K] in
theorem inv_indices (f : File K m) (s : State m) (a : Abs m) (h : Inv f s a) (l : List Int)
    (hi : ∀ k : Fin m, ∀ i ∈ l, 0 ≤ i ∧ i < f.rows k) :
    Inv f (step f s (.indices l)).1 (builtStep f a (.indices l)) ∧
    ((step f s (.indices l)).2 = none ↔ Accepts f a (.indices l)) := by
  have hb := inv_indices_body f s a h l hi .indices (Or.inl rfl)
  unfold builtStep
  simp only [step]
  by_cases hy : a.last = none ∧ f.homogeneous = true
  · rw [if_pos hy] at hb
    obtain ⟨h1, h2⟩ := hb
    have hacc : Accepts f a (.indices l) := hy
    rw [if_pos hacc]
    rcases he : indicesBody f s l with ⟨s', e⟩
    rw [he] at h1 h2
    dsimp only at h1; subst h1
    exact ⟨h2, by simp [decorate, hacc]⟩
  · rw [if_neg hy] at hb
    obtain ⟨h1, h2⟩ := hb
    have hacc : ¬ Accepts f a (.indices l) := hy
    rw [if_neg hacc]
    rcases he : indicesBody f s l with ⟨s', e⟩
    rw [he] at h1 h2
    dsimp only at h1 h2; subst h2
    cases e with
    | none => exact absurd rfl h1
    | some e => exact ⟨h, by simp [decorate, hacc]⟩

omit [IsStrictOrderedRing K] in
theorem inv_index (f : File K m) (s : State m) (a : Abs m) (h : Inv f s a) (j : Int)
    (hi : ∀ k : Fin m, 0 ≤ j ∧ j < f.rows k) :
    Inv f (step f s (.index j)).1 (builtStep f a (.index j)) ∧
    ((step f s (.index j)).2 = none ↔ Accepts f a (.index j)) := by
  have hb := inv_indices_body f s a h [j] (by simpa using hi) .index (Or.inr rfl)
  have hlast := h.last
  unfold builtStep
  simp only [step, indexBody]
  by_cases hy : a.last = none ∧ f.homogeneous = true
  · rw [if_pos hy] at hb
    obtain ⟨h1, h2⟩ := hb
    have hacc : Accepts f a (.index j) := hy
    rw [if_pos hacc, if_neg (by simp [hlast, hy.1])]
    rcases he : indicesBody f s [j] with ⟨s', e⟩
    rw [he] at h1 h2
    dsimp only at h1; subst h1
    simp only [List.mem_singleton] at h2
    exact ⟨h2, by simp [decorate, hacc]⟩
  · rw [if_neg hy] at hb
    obtain ⟨h1, h2⟩ := hb
    have hacc : ¬ Accepts f a (.index j) := hy
    rw [if_neg hacc, hlast]
    by_cases hn : a.last = none
    · rw [if_neg (by simp [hn])]
      rcases he : indicesBody f s [j] with ⟨s', e⟩
      rw [he] at h1 h2
      dsimp only at h1 h2; subst h2
      cases e with
      | none => exact absurd rfl h1
      | some e => exact ⟨h, by simp [decorate, hacc]⟩
    · rw [if_pos hn]
      exact ⟨h, by simp [decorate, hacc]⟩

/-! ### one step, and histories -/

theorem inv_step (f : File K m) (hf : WF f) (s : State m) (a : Abs m) (h : Inv f s a) (op : Op K)
    (hi : IndicesOk f op) :
    Inv f (step f s op).1 (builtStep f a op) ∧ ((step f s op).2 = none ↔ Accepts f a op) := by
  cases op with
  | spatial rows union => exact inv_spatial f hf s a h rows union
  | property g q lo hi' => exact inv_property f hf s a h g q lo hi'
  | indices l => exact inv_indices f s a h l hi
  | index j => exact inv_index f s a h j hi
  | toBool =>
    refine ⟨?_, by simp [step, Accepts]⟩
    unfold builtStep
    rw [if_pos (show Accepts f a (.toBool : Op K) from trivial)]
    exact inv_toBool f s a h
  | toRanges =>
    refine ⟨?_, by simp [step, Accepts]⟩
    unfold builtStep
    rw [if_pos (show Accepts f a (.toRanges : Op K) from trivial)]
    exact inv_toRanges f s a h

theorem inv_foldl (f : File K m) (hf : WF f) (ops : List (Op K)) : ∀ (s : State m) (a : Abs m), Inv f s a →
    (∀ op ∈ ops, IndicesOk f op) →
    Inv f (ops.foldl (fun s op => (step f s op).1) s) (ops.foldl (builtStep f) a) := by
  induction ops with
  | nil => intro s a h _; exact h
  | cons op ops ih =>
    intro s a h hs
    exact ih _ _ (inv_step f hf s a h op (hs op (by simp))).1 (fun o ho => hs o (by simp [ho]))

theorem inv_run (f : File K m) (hf : WF f) (ops : List (Op K)) (hs : ∀ op ∈ ops, IndicesOk f op) :
    Inv f (run f ops) (builtRun f ops) := inv_foldl f hf ops _ _ (inv_initial f hf) hs

omit [IsStrictOrderedRing K] in
/-- Without union on booleans the built semantics is the intended one. -/
theorem builtStep_eq (f : File K m) (hf : WF f) (s : State m) (a : Abs m) (h : Inv f s a) (op : Op K)
    (hu : ¬ UnionOnBool a op) : builtStep f a op = absStep f a op := by
  unfold builtStep absStep
  by_cases hy : Accepts f a op
  · rw [if_pos hy, if_pos hy]
    cases op with
    | spatial rows union =>
      unfold builtApply absApply
      dsimp only
      congr 1
      funext k i
      refine propext ⟨fun h => h.1, fun hr => ⟨hr, fun hb => ?_⟩⟩
      rcases hy.2 with hn | hn
      · rw [h.all hn]
        rcases hr with ⟨reg, _, c, hc, hh, _⟩ | ⟨h1, _⟩
        · have := hf.nonneg k c hc
          unfold Holds at hh; omega
        · rw [hn] at h1; cases h1
      · exact absurd ⟨hn.1, hn.2, hb⟩ hu
    | property g q lo hi => rfl
    | indices l => rfl
    | index j => rfl
    | toBool => rfl
    | toRanges => rfl
  · rw [if_neg hy, if_neg hy]

theorem built_eq_abs (f : File K m) (hf : WF f) (ops : List (Op K)) : ∀ (s : State m) (a : Abs m), Inv f s a →
    (∀ op ∈ ops, IndicesOk f op) → NoUnionOnBool f a ops →
    ops.foldl (builtStep f) a = ops.foldl (absStep f) a := by
  induction ops with
  | nil => intro s a _ _ _; rfl
  | cons op ops ih =>
    intro s a h hs hu
    have e := builtStep_eq f hf s a h op hu.1
    have hi := (inv_step f hf s a h op (hs op (by simp))).1
    rw [List.foldl_cons, List.foldl_cons, ← e]
    refine ih _ _ hi (fun o ho => hs o (by simp [ho])) ?_
    rw [e]; exact hu.2

omit [IsStrictOrderedRing K] in
theorem Inv.selects {f : File K m} {s : State m} {a : Abs m} (h : Inv f s a) (k : Fin m) (i : Int) :
    Selects s k i ↔ a.sel k i := by
  unfold Selects
  cases hs : s.rep with
  | ranges r =>
    obtain ⟨_, hk⟩ := h.ranges r hs
    rw [← (hk k).2.1 i, mem_rowsOf]
  | bools b =>
    obtain ⟨_, hk⟩ := h.bools b hs
    constructor
    · rintro ⟨h0, h1⟩
      have := ((hk k).2 _).mp h1
      rwa [Int.toNat_of_nonneg h0] at this
    · intro h1
      have h0 := (h.bnd k i h1).1
      refine ⟨h0, ((hk k).2 _).mpr ?_⟩
      rwa [Int.toNat_of_nonneg h0]

end Verif.Mask
