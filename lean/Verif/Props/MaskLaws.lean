import Verif.Props.Spatial
import Mathlib.Tactic.Linarith

/-!
# C110: laws that relate the selections of masks

A larger region selects more, the same region written in another way selects the same, unions do not depend on their order, a region
can be put together from parts, and so can a range of values.
-/

namespace Verif.Props
open Verif Verif.Spec Verif.Accel Verif.Mask

variable {K : Type} [Field K] [LinearOrder K] [IsStrictOrderedRing K] {m : Nat}

private theorem region_unique {box : Fin 3 → K} {rows : List (Option (List K))} {r s : Fin 3 → K × K} (h : RegionIs box rows r)
    (h' : RegionIs box rows s) : r = s := by
  funext d
  rcases h.2 d with ⟨e, e1⟩ | e <;> rcases h'.2 d with ⟨e', e2⟩ | e'
  · rw [e1, e2]
  · rw [e] at e'; cases e'
  · rw [e] at e'; cases e'
  · rw [e] at e'
    simp only [Option.some.injEq, List.cons.injEq, and_true] at e'
    exact Prod.ext e'.1 e'.2

private theorem inRegion_iff {f : File K m} {rows : List (Option (List K))} {reg : Fin 3 → K × K} (h : RegionIs f.box rows reg) (k : Fin m) (i : Int) :
    InRegion f rows k i ↔ ∃ c ∈ f.cells k, Holds c i ∧ Meets f.box reg c := by
  constructor
  · rintro ⟨r, hr, hc⟩
    rw [region_unique h hr]
    exact hc
  · intro hc
    exact ⟨reg, h, hc⟩

/-- One accepted region on a new mask. -/
private theorem one {f : File K m} (hf : WF f) {rows : List (Option (List K))} {reg : Fin 3 → K × K} (h : RegionIs f.box rows reg)
    (hw : InWindow f.box reg) (u : Bool) (k : Fin m) (i : Int) :
    Selects (run f [.spatial rows u]) k i ↔ ∃ c ∈ f.cells k, Holds c i ∧ Meets f.box reg c := by
  rw [c09_history_as_built f hf _ (by simp [IndicesOk])]
  have ha : Accepts f (absInit f) (.spatial rows u) := ⟨⟨reg, h, hw⟩, .inl rfl⟩
  simp only [builtRun, List.foldl_cons, List.foldl_nil, builtStep, if_pos ha, builtApply]
  rw [← inRegion_iff h]
  simp [absInit]

/-- Two accepted regions on a new mask. -/
private theorem two {f : File K m} (hf : WF f) {rows rows' : List (Option (List K))} {reg reg' : Fin 3 → K × K} (h : RegionIs f.box rows reg)
    (hw : InWindow f.box reg) (h' : RegionIs f.box rows' reg') (hw' : InWindow f.box reg') (u : Bool) (k : Fin m) (i : Int) :
    Selects (run f [.spatial rows u, .spatial rows' true]) k i ↔
      Selects (run f [.spatial rows false]) k i ∨ Selects (run f [.spatial rows' false]) k i := by
  rw [one hf h hw, one hf h' hw', c09_history_as_built f hf _ (by simp [IndicesOk])]
  have ha : Accepts f (absInit f) (.spatial rows u) := ⟨⟨reg, h, hw⟩, .inl rfl⟩
  simp only [builtRun, List.foldl_cons, List.foldl_nil]
  rw [show builtStep f (absInit f) (.spatial rows u) = builtApply f (absInit f) (.spatial rows u) by simp only [builtStep, if_pos ha]]
  have hb : Accepts f (builtApply f (absInit f) (.spatial rows u)) (.spatial rows' true) := ⟨⟨reg', h', hw'⟩, .inr ⟨rfl, rfl⟩⟩
  simp only [builtStep, if_pos hb]
  simp only [builtApply, absInit]
  rw [← inRegion_iff h, ← inRegion_iff h']
  simp
  tauto

/-- C110. A larger region selects all rows that the smaller one selects. -/
theorem c110_larger {f : File K m} (hf : WF f) {rows rows' : List (Option (List K))} {reg reg' : Fin 3 → K × K} (h : RegionIs f.box rows reg)
    (hw : InWindow f.box reg) (h' : RegionIs f.box rows' reg') (hw' : InWindow f.box reg')
    (hin : ∀ d, (reg' d).1 ≤ (reg d).1 ∧ (reg d).1 ≤ (reg d).2 ∧ (reg d).2 ≤ (reg' d).2) (u u' : Bool) (k : Fin m) (i : Int) :
    Selects (run f [.spatial rows u]) k i → Selects (run f [.spatial rows' u']) k i := by
  rw [one hf h hw, one hf h' hw']
  rintro ⟨c, hc, hi, hm⟩
  refine ⟨c, hc, hi, fun d => ?_⟩
  obtain ⟨h1, h2, h3⟩ := hin d
  rcases hm d with hl | ⟨j, h4, h5⟩
  · left
    rw [abs_of_nonneg (by linarith)] at hl ⊢
    linarith
  · refine .inr ⟨j, by linarith, ?_⟩
    unfold wrapUpper at h5 ⊢
    rw [if_neg (not_lt.2 h2)] at h5
    rw [if_neg (not_lt.2 (by linarith))]
    linarith

/-- The same interval up to whole boxes: one may be written through the boundary, `upper < lower`, and the other not. -/
def SameInterval (L : K) (x y : K × K) : Prop :=
  ∃ n : ℤ, y.1 = x.1 + (n : K) * L ∧ wrapUpper L y.1 y.2 = wrapUpper L x.1 x.2 + (n : K) * L

private theorem same_symm {L : K} {x y : K × K} (h : SameInterval L x y) : SameInterval L y x := by
  obtain ⟨n, h1, h2⟩ := h
  exact ⟨-n, by rw [h1]; push_cast; ring, by rw [h2]; push_cast; ring⟩

private theorem same_meets {L : K} {x y : K × K} (h : SameInterval L x y) (hx : |x.2 - x.1| ≤ L) (lo hi : K)
    (hm : MeetsAxis L x.1 x.2 lo hi) : MeetsAxis L y.1 y.2 lo hi := by
  obtain ⟨n, h1, h2⟩ := h
  rcases hm with hm | ⟨j, h3, h4⟩
  · exact absurd hx (not_le.2 hm)
  · refine .inr ⟨j + n, ?_, ?_⟩
    · rw [h1]; push_cast; linarith
    · rw [h2]; push_cast; linarith

/-- C110. A region that is shifted by whole boxes, or whose intervals are written through the boundary of the box, selects the same
rows. -/
theorem c110_same_region {f : File K m} (hf : WF f) {rows rows' : List (Option (List K))} {reg reg' : Fin 3 → K × K} (h : RegionIs f.box rows reg)
    (hw : InWindow f.box reg) (h' : RegionIs f.box rows' reg') (hw' : InWindow f.box reg') (hs : ∀ d, SameInterval (f.box d) (reg d) (reg' d))
    (hl : ∀ d, |(reg d).2 - (reg d).1| ≤ f.box d ∧ |(reg' d).2 - (reg' d).1| ≤ f.box d) (u u' : Bool) (k : Fin m) (i : Int) :
    Selects (run f [.spatial rows u]) k i ↔ Selects (run f [.spatial rows' u']) k i := by
  rw [one hf h hw, one hf h' hw']
  constructor
  · rintro ⟨c, hc, hi, hm⟩
    exact ⟨c, hc, hi, fun d => same_meets (hs d) (hl d).1 _ _ (hm d)⟩
  · rintro ⟨c, hc, hi, hm⟩
    exact ⟨c, hc, hi, fun d => same_meets (same_symm (hs d)) (hl d).2 _ _ (hm d)⟩

/-- C110. The order of a union does not matter, and a region that is added twice is there once. -/
theorem c110_unions {f : File K m} (hf : WF f) {rows rows' : List (Option (List K))} {reg reg' : Fin 3 → K × K} (h : RegionIs f.box rows reg)
    (hw : InWindow f.box reg) (h' : RegionIs f.box rows' reg') (hw' : InWindow f.box reg') (u u' : Bool) (k : Fin m) (i : Int) :
    (Selects (run f [.spatial rows u, .spatial rows' true]) k i ↔ Selects (run f [.spatial rows' u', .spatial rows true]) k i) ∧
    (Selects (run f [.spatial rows u, .spatial rows true]) k i ↔ Selects (run f [.spatial rows u']) k i) ∧
    (Selects (run f [.spatial rows u, .spatial rows' true]) k i ↔
      Selects (run f [.spatial rows u]) k i ∨ Selects (run f [.spatial rows' u']) k i) := by
  have e : ∀ {r : List (Option (List K))} {g : Fin 3 → K × K}, RegionIs f.box r g → InWindow f.box g → ∀ v w : Bool,
      (Selects (run f [.spatial r v]) k i ↔ Selects (run f [.spatial r w]) k i) := by
    intro r g hr hg v w
    rw [one hf hr hg, one hf hr hg]
  refine ⟨?_, ?_, ?_⟩
  · rw [two hf h hw h' hw', two hf h' hw' h hw]
    exact or_comm
  · rw [two hf h hw h hw, e h hw u' false]
    exact or_self_iff
  · rw [two hf h hw h' hw', e h hw u false, e h' hw' u' false]

/-- C110. A region that is cut in two along one axis selects what the union of the parts selects, if no cell is flat. -/
theorem c110_parts {f : File K m} (hf : WF f) {rows rows1 rows2 : List (Option (List K))} {reg reg1 reg2 : Fin 3 → K × K}
    (h : RegionIs f.box rows reg) (hw : InWindow f.box reg) (h1 : RegionIs f.box rows1 reg1) (hw1 : InWindow f.box reg1)
    (h2 : RegionIs f.box rows2 reg2) (hw2 : InWindow f.box reg2) (d : Fin 3) (b : K) (hb : (reg d).1 ≤ b ∧ b ≤ (reg d).2)
    (e1 : ∀ d', reg1 d' = if d' = d then ((reg d).1, b) else reg d') (e2 : ∀ d', reg2 d' = if d' = d then (b, (reg d).2) else reg d')
    (hflat : ∀ k, ∀ c ∈ f.cells k, c.lo d < c.hi d) (u u' : Bool) (k : Fin m) (i : Int) :
    Selects (run f [.spatial rows u]) k i ↔ Selects (run f [.spatial rows1 u', .spatial rows2 true]) k i := by
  rw [two hf h1 hw1 h2 hw2, one hf h hw, one hf h1 hw1, one hf h2 hw2]
  have hL := hf.box_pos d
  have hr := hw d
  have key : ∀ c : Cell K, c.lo d < c.hi d → (-f.box d / 2 ≤ c.lo d ∧ c.lo d ≤ c.hi d ∧ c.hi d ≤ 3 * f.box d / 2) → (MeetsAxis (f.box d) (reg d).1 (reg d).2 (c.lo d) (c.hi d) ↔
      MeetsAxis (f.box d) (reg d).1 b (c.lo d) (c.hi d) ∨ MeetsAxis (f.box d) b (reg d).2 (c.lo d) (c.hi d)) := by
    intro c hc hn
    generalize (reg d).1 = x, (reg d).2 = y, c.lo d = lo, c.hi d = hi, f.box d = L at *
    obtain ⟨hx, hy⟩ := hb
    unfold MeetsAxis wrapUpper
    rw [if_neg (not_lt.2 (hx.trans hy)), if_neg (not_lt.2 hx), if_neg (not_lt.2 hy), abs_of_nonneg (by linarith), abs_of_nonneg (by linarith),
      abs_of_nonneg (by linarith)]
    constructor
    · intro hm
      by_cases q1 : b - x > L
      · exact .inl (.inl q1)
      by_cases q2 : y - b > L
      · exact .inr (.inl q2)
      have hj : ∃ j : ℤ, x < hi + (j : K) * L ∧ lo + (j : K) * L < y := by
        rcases hm with hm | hm
        · by_cases r1 : x < hi
          · by_cases r2 : lo < y
            · exact ⟨0, by simpa using r1, by simpa using r2⟩
            · exact ⟨-1, by push_cast; linarith, by push_cast; linarith [hr.2.1, hr.2.2, hr.1.1, hr.1.2]⟩
          · exact ⟨1, by push_cast; linarith [hr.2.1, hr.2.2, hr.1.1, hr.1.2], by push_cast; linarith⟩
        · exact hm
      obtain ⟨j, h3, h4⟩ := hj
      by_cases q : lo + (j : K) * L < b
      · exact .inl (.inr ⟨j, h3, q⟩)
      · exact .inr (.inr ⟨j, by linarith, h4⟩)
    · rintro ((hm | ⟨j, h3, h4⟩) | (hm | ⟨j, h3, h4⟩))
      · left; linarith
      · exact .inr ⟨j, h3, by linarith⟩
      · left; linarith
      · exact .inr ⟨j, by linarith, h4⟩
  have off1 : ∀ d', d' ≠ d → reg1 d' = reg d' := fun d' hd => by rw [e1, if_neg hd]
  have off2 : ∀ d', d' ≠ d → reg2 d' = reg d' := fun d' hd => by rw [e2, if_neg hd]
  have on1 : reg1 d = ((reg d).1, b) := by rw [e1, if_pos rfl]
  have on2 : reg2 d = (b, (reg d).2) := by rw [e2, if_pos rfl]
  constructor
  · rintro ⟨c, hc, hi, hm⟩
    rcases (key c (hflat k c hc) (hf.near k c hc d)).1 (hm d) with h | h
    · refine .inl ⟨c, hc, hi, fun d' => ?_⟩
      by_cases hd : d' = d
      · subst hd; rw [on1]; exact h
      · rw [off1 d' hd]; exact hm d'
    · refine .inr ⟨c, hc, hi, fun d' => ?_⟩
      by_cases hd : d' = d
      · subst hd; rw [on2]; exact h
      · rw [off2 d' hd]; exact hm d'
  · rintro (⟨c, hc, hi, hm⟩ | ⟨c, hc, hi, hm⟩)
    · refine ⟨c, hc, hi, fun d' => ?_⟩
      have := hm d'
      by_cases hd : d' = d
      · subst hd; rw [on1] at this; exact (key c (hflat k c hc) (hf.near k c hc d')).2 (.inl this)
      · rwa [off1 d' hd] at this
    · refine ⟨c, hc, hi, fun d' => ?_⟩
      have := hm d'
      by_cases hd : d' = d
      · subst hd; rw [on2] at this; exact (key c (hflat k c hc) (hf.near k c hc d')).2 (.inr this)
      · rwa [off2 d' hd] at this

/-- C110. A range of values that is cut in two: every row of the range is in exactly one of the parts, whatever was selected before. -/
theorem c110_values (f : File K m) (hf : WF f) (ops : List (Op K)) (ho : ∀ op ∈ ops, IndicesOk f op) (g q : String) (lo mid hi : K) (k : Fin m)
    (vals : List K) (hg : f.group g = some k) (hq : f.field g q = some vals) (h1 : lo ≤ mid) (h2 : mid ≤ hi) (i : Int) :
    (Selects (run f (ops ++ [.property g q lo hi])) k i ↔
      Selects (run f (ops ++ [.property g q lo mid])) k i ∨ Selects (run f (ops ++ [.property g q mid hi])) k i) ∧
    ¬ (Selects (run f (ops ++ [.property g q lo mid])) k i ∧ Selects (run f (ops ++ [.property g q mid hi])) k i) := by
  rw [c11_exact f hf ops ho g q lo hi k vals hg hq, c11_exact f hf ops ho g q lo mid k vals hg hq, c11_exact f hf ops ho g q mid hi k vals hg hq]
  constructor
  · constructor
    · rintro ⟨hs, hv⟩
      obtain ⟨v, hv, h3, h4⟩ := hv rfl
      rcases le_or_gt v mid with h5 | h5
      · exact .inl ⟨hs, fun _ => ⟨v, hv, h3, h5⟩⟩
      · exact .inr ⟨hs, fun _ => ⟨v, hv, h5, h4⟩⟩
    · rintro (⟨hs, hv⟩ | ⟨hs, hv⟩)
      · obtain ⟨v, hv, h3, h4⟩ := hv rfl
        exact ⟨hs, fun _ => ⟨v, hv, h3, h4.trans h2⟩⟩
      · obtain ⟨v, hv, h3, h4⟩ := hv rfl
        exact ⟨hs, fun _ => ⟨v, hv, h1.trans_lt h3, h4⟩⟩
  · rintro ⟨⟨_, hv⟩, _, hv'⟩
    obtain ⟨v, hv, _, h4⟩ := hv rfl
    obtain ⟨v', hv', h3, _⟩ := hv' rfl
    rw [hv] at hv'
    cases hv'
    exact absurd h4 (not_le.2 h3)

/-- C110. Two ranges of one quantity, one after the other, are the range they share. A range that is asked for twice is there once. -/
theorem c110_shared_range (f : File K m) (hf : WF f) (ops : List (Op K)) (ho : ∀ op ∈ ops, IndicesOk f op) (g q : String) (lo hi lo' hi' : K)
    (k : Fin m) (vals : List K) (hg : f.group g = some k) (hq : f.field g q = some vals) (k' : Fin m) (i : Int) :
    Selects (run f (ops ++ [.property g q lo hi, .property g q lo' hi'])) k' i ↔
      Selects (run f (ops ++ [.property g q (max lo lo') (min hi hi')])) k' i := by
  have ho' : ∀ op ∈ ops ++ [Op.property g q lo hi], IndicesOk f op := by
    intro op hop
    rcases List.mem_append.mp hop with h | h
    · exact ho op h
    · rw [List.mem_singleton] at h; subst h; trivial
  rw [show ops ++ [.property g q lo hi, .property g q lo' hi'] = (ops ++ [.property g q lo hi]) ++ [.property g q lo' hi'] by simp,
    c11_exact f hf _ ho' g q lo' hi' k vals hg hq, c11_exact f hf ops ho g q lo hi k vals hg hq,
    c11_exact f hf ops ho g q (max lo lo') (min hi hi') k vals hg hq]
  constructor
  · rintro ⟨⟨hs, hv⟩, hv'⟩
    refine ⟨hs, fun e => ?_⟩
    obtain ⟨v, hv, h3, h4⟩ := hv e
    obtain ⟨v', hv', h5, h6⟩ := hv' e
    rw [hv] at hv'
    cases hv'
    exact ⟨v, hv, max_lt h3 h5, le_min h4 h6⟩
  · rintro ⟨hs, hv⟩
    refine ⟨⟨hs, fun e => ?_⟩, fun e => ?_⟩
    · obtain ⟨v, hv, h3, h4⟩ := hv e
      exact ⟨v, hv, (max_lt_iff.1 h3).1, (le_min_iff.1 h4).1⟩
    · obtain ⟨v, hv, h3, h4⟩ := hv e
      exact ⟨v, hv, (max_lt_iff.1 h3).2, (le_min_iff.1 h4).2⟩

/-! ## Examples -/

/-- the region `[a, b]` along the first axis -/
private def slab (a b : ℚ) : List (Option (List ℚ)) := [some [a, b], none, none]

private def slabReg (a b : ℚ) : Fin 3 → ℚ × ℚ := fun d => if d = 0 then (a, b) else (0, 4)

private theorem slab_is (a b : ℚ) : RegionIs exFile.box (slab a b) (slabReg a b) :=
  ⟨rfl, fun d => by fin_cases d <;> simp [slab, slabReg, exFile]⟩

private theorem slab_window (a b : ℚ) (h : -2 ≤ a ∧ a ≤ 6 ∧ -2 ≤ b ∧ b ≤ 6) : InWindow exFile.box (slabReg a b) := by
  obtain ⟨h1, h2, h3, h4⟩ := h
  intro d
  fin_cases d <;> simp [slabReg, exFile] <;> norm_num
  exact ⟨⟨h1, h2⟩, h3, h4⟩

/-- the hypotheses of `c110_larger` hold for `[1/4, 3/4]` in `[0, 5/2]` -/
example (i : Int) : Selects (run exFile [.spatial (slab (1/4) (3/4)) false]) 0 i → Selects (run exFile [.spatial (slab 0 (5/2)) false]) 0 i :=
  c110_larger exFile_wf (slab_is _ _) (slab_window _ _ (by norm_num)) (slab_is _ _) (slab_window _ _ (by norm_num))
    (fun d => by fin_cases d <;> norm_num [slabReg]) false false 0 i

/-- the region through the boundary, written as `[7/2, 1/2]` and as `[-1/2, 1/2]` -/
example (i : Int) : Selects (run exFile [.spatial (slab (7/2) (1/2)) false]) 0 i ↔ Selects (run exFile [.spatial (slab (-1/2) (1/2)) false]) 0 i :=
  c110_same_region exFile_wf (slab_is _ _) (slab_window _ _ (by norm_num)) (slab_is _ _) (slab_window _ _ (by norm_num))
    (fun d => by
      fin_cases d
      · exact ⟨-1, by norm_num [slabReg, exFile], by norm_num [slabReg, exFile, wrapUpper]⟩
      · exact ⟨0, by norm_num [slabReg, exFile], by norm_num [slabReg, exFile, wrapUpper]⟩
      · exact ⟨0, by norm_num [slabReg, exFile], by norm_num [slabReg, exFile, wrapUpper]⟩)
    (fun d => by fin_cases d <;> norm_num [slabReg, exFile, abs_le]) false false 0 i

/-- the region `[1/4, 13/4]` cut at `2` -/
example (i : Int) : Selects (run exFile [.spatial (slab (1/4) (13/4)) false]) 0 i ↔
    Selects (run exFile [.spatial (slab (1/4) 2) false, .spatial (slab 2 (13/4)) true]) 0 i :=
  c110_parts exFile_wf (slab_is _ _) (slab_window _ _ (by norm_num)) (slab_is _ _) (slab_window _ _ (by norm_num)) (slab_is _ _)
    (slab_window _ _ (by norm_num)) 0 2 (by norm_num [slabReg]) (fun d => by fin_cases d <;> simp [slabReg])
    (fun d => by fin_cases d <;> simp [slabReg])
    (fun k c hc => by fin_cases k <;> simp [exFile, exCell] at hc <;> rcases hc with rfl | rfl | rfl | rfl <;> norm_num) false false 0 i

/-- what is selected in these examples, and a union in both orders -/
example : rowsLoaded (run exFile [.spatial (slab (7/2) (1/2)) false]) 0 6 = .ok [some 0, some 1, some 4, some 5] ∧
    rowsLoaded (run exFile [.spatial (slab (-1/2) (1/2)) false]) 0 6 = .ok [some 0, some 1, some 4, some 5] ∧
    rowsLoaded (run exFile [.spatial (slab (1/4) 2) false, .spatial (slab 2 (13/4)) true]) 0 6 =
      rowsLoaded (run exFile [.spatial (slab (1/4) (13/4)) false]) 0 6 ∧
    rowsLoaded (run exFile [.spatial (slab (1/4) (1/2)) false, .spatial (slab (9/4) (5/2)) true]) 0 6 =
      rowsLoaded (run exFile [.spatial (slab (9/4) (5/2)) false, .spatial (slab (1/4) (1/2)) true]) 0 6 := by
  decide +kernel

/-- ranges of masses -/
example : rowsLoaded (run exFile [.property "gas" "masses" 1 5]) 0 6 = .ok [some 1, some 2, some 3, some 4] ∧
    rowsLoaded (run exFile [.property "gas" "masses" 1 3]) 0 6 = .ok [some 1, some 2] ∧
    rowsLoaded (run exFile [.property "gas" "masses" 3 5]) 0 6 = .ok [some 3, some 4] ∧
    rowsLoaded (run exFile [.property "gas" "masses" 1 4, .property "gas" "masses" 3 5]) 0 6 = .ok [some 3] := by
  decide +kernel

end Verif.Props
