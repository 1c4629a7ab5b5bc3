import Verif.Lemmas.MaskInv
import Verif.Props.Slices

/-!
# C07 - C11, C15: masks as state machines (`swiftsimio/masks.py`)
-/

namespace Verif.Props
open Verif Verif.Spec Verif.Accel Verif.Mask

variable {K : Type} [Field K] [LinearOrder K] {m : Nat}

section Small
/-! A file used by the worked examples: four cells along the first axis of a box of side 4, two particle types of 6 and
3 rows; the second cell holds no particle of the second type. -/

/-- a cell of the example file -/
def exCell (o c : Int) (x : ℚ) : Cell ℚ where
  offset := o
  count := c
  lo := fun d => if d = 0 then x else 0
  hi := fun d => if d = 0 then x + 1 else 4

/-- the example file -/
def exFile : File ℚ 2 where
  box := fun _ => 4
  rows := fun k => if k = 0 then 6 else 3
  cells := fun k => if k = 0 then [exCell 0 2 0, exCell 2 1 1, exCell 3 1 2, exCell 4 2 3]
    else [exCell 0 1 0, exCell 1 0 1, exCell 1 1 2, exCell 2 1 3]
  homogeneous := false
  group := fun g => if g = "gas" then some 0 else if g = "stars" then some 1 else none
  field := fun g q => if g = "gas" ∧ q = "masses" then some [1, 2, 3, 4, 5, 6]
    else if g = "stars" ∧ q = "masses" then some [1, 2, 3] else none

theorem exFile_wf : WF exFile := by
  constructor
  · intro d; norm_num [exFile]
  · intro k; fin_cases k <;> simp [exFile, exCell, table, Contiguous]
  · intro k c hc d
    fin_cases k <;> simp [exFile, exCell] at hc ⊢ <;> rcases hc with rfl | rfl | rfl | rfl <;>
      by_cases hd : d = 0 <;> simp [hd] <;> norm_num
  · intro g q k vals hg hq
    simp only [exFile] at hg hq ⊢
    by_cases h1 : g = "gas"
    · subst h1
      simp at hg hq
      obtain ⟨_, rfl⟩ := hq
      subst hg; simp
    · by_cases h2 : g = "stars"
      · subst h2
        simp at hg hq
        obtain ⟨_, rfl⟩ := hq
        subst hg; simp
      · simp [h1, h2] at hg

/-- the rows a load returns, as a decidable quantity for the examples -/
def rowsLoaded {m : Nat} (s : State m) (k : Fin m) (n : Nat) : Except Err (List (Option Nat)) :=
  load s .contiguous (List.range n) k

end Small

variable [IsStrictOrderedRing K]

/-! ## C07 -/

/-- C07. After any history of calls, loading a field of key `k` from local storage returns exactly the selected rows in
file order, with the advertised length; a row is returned once unless row indices were requested. -/
theorem c07_masked_read {α : Type} (f : File K m) (hf : WF f) (ops : List (Op K)) (hi : ∀ op ∈ ops, IndicesOk f op)
    (k : Fin m) (ds : List α) (hds : ds.length = f.rows k) (lay : Layout) (hlay : lay ≠ .remote)
    (hc : ∀ c, lay = .chunked c → 0 < c) :
    ∃ rows : List Int, load (run f ops) lay ds k = .ok (select ds rows) ∧
      rows.Pairwise (· ≤ ·) ∧ (∀ i, i ∈ rows ↔ Selects (run f ops) k i) ∧
      advertised (run f ops) k = rows.length ∧ (∀ i ∈ rows, 0 ≤ i ∧ i < ds.length) ∧
      ((run f ops).constrained ≠ some .indices → (run f ops).constrained ≠ some .index →
        rows.Pairwise (· < ·)) := by
  have h0 := inv_run f hf ops hi
  have h1 := inv_toRanges f _ _ h0
  have hrep : ∃ r, (toRanges (run f ops)).rep = .ranges r := by
    cases hs : (run f ops).rep with
    | bools b => exact ⟨_, by unfold toRanges; rw [hs]⟩
    | ranges r => exact ⟨r, by unfold toRanges; rw [hs]; exact hs⟩
  obtain ⟨r, hr⟩ := hrep
  obtain ⟨_, hk⟩ := h1.ranges r hr
  obtain ⟨hg, hm, hsz, hst⟩ := hk k
  have hsize : ((toRanges (run f ops)).size k).toNat = (rowsOf (r k)).length := by rw [hsz]; simp
  refine ⟨rowsOf (r k), ?_, hg.sorted, ?_, hsz, ?_, ?_⟩
  · unfold load
    rw [hr]
    dsimp only
    rw [hsize]
    have hib : InBounds ds.length (r k) := by rw [hds]; exact hg.inb
    cases lay with
    | remote => exact absurd rfl hlay
    | contiguous => exact c03_unchunked_read ds (r k) hib
    | chunked c =>
      unfold readRanges
      dsimp only
      by_cases hmb : meanBelow (r k) 500000 = true
      · rw [if_pos hmb]
        refine c03_chunked_read ds c (hc c rfl) (r k) ?_ hib hg.ord
        intro he
        rw [he] at hmb
        simp [meanBelow] at hmb
      · rw [if_neg hmb]
        exact c03_unchunked_read ds (r k) hib
  · intro i
    rw [hm, h0.selects k i]
  · intro i hi'
    rw [hds]
    exact h0.bnd k i ((hm i).mp hi')
  · intro h2 h3
    have hl := h0.last
    exact (hst (by dsimp only; rw [← hl]; exact h2) (by dsimp only; rw [← hl]; exact h3)).rows_sorted hg.inb

/-- C07, remote storage. The same read over the network, for masks that select at least one range and were not made
from row indices. (An empty range list and repeated rows raise there: `c06_empty_fails_remote`,
`c15_repeated_fails_remote`.) -/
theorem c07_masked_read_remote_partial {α : Type} (f : File K m) (hf : WF f) (ops : List (Op K))
    (hi : ∀ op ∈ ops, IndicesOk f op) (k : Fin m) (ds : List α) (hds : ds.length = f.rows k)
    (h1 : (run f ops).constrained ≠ some .indices) (h2 : (run f ops).constrained ≠ some .index)
    (hsel : ∃ i, Selects (run f ops) k i) :
    load (run f ops) .remote ds k = load (run f ops) .contiguous ds k := by
  have h0 := inv_run f hf ops hi
  have hR := inv_toRanges f _ _ h0
  have hrep : ∃ r, (toRanges (run f ops)).rep = .ranges r := by
    cases hs : (run f ops).rep with
    | bools b => exact ⟨_, by unfold toRanges; rw [hs]⟩
    | ranges r => exact ⟨r, by unfold toRanges; rw [hs]; exact hs⟩
  obtain ⟨r, hr⟩ := hrep
  obtain ⟨_, hk⟩ := hR.ranges r hr
  obtain ⟨hg, hm, hsz, hst⟩ := hk k
  have hsize : ((toRanges (run f ops)).size k).toNat = (rowsOf (r k)).length := by rw [hsz]; simp
  have hib : InBounds ds.length (r k) := by rw [hds]; exact hg.inb
  have hl := h0.last
  have hstr := hst (by dsimp only; rw [← hl]; exact h1) (by dsimp only; rw [← hl]; exact h2)
  have hne : r k ≠ [] := by
    intro he
    obtain ⟨i, hi⟩ := hsel
    rw [h0.selects k i, ← hm i, he] at hi
    simp [rowsOf] at hi
  unfold load
  rw [hr]
  dsimp only
  rw [hsize]
  rw [c06_layout_irrelevant_partial .remote (by simp) ds (r k) hne hib hstr,
    c06_layout_irrelevant_partial .contiguous (by simp) ds (r k) hne hib hstr]

/-- worked example: the second and third cell by position, then masses above 3 -/
example : rowsLoaded (run exFile [.spatial [some [5/4, 9/4], none, none] false, .property "gas" "masses" 3 100]) 0 6
    = .ok [some 3] := by decide +kernel

/-! ## C08 -/

/-- C08. Conversions, in any number and order, never change the selected rows; in range form the advertised size is the
number of distinct selected rows as soon as the mask has been boolean once. -/
theorem c08_conversions_preserve (f : File K m) (hf : WF f) (ops conv : List (Op K))
    (hi : ∀ op ∈ ops, IndicesOk f op) (hconv : ∀ op ∈ conv, op = .toBool ∨ op = .toRanges) (k : Fin m) (i : Int) :
    Selects (run f (ops ++ conv)) k i ↔ Selects (run f ops) k i := by
  have hi' : ∀ op ∈ ops ++ conv, IndicesOk f op := by
    intro op hop
    rcases List.mem_append.mp hop with h | h
    · exact hi op h
    · rcases hconv op h with rfl | rfl <;> trivial
  rw [(inv_run f hf _ hi').selects, (inv_run f hf _ hi).selects]
  unfold builtRun
  rw [List.foldl_append]
  generalize ops.foldl (builtStep f) (absInit f) = a
  clear hi hi'
  induction conv generalizing a with
  | nil => rfl
  | cons op conv ih =>
    have ih' := ih (fun o ho => hconv o (by simp [ho])) (builtStep f a op)
    rw [List.foldl_cons]
    refine Iff.trans ih' ?_
    have hacc : Accepts f a op := by rcases hconv op (by simp) with rfl | rfl <;> trivial
    unfold builtStep
    rw [if_pos hacc]
    rcases hconv op (by simp) with rfl | rfl <;> rfl

/-- C08. The advertised size after a round trip is the number of selected rows. -/
theorem c08_size_after_roundtrip (f : File K m) (hf : WF f) (ops : List (Op K)) (hi : ∀ op ∈ ops, IndicesOk f op)
    (k : Fin m) :
    ∃ rows : List Int, rows.Nodup ∧ (∀ i, i ∈ rows ↔ Selects (run f ops) k i) ∧
      (run f (ops ++ [.toBool, .toRanges])).size k = rows.length := by
  have h0 := inv_run f hf ops hi
  have hB := inv_toBool f _ _ h0
  have e : run f (ops ++ [.toBool, .toRanges]) = toRanges (Mask.toBool f (run f ops)) := by
    unfold run; rw [List.foldl_append]; rfl
  have hrep : ∃ b, (Mask.toBool f (run f ops)).rep = .bools b := by
    cases hs : (run f ops).rep with
    | bools b => exact ⟨b, by unfold Mask.toBool; rw [hs]; exact hs⟩
    | ranges r => exact ⟨_, by unfold Mask.toBool; rw [hs]⟩
  obtain ⟨b, hb⟩ := hrep
  refine ⟨whereTrue (b k), (whereTrue_sorted (b k)).imp (fun h => by omega), ?_, ?_⟩
  · intro i
    rw [h0.selects k i]
    have : Selects (Mask.toBool f (run f ops)) k i ↔ (builtRun f ops).sel k i := hB.selects k i
    rw [← this, mem_whereTrue]
    unfold Selects
    rw [hb]
  · rw [e]
    unfold toRanges
    rw [hb]

example : (run exFile [.spatial [some [5/4, 9/4], none, none] false, .toBool, .toRanges]).size 0 = 2 := by
  decide +kernel

private def BoolSize (f : File K m) (s : State m) : Prop := ∀ b, s.rep = .bools b → ∀ k, s.size k = f.rows k

private theorem boolSize_update (f : File K m) (s : State m) (h : BoolSize f s) : BoolSize f (updateRangeMasks f s) := by
  intro b hb k
  unfold updateRangeMasks at hb ⊢
  cases hs : s.rep with
  | ranges r => rw [hs] at hb; simp at hb
  | bools c => exact h c hs k

private theorem boolSize_toBool (f : File K m) (s : State m) (h : BoolSize f s) : BoolSize f (Mask.toBool f s) := by
  intro b hb k
  unfold Mask.toBool at hb ⊢
  cases hs : s.rep with
  | ranges r => rfl
  | bools c => exact h c hs k

private theorem boolSize_decorate (f : File K m) (kind : Kind) (r : State m × Option Err) (h : BoolSize f r.1) :
    BoolSize f (decorate kind r).1 := by
  obtain ⟨s, e⟩ := r
  cases e <;> exact h

private theorem boolSize_indices (f : File K m) (s : State m) (l : List Int) (h : BoolSize f s) :
    BoolSize f (indicesBody f s l).1 := by
  unfold indicesBody
  split
  · exact h
  split
  · exact h
  cases hs : s.rep with
  | ranges r =>
    intro b hb
    simp at hb
  | bools c =>
    simp only
    split
    · exact fun b _ k => h c hs k
    · exact h

private theorem boolSize_step (f : File K m) (s : State m) (op : Op K) (h : BoolSize f s) : BoolSize f (step f s op).1 := by
  cases op with
  | spatial region union =>
    refine boolSize_decorate f _ _ ?_
    unfold spatialBody
    repeat' split
    all_goals first | exact h | exact boolSize_update f _ h
  | property g q lo hi =>
    refine boolSize_decorate f _ _ ?_
    have hB := boolSize_toBool f s h
    unfold propertyBody
    split
    · simp only
      split
      · rename_i b hb
        exact fun _ _ k => hB b hb k
      · exact hB
    · exact hB
  | indices l => exact boolSize_decorate f _ _ (boolSize_indices f s l h)
  | index i =>
    refine boolSize_decorate f _ _ ?_
    unfold indexBody
    split
    · exact h
    · exact boolSize_decorate f _ _ (boolSize_indices f s [i] h)
  | toBool => exact boolSize_toBool f s h
  | toRanges =>
    intro b hb k
    simp only [step, toRanges] at hb ⊢
    cases hs : s.rep with
    | ranges r => simp [hs] at hb
    | bools c => simp [hs] at hb

/-- C08. In boolean form the size of a mask is the length of its arrays, which is the number of rows of the file, and in
range form it is the number of selected rows, after every history. -/
theorem c08_size_of_form (f : File K m) (hf : WF f) (ops : List (Op K)) (hi : ∀ op ∈ ops, IndicesOk f op) (k : Fin m) :
    (∀ b, (run f ops).rep = .bools b → (run f ops).size k = f.rows k ∧ (b k).length = f.rows k) ∧
      ∀ r, (run f ops).rep = .ranges r → (run f ops).size k = (rowsOf (r k)).length := by
  have h0 := inv_run f hf ops hi
  refine ⟨fun b hb => ⟨?_, ((h0.bools b hb).2 k).1⟩, fun r hr => ((h0.ranges r hr).2 k).2.2.1⟩
  have : BoolSize f (run f ops) := by
    clear h0 hb b hi
    unfold run
    have hb : BoolSize f (init f) := by
      intro b hb
      simp [init, updateRangeMasks] at hb
    generalize init f = s at hb
    induction ops generalizing s with
    | nil => exact hb
    | cons op ops ih =>
      exact ih _ (boolSize_step f s op hb)
  exact this b hb k

example : (run exFile [.spatial [some [5/4, 9/4], none, none] false, .toBool]).size 0 = exFile.rows 0 := by
  decide +kernel

/-! ## C09 -/

/-- C09, for histories that never add a region to a mask held as booleans: the selected rows are those the history
means. -/
theorem c09_history_partial (f : File K m) (hf : WF f) (ops : List (Op K)) (hi : ∀ op ∈ ops, IndicesOk f op)
    (hu : NoUnionOnBool f (absInit f) ops) (k : Fin m) (i : Int) :
    Selects (run f ops) k i ↔ (absRun f ops).sel k i := by
  rw [(inv_run f hf ops hi).selects]
  unfold builtRun absRun
  rw [built_eq_abs f hf ops _ _ (inv_initial f hf) hi hu]

/-- C09, every history: what the selection is, including the union on booleans that brings in no row. -/
theorem c09_history_as_built (f : File K m) (hf : WF f) (ops : List (Op K)) (hi : ∀ op ∈ ops, IndicesOk f op)
    (k : Fin m) (i : Int) : Selects (run f ops) k i ↔ (builtRun f ops).sel k i :=
  (inv_run f hf ops hi).selects k i

/-- C09. A refused call leaves the selection, of every key, as it was. -/
theorem c09_refused_call_harmless (f : File K m) (hf : WF f) (ops : List (Op K)) (hi : ∀ op ∈ ops, IndicesOk f op)
    (op : Op K) (hop : IndicesOk f op) (hr : (step f (run f ops) op).2 ≠ none) (k : Fin m) (i : Int) :
    (Selects (step f (run f ops) op).1 k i ↔ Selects (run f ops) k i) ∧
    (step f (run f ops) op).1.constrained = (run f ops).constrained := by
  have h0 := inv_run f hf ops hi
  obtain ⟨h1, h2⟩ := inv_step f hf _ _ h0 op hop
  have hn : ¬ Accepts f (builtRun f ops) op := fun h => hr (h2.mpr h)
  rw [h1.selects, h0.selects, h1.last, h0.last]
  unfold builtStep
  rw [if_neg hn]
  cases op <;> exact ⟨Iff.rfl, rfl⟩

/-- C09 fails: after `constrain_spatial(A)` and `convert_masks_to_bool()`, `constrain_spatial(B, union=True)` raises
nothing and selects only the rows of `A`; without the conversion it selects both. -/
theorem c09_union_on_bool_fails :
    rowsLoaded (run exFile [.spatial [some [1/4, 3/4], none, none] false, .toBool,
      .spatial [some [9/4, 11/4], none, none] true]) 0 6 = .ok [some 0, some 1] ∧
    rowsLoaded (run exFile [.spatial [some [1/4, 3/4], none, none] false,
      .spatial [some [9/4, 11/4], none, none] true]) 0 6 = .ok [some 0, some 1, some 3] := by decide +kernel

/-- C09 fails in the same way when a refused property constraint (unknown field) lies between the two regions. -/
theorem c09_union_after_refused_property_fails :
    rowsLoaded (run exFile [.spatial [some [1/4, 3/4], none, none] false, .property "gas" "nothing" 0 1,
      .spatial [some [9/4, 11/4], none, none] true]) 0 6 = .ok [some 0, some 1] := by decide +kernel

/-! ## C10 -/

/-- The orders of constraints that are allowed, given the last constraint that was accepted. -/
def OrderOk (last : Option Kind) : Op K → Prop
  | .spatial _ union => last = none ∨ (last = some .spatial ∧ union = true)
  | .property _ _ _ _ => True
  | .indices _ => last = none
  | .index _ => last = none
  | .toBool => True
  | .toRanges => True

omit [IsStrictOrderedRing K] in
/-- C10. In every state a call in a forbidden order raises and changes nothing at all. -/
theorem c10_forbidden_order (f : File K m) (s : State m) (op : Op K) (h : ¬ OrderOk s.constrained op) :
    (step f s op).1 = s ∧ (step f s op).2 ≠ none := by
  cases op with
  | spatial rows union =>
    simp only [OrderOk, not_or, not_and] at h
    simp only [step, spatialBody]
    cases hs : sanitizeRegion f.box rows with
    | error e => simp [decorate]
    | ok reg =>
      dsimp only
      rw [if_neg (by rintro ⟨h1, h2⟩; exact h.2 h1 h2), if_neg h.1]
      simp [decorate]
  | property g q lo hi => exact absurd trivial h
  | indices l =>
    simp only [OrderOk] at h
    simp [step, indicesBody, h, decorate]
  | index j =>
    simp only [OrderOk] at h
    simp [step, indexBody, h, decorate]
  | toBool => exact absurd trivial h
  | toRanges => exact absurd trivial h

omit [IsStrictOrderedRing K] in
/-- C10. Row-index constraints on files without homogeneous arrays raise and change nothing. -/
theorem c10_indices_need_homogeneous (f : File K m) (hh : f.homogeneous = false) (s : State m) (l : List Int) (j : Int) :
    ((step f s (.indices l)).1 = s ∧ (step f s (.indices l)).2 ≠ none) ∧
    ((step f s (.index j)).1 = s ∧ (step f s (.index j)).2 ≠ none) := by
  by_cases hn : s.constrained = none
  · simp [step, indexBody, indicesBody, hh, hn, decorate]
  · exact ⟨c10_forbidden_order f s (.indices l) hn, c10_forbidden_order f s (.index j) hn⟩

/-- C10. After any history a call is accepted exactly if its arguments make sense for the file and its order is allowed;
an accepted constraint is recorded as the last one. -/
theorem c10_accepted_iff (f : File K m) (hf : WF f) (ops : List (Op K)) (hi : ∀ op ∈ ops, IndicesOk f op)
    (op : Op K) (hop : IndicesOk f op) :
    (step f (run f ops) op).2 = none ↔
      OrderOk (run f ops).constrained op ∧
      (match op with
        | .spatial rows _ => ∃ reg, RegionIs f.box rows reg ∧ InWindow f.box reg
        | .property g q _ _ => (∃ k, f.group g = some k) ∧ ∃ vals, f.field g q = some vals
        | .indices _ => f.homogeneous = true
        | .index _ => f.homogeneous = true
        | .toBool => True
        | .toRanges => True) := by
  have h0 := inv_run f hf ops hi
  rw [(inv_step f hf _ _ h0 op hop).2]
  have hl := h0.last
  cases op <;> simp only [Accepts, OrderOk, hl] <;> tauto

example : (step exFile (run exFile [.property "gas" "masses" 0 4]) (.spatial [none, none, none] true)).2
    = some .runtime := by decide +kernel

/-! ## C11 -/

/-- C11. An accepted property constraint keeps exactly the selected rows with `lower < value ≤ upper` and leaves the
rows of other keys alone. -/
theorem c11_exact (f : File K m) (hf : WF f) (ops : List (Op K)) (hi : ∀ op ∈ ops, IndicesOk f op)
    (g q : String) (lo hi' : K) (k : Fin m) (vals : List K) (hg : f.group g = some k) (hq : f.field g q = some vals)
    (k' : Fin m) (i : Int) :
    Selects (run f (ops ++ [.property g q lo hi'])) k' i ↔
      Selects (run f ops) k' i ∧ (k' = k → ∃ v, valueAt vals i = some v ∧ lo < v ∧ v ≤ hi') := by
  have hi2 : ∀ op ∈ ops ++ [Op.property g q lo hi'], IndicesOk f op := by
    intro op hop
    rcases List.mem_append.mp hop with h | h
    · exact hi op h
    · simp at h; subst h; trivial
  rw [(inv_run f hf _ hi2).selects, (inv_run f hf _ hi).selects]
  unfold builtRun
  rw [List.foldl_append]
  generalize ops.foldl (builtStep f) (absInit f) = a
  have hacc : Accepts f a (.property g q lo hi') := ⟨⟨k, hg⟩, ⟨vals, hq⟩⟩
  simp only [List.foldl_cons, List.foldl_nil, builtStep]
  rw [if_pos hacc]
  simp only [builtApply, absApply, hg, hq, Option.some.injEq]
  refine and_congr_right (fun _ => ?_)
  constructor
  · intro h he
    obtain ⟨_, v, rfl, h1, h2, h3⟩ := h he.symm
    exact ⟨v, h1, h2, h3⟩
  · intro h he
    obtain ⟨v, h1, h2, h3⟩ := h he.symm
    exact ⟨vals, v, rfl, h1, h2, h3⟩

/-- C11. The order of property constraints does not matter. -/
theorem c11_commute (f : File K m) (hf : WF f) (ops : List (Op K)) (hi : ∀ op ∈ ops, IndicesOk f op)
    (g1 q1 g2 q2 : String) (l1 u1 l2 u2 : K) (k : Fin m) (i : Int) :
    Selects (run f (ops ++ [.property g1 q1 l1 u1, .property g2 q2 l2 u2])) k i ↔
    Selects (run f (ops ++ [.property g2 q2 l2 u2, .property g1 q1 l1 u1])) k i := by
  have hi2 : ∀ (a b : Op K), (∃ g q l u, a = .property g q l u) → (∃ g q l u, b = .property g q l u) →
      ∀ op ∈ ops ++ [a, b], IndicesOk f op := by
    rintro a b ⟨_, _, _, _, rfl⟩ ⟨_, _, _, _, rfl⟩ op hop
    rcases List.mem_append.mp hop with h | h
    · exact hi op h
    · simp at h; rcases h with rfl | rfl <;> trivial
  rw [(inv_run f hf _ (hi2 _ _ ⟨_, _, _, _, rfl⟩ ⟨_, _, _, _, rfl⟩)).selects,
    (inv_run f hf _ (hi2 _ _ ⟨_, _, _, _, rfl⟩ ⟨_, _, _, _, rfl⟩)).selects]
  unfold builtRun
  rw [List.foldl_append, List.foldl_append]
  generalize ops.foldl (builtStep f) (absInit f) = a
  simp only [List.foldl_cons, List.foldl_nil, builtStep]
  by_cases h1 : Accepts f a (.property g1 q1 l1 u1) <;> by_cases h2 : Accepts f a (.property g2 q2 l2 u2)
  all_goals
    have e1 : ∀ a' : Abs m, Accepts f a' (.property g1 q1 l1 u1) ↔ Accepts f a (.property g1 q1 l1 u1) :=
      fun _ => Iff.rfl
    have e2 : ∀ a' : Abs m, Accepts f a' (.property g2 q2 l2 u2) ↔ Accepts f a (.property g2 q2 l2 u2) :=
      fun _ => Iff.rfl
    simp only [e1, e2, h1, h2, if_true, if_false, builtApply, absApply, absRefuse]
  · tauto

example : rowsLoaded (run exFile [.property "gas" "masses" 2 5, .property "gas" "masses" 3 9]) 0 6
    = .ok [some 3, some 4] ∧
    rowsLoaded (run exFile [.property "gas" "masses" 2 5, .property "gas" "masses" 3 9]) 1 3
    = .ok [some 0, some 1, some 2] := by decide +kernel

/-! ## C15 -/

omit [IsStrictOrderedRing K] in
/-- C15. On a fresh mask of a file with homogeneous arrays, requesting rows `l` and loading a field returns the rows of
`l` in increasing order, repeats included, and advertises `len(l)` rows. -/
theorem c15_indices_read {α : Type} (f : File K m) (hh : f.homogeneous = true) (l : List Int) (k : Fin m)
    (ds : List α) (hl : ∀ i ∈ l, 0 ≤ i ∧ i < ds.length) (lay : Layout) (hlay : lay ≠ .remote)
    (hc : ∀ c, lay = .chunked c → 0 < c) :
    ∃ rows : List Int, rows.Perm l ∧ rows.Pairwise (· ≤ ·) ∧
      load (run f [.indices l]) lay ds k = .ok (select ds rows) ∧
      advertised (run f [.indices l]) k = l.length ∧ (step f (init f) (.indices l)).2 = none := by
  refine ⟨sortIndices l, sortIndices_perm l, sortIndices_sorted l, ?_, ?_, ?_⟩
  · have hgood := rfa_good ds.length (by omega) (sortIndices l) (sortIndices_sorted l)
      (fun i hi => hl i ((sortIndices_perm l).mem_iff.mp hi))
    have e : load (run f [.indices l]) lay ds k = readRanges lay ds (rangesFromArray (sortIndices l)) l.length := by
      simp [run, step, indicesBody, init, updateRangeMasks, hh, decorate, load, toRanges]
    have hlen : l.length = (rowsOf (rangesFromArray (sortIndices l))).length := by
      rw [rfa_rows, (sortIndices_perm l).length_eq]
    rw [e, hlen]
    have hsel : select ds (sortIndices l) = select ds (rowsOf (rangesFromArray (sortIndices l))) := by rw [rfa_rows]
    rw [hsel]
    cases lay with
    | remote => exact absurd rfl hlay
    | contiguous => exact c03_unchunked_read ds _ hgood.inb
    | chunked c =>
      unfold readRanges
      dsimp only
      by_cases hmb : meanBelow (rangesFromArray (sortIndices l)) 500000 = true
      · rw [if_pos hmb]
        refine c03_chunked_read ds c (hc c rfl) _ ?_ hgood.inb hgood.ord
        intro he; rw [he] at hmb; simp [meanBelow] at hmb
      · rw [if_neg hmb]; exact c03_unchunked_read ds _ hgood.inb
  · simp [run, step, indicesBody, init, updateRangeMasks, hh, decorate, advertised, toRanges]
  · simp [step, indicesBody, init, updateRangeMasks, hh, decorate]

omit [IsStrictOrderedRing K] in
/-- C15. Requesting one row returns exactly that row, from any storage. -/
theorem c15_index_read {α : Type} (f : File K m) (hh : f.homogeneous = true) (j : Int) (k : Fin m) (ds : List α)
    (hj : 0 ≤ j ∧ j < ds.length) (lay : Layout) (hc : ∀ c, lay = .chunked c → 0 < c) :
    load (run f [.index j]) lay ds k = .ok [valueAt ds j] ∧ advertised (run f [.index j]) k = 1 ∧
    (run f [.index j]).constrained = some .index := by
  refine ⟨?_, ?_, ?_⟩
  · have e : load (run f [.index j]) lay ds k = readRanges lay ds [(j, j + 1)] 1 := by
      simp [run, step, indexBody, indicesBody, init, updateRangeMasks, hh, decorate, load, toRanges, sortIndices,
        isSorted, rangesFromArray, rfaLoop]
    rw [e]
    have := c06_layout_irrelevant_partial lay hc ds [(j, j + 1)] (by simp)
      (by intro r hr; simp at hr; subst hr; dsimp only; omega) (by simp)
    have hrows : rowsOf [(j, j + 1)] = [j] := by simp [rowsOf, rowsOfRange_single]
    rw [hrows] at this
    simpa [select] using this
  · simp [run, step, indexBody, indicesBody, init, updateRangeMasks, hh, decorate, advertised, toRanges]
  · simp [run, step, indexBody, indicesBody, init, updateRangeMasks, hh, decorate]

/-- C15. In a boolean mask a requested index may be negative and counts from the end, as in numpy: when every index is in
`[-n, n)` for every array of `n` rows, row `j` is selected exactly if `j` or `j - n` was requested. An index outside raises
`IndexError` and leaves the mask as it was. -/
theorem c15_indices_bool (f : File K m) (hf : WF f) (hh : f.homogeneous = true) (l : List Int) :
    ((∀ k : Fin m, ∀ i ∈ l, -(f.rows k : Int) ≤ i ∧ i < f.rows k) →
      (step f (run f [.toBool]) (.indices l)).2 = none ∧
      ∃ b : Fin m → List Bool, (step f (run f [.toBool]) (.indices l)).1.rep = .bools b ∧
        ∀ k : Fin m, (b k).length = f.rows k ∧
          ∀ j : Nat, (b k)[j]? = some true ↔ j < f.rows k ∧ ((j : Int) ∈ l ∨ (j : Int) - f.rows k ∈ l)) ∧
    ((∃ k : Fin m, ∃ i ∈ l, i < -(f.rows k : Int) ∨ (f.rows k : Int) ≤ i) →
      step f (run f [.toBool]) (.indices l) = (run f [.toBool], some .index)) := by
  have hB := inv_toBool f (init f) _ (inv_initial f hf)
  have hr : run f [Op.toBool] = toBool f (init f) := rfl
  have hn : (toBool f (init f)).constrained = none := rfl
  rw [hr]
  obtain ⟨b, hb⟩ : ∃ b, (toBool f (init f)).rep = .bools b := ⟨_, rfl⟩
  obtain ⟨-, hk⟩ := hB.bools b hb
  have hbody : indicesBody f (toBool f (init f)) l =
      if (List.finRange m).all (fun k => indicesFit (b k).length l) then
        ({ toBool f (init f) with rep := .bools (fun k => andMarked (b k) l) }, none)
      else (toBool f (init f), some .index) := by
    unfold indicesBody
    rw [if_neg (by simp [hn]), if_neg (by simp [hh]), hb]
  constructor
  · intro h
    have hfit : (List.finRange m).all (fun k => indicesFit (b k).length l) = true := by
      rw [List.all_eq_true]
      intro k _
      simp only [indicesFit, List.all_eq_true, Bool.and_eq_true, decide_eq_true_eq, (hk k).1]
      exact fun i hi => h k i hi
    rw [if_pos hfit] at hbody
    simp only [step, hbody, decorate]
    refine ⟨trivial, _, rfl, fun k => ⟨by rw [andMarked_length, (hk k).1], fun j => ?_⟩⟩
    have hsel := (hk k).2 j
    have hsel' : (b k)[j]? = some true ↔ j < f.rows k := by
      rw [hsel]
      show (0 ≤ (j : Int) ∧ (j : Int) < f.rows k) ↔ _
      omega
    unfold andMarked markIndices
    by_cases hj : j < (b k).length
    · have hj' : j < f.rows k := by rw [← (hk k).1]; exact hj
      have hv : (b k)[j] = true := by
        have := hsel'.2 hj'
        rw [List.getElem?_eq_getElem hj] at this
        simpa using this
      rw [List.getElem?_zipWith, List.getElem?_eq_getElem hj, List.getElem?_map, List.getElem?_range hj]
      simp only [Option.map_some, Option.some.injEq, Bool.and_eq_true, List.any_eq_true, Bool.or_eq_true, decide_eq_true_eq, hv,
        true_and, hj', (hk k).1]
      constructor
      · rintro ⟨x, hx, (h1 | h1)⟩
        · exact Or.inl (h1 ▸ hx)
        · right; rw [show (j : Int) - f.rows k = x by omega]; exact hx
      · rintro (h1 | h1)
        · exact ⟨_, h1, Or.inl rfl⟩
        · exact ⟨_, h1, Or.inr (by omega)⟩
    · have hj' : ¬ j < f.rows k := by rw [← (hk k).1]; exact hj
      rw [List.getElem?_zipWith, List.getElem?_eq_none (by omega)]
      simp [hj']
  · rintro ⟨k, i, hi, hout⟩
    have hfit : ¬ (List.finRange m).all (fun k => indicesFit (b k).length l) = true := by
      intro h
      have := List.all_eq_true.1 h k (List.mem_finRange k)
      simp only [indicesFit, List.all_eq_true, Bool.and_eq_true, decide_eq_true_eq, (hk k).1] at this
      have := this i hi
      omega
    rw [if_neg hfit] at hbody
    simp only [step, hbody, decorate]

/-- C10. A mask is made exactly of files that support masks and are not parts of a snapshot; a new mask selects every row of
every array and has no constraint. -/
theorem c10_new_mask (f : File K m) (hf : WF f) (valid part : Bool) :
    ((∃ s, mkMask f valid part = .ok s) ↔ valid = true ∧ part = false) ∧
    (valid = false → mkMask f valid part = .error .notImpl) ∧
    (valid = true → part = true → mkMask f valid part = .error .invalidSnapshot) ∧
    ∀ s, mkMask f valid part = .ok s → s.constrained = none ∧ ∀ (k : Fin m) (i : Int), Selects s k i ↔ 0 ≤ i ∧ i < f.rows k := by
  refine ⟨by cases valid <;> cases part <;> simp [mkMask], by rintro rfl; simp [mkMask], by rintro rfl rfl; simp [mkMask], ?_⟩
  intro s hs
  have e : s = init f := by cases valid <;> cases part <;> simp_all [mkMask]
  subst e
  exact ⟨rfl, fun k i => (inv_initial f hf).selects k i⟩

example : ∃ s, mkMask exFile true false = .ok s ∧ s.constrained = none ∧ Selects s 0 5 ∧ ¬ Selects s 1 3 := by
  obtain ⟨s, hs⟩ := (c10_new_mask exFile exFile_wf true false).1.2 ⟨rfl, rfl⟩
  obtain ⟨h1, h2⟩ := (c10_new_mask exFile exFile_wf true false).2.2.2 s hs
  exact ⟨s, hs, h1, (h2 0 5).2 (by simp [exFile]), fun h => by have := (h2 1 3).1 h; simp [exFile] at this⟩

/-- a catalogue with four rows and homogeneous arrays -/
def exSoap : File ℚ 1 where
  box := fun _ => 4
  rows := fun _ => 4
  cells := fun _ => [exCell 0 4 0]
  homogeneous := true
  group := fun _ => some 0
  field := fun _ _ => some [1, 2, 3, 4]

/-- With booleans, the last row may be requested as `-1`. -/
example : rowsLoaded (run exSoap [.toBool, .indices [-1, 1]]) 0 4 = .ok [some 1, some 3] ∧
    (step exSoap (run exSoap [.toBool]) (.indices [-5])).2 = some .index := by decide +kernel

example : load (run exSoap [.indices [3, 1, 1]]) (.chunked 2) [10, 20, 30, 40] 0 = .ok [some 20, some 20, some 40] := by
  decide +kernel

/-- C15 fails over the network for repeated rows: the slices sent to the server would overlap, and the read raises. -/
theorem c15_repeated_fails_remote :
    load (run exSoap [.indices [3, 1, 1]]) .remote [10, 20, 30, 40] 0 = .error .runtime := by decide +kernel

/-- C15 is about rows inside the file: an index outside is accepted by `constrain_indices` on a fresh mask, and only
the later load notices. -/
theorem c15_out_of_range_accepted :
    (step exSoap (init exSoap) (.indices [7])).2 = none ∧
    load (run exSoap [.indices [7]]) .contiguous [10, 20, 30, 40] 0 = .error .index := by decide +kernel

end Verif.Props
