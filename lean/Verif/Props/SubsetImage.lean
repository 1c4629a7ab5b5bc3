import Verif.Model.SubsetImage
import Verif.Spec.SubsetImage
import Verif.Props.Subset
import Verif.Props.MaskedImage

/-!
# C87: an image made from a written subset is the image made from the original file
-/

set_option linter.unusedSectionVars false

namespace Verif.Props
open Verif Verif.Spec Verif.Accel Verif.Mask Verif.Frame Verif.MaskedImage Verif.SubsetImage

variable {K : Type} [Field K] [LinearOrder K] [IsStrictOrderedRing K] [FloorRing K] {m : Nat}

/-! ## One subset -/

private theorem select_pick {α : Type} (ds : List α) (rows : List Int) : (Spec.select ds rows).filterMap id = pick ds rows := by
  unfold Spec.select pick
  rw [List.filterMap_map]
  rfl

private def pickFields (F : Fields K) (rows : List Int) : Fields K :=
  ⟨pick F.xs rows, pick F.ms rows, pick F.hs rows, pick F.flags rows⟩

private theorem assemble_pick (F : Fields K) (n : Nat)
    (hF : F.xs.length = n ∧ F.ms.length = n ∧ F.hs.length = n ∧ F.flags.length = n) (rows : List Int)
    (hb : ∀ i ∈ rows, 0 ≤ i ∧ i < (n : Int)) : assemble (pickFields F rows) = pick (assemble F) rows := by
  unfold assemble pickFields pick
  dsimp only
  rw [zipWith_rows _ F.hs F.flags, zipWith_rows _ F.ms, zipWith_rows _ F.xs]
  all_goals
    intro i hi
    have := hb i hi
    simp only [List.length_zipWith, hF.1, hF.2.1, hF.2.2.1, hF.2.2.2]
    omega

private theorem load_rows (f : File K m) (hf : WF f) (ops : List (Op K)) (hi : ∀ op ∈ ops, IndicesOk f op) (k : Fin m)
    (rows : List Int) (hr : LoadsRows f (run f ops) k rows) {α : Type} (ds : List α) (hds : ds.length = f.rows k) (lay : Layout)
    (h1 : lay ≠ .remote) (h2 : ∀ c, lay = .chunked c → 0 < c) : load (run f ops) lay ds k = .ok (Spec.select ds rows) := by
  obtain ⟨r, hrr, hk⟩ := run_ranges f hf ops hi
  obtain rfl := loadsRows_unique f _ k _ _ hr (hk k).2.2.2
  unfold load
  rw [hrr]
  dsimp only
  rw [(hk k).2.1, Int.toNat_natCast]
  exact readLocal ds (r k) (by rw [hds]; exact (hk k).1) _ h1 h2

private theorem loadFields_rows (f : File K m) (hf : WF f) (ops : List (Op K)) (hi : ∀ op ∈ ops, IndicesOk f op) (k : Fin m)
    (rows : List Int) (hr : LoadsRows f (run f ops) k rows) (F : Fields K)
    (hF : F.xs.length = f.rows k ∧ F.ms.length = f.rows k ∧ F.hs.length = f.rows k ∧ F.flags.length = f.rows k)
    (lay : Fin 4 → Layout) (hl : AllLocal lay) : loadFields (run f ops) lay F k = .ok (pickFields F rows) := by
  unfold loadFields
  rw [load_rows f hf ops hi k rows hr F.xs hF.1 _ (hl 0).1 (hl 0).2, load_rows f hf ops hi k rows hr F.ms hF.2.1 _ (hl 1).1 (hl 1).2,
    load_rows f hf ops hi k rows hr F.hs hF.2.2.1 _ (hl 2).1 (hl 2).2, load_rows f hf ops hi k rows hr F.flags hF.2.2.2 _ (hl 3).1 (hl 3).2]
  simp only [bind, Except.bind, pure, Except.pure, select_pick]
  rfl

/-- A load without a mask returns the datasets as they are. -/
private theorem loadFields_all (f : File K m) (hf : WF f) (k : Fin m) (F : Fields K)
    (hF : F.xs.length = f.rows k ∧ F.ms.length = f.rows k ∧ F.hs.length = f.rows k ∧ F.flags.length = f.rows k)
    (lay : Fin 4 → Layout) (hl : AllLocal lay) : loadFields (run f []) lay F k = .ok F := by
  obtain ⟨rows, e1, e2, e3, e4, e5, e6⟩ := c07_masked_read f hf [] (by simp) k (rowNumbers (f.rows k)) (by simp [rowNumbers])
    .contiguous (by simp) (by simp)
  have hlt := e6 (by simp [run, init, updateRangeMasks]) (by simp [run, init, updateRangeMasks])
  have hinv := inv_initial f hf
  have hfull : ∀ i, i ∈ rows ↔ 0 ≤ i ∧ i < (f.rows k : Int) := by
    intro i
    rw [e3]
    exact (hinv.selects k i).trans (hinv.all rfl k i)
  have heq : rows = rowNumbers (f.rows k) := by
    refine List.Perm.eq_of_pairwise (le := (· < ·)) ?_ hlt ?_ ?_
    · intro a b _ _ h1 h2
      omega
    · unfold rowNumbers
      rw [List.pairwise_map]
      exact List.pairwise_lt_range.imp (fun h => by omega)
    · rw [List.perm_ext_iff_of_nodup]
      · intro i
        rw [hfull]
        simp only [rowNumbers, List.mem_map, List.mem_range]
        constructor
        · rintro ⟨h1, h2⟩
          exact ⟨i.toNat, by omega, by omega⟩
        · rintro ⟨j, h1, rfl⟩
          omega
      · exact hlt.imp (fun h => by omega)
      · exact List.Nodup.map (fun a b h => by simpa using h) List.nodup_range
  have hr : LoadsRows f (run f []) k rows := by
    unfold LoadsRows
    rw [e1, select_rowNumbers _ _ (fun i hi => (hfull i).1 hi)]
  rw [loadFields_rows f hf [] (by simp) k rows hr F hF lay hl]
  have hp : ∀ {α : Type} (ds : List α), ds.length = f.rows k → pick ds rows = ds := by
    intro α ds hds
    apply List.map_injective_iff.mpr (Option.some_injective α)
    rw [pick_some ds rows (by rw [hds]; exact fun i hi => (hfull i).1 hi), heq]
    unfold Spec.select rowNumbers
    apply List.ext_getElem
    · simp [hds]
    · intro j h1 h2
      simp only [List.getElem_map, List.getElem_range, valueAt_natCast]
      rw [List.getElem?_eq_getElem]
  unfold pickFields
  rw [hp _ hF.1, hp _ hF.2.1, hp _ hF.2.2.1, hp _ hF.2.2.2]

private theorem writeFields_rows (f : File K m) (hf : WF f) (ops : List (Op K)) (hi : ∀ op ∈ ops, IndicesOk f op) (k : Fin m)
    (rows : List Int) (hr : LoadsRows f (run f ops) k rows) (F : Fields K)
    (hF : F.xs.length = f.rows k ∧ F.ms.length = f.rows k ∧ F.hs.length = f.rows k ∧ F.flags.length = f.rows k)
    (lay : Fin 4 → Layout) (hl : AllLocal lay) :
    writeFields (run f ops) lay F k = if f.rows k = 0 then .error .index else .ok (pickFields F rows) := by
  have he : ∀ {α : Type} (ds : List α), ds.length = f.rows k → (ds.isEmpty = true ↔ f.rows k = 0) := by
    intro α ds h
    rw [List.isEmpty_iff, ← List.length_eq_zero_iff, h]
  unfold writeFields writeColumn
  by_cases h0 : f.rows k = 0
  · rw [if_pos h0, if_pos ((he _ hF.1).2 h0)]
    rfl
  · rw [if_neg h0, if_neg (fun h => h0 ((he _ hF.1).1 h)), if_neg (fun h => h0 ((he _ hF.2.1).1 h)),
      if_neg (fun h => h0 ((he _ hF.2.2.1).1 h)), if_neg (fun h => h0 ((he _ hF.2.2.2).1 h))]
    exact loadFields_rows f hf ops hi k rows hr F hF lay hl

private theorem subset_rows (f : File K m) (k : Fin m) (F : Fields K) (hfit : FieldsFit f F k) (ops : List (Op K))
    (hi : ∀ op ∈ ops, IndicesOk f op) (allow : Bool) (lay : Fin 4 → Layout) (hl : AllLocal lay) :
    ∃ out rows, LoadsRows f (run f ops) k (rows k) ∧ (∀ i ∈ rows k, 0 ≤ i ∧ i < (f.rows k : Int)) ∧
      IsSubset f [] rows (reopen f out) ∧ WF (reopen f out) ∧ (∀ k, (reopen f out).cells k ≠ []) ∧
      subset f ops allow lay F k =
        if (run f ops).constrained = none ∧ allow = false then .error .value
        else if f.rows k = 0 then .error .index else .ok (reopen f out, pickFields F (rows k)) := by
  obtain ⟨out, rows, a1, a2, a3, a4, a5, a6, -⟩ := reopen_isSubset f hfit.wf hfit.cells ops hi [] (fun _ => .contiguous) (by simp)
  refine ⟨out, rows, a2 k, a3 k, a4, a5, a6, ?_⟩
  unfold subset writeSubset
  by_cases hc : (run f ops).constrained = none ∧ allow = false
  · rw [if_pos hc, if_pos hc]
    rfl
  · rw [if_neg hc, if_neg hc, a1]
    simp only [bind, Except.bind]
    rw [writeFields_rows f hfit.wf ops hi k (rows k) (a2 k) F hfit.len lay hl]
    by_cases h0 : f.rows k = 0
    · rw [if_pos h0, if_pos h0]
    · rw [if_neg h0, if_neg h0]
      rfl

/-- The new file and its datasets again fit. -/
private theorem fits_subset (f g : File K m) (k : Fin m) (F : Fields K) (hfit : FieldsFit f F k) (rows : Fin m → List Int)
    (hb : ∀ i ∈ rows k, 0 ≤ i ∧ i < (f.rows k : Int)) (hs : IsSubset f [] rows g) (hg : WF g) (hc : ∀ k, g.cells k ≠ []) :
    FieldsFit g (pickFields F (rows k)) k := by
  have hlen : ∀ {α : Type} (ds : List α), ds.length = f.rows k → (pick ds (rows k)).length = g.rows k := by
    intro α ds hds
    rw [pick_length ds _ (by rw [hds]; exact hb), hs.rows_eq]
  refine ⟨hg, hc, ?_, ⟨hlen _ hfit.len.1, hlen _ hfit.len.2.1, hlen _ hfit.len.2.2.1, hlen _ hfit.len.2.2.2⟩, ?_⟩
  · intro c hcm d
    obtain ⟨j, hj, rfl⟩ := List.mem_iff_getElem.mp hcm
    have hj2 : j < (f.cells k).length := by
      rw [← hs.cells_len]
      exact hj
    obtain ⟨e1, e2, -⟩ := hs.cells k j hj hj2
    rw [e1, e2]
    exact hfit.wide _ (List.getElem_mem hj2) d
  · intro i p hp
    rw [assemble_pick F _ hfit.len _ hb] at hp
    have hal : (assemble F).length = f.rows k := by
      unfold assemble
      rw [List.length_zipWith, List.length_zipWith, List.length_zipWith, hfit.len.1, hfit.len.2.1, hfit.len.2.2.1, hfit.len.2.2.2]
      omega
    have hb' : ∀ i ∈ rows k, 0 ≤ i ∧ i < ((assemble F).length : Int) := by
      rw [hal]
      exact hb
    have hi : i < (rows k).length := by
      have := (List.getElem?_eq_some_iff.mp hp).1
      rwa [pick_length _ _ hb'] at this
    have e := congrArg (fun l => l[i]?) (pick_some (assemble F) (rows k) hb')
    simp only [List.getElem?_map, hp, Option.map_some, Spec.select, List.getElem?_eq_getElem hi, Option.some.injEq] at e
    have hv := hb _ (List.getElem_mem hi)
    unfold valueAt at e
    rw [if_neg (by omega)] at e
    obtain ⟨c, hcm, hh, hin⟩ := hfit.inside _ _ e.symm
    obtain ⟨j, hj, rfl⟩ := List.mem_iff_getElem.mp hcm
    have hj2 : j < (g.cells k).length := by
      rw [hs.cells_len]
      exact hj
    obtain ⟨e1, e2, e3⟩ := hs.cells k j hj2 hj
    refine ⟨_, List.getElem_mem hj2, (e3 i _ (List.getElem?_eq_getElem hi)).2 ?_, ?_⟩
    · rw [Int.toNat_of_nonneg hv.1] at hh
      exact hh
    · rw [e1, e2]
      exact hin

/-- **C87**, when the subset is written and what is raised when it is not. -/
theorem c87_written (f : File K m) (k : Fin m) (F : Fields K) (hfit : FieldsFit f F k) (ops : List (Op K))
    (hi : ∀ op ∈ ops, IndicesOk f op) (allow : Bool) (lay : Fin 4 → Layout) (hl : AllLocal lay) :
    ((∃ gG, subset f ops allow lay F k = .ok gG) ↔ ((run f ops).constrained ≠ none ∨ allow = true) ∧ f.rows k ≠ 0) ∧
    (subset f ops allow lay F k = .error .value ↔ (run f ops).constrained = none ∧ allow = false) ∧
    (subset f ops allow lay F k = .error .index ↔ ((run f ops).constrained ≠ none ∨ allow = true) ∧ f.rows k = 0) := by
  obtain ⟨out, rows, -, -, -, -, -, e⟩ := subset_rows f k F hfit ops hi allow lay hl
  rw [e]
  by_cases hc : (run f ops).constrained = none ∧ allow = false
  · have hn : ¬((run f ops).constrained ≠ none ∨ allow = true) := by
      rintro (h | h)
      · exact h hc.1
      · rw [hc.2] at h
        cases h
    rw [if_pos hc]
    refine ⟨⟨fun ⟨_, h⟩ => (by cases h), fun h => absurd h.1 hn⟩, ⟨fun _ => hc, fun _ => rfl⟩, ⟨fun h => (by cases h), fun h => absurd h.1 hn⟩⟩
  · have hy : (run f ops).constrained ≠ none ∨ allow = true := by
      by_cases h : (run f ops).constrained = none
      · right
        cases allow with
        | true => rfl
        | false => exact absurd ⟨h, rfl⟩ hc
      · exact Or.inl h
    rw [if_neg hc]
    by_cases h0 : f.rows k = 0
    · rw [if_pos h0]
      exact ⟨⟨fun ⟨_, h⟩ => (by cases h), fun h => absurd h0 h.2⟩, ⟨fun h => (by cases h), fun h => absurd h hc⟩, ⟨fun _ => ⟨hy, h0⟩, fun _ => rfl⟩⟩
    · rw [if_neg h0]
      exact ⟨⟨fun _ => ⟨hy, h0⟩, fun _ => ⟨_, rfl⟩⟩, ⟨fun h => (by cases h), fun h => absurd h hc⟩, ⟨fun h => (by cases h), fun h => absurd h.2 h0⟩⟩

private theorem step_spec (f : File K m) (k : Fin m) (F : Fields K) (hfit : FieldsFit f F k) (ops : List (Op K))
    (hi : ∀ op ∈ ops, IndicesOk f op) (allow : Bool) (lay : Fin 4 → Layout) (hl : AllLocal lay) (g : File K m) (G : Fields K)
    (h : subset f ops allow lay F k = .ok (g, G)) :
    (∀ lay', AllLocal lay' → loadFields (run f ops) lay' F k = .ok G) ∧ g.box = f.box ∧ FieldsFit g G k ∧
      ∀ p ∈ assemble G, p ∈ assemble F := by
  obtain ⟨out, rows, a1, a2, a3, a4, a5, e⟩ := subset_rows f k F hfit ops hi allow lay hl
  rw [e] at h
  split_ifs at h
  have h' := Except.ok.inj h
  have e1 : reopen f out = g := congrArg Prod.fst h'
  have e2 : pickFields F (rows k) = G := congrArg Prod.snd h'
  subst e1
  subst e2
  exact ⟨fun lay' hl' => loadFields_rows f hfit.wf ops hi k _ a1 F hfit.len lay' hl', a3.box,
    fits_subset f _ k F hfit rows a2 a3 a4 a5, sub_of_rows (assemble_pick F _ hfit.len _ a2)⟩

/-- **C87**, the arrays. What a load of the new file returns is what a load of the original through the mask returns, in any
storage, and the new file has the box of the original and datasets that fit its cells. -/
theorem c87_same_arrays (f : File K m) (k : Fin m) (F : Fields K) (hfit : FieldsFit f F k) (ops : List (Op K))
    (hi : ∀ op ∈ ops, IndicesOk f op) (allow : Bool) (lay : Fin 4 → Layout) (hl : AllLocal lay) (g : File K m) (G : Fields K)
    (h : subset f ops allow lay F k = .ok (g, G)) (lay1 lay2 : Fin 4 → Layout) (h1 : AllLocal lay1) (h2 : AllLocal lay2) :
    loadFields (run g []) lay1 G k = loadFields (run f ops) lay2 F k ∧ loadFields (run g []) lay1 G k = .ok G ∧
      boxOf g = boxOf f ∧ FieldsFit g G k ∧ (G.xs.length : Int) = advertised (run f ops) k := by
  obtain ⟨a1, a2, a3, -⟩ := step_spec f k F hfit ops hi allow lay hl g G h
  have hall := loadFields_all g a3.wf k G a3.len lay1 h1
  refine ⟨by rw [hall, a1 lay2 h2], hall, by unfold boxOf; rw [a2], a3, ?_⟩
  obtain ⟨out, rows, b1, b2, b3, b4, b5, e⟩ := subset_rows f k F hfit ops hi allow lay hl
  rw [e] at h
  split_ifs at h
  have e2 : pickFields F (rows k) = G := congrArg Prod.snd (Except.ok.inj h)
  obtain ⟨r, hr, hk⟩ := run_ranges f hfit.wf ops hi
  rw [← e2]
  show ((pick F.xs (rows k)).length : Int) = _
  rw [pick_length _ _ (by rw [hfit.len.1]; exact b2), loadsRows_unique f _ k _ _ b1 (hk k).2.2.2, advertised, (hk k).2.1]

/-! ## Chains of subsets -/

/-- A relation between two files with their datasets that every subset of a region keeps is kept by chains. -/
private theorem chain_induct (k : Fin m) (Good : Stage K → Prop) (P : File K m × Fields K → Prop)
    (R : File K m × Fields K → File K m × Fields K → Prop) (hrefl : ∀ a, P a → R a a)
    (htrans : ∀ a b c, R a b → R b c → R a c)
    (hstep : ∀ (s : Stage K) (a b : File K m × Fields K), Good s → P a →
      subset a.1 [.spatial s.rows s.union] s.allow s.lay a.2 k = .ok b → P b ∧ R a b) :
    ∀ (ss : List (Stage K)) (a b : File K m × Fields K), (∀ s ∈ ss, Good s) → P a → chain k ss a = .ok b → P b ∧ R a b := by
  intro ss
  induction ss with
  | nil =>
    intro a b _ hP h
    obtain rfl := Except.ok.inj h
    exact ⟨hP, hrefl _ hP⟩
  | cons s ss ih =>
    intro a b hs hP h
    unfold chain at h
    cases hsub : subset a.1 [.spatial s.rows s.union] s.allow s.lay a.2 k with
    | error e =>
      rw [hsub] at h
      cases h
    | ok c =>
      rw [hsub] at h
      obtain ⟨h1, h2⟩ := hstep s a c (hs s (by simp)) hP hsub
      obtain ⟨h3, h4⟩ := ih c b (fun t ht => hs t (by simp [ht])) h1 h
      exact ⟨h3, htrans _ _ _ h2 h4⟩

/-- Both give a result, and the results agree. -/
private def Agree {β : Type} (Same : β → β → Prop) (a b : Except Err β) : Prop := ∃ out out', a = .ok out ∧ b = .ok out' ∧ Same out out'

private theorem Agree.trans {β : Type} {Same : β → β → Prop} (ht : ∀ a b c, Same a b → Same b c → Same a c) {a b c : Except Err β}
    (h1 : Agree Same a b) (h2 : Agree Same b c) : Agree Same a c := by
  obtain ⟨o1, o2, e1, e2, e3⟩ := h1
  obtain ⟨o3, o4, d1, d2, d3⟩ := h2
  obtain rfl := Except.ok.inj (e2.symm.trans d1)
  exact ⟨o1, o4, e1, d2, ht _ _ _ e3 d3⟩

/-- Any picture that masks of wide regions keep is kept by chains of subsets. -/
private theorem chain_picture {β : Type} (Same : β → β → Prop) (hrefl : ∀ a, Same a a)
    (htrans : ∀ a b c, Same a b → Same b c → Same a c)
    (pic : K × K × K → List (Scatter.Part K × Bool) → Except Err β) (k : Fin m) (Wide : List (Option (List K)) → Prop)
    (f : File K m) (F : Fields K) (hfit : FieldsFit f F k)
    (hok : ∀ (a : File K m) (A : Fields K), FieldsFit a A k → a.box = f.box → (∀ p ∈ assemble A, p ∈ assemble F) →
      ∃ out, pic (boxOf a) (assemble A) = .ok out)
    (hmask : ∀ (a : File K m) (A : Fields K), FieldsFit a A k → a.box = f.box → (∀ p ∈ assemble A, p ∈ assemble F) →
      ∀ rows union lay, Wide rows → AllLocal lay → Agree Same (pic (boxOf a) (assemble A))
        (loadFields (run a [.spatial rows union]) lay A k >>= fun G => pic (boxOf a) (assemble G)))
    (ss : List (Stage K)) (hss : ∀ s ∈ ss, Wide s.rows ∧ AllLocal s.lay) (f' : File K m) (F' : Fields K)
    (hch : chain k ss (f, F) = .ok (f', F')) (ops : List (Op K))
    (hops : ops = [] ∨ ∃ rows union, ops = [.spatial rows union] ∧ Wide rows) (lay : Fin 4 → Layout) (hlay : AllLocal lay) :
    Agree Same (pic (boxOf f) (assemble F)) (loadFields (run f' ops) lay F' k >>= fun G => pic (boxOf f') (assemble G)) := by
  obtain ⟨⟨q1, q2, q3⟩, q4⟩ := chain_induct k (fun s => Wide s.rows ∧ AllLocal s.lay)
    (fun a => FieldsFit a.1 a.2 k ∧ a.1.box = f.box ∧ ∀ p ∈ assemble a.2, p ∈ assemble F)
    (fun a b => Agree Same (pic (boxOf a.1) (assemble a.2)) (pic (boxOf b.1) (assemble b.2)))
    (fun a ha => by
      obtain ⟨out, h⟩ := hok a.1 a.2 ha.1 ha.2.1 ha.2.2
      exact ⟨out, out, h, h, hrefl _⟩)
    (fun a b c h1 h2 => h1.trans htrans h2)
    (fun s a b hs ha h => by
      obtain ⟨s1, s2, s3, s4⟩ := step_spec a.1 k a.2 ha.1 _ (by simp [IndicesOk]) s.allow s.lay hs.2 b.1 b.2 h
      refine ⟨⟨s3, s2.trans ha.2.1, fun p h => ha.2.2 p (s4 p h)⟩, ?_⟩
      have := hmask a.1 a.2 ha.1 ha.2.1 ha.2.2 s.rows s.union s.lay hs.1 hs.2
      rw [s1 s.lay hs.2] at this
      have hb : boxOf b.1 = boxOf a.1 := by
        unfold boxOf
        rw [s2]
      rw [hb]
      exact this)
    ss (f, F) (f', F') hss ⟨hfit, rfl, fun p h => h⟩ hch
  refine q4.trans htrans ?_
  rcases hops with rfl | ⟨rows, union, rfl, hwd⟩
  · obtain ⟨out, h⟩ := hok f' F' q1 q2 q3
    refine ⟨out, out, h, ?_, hrefl _⟩
    rw [loadFields_all f' q1.wf k F' q1.len lay hlay]
    exact h
  · exact hmask f' F' q1 q2 q3 rows union lay hwd hlay

/-- Two pictures of the same size with the same pixels. -/
private def SameGrid (a b : Grid K) : Prop :=
  b.nx = a.nx ∧ b.ny = a.ny ∧ ∀ q, OnImage a.nx q.1 → OnImage a.ny q.2 → b.img q = a.img q

private theorem SameGrid.trans (a b c : Grid K) (h1 : SameGrid a b) (h2 : SameGrid b c) : SameGrid a c := by
  obtain ⟨e3, e4, e5⟩ := h1
  obtain ⟨d3, d4, d5⟩ := h2
  refine ⟨d3.trans e3, d4.trans e4, fun q h h' => ?_⟩
  rw [d5 q (by rw [e3]; exact h) (by rw [e4]; exact h'), e5 q h h']

/-- **C87** for projections. Subsets of subsets are written for regions that contain the region of the image, up to whole boxes,
widened by the radius of every kernel and, at the upper ends, by one pixel. Then the image made from the last file, read whole or
through one more mask of such a region, is the image made from the original file. -/
theorem c87_projection {W : K → K → K} (hW : Compact W) (hsc : Scales 2 W) {g : K} {res : Nat} (hr : 0 < res) (f : File K m)
    (k : Fin m) (F : Fields K) (hfit : FieldsFit f F k) (periodic : Bool) {x0 x1 y0 y1 : K} (hx : x0 < x1) (hy : y0 < y1)
    (depth : Option (K × K)) (hd : DepthFits periodic (f.box 2) depth)
    (hp : ∀ p ∈ assemble F, 0 ≤ g * p.1.h ∧ (periodic = true → g * p.1.h ≤ f.box 0 ∧ g * p.1.h ≤ f.box 1))
    (Wide : List (Option (List K)) → Prop)
    (hwide : ∀ rows, Wide rows → ∃ reg : Fin 3 → K × K, RegionIs f.box rows reg ∧ InWindow f.box reg ∧
      (∀ p ∈ assemble F, Covers (f.box 0) (reg 0).1 (reg 0).2 x0 (x1 + max (x1 - x0) (y1 - y0) / res) (g * p.1.h)) ∧
      (∀ p ∈ assemble F, Covers (f.box 1) (reg 1).1 (reg 1).2 y0 (y1 + max (x1 - x0) (y1 - y0) / res) (g * p.1.h)) ∧
      CoversDepth (f.box 2) (reg 2).1 (reg 2).2 depth)
    (ss : List (Stage K)) (hss : ∀ s ∈ ss, Wide s.rows ∧ AllLocal s.lay) (f' : File K m) (F' : Fields K)
    (hch : chain k ss (f, F) = .ok (f', F')) (ops : List (Op K))
    (hops : ops = [] ∨ ∃ rows union, ops = [.spatial rows union] ∧ Wide rows) (lay : Fin 4 → Layout) (hlay : AllLocal lay) :
    ∃ out out', project (Scatter.fast W g) (boxOf f) (some (limits x0 x1 y0 y1 depth)) periodic true res (assemble F) = .ok out ∧
      projectMasked (Scatter.fast W g) f' ops lay F' k (some (limits x0 x1 y0 y1 depth)) periodic res = .ok out' ∧
      out'.nx = out.nx ∧ out'.ny = out.ny ∧ ∀ q, OnImage out.nx q.1 → OnImage out.ny q.2 → out'.img q = out.img q := by
  refine chain_picture SameGrid (fun _ => ⟨rfl, rfl, fun _ _ _ => rfl⟩) SameGrid.trans
    (fun box ps => project (Scatter.fast W g) box (some (limits x0 x1 y0 y1 depth)) periodic true res ps) k Wide f F hfit ?_ ?_ ss hss f' F'
    hch ops hops lay hlay
  · intro a A h1 h2 h3
    rw [← h2] at hd hp
    obtain ⟨out, o1, -⟩ := c53_projection_partial hW hsc hr (a.box 0) (a.box 1) (a.box 2) periodic
      (fun _ => ⟨h1.wf.box_pos 0, h1.wf.box_pos 1, h1.wf.box_pos 2⟩) hx hy depth hd (assemble A) (fun p h => hp p (h3 p h))
    exact ⟨out, o1⟩
  · intro a A h1 h2 h3 rows union lay hwd hl
    obtain ⟨reg, r1, r2, r3, r4, r5⟩ := hwide rows hwd
    rw [← h2] at hd hp r1 r2 r3 r4 r5
    exact c81_projection hW hsc hr a h1.wf rows reg r1 r2 union k h1.wide A h1.len h1.inside lay hl periodic hx hy depth hd
      (fun p h => hp p (h3 p h)) (fun p h => r3 p (h3 p h)) (fun p h => r4 p (h3 p h)) r5

/-- **C87** for slices: the regions contain the region of the slice and its height, widened by the radius of every kernel. -/
theorem c87_slice {W : K → K → K} (hW : Compact W) (hsc : Scales 3 W) {g : K} {res : Nat} (hr : 0 < res) (f : File K m)
    (k : Fin m) (F : Fields K) (hfit : FieldsFit f F k) (periodic : Bool) {x0 x1 y0 y1 : K} (hx : x0 < x1) (hy : y0 < y1)
    (depth : Option (K × K)) (zs : K)
    (hp : ∀ p ∈ assemble F, 0 < g * p.1.h ∧
      (periodic = true → g * p.1.h ≤ f.box 0 ∧ g * p.1.h ≤ f.box 1 ∧ g * p.1.h ≤ f.box 2))
    (Wide : List (Option (List K)) → Prop)
    (hwide : ∀ rows, Wide rows → ∃ reg : Fin 3 → K × K, RegionIs f.box rows reg ∧ InWindow f.box reg ∧
      (∀ p ∈ assemble F, Covers (f.box 0) (reg 0).1 (reg 0).2 x0 (x1 + max (x1 - x0) (y1 - y0) / res) (g * p.1.h)) ∧
      (∀ p ∈ assemble F, Covers (f.box 1) (reg 1).1 (reg 1).2 y0 (y1 + max (x1 - x0) (y1 - y0) / res) (g * p.1.h)) ∧
      ∀ p ∈ assemble F, Covers (f.box 2) (reg 2).1 (reg 2).2 zs zs (g * p.1.h))
    (ss : List (Stage K)) (hss : ∀ s ∈ ss, Wide s.rows ∧ AllLocal s.lay) (f' : File K m) (F' : Fields K)
    (hch : chain k ss (f, F) = .ok (f', F')) (ops : List (Op K))
    (hops : ops = [] ∨ ∃ rows union, ops = [.spatial rows union] ∧ Wide rows) (lay : Fin 4 → Layout) (hlay : AllLocal lay) :
    ∃ out out', sliceGrid (Scatter.slice W g) (boxOf f) (some (limits x0 x1 y0 y1 depth)) zs periodic true res (assemble F) = .ok out ∧
      sliceMasked (Scatter.slice W g) f' ops lay F' k (some (limits x0 x1 y0 y1 depth)) zs periodic res = .ok out' ∧
      out'.nx = out.nx ∧ out'.ny = out.ny ∧ ∀ q, OnImage out.nx q.1 → OnImage out.ny q.2 → out'.img q = out.img q := by
  refine chain_picture SameGrid (fun _ => ⟨rfl, rfl, fun _ _ _ => rfl⟩) SameGrid.trans
    (fun box ps => sliceGrid (Scatter.slice W g) box (some (limits x0 x1 y0 y1 depth)) zs periodic true res ps) k Wide f F hfit ?_ ?_ ss hss f' F'
    hch ops hops lay hlay
  · intro a A h1 h2 h3
    rw [← h2] at hp
    obtain ⟨out, o1, -⟩ := c53_slice_partial hW hsc hr (a.box 0) (a.box 1) (a.box 2) periodic
      (fun _ => ⟨h1.wf.box_pos 0, h1.wf.box_pos 1, h1.wf.box_pos 2⟩) hx hy depth zs (assemble A) (fun p h => hp p (h3 p h))
    exact ⟨out, o1⟩
  · intro a A h1 h2 h3 rows union lay hwd hl
    obtain ⟨reg, r1, r2, r3, r4, r5⟩ := hwide rows hwd
    rw [← h2] at hp r1 r2 r3 r4 r5
    exact c81_slice hW hsc hr a h1.wf rows reg r1 r2 union k h1.wide A h1.len h1.inside lay hl periodic hx hy depth zs
      (fun p h => hp p (h3 p h)) (fun p h => r3 p (h3 p h)) (fun p h => r4 p (h3 p h)) (fun p h => r5 p (h3 p h))

/-- **C87** for volume renders: the regions contain the cube, widened by the radius of every kernel. -/
theorem c87_render {W : K → K → K} (hW : Compact W) (hsc : Scales 3 W) {g : K} {res : Nat} (hr : 0 < res) (f : File K m)
    (k : Fin m) (F : Fields K) (hfit : FieldsFit f F k) (periodic : Bool) (x0 y0 z0 : K) {R : K} (hR : 0 < R)
    (hp : ∀ p ∈ assemble F, 0 ≤ g * p.1.h ∧
      (periodic = true → g * p.1.h ≤ f.box 0 ∧ g * p.1.h ≤ f.box 1 ∧ g * p.1.h ≤ f.box 2))
    (Wide : List (Option (List K)) → Prop)
    (hwide : ∀ rows, Wide rows → ∃ reg : Fin 3 → K × K, RegionIs f.box rows reg ∧ InWindow f.box reg ∧
      (∀ p ∈ assemble F, Covers (f.box 0) (reg 0).1 (reg 0).2 x0 (x0 + R) (g * p.1.h)) ∧
      (∀ p ∈ assemble F, Covers (f.box 1) (reg 1).1 (reg 1).2 y0 (y0 + R) (g * p.1.h)) ∧
      ∀ p ∈ assemble F, Covers (f.box 2) (reg 2).1 (reg 2).2 z0 (z0 + R) (g * p.1.h))
    (ss : List (Stage K)) (hss : ∀ s ∈ ss, Wide s.rows ∧ AllLocal s.lay) (f' : File K m) (F' : Fields K)
    (hch : chain k ss (f, F) = .ok (f', F')) (ops : List (Op K))
    (hops : ops = [] ∨ ∃ rows union, ops = [.spatial rows union] ∧ Wide rows) (lay : Fin 4 → Layout) (hlay : AllLocal lay) :
    ∃ out out', renderGrid (Scatter.volume W g) (boxOf f) (some [x0, x0 + R, y0, y0 + R, z0, z0 + R]) periodic true res (assemble F) = .ok out ∧
      renderMasked (Scatter.volume W g) f' ops lay F' k (some [x0, x0 + R, y0, y0 + R, z0, z0 + R]) periodic res = .ok out' ∧
      ∀ q, OnImage res q.1 → OnImage res q.2.1 → OnImage res q.2.2 → out' q = out q := by
  refine chain_picture
    (fun a b : Int × Int × Int → K => ∀ q, OnImage res q.1 → OnImage res q.2.1 → OnImage res q.2.2 → b q = a q)
    (fun _ _ _ _ _ => rfl) (by intro a b c h1 h2 q u v w; rw [h2 q u v w, h1 q u v w])
    (fun box ps => renderGrid (Scatter.volume W g) box (some [x0, x0 + R, y0, y0 + R, z0, z0 + R]) periodic true res ps) k Wide f F hfit ?_ ?_
    ss hss f' F' hch ops hops lay hlay
  · intro a A h1 h2 h3
    rw [← h2] at hp
    obtain ⟨out, o1, -⟩ := c53_render_partial hW hsc hr (a.box 0) (a.box 1) (a.box 2) periodic
      (fun _ => ⟨h1.wf.box_pos 0, h1.wf.box_pos 1, h1.wf.box_pos 2⟩) x0 y0 z0 hR (assemble A) (fun p h => hp p (h3 p h))
    exact ⟨out, o1⟩
  · intro a A h1 h2 h3 rows union lay hwd hl
    obtain ⟨reg, r1, r2, r3, r4, r5⟩ := hwide rows hwd
    rw [← h2] at hp r1 r2 r3 r4 r5
    exact c81_render hW hsc hr a h1.wf rows reg r1 r2 union k h1.wide A h1.len h1.inside lay hl periodic x0 y0 z0 hR
      (fun p h => hp p (h3 p h)) (fun p h => r3 p (h3 p h)) (fun p h => r4 p (h3 p h)) (fun p h => r5 p (h3 p h))

/-! ### Examples -/

private def pad : List (Option (List ℚ)) := [some [-1, 2], some [-1, 2], none]

private def stage (rows : List (Option (List ℚ))) : Stage ℚ := ⟨rows, false, false, fun _ => .chunked 2⟩

/-- C87 fails for a subset of just the region of the image: a particle outside the region whose kernel reaches into it is not in
the subset. -/
theorem c87_unpadded_fails :
    (project (Scatter.fast flatKernel 1) (boxOf exFile) (some [0, 1, 0, 1]) true true 4 (assemble exImage)).map
      (fun out => (out.nx, out.ny, out.img (3, 2))) = .ok (4, 4, 20) ∧
    (chain 0 [stage [some [0, 1], some [0, 1], none]] (exFile, exImage) >>= fun gG =>
      (projectMasked (Scatter.fast flatKernel 1) gG.1 [] (fun _ => .contiguous) gG.2 0 (some [0, 1, 0, 1]) true 4).map
        (fun out => (out.nx, out.ny, out.img (3, 2)))) = .ok (4, 4, 4) := by
  constructor <;> decide +kernel

/-- Three particles of the second type of the example file, none of them in the second cell. -/
private def exStars : Fields ℚ where
  xs := [(1 / 2, 1 / 2, 1), (5 / 2, 3 / 4, 2), (7 / 2, 1 / 2, 1)]
  ms := [1, 2, 4]
  hs := [1 / 4, 1 / 4, 1 / 4]
  flags := [true, true, true]

/-- Chains can stop: a subset of a region without particles is written, and a subset of that subset is refused, although a mask on
it is accepted and its image can be made. -/
theorem c87_empty_fails :
    (chain 1 [stage [some [5 / 4, 7 / 4], none, none]] (exFile, exStars)).map (fun gG => (gG.1.rows 1, gG.2.ms)) = .ok (0, []) ∧
    raised (chain 1 [stage [some [5 / 4, 7 / 4], none, none], stage [some [5 / 4, 7 / 4], none, none]] (exFile, exStars)) =
      some .index ∧
    (chain 1 [stage [some [5 / 4, 7 / 4], none, none]] (exFile, exStars) >>= fun gG =>
      (projectMasked (Scatter.fast flatKernel 1) gG.1 [.spatial [some [5 / 4, 7 / 4], none, none] false] (fun _ => .contiguous) gG.2 1
        (some [0, 1, 0, 1]) true 4).map (fun out => out.img (0, 0))) = .ok 0 := by
  refine ⟨?_, ?_, ?_⟩ <;> decide +kernel

private theorem exImage_parts : assemble exImage = [(⟨1 / 2, 1 / 2, 1, 1, 1 / 2⟩, true), (⟨1 / 4, 3 / 4, 2, 2, 1 / 2⟩, true),
    (⟨11 / 10, 1 / 2, 1, 4, 1 / 2⟩, true), (⟨5 / 2, 1 / 2, 3, 8, 1 / 2⟩, true), (⟨7 / 2, 1 / 2, 1, 16, 1 / 2⟩, true),
    (⟨39 / 10, 1, 1, 32, 1 / 2⟩, true)] := rfl

private theorem exImage_fits : FieldsFit exFile exImage 0 := by
  refine ⟨exFile_wf, ?_, ?_, ⟨rfl, rfl, rfl, rfl⟩, ?_⟩
  · intro k
    fin_cases k <;> simp [exFile]
  · intro c hc d
    simp [exFile, exCell] at hc
    rcases hc with rfl | rfl | rfl | rfl <;> fin_cases d <;> norm_num
  · intro i p hp
    rw [exImage_parts] at hp
    have hi : i < 6 := (List.getElem?_eq_some_iff.1 hp).1
    have hc : ∀ c, c ∈ [exCell 0 2 0, exCell 2 1 1, exCell 3 1 2, exCell 4 2 3] → c ∈ exFile.cells 0 := fun c h => h
    interval_cases i <;> obtain rfl := Option.some.inj hp
    · exact ⟨exCell 0 2 0, hc _ (by simp), by simp [Holds, exCell], fun d => by fin_cases d <;> norm_num [exCell, place3]⟩
    · exact ⟨exCell 0 2 0, hc _ (by simp), by simp [Holds, exCell], fun d => by fin_cases d <;> norm_num [exCell, place3]⟩
    · exact ⟨exCell 2 1 1, hc _ (by simp), by simp [Holds, exCell], fun d => by fin_cases d <;> norm_num [exCell, place3]⟩
    · exact ⟨exCell 3 1 2, hc _ (by simp), by simp [Holds, exCell], fun d => by fin_cases d <;> norm_num [exCell, place3]⟩
    · exact ⟨exCell 4 2 3, hc _ (by simp), by simp [Holds, exCell], fun d => by fin_cases d <;> norm_num [exCell, place3]⟩
    · exact ⟨exCell 4 2 3, hc _ (by simp), by simp [Holds, exCell], fun d => by fin_cases d <;> norm_num [exCell, place3]⟩

private theorem exLocal : AllLocal (fun _ => .chunked 2) := fun n => ⟨by simp, fun c h => by cases h; norm_num⟩

/-- Two subsets in a row drop a row; the hypotheses of `c87_projection` hold for them and for a third mask. -/
example : ∃ f' F', chain 0 [stage pad, stage pad] (exFile, exImage) = .ok (f', F') ∧ F'.ms = [1, 2, 4, 16, 32] ∧
    ∃ out out', project (Scatter.fast flatKernel 1) (boxOf exFile) (some (limits 0 1 0 1 none)) true true 4 (assemble exImage) = .ok out ∧
    projectMasked (Scatter.fast flatKernel 1) f' [.spatial pad false] (fun _ => .chunked 2) F' 0 (some (limits 0 1 0 1 none)) true 4 =
      .ok out' ∧ out'.nx = out.nx ∧ out'.ny = out.ny ∧ ∀ q, OnImage out.nx q.1 → OnImage out.ny q.2 → out'.img q = out.img q := by
  have hh : ∀ p ∈ assemble exImage, p.1.h = 1 / 2 := by
    rw [exImage_parts]
    simp
  have hms : (chain 0 [stage pad, stage pad] (exFile, exImage)).map (fun gG => gG.2.ms) = .ok [1, 2, 4, 16, 32] := by decide +kernel
  cases hch : chain 0 [stage pad, stage pad] (exFile, exImage) with
  | error e =>
    rw [hch] at hms
    cases hms
  | ok gG =>
    obtain ⟨f', F'⟩ := gG
    rw [hch] at hms
    refine ⟨f', F', rfl, Except.ok.inj hms, ?_⟩
    refine c87_projection flatKernel_compact flatKernel_scales (by norm_num) exFile 0 exImage exImage_fits true (by norm_num) (by norm_num) none
      ?_ ?_ (fun rows => rows = pad) ?_ [stage pad, stage pad] ?_ f' F' hch _ (Or.inr ⟨pad, false, rfl, rfl⟩) _ exLocal
    · intro r hr
      cases hr
    · intro p hp
      rw [hh p hp]
      norm_num [exFile]
    · rintro rows rfl
      refine ⟨fun d => if d = 2 then (0, 4) else (-1, 2), ⟨rfl, ?_⟩, ?_, ?_, ?_, ?_⟩
      · intro d
        fin_cases d <;> simp [exFile, pad]
      · intro d
        fin_cases d <;> refine ⟨⟨?_, ?_⟩, ?_, ?_⟩ <;> decide +kernel
      · intro p hp
        rw [hh p hp]
        refine Or.inr ⟨0, ?_⟩
        unfold wrapUpper
        decide +kernel
      · intro p hp
        rw [hh p hp]
        refine Or.inr ⟨0, ?_⟩
        unfold wrapUpper
        decide +kernel
      · exact Or.inl (by norm_num [wrapUpper, exFile])
    · intro s hs
      simp at hs
      subst hs
      exact ⟨rfl, exLocal⟩

end Verif.Props
