import Verif.Model.SubsetScripts
import Verif.Spec.SubsetScripts
import Verif.Props.Subset
import Verif.Props.TypeScripts

/-!
# C137: scripts on chains of subsets
-/

namespace Verif.Props
open Verif Verif.Cosmo Verif.Formulas Verif.Selections Verif.Spec Verif.Accel Verif.Mask Verif.SubsetImage Verif.SubsetScripts

variable {K : Type} [Field K] [LinearOrder K] [IsStrictOrderedRing K] {m : Nat}

/-! ### One subset -/

private theorem load_picked (f : File K m) (hf : WF f) (ops : List (Op K)) (hi : ∀ op ∈ ops, IndicesOk f op) (k : Fin m)
    (rows : List Int) (hr : LoadsRows f (Mask.run f ops) k rows) {α : Type} (ds : List α) (hds : ds.length = f.rows k) (lay : Layout)
    (h1 : lay ≠ .remote) (h2 : ∀ c, lay = .chunked c → 0 < c) : load (Mask.run f ops) lay ds k = .ok (Spec.select ds rows) := by
  obtain ⟨r, hrr, hk⟩ := run_ranges f hf ops hi
  obtain rfl := loadsRows_unique f _ k _ _ hr (hk k).2.2.2
  unfold load
  rw [hrr]
  dsimp only
  rw [(hk k).2.1, Int.toNat_natCast]
  exact readLocal ds (r k) (by rw [hds]; exact (hk k).1) _ h1 h2

private theorem select_picked {α : Type} (ds : List α) (rows : List Int) : (Spec.select ds rows).filterMap id = pick ds rows := by
  unfold Spec.select pick
  rw [List.filterMap_map]
  rfl

section
variable {α : Type}

private theorem writeAll_rows (f : File K m) (hf : WF f) (ops : List (Op K)) (hi : ∀ op ∈ ops, IndicesOk f op) (rows : Fin m → List Int)
    (hr : ∀ k, LoadsRows f (Mask.run f ops) k (rows k)) (lay : Nat → Layout) (hlay : ∀ i, lay i ≠ .remote ∧ ∀ c, lay i = .chunked c → 0 < c) (D : Nat → List α)
    {fields : List (Nat × Fin m)} (hn : (fields.map Prod.fst).Nodup) (hD : ∀ x ∈ fields, (D x.1).length = f.rows x.2) :
    ((∃ x ∈ fields, f.rows x.2 = 0) ∧ writeAll (Mask.run f ops) lay D fields = .error .index) ∨
    (∀ x ∈ fields, f.rows x.2 ≠ 0) ∧ ∃ E, writeAll (Mask.run f ops) lay D fields = .ok E ∧ ∀ x ∈ fields, E x.1 = pick (D x.1) (rows x.2) := by
  induction fields with
  | nil => exact .inr ⟨by simp, _, rfl, by simp⟩
  | cons x l ih =>
    obtain ⟨hx, hD⟩ := List.forall_mem_cons.1 hD
    simp only [List.map_cons, List.nodup_cons] at hn
    unfold writeAll writeColumn
    by_cases h0 : f.rows x.2 = 0
    · refine .inl ⟨⟨x, by simp, h0⟩, ?_⟩
      rw [if_pos (by rw [List.isEmpty_iff, ← List.length_eq_zero_iff, hx, h0])]
      rfl
    · rw [if_neg (by rw [List.isEmpty_iff, ← List.length_eq_zero_iff, hx]; exact h0),
        load_picked f hf ops hi x.2 _ (hr x.2) (D x.1) hx (lay x.1) (hlay x.1).1 (hlay x.1).2]
      rcases ih hn.2 hD with ⟨⟨y, hy, h⟩, e⟩ | ⟨h, E, e, hE⟩
      · refine .inl ⟨⟨y, by simp [hy], h⟩, ?_⟩
        rw [e]
        rfl
      · refine .inr ⟨List.forall_mem_cons.2 ⟨h0, h⟩, Function.update E x.1 (pick (D x.1) (rows x.2)), ?_, List.forall_mem_cons.2 ⟨by simp, fun y hy => ?_⟩⟩
        · rw [e]
          simp only [bind, Except.bind, pure, Except.pure, select_picked]
        · have : y.1 ≠ x.1 := fun h => hn.1 (h ▸ List.mem_map_of_mem hy)
          rw [Function.update_of_ne this]
          exact hE y hy

private theorem subset_cases (f : File K m) {fields : List (Nat × Fin m)} {D : Nat → List α} (hfit : RowsFit f fields D) (ops : List (Op K))
    (hi : ∀ op ∈ ops, IndicesOk f op) (allow : Bool) (lay : Nat → Layout) (hlay : ∀ i, lay i ≠ .remote ∧ ∀ c, lay i = .chunked c → 0 < c) :
    ((Mask.run f ops).constrained = none ∧ allow = false ∧ SubsetScripts.subset f ops allow lay fields D = .error .value) ∨
    (((Mask.run f ops).constrained ≠ none ∨ allow = true) ∧ (∃ x ∈ fields, f.rows x.2 = 0) ∧ SubsetScripts.subset f ops allow lay fields D = .error .index) ∨
    ((Mask.run f ops).constrained ≠ none ∨ allow = true) ∧ (∀ x ∈ fields, f.rows x.2 ≠ 0) ∧ ∃ g E rows, SubsetScripts.subset f ops allow lay fields D = .ok (g, E) ∧
      (∀ k, ∀ i ∈ rows k, 0 ≤ i ∧ i < (f.rows k : Int)) ∧ (∀ k, LoadsRows f (Mask.run f ops) k (rows k)) ∧ IsSubset f [] rows g ∧ WF g ∧ (∀ k, g.cells k ≠ []) ∧
      ∀ x ∈ fields, E x.1 = pick (D x.1) (rows x.2) := by
  obtain ⟨out, rows, a1, a2, a3, a4, a5, a6, -⟩ := reopen_isSubset f hfit.wf hfit.cells ops hi [] (fun _ => .contiguous) (by simp)
  unfold SubsetScripts.subset writeSubset
  by_cases hc : (Mask.run f ops).constrained = none ∧ allow = false
  · rw [if_pos hc]
    exact .inl ⟨hc.1, hc.2, rfl⟩
  · have hy : (Mask.run f ops).constrained ≠ none ∨ allow = true := by
      by_cases h : (Mask.run f ops).constrained = none
      · right
        cases allow with
        | true => rfl
        | false => exact absurd ⟨h, rfl⟩ hc
      · exact Or.inl h
    rw [if_neg hc, a1]
    simp only [bind, Except.bind]
    rcases writeAll_rows f hfit.wf ops hi rows a2 lay hlay D hfit.names hfit.len with ⟨h, e⟩ | ⟨h, E, e, hE⟩
    · rw [e]
      exact .inr (.inl ⟨hy, h, rfl⟩)
    · rw [e]
      exact .inr (.inr ⟨hy, h, _, E, rows, rfl, a3, a2, a4, a5, a6, hE⟩)

/-- C137: when a subset of several datasets is written, and what is raised when it is not. -/
theorem c137_written (f : File K m) {fields : List (Nat × Fin m)} {D : Nat → List α} (hfit : RowsFit f fields D) (ops : List (Op K))
    (hi : ∀ op ∈ ops, IndicesOk f op) (allow : Bool) (lay : Nat → Layout) (hlay : ∀ i, lay i ≠ .remote ∧ ∀ c, lay i = .chunked c → 0 < c) :
    ((∃ gE, SubsetScripts.subset f ops allow lay fields D = .ok gE) ↔
      ((Mask.run f ops).constrained ≠ none ∨ allow = true) ∧ ∀ x ∈ fields, f.rows x.2 ≠ 0) ∧
    (SubsetScripts.subset f ops allow lay fields D = .error .value ↔ (Mask.run f ops).constrained = none ∧ allow = false) ∧
    (SubsetScripts.subset f ops allow lay fields D = .error .index ↔
      ((Mask.run f ops).constrained ≠ none ∨ allow = true) ∧ ∃ x ∈ fields, f.rows x.2 = 0) := by
  rcases subset_cases f hfit ops hi allow lay hlay with ⟨h1, h2, e⟩ | ⟨h1, h2, e⟩ | ⟨h1, h2, g, E, rows, e, -⟩
  · rw [e]
    simp [h1, h2]
  · obtain ⟨x, hx, h0⟩ := h2
    rw [e]
    refine ⟨⟨fun ⟨_, h⟩ => (by cases h), fun h => absurd h0 (h.2 x hx)⟩, ⟨fun h => (by cases h), fun h => ?_⟩, ⟨fun _ => ⟨h1, x, hx, h0⟩, fun _ => rfl⟩⟩
    rcases h1 with h1 | h1
    · exact absurd h.1 h1
    · simp [h1] at h
  · rw [e]
    refine ⟨⟨fun _ => ⟨h1, h2⟩, fun _ => ⟨_, rfl⟩⟩, ⟨fun h => (by cases h), fun h => ?_⟩, ⟨fun h => (by cases h), fun ⟨_, x, hx, h0⟩ => absurd h0 (h2 x hx)⟩⟩
    rcases h1 with h1 | h1
    · exact absurd h.1 h1
    · simp [h1] at h

/-- What a subset holds, and that it can be read and written like the original. -/
private theorem subset_fits (f g : File K m) {fields : List (Nat × Fin m)} {D E : Nat → List α} (hfit : RowsFit f fields D) {ops : List (Op K)}
    (hi : ∀ op ∈ ops, IndicesOk f op) {allow : Bool} {lay : Nat → Layout} (hlay : ∀ i, lay i ≠ .remote ∧ ∀ c, lay i = .chunked c → 0 < c)
    (h : SubsetScripts.subset f ops allow lay fields D = .ok (g, E)) :
    RowsFit g fields E ∧ g.box = f.box ∧
      ∀ x ∈ fields, (∀ r ∈ E x.1, r ∈ D x.1) ∧ load (Mask.run f ops) (lay x.1) (D x.1) x.2 = .ok ((E x.1).map some) ∧
        ∀ pos : α → Fin 3 → K, InCells f x.2 (D x.1) pos → InCells g x.2 (E x.1) pos := by
  rcases subset_cases f hfit ops hi allow lay hlay with ⟨-, -, e⟩ | ⟨-, -, e⟩ | ⟨-, -, g', E', rows, e, b1, b2, b3, b4, b5, b6⟩
  · rw [e] at h
    cases h
  · rw [e] at h
    cases h
  · rw [e] at h
    cases h
    have hb : ∀ x ∈ fields, ∀ i ∈ rows x.2, 0 ≤ i ∧ i < ((D x.1).length : Int) := fun x hx => by
      rw [hfit.len x hx]
      exact b1 x.2
    refine ⟨⟨b4, b5, hfit.names, fun x hx => ?_⟩, b3.box, fun x hx => ⟨fun r hr => ?_, ?_, fun pos hpos i r hr => ?_⟩⟩
    · rw [b6 x hx, pick_length _ _ (hb x hx), b3.rows_eq]
    · rw [b6 x hx] at hr
      unfold pick at hr
      obtain ⟨j, -, hj⟩ := List.mem_filterMap.1 hr
      unfold valueAt at hj
      split_ifs at hj
      exact List.mem_of_getElem? hj
    · rw [b6 x hx, pick_some _ _ (hb x hx)]
      exact load_picked f hfit.wf ops hi x.2 _ (b2 x.2) (D x.1) (hfit.len x hx) _ (hlay x.1).1 (hlay x.1).2
    · rw [b6 x hx] at hr
      have hi : i < (rows x.2).length := by
        have := (List.getElem?_eq_some_iff.mp hr).1
        rwa [pick_length _ _ (hb x hx)] at this
      have e := congrArg (fun l => l[i]?) (pick_some (D x.1) (rows x.2) (hb x hx))
      simp only [List.getElem?_map, hr, Option.map_some, Spec.select, List.getElem?_eq_getElem hi, Option.some.injEq] at e
      have hv := b1 x.2 _ (List.getElem_mem hi)
      unfold valueAt at e
      rw [if_neg (by omega)] at e
      obtain ⟨c, hcm, hh, hin⟩ := hpos _ _ e.symm
      obtain ⟨j, hj, rfl⟩ := List.mem_iff_getElem.mp hcm
      have hj2 : j < (g.cells x.2).length := by
        rw [b3.cells_len]
        exact hj
      obtain ⟨e1, e2, e3⟩ := b3.cells x.2 j hj2 hj
      refine ⟨_, List.getElem_mem hj2, (e3 i _ (List.getElem?_eq_getElem hi)).2 ?_, ?_⟩
      · rw [Int.toNat_of_nonneg hv.1] at hh
        exact hh
      · rw [e1, e2]
        exact hin

end

/-! ### Masks that keep a cube -/

private theorem keeps_ok (f : File K m) (hf : WF f) {ι : K → ℝ} (hι : StrictMono ι) {ctr : Fin 3 → ℝ} {rad : ℝ} {ops : List (Op K)}
    (h : KeepsCube ι f.box ctr rad ops) : (∀ op ∈ ops, IndicesOk f op) ∧ (Mask.run f ops).constrained ≠ some .indices ∧ (Mask.run f ops).constrained ≠ some .index ∧
      ∀ (p : Fin m) (i : Nat) (c : Cell K) (x : Fin 3 → K), i < f.rows p → c ∈ f.cells p → Holds c i → (∀ d, c.lo d ≤ x d ∧ x d ≤ c.hi d) →
        (∀ d, |ι (x d) - ctr d| < rad) → Selects (Mask.run f ops) p i := by
  rcases h with rfl | ⟨rows, union, rfl, reg, h1, h2, h3⟩
  · have hinv := inv_initial f hf
    refine ⟨by simp, by simp [Mask.run, init, updateRangeMasks], by simp [Mask.run, init, updateRangeMasks], fun p i c x hi _ _ _ _ => ?_⟩
    exact ((hinv.selects p i).trans (hinv.all rfl p i)).2 ⟨by omega, by exact_mod_cast hi⟩
  · obtain ⟨k1, k2⟩ := only_spatial f hf rows union
    exact ⟨by simp [IndicesOk], k1, k2, fun p i c x _ hc hh hx hin => sphere_selected f hf rows reg h1 h2 union hι h3 hc hh hx hin⟩

/-! ### Rows of coordinates -/

private theorem flatten_row {c : Nat} : ∀ {R : List (List ℝ)} {i p : Nat}, (∀ r ∈ R, r.length = c) → i < R.length → p < c →
    R.flatten.getD (i * c + p) 0 = (R.getD i []).getD p 0
  | [], _, _, _, hi, _ => absurd hi (by simp)
  | r :: R, 0, p, hw, _, hp => by
    have hr := hw r (by simp)
    simp [List.getD_eq_getElem?_getD, List.getElem?_append_left (show p < r.length by omega)]
  | r :: R, i + 1, p, hw, hi, hp => by
    have hr := hw r (by simp)
    have ih := flatten_row (R := R) (i := i) (p := p) (fun r hr => hw r (by simp [hr])) (by simpa using hi) hp
    rw [List.flatten_cons, List.getD_cons_succ, ← ih, List.getD_eq_getElem?_getD, List.getD_eq_getElem?_getD,
      List.getElem?_append_right (by rw [hr, Nat.succ_mul]; omega), hr, show (i + 1) * c + p - c = i * c + p by rw [Nat.succ_mul]; omega]

private theorem phys_row {n : Nat} {x : Arr} {R : List (List ℝ)} (h : HoldsRows n [3] R x.val) {i : Nat} (hi : i < n) {d : Nat} (hd : d < 3) :
    x.phys.getD (i * 3 + d) 0 = ({ x with val := R.getD i [] } : Arr).phys.getD d 0 := by
  obtain ⟨φ, e1, e2⟩ := phys_map (x := x) (y := { x with val := R.getD i [] }) ⟨rfl, rfl⟩
  have hw : ∀ r ∈ R, r.length = 3 := fun r hr => by
    rw [h.width r hr]
    rfl
  rw [e1, e2, h.vals, List.map_flatten, flatten_row (c := 3) (R := R.map (List.map φ)) (i := i) (p := d)]
  · rw [List.getD_eq_getElem?_getD (l := R.map (List.map φ)), List.getElem?_map, List.getD_eq_getElem?_getD (l := R),
      List.getElem?_eq_getElem (show i < R.length by rw [h.count]; exact hi)]
    rfl
  · intro r hr
    obtain ⟨r', hr', rfl⟩ := List.mem_map.1 hr
    rw [List.length_map, hw r' hr']
  · rw [List.length_map, h.count]
    exact hi
  · exact hd

/-! ### Chains -/

/-- The state with the rows of a file. -/
private noncomputable def holding (ty : Nat → Option (Fin m)) (u : Nat → List Nat) (E : Nat → List (List ℝ)) (s : Selections.State) : Selections.State where
  shapes := fun i => if ty i = none then s.shapes i else (E i).length :: u i
  env := fun i => if ty i = none then s.env i else { s.env i with val := (E i).flatten }

/-- C137: subsets of subsets are written, each with a region that contains the cube around a sphere (or with everything). A script that cuts fields of several
particle types at the sphere and computes from what it has cut gives the same results with the last file, read whole or through one more mask of such a region,
as with the original. -/
theorem c137_chain (f g : File K m) {fields : List (Nat × Fin m)} {D E R' : Nat → List (List ℝ)} (hfit : RowsFit f fields D) {ι : K → ℝ} (hι : StrictMono ι)
    {ctr : Fin 3 → ℝ} {rad : ℝ} (ss : List (SubsetScripts.Stage K))
    (hss : ∀ st ∈ ss, KeepsCube ι f.box ctr rad st.ops ∧ ∀ i, st.lay i ≠ .remote ∧ ∀ c, st.lay i = .chunked c → 0 < c)
    (hch : SubsetScripts.chain fields ss (f, D) = .ok (g, E)) (ops : List (Op K)) (hops : KeepsCube ι f.box ctr rad ops) (lay : Nat → Layout)
    (hlay : ∀ i, lay i ≠ .remote ∧ ∀ c, lay i = .chunked c → 0 < c) (p₀ : Fin m) {a : ℝ} (ha : 0 < a) {ks ls : Nat → ℝ} {s s' : Selections.State} (hs : ScriptState a ks s)
    {ty : Nat → Option (Fin m)} {u : Nat → List Nat}
    (hr : ∀ i p, ty i = some p → (i, p) ∈ fields ∧ s.shapes i = f.rows p :: u i ∧ HoldsRows (f.rows p) (u i) (D i) (s.env i).val)
    (hr' : ∀ i p, ty i = some p → load (Mask.run g ops) (lay i) (E i) p = .ok ((R' i).map some) ∧ s'.shapes i = (R' i).length :: u i ∧
      HoldsRows (R' i).length (u i) (R' i) (s'.env i).val)
    (hfix : ∀ i, ty i = none → s'.shapes i = s.shapes i ∧ (s'.env i).val = (s.env i).val)
    (hattr : ∀ i, (s'.env i).comoving = (s.env i).comoving ∧ (s'.env i).cf = (s.env i).cf ∧ (s'.env i).vt = (s.env i).vt)
    {types : List (Fin m)} {X : Fin m → Nat} {vc vr : Nat} (hX : ∀ p ∈ types, ty (X p) = some p ∧ u (X p) = [3] ∧ ks (X p) = ks vc ∧ ks (X p) = ks vr)
    (tc : ty vc = none) (tr : ty vr = none) (hc : s.shapes vc = [3]) (hv : s.shapes vr = []) {σ : ℝ} (hσ : 0 < σ) {pos : List ℝ → Fin 3 → K}
    (hP : ∀ p ∈ types, ∀ r ∈ D (X p), ∀ d : Fin 3, ({ s.env (X p) with val := r } : Arr).phys.getD d.val 0 = ι (pos r d) * σ)
    (hctr : ∀ d : Fin 3, (s.env vc).phys.getD d.val 0 = ctr d * σ) (hrad : (s.env vr).phys.getD 0 0 = rad * σ)
    (hcells : ∀ p ∈ types, InCells f p (D (X p)) pos) {cuts : List (Nat × Fin m × Shaped.Expr)} {l : List (Nat × Shaped.Expr)}
    (hcuts : ∀ d ∈ cuts, (d.1 ≠ vc ∧ d.1 ≠ vr) ∧ ty d.1 = none ∧ d.2.1 ∈ types ∧ UsesOnly (OfTypeOrFree ty d.2.1) d.2.2 ∧
      ∀ rank : Nat → Nat, (∀ j, j ∉ cuts.map (·.1) → rank j = (s.shapes j).length) → ∃ q, PerRow rank (OfType ty d.2.1) d.2.2 true q)
    (hl : ∀ d ∈ l, ty d.1 = none ∧ UsesOnly (fun j => ty j = none) d.2)
    (h : ScriptScales ks ((cuts.map fun d => (d.1, .select d.2.2 (sphereAt (X d.2.1) vc vr))) ++ l.map fun d => (d.1, .formula d.2)) ls) :
    (∃ err, Selections.run ((cuts.map fun d => (d.1, .select d.2.2 (sphereAt (X d.2.1) vc vr))) ++ l.map fun d => (d.1, .formula d.2)) s = .error err ∧
      Selections.run ((cuts.map fun d => (d.1, .select d.2.2 (sphereAt (X d.2.1) vc vr))) ++ l.map fun d => (d.1, .formula d.2)) s' = .error err) ∨
    ∃ t t', Selections.run ((cuts.map fun d => (d.1, .select d.2.2 (sphereAt (X d.2.1) vc vr))) ++ l.map fun d => (d.1, .formula d.2)) s = .ok t ∧
      Selections.run ((cuts.map fun d => (d.1, .select d.2.2 (sphereAt (X d.2.1) vc vr))) ++ l.map fun d => (d.1, .formula d.2)) s' = .ok t' ∧
      ∀ i, ty i = none → t'.shapes i = t.shapes i ∧ (t'.env i).phys = (t.env i).phys := by
  have one : ∀ (f : File K m) (D R' : Nat → List (List ℝ)) (s s' : Selections.State) (ops : List (Op K)) (lay : Nat → Layout), RowsFit f fields D →
      KeepsCube ι f.box ctr rad ops → (∀ i, lay i ≠ .remote ∧ ∀ c, lay i = .chunked c → 0 < c) → ScriptState a ks s →
      (∀ i p, ty i = some p → (i, p) ∈ fields ∧ s.shapes i = f.rows p :: u i ∧ HoldsRows (f.rows p) (u i) (D i) (s.env i).val) →
      (∀ i p, ty i = some p → load (Mask.run f ops) (lay i) (D i) p = .ok ((R' i).map some) ∧ s'.shapes i = (R' i).length :: u i ∧
        HoldsRows (R' i).length (u i) (R' i) (s'.env i).val) →
      (∀ i, ty i = none → s'.shapes i = s.shapes i ∧ (s'.env i).val = (s.env i).val) →
      (∀ i, (s'.env i).comoving = (s.env i).comoving ∧ (s'.env i).cf = (s.env i).cf ∧ (s'.env i).vt = (s.env i).vt) →
      s.shapes vc = [3] → s.shapes vr = [] →
      (∀ p ∈ types, ∀ r ∈ D (X p), ∀ d : Fin 3, ({ s.env (X p) with val := r } : Arr).phys.getD d.val 0 = ι (pos r d) * σ) →
      (∀ d : Fin 3, (s.env vc).phys.getD d.val 0 = ctr d * σ) → (s.env vr).phys.getD 0 0 = rad * σ → (∀ p ∈ types, InCells f p (D (X p)) pos) →
      (∀ d ∈ cuts, (d.1 ≠ vc ∧ d.1 ≠ vr) ∧ ty d.1 = none ∧ d.2.1 ∈ types ∧ UsesOnly (OfTypeOrFree ty d.2.1) d.2.2 ∧
        ∀ rank : Nat → Nat, (∀ j, j ∉ cuts.map (·.1) → rank j = (s.shapes j).length) → ∃ q, PerRow rank (OfType ty d.2.1) d.2.2 true q) →
      (∃ err, Selections.run ((cuts.map fun d => (d.1, .select d.2.2 (sphereAt (X d.2.1) vc vr))) ++ l.map fun d => (d.1, .formula d.2)) s = .error err ∧
        Selections.run ((cuts.map fun d => (d.1, .select d.2.2 (sphereAt (X d.2.1) vc vr))) ++ l.map fun d => (d.1, .formula d.2)) s' = .error err) ∨
      ∃ t t', Selections.run ((cuts.map fun d => (d.1, .select d.2.2 (sphereAt (X d.2.1) vc vr))) ++ l.map fun d => (d.1, .formula d.2)) s = .ok t ∧
        Selections.run ((cuts.map fun d => (d.1, .select d.2.2 (sphereAt (X d.2.1) vc vr))) ++ l.map fun d => (d.1, .formula d.2)) s' = .ok t' ∧
        ∀ i, ty i = none → t'.shapes i = t.shapes i ∧ (t'.env i).phys = (t.env i).phys := by
    intro f D R' s s' ops lay hfit hops hlay hs hr hr' hfix hattr hc hv hP hctr hrad hcells hcuts
    obtain ⟨o1, o2, o3, o4⟩ := keeps_ok f hfit.wf hι hops
    have hlen : ∀ p ∈ types, (D (X p)).length = f.rows p := fun p hp => hfit.len _ (hr _ p (hX p hp).1).1
    refine c136_cube f hfit.wf ops o1 o2 o3 p₀ lay hlay ha hs (R := D) (fun i p hi => ⟨(hr i p hi).2.1, (hr i p hi).2.2, hr' i p hi⟩) hfix hattr hX tc tr hc hv hσ
      (ι := ι) (P := fun p i => pos ((D (X p)).getD i [])) (fun p hp i hi d => ?_) hctr hrad (fun p hp i hi hin => ?_) hcuts hl h
    · have hmem : (D (X p)).getD i [] ∈ D (X p) := by
        rw [List.getD_eq_getElem?_getD, List.getElem?_eq_getElem (by rw [hlen p hp]; exact hi)]
        exact List.getElem_mem _
      have hh := (hr _ p (hX p hp).1).2.2
      rw [(hX p hp).2.1] at hh
      rw [phys_row hh hi d.isLt, hP p hp _ hmem d]
    · have he : (D (X p))[i]? = some ((D (X p)).getD i []) := by
        rw [List.getD_eq_getElem?_getD, List.getElem?_eq_getElem (by rw [hlen p hp]; exact hi)]
        rfl
      obtain ⟨c, hc, hh, hx⟩ := hcells p hp i _ he
      exact o4 p i c _ hi hc hh hx hin
  induction ss generalizing f D s with
  | nil =>
    cases hch
    exact one g E R' s s' ops lay hfit hops hlay hs hr hr' hfix hattr hc hv hP hctr hrad hcells hcuts
  | cons st ss ih =>
    obtain ⟨⟨w1, w2⟩, hss⟩ := List.forall_mem_cons.1 hss
    unfold SubsetScripts.chain at hch
    cases hsub : SubsetScripts.subset f st.ops st.allow st.lay fields D with
    | error e =>
      rw [hsub] at hch
      cases hch
    | ok gE =>
      obtain ⟨f₁, D₁⟩ := gE
      rw [hsub] at hch
      obtain ⟨o1, -, -, -⟩ := keeps_ok f hfit.wf hι w1
      obtain ⟨g1, g2, g3⟩ := subset_fits f f₁ hfit o1 w2 hsub
      have hh : ∀ i p, ty i = some p → HoldsRows (D₁ i).length (u i) (D₁ i) ((holding ty u D₁ s).env i).val := by
        intro i p hi
        obtain ⟨q1, -, q2⟩ := hr i p hi
        refine ⟨rfl, fun r hr => q2.width r ((g3 _ q1).1 r hr), ?_⟩
        simp [holding, hi]
      have hattr₁ : ∀ i, ((holding ty u D₁ s).env i).comoving = (s.env i).comoving ∧ ((holding ty u D₁ s).env i).cf = (s.env i).cf ∧
          ((holding ty u D₁ s).env i).vt = (s.env i).vt := by
        intro i
        simp only [holding]
        split_ifs <;> exact ⟨rfl, rfl, rfl⟩
      have hfix₁ : ∀ i, ty i = none → (holding ty u D₁ s).shapes i = s.shapes i ∧ (holding ty u D₁ s).env i = s.env i := by
        intro i hi
        simp [holding, hi]
      have hsh₁ : ∀ i p, ty i = some p → (holding ty u D₁ s).shapes i = (D₁ i).length :: u i := by
        intro i p hi
        simp [holding, hi]
      have first := one f D D₁ s (holding ty u D₁ s) st.ops st.lay hfit w1 w2 hs hr (fun i p hi => ⟨(g3 _ (hr i p hi).1).2.1, hsh₁ i p hi, hh i p hi⟩)
        (fun i hi => ⟨(hfix₁ i hi).1, by rw [(hfix₁ i hi).2]⟩) hattr₁ hc hv hP hctr hrad hcells hcuts
      have hlen₁ : ∀ j, ((holding ty u D₁ s).shapes j).length = (s.shapes j).length := by
        intro j
        cases hj : ty j with
        | none => rw [(hfix₁ j hj).1]
        | some p =>
          rw [hsh₁ j p hj, (hr j p hj).2.1]
          rfl
      have hs₁ : ScriptState a ks (holding ty u D₁ s) := by
        refine ⟨fun i => ?_, fun i => ?_⟩
        · obtain ⟨h1, h2, h3, h4⟩ := hs.conv i
          obtain ⟨e1, e2, e3⟩ := hattr₁ i
          exact ⟨h1, e2.trans h2, e3.trans h3, by rw [e1]; exact h4⟩
        · cases hi : ty i with
          | none => rw [(hfix₁ i hi).1, (hfix₁ i hi).2, hs.length i]
          | some p => rw [holds_length (hh i p hi), hsh₁ i p hi]
      have second := ih f₁ g1 (by rw [g2]; exact hss) hch (by rw [g2]; exact hops) hs₁
        (fun i p hi => ⟨(hr i p hi).1, by rw [hsh₁ i p hi, g1.len _ (hr i p hi).1], by rw [← g1.len _ (hr i p hi).1]; exact hh i p hi⟩)
        (fun i hi => ⟨(hfix i hi).1.trans (hfix₁ i hi).1.symm, by rw [(hfix i hi).2, (hfix₁ i hi).2]⟩)
        (fun i => ⟨(hattr i).1.trans (hattr₁ i).1.symm, (hattr i).2.1.trans (hattr₁ i).2.1.symm, (hattr i).2.2.trans (hattr₁ i).2.2.symm⟩)
        (by rw [(hfix₁ vc tc).1]; exact hc) (by rw [(hfix₁ vr tr).1]; exact hv)
        (fun p hp r hr' d => by
          have := hP p hp r ((g3 _ (hr _ p (hX p hp).1).1).1 r hr') d
          rw [← this]
          obtain ⟨e1, e2, e3⟩ := hattr₁ (X p)
          simp only [Arr.phys, e1, e2])
        (fun d => by rw [(hfix₁ vc tc).2]; exact hctr d) (by rw [(hfix₁ vr tr).2]; exact hrad)
        (fun p hp => (g3 _ (hr _ p (hX p hp).1).1).2.2 pos (hcells p hp))
        (fun d hd => by
          obtain ⟨c1, c2, c3, c4, c5⟩ := hcuts d hd
          exact ⟨c1, c2, c3, c4, fun rank hrank => c5 rank fun j hj => by rw [hrank j hj, hlen₁ j]⟩)
      rcases first with ⟨err, e1, e2⟩ | ⟨t, t', e1, e2, e3⟩
      · rcases second with ⟨err', e1', e2'⟩ | ⟨_, _, e1', -, -⟩
        · rw [e2] at e1'
          cases e1'
          exact .inl ⟨err, e1, e2'⟩
        · rw [e2] at e1'
          cases e1'
      · rcases second with ⟨err', e1', -⟩ | ⟨w, w', e1', e2', e3'⟩
        · rw [e2] at e1'
          cases e1'
        · rw [e2] at e1'
          cases e1'
          exact .inr ⟨t, w', e1, e2', fun i hi => ⟨(e3' i hi).1.trans (e3 i hi).1, (e3' i hi).2.trans (e3 i hi).2⟩⟩

/-- The last file of a chain can be read and written like the first. -/
private theorem chain_fits {α : Type} {f g : File K m} {fields : List (Nat × Fin m)} {D E : Nat → List α} (hfit : RowsFit f fields D) {ι : K → ℝ} (hι : StrictMono ι)
    {ctr : Fin 3 → ℝ} {rad : ℝ} {ss : List (SubsetScripts.Stage K)}
    (hss : ∀ st ∈ ss, KeepsCube ι f.box ctr rad st.ops ∧ ∀ i, st.lay i ≠ .remote ∧ ∀ c, st.lay i = .chunked c → 0 < c)
    (hch : SubsetScripts.chain fields ss (f, D) = .ok (g, E)) : RowsFit g fields E := by
  induction ss generalizing f D with
  | nil =>
    cases hch
    exact hfit
  | cons st ss ih =>
    obtain ⟨⟨w1, w2⟩, hss⟩ := List.forall_mem_cons.1 hss
    unfold SubsetScripts.chain at hch
    cases hsub : SubsetScripts.subset f st.ops st.allow st.lay fields D with
    | error e =>
      rw [hsub] at hch
      cases hch
    | ok gE =>
      rw [hsub] at hch
      obtain ⟨g1, g2, -⟩ := subset_fits f gE.1 hfit (keeps_ok f hfit.wf hι w1).1 w2 hsub
      exact ih g1 (by rw [g2]; exact hss) hch

/-! ### When chains are written -/

/-- Reading a file without a mask gives its datasets. -/
private theorem whole_load (f : File K m) (hf : WF f) (p : Fin m) {α : Type} (ds : List α) (hds : ds.length = f.rows p) (lay : Layout) (h1 : lay ≠ .remote)
    (h2 : ∀ c, lay = .chunked c → 0 < c) : load (Mask.run f []) lay ds p = .ok (ds.map some) := by
  obtain ⟨rows, e1, -, e3, -, -, e6⟩ := c07_masked_read f hf [] (by simp) p ds hds lay h1 h2
  have hlt := e6 (by simp [Mask.run, init, updateRangeMasks]) (by simp [Mask.run, init, updateRangeMasks])
  have hinv := inv_initial f hf
  have hfull : ∀ i, i ∈ rows ↔ 0 ≤ i ∧ i < (f.rows p : Int) := by
    intro i
    rw [e3]
    exact (hinv.selects p i).trans (hinv.all rfl p i)
  have heq : rows = (List.range ds.length).map fun j : Nat => (j : Int) := by
    refine List.Perm.eq_of_pairwise (le := (· < ·)) (fun a b _ _ h1 h2 => by omega) hlt ?_ ?_
    · rw [List.pairwise_map]
      exact List.pairwise_lt_range.imp (fun h => by omega)
    · rw [List.perm_ext_iff_of_nodup (hlt.imp (fun h => by omega)) (List.Nodup.map (fun a b h => by simpa using h) List.nodup_range)]
      intro i
      rw [hfull]
      simp only [List.mem_map, List.mem_range]
      constructor
      · rintro ⟨h1, h2⟩
        exact ⟨i.toNat, by omega, by omega⟩
      · rintro ⟨j, h1, rfl⟩
        omega
  rw [e1, heq]
  unfold Spec.select
  congr 1
  apply List.ext_getElem
  · simp
  · intro j h1 h2
    simp only [List.length_map, List.length_range] at h1
    simp only [List.getElem_map, List.getElem_range, valueAt_natCast]
    rw [List.getElem?_eq_getElem h1]

private theorem cube_constrains (f : File K m) (hf : WF f) {ι : K → ℝ} {ctr : Fin 3 → ℝ} {rad : ℝ} {ops : List (Op K)} (h : KeepsCube ι f.box ctr rad ops)
    (hne : ops ≠ []) : (Mask.run f ops).constrained ≠ none := by
  rcases h with rfl | ⟨rows, union, rfl, reg, h1, h2, h3⟩
  · exact absurd rfl hne
  · have h := (inv_run f hf [.spatial rows union] (by simp [IndicesOk])).last
    rw [h]
    unfold builtRun
    simp only [List.foldl_cons, List.foldl_nil, builtStep]
    rw [if_pos (show Accepts f (absInit f) (.spatial rows union) from ⟨⟨reg, h1, h2⟩, Or.inl rfl⟩)]
    simp [builtApply]

/-- C137: chains of subsets with regions that contain the cube can be written if every particle type has a particle in the cube. -/
theorem c137_succeeds {α : Type} (f : File K m) {fields : List (Nat × Fin m)} {D : Nat → List α} (hfit : RowsFit f fields D) {ι : K → ℝ} (hι : StrictMono ι)
    {ctr : Fin 3 → ℝ} {rad : ℝ} (ss : List (SubsetScripts.Stage K))
    (hss : ∀ st ∈ ss, KeepsCube ι f.box ctr rad st.ops ∧ (st.ops ≠ [] ∨ st.allow = true) ∧ ∀ i, st.lay i ≠ .remote ∧ ∀ c, st.lay i = .chunked c → 0 < c)
    {X : Fin m → Nat} {pos : α → Fin 3 → K}
    (hX : ∀ x ∈ fields, (X x.2, x.2) ∈ fields ∧ InCells f x.2 (D (X x.2)) pos ∧ ∃ r ∈ D (X x.2), ∀ d, |ι (pos r d) - ctr d| < rad) :
    ∃ gE, SubsetScripts.chain fields ss (f, D) = .ok gE := by
  induction ss generalizing f D with
  | nil => exact ⟨_, rfl⟩
  | cons st ss ih =>
    obtain ⟨⟨w1, w2, w3⟩, hss⟩ := List.forall_mem_cons.1 hss
    obtain ⟨o1, o2, o3, o4⟩ := keeps_ok f hfit.wf hι w1
    have hlen : ∀ x ∈ fields, (D (X x.2)).length = f.rows x.2 := fun x hx => hfit.len _ (hX x hx).1
    obtain ⟨⟨g, E⟩, hsub⟩ := (c137_written f hfit st.ops o1 st.allow st.lay w3).1.2 ⟨w2.imp (cube_constrains f hfit.wf w1) id, fun x hx h0 => by
      obtain ⟨-, -, r, hr, -⟩ := hX x hx
      have := List.length_pos_of_mem hr
      rw [hlen x hx] at this
      omega⟩
    obtain ⟨g1, g2, g3⟩ := subset_fits f g hfit o1 w3 hsub
    obtain ⟨gE, e⟩ := ih g g1 (by rw [g2]; exact hss) fun x hx => by
      obtain ⟨h1, h2, r, hr, hin⟩ := hX x hx
      refine ⟨h1, (g3 _ h1).2.2 pos h2, r, ?_, hin⟩
      obtain ⟨i, hi, rfl⟩ := List.mem_iff_getElem.1 hr
      obtain ⟨c, hc, hh, hx'⟩ := h2 i _ (List.getElem?_eq_getElem hi)
      have hsel := o4 x.2 i c _ (by rw [← hlen x hx]; exact hi) hc hh hx' hin
      obtain ⟨rows, e1, -, e3, -⟩ := c07_masked_read f hfit.wf st.ops o1 x.2 (D (X x.2)) (hlen x hx) (st.lay (X x.2)) (w3 _).1 (w3 _).2
      have e2 := (g3 _ h1).2.1
      rw [e1] at e2
      have hm : some (D (X x.2))[i] ∈ (E (X x.2)).map some := by
        rw [← Except.ok.inj e2]
        refine List.mem_map.2 ⟨i, (e3 i).2 hsel, ?_⟩
        rw [valueAt_natCast, List.getElem?_eq_getElem hi]
      obtain ⟨r, hr, he⟩ := List.mem_map.1 hm
      exact Option.some.inj he ▸ hr
    refine ⟨gE, ?_⟩
    unfold SubsetScripts.chain
    rw [hsub]
    exact e

/-! ### The mass of gas and stars in a sphere, from a subset of a subset -/

private def bothFields : List (Nat × Fin 2) := [(0, 0), (3, 0), (4, 1), (5, 1)]

private noncomputable def bothData : Nat → List (List ℝ) := fun i =>
  if i = 0 then sixRows else if i = 3 then massRows else if i = 4 then starRows else [[7], [8], [9]]

private def regionOp : Op ℚ := .spatial [some [5 / 4, 9 / 4], none, none] false

private theorem region_keeps : KeepsCube (fun q : ℚ => (q : ℝ)) exFile.box (fun d => if d = 0 then 7 / 4 else 2) (1 / 2) [regionOp] := by
  refine .inr ⟨_, _, rfl, fun d => if d = 0 then (5 / 4, 9 / 4) else (0, 4), ⟨rfl, fun d => ?_⟩, fun d => ?_, fun d => ?_⟩
  · fin_cases d <;> simp [exFile]
  · fin_cases d <;> norm_num [exFile]
  · fin_cases d <;> norm_num

private theorem both_fit : RowsFit exFile bothFields bothData := by
  refine ⟨exFile_wf, fun k => ?_, by decide, fun x hx => ?_⟩
  · fin_cases k <;> simp [exFile]
  · simp only [bothFields, List.mem_cons, List.not_mem_nil, or_false] at hx
    rcases hx with rfl | rfl | rfl | rfl <;> rfl

open Classical in
/-- The place that a row means. -/
private noncomputable def placeOf (r : List ℝ) (d : Fin 3) : ℚ := if h : ∃ q : ℚ, r.getD d.val 0 = q then h.choose else 0

private theorem placeOf_eq {r : List ℝ} {d : Fin 3} {q : ℚ} (h : r.getD d.val 0 = q) : placeOf r d = q := by
  have h' : ∃ q : ℚ, r.getD d.val 0 = q := ⟨q, h⟩
  unfold placeOf
  rw [dif_pos h']
  exact_mod_cast h'.choose_spec.symm.trans h

private theorem place_six {i : Nat} (hi : i < 6) {r : List ℝ} (hr : sixRows[i]? = some r) (d : Fin 3) : placeOf r d = sixAt i d := by
  interval_cases i <;> cases hr <;> refine placeOf_eq ?_ <;> fin_cases d <;> simp [sixAt]

private theorem place_star {i : Nat} (hi : i < 3) {r : List ℝ} (hr : starRows[i]? = some r) (d : Fin 3) : placeOf r d = starAt i d := by
  interval_cases i <;> cases hr <;> refine placeOf_eq ?_ <;> fin_cases d <;> simp [starAt]

private theorem six_cells : InCells exFile 0 sixRows placeOf := by
  intro i r hr
  have hi : i < 6 := (List.getElem?_eq_some_iff.1 hr).1
  simp only [place_six hi hr]
  interval_cases i
  · exact ⟨exCell 0 2 0, by simp [exFile], by simp [Holds, exCell], fun d => by fin_cases d <;> norm_num [exCell, sixAt]⟩
  · exact ⟨exCell 0 2 0, by simp [exFile], by simp [Holds, exCell], fun d => by fin_cases d <;> norm_num [exCell, sixAt]⟩
  · exact ⟨exCell 2 1 1, by simp [exFile], by simp [Holds, exCell], fun d => by fin_cases d <;> norm_num [exCell, sixAt]⟩
  · exact ⟨exCell 3 1 2, by simp [exFile], by simp [Holds, exCell], fun d => by fin_cases d <;> norm_num [exCell, sixAt]⟩
  · exact ⟨exCell 4 2 3, by simp [exFile], by simp [Holds, exCell], fun d => by fin_cases d <;> norm_num [exCell, sixAt]⟩
  · exact ⟨exCell 4 2 3, by simp [exFile], by simp [Holds, exCell], fun d => by fin_cases d <;> norm_num [exCell, sixAt]⟩

private theorem star_cells : InCells exFile 1 starRows placeOf := by
  intro i r hr
  have hi : i < 3 := (List.getElem?_eq_some_iff.1 hr).1
  simp only [place_star hi hr]
  interval_cases i
  · exact ⟨exCell 0 1 0, by simp [exFile], by simp [Holds, exCell], fun d => by fin_cases d <;> norm_num [exCell, starAt]⟩
  · exact ⟨exCell 1 1 2, by simp [exFile], by simp [Holds, exCell], fun d => by fin_cases d <;> norm_num [exCell, starAt]⟩
  · exact ⟨exCell 2 1 3, by simp [exFile], by simp [Holds, exCell], fun d => by fin_cases d <;> norm_num [exCell, starAt]⟩

/-- A subset of a subset can be written, and the mass of gas and stars in the sphere is that of the original file. -/
example : ∃ g E, SubsetScripts.chain bothFields [⟨[regionOp], false, fun _ => .contiguous⟩, ⟨[regionOp], false, fun _ => .chunked 2⟩] (exFile, bothData) = .ok (g, E) ∧
    ∀ s' : Selections.State, (∀ i p, bothTypes i = some p → s'.shapes i = (E i).length :: (if i = 0 ∨ i = 4 then [3] else []) ∧
        HoldsRows (E i).length (if i = 0 ∨ i = 4 then [3] else []) (E i) (s'.env i).val) →
      (∀ i, bothTypes i = none → s'.shapes i = bothState.shapes i ∧ (s'.env i).val = (bothState.env i).val) →
      (∀ i, (s'.env i).comoving = (bothState.env i).comoving ∧ (s'.env i).cf = (bothState.env i).cf ∧ (s'.env i).vt = (bothState.env i).vt) →
      (∃ err, Selections.run bothScript bothState = .error err ∧ Selections.run bothScript s' = .error err) ∨
      ∃ t t', Selections.run bothScript bothState = .ok t ∧ Selections.run bothScript s' = .ok t' ∧ (t'.env 8).phys = (t.env 8).phys := by
  obtain ⟨ls, hls⟩ := both_scales
  have hss : ∀ st ∈ [(⟨[regionOp], false, fun _ => .contiguous⟩ : SubsetScripts.Stage ℚ), ⟨[regionOp], false, fun _ => .chunked 2⟩],
      KeepsCube (fun q : ℚ => (q : ℝ)) exFile.box (fun d => if d = 0 then 7 / 4 else 2) (1 / 2) st.ops ∧ (st.ops ≠ [] ∨ st.allow = true) ∧
        ∀ i, st.lay i ≠ .remote ∧ ∀ c, st.lay i = .chunked c → 0 < c := by
    intro st hst
    simp only [List.mem_cons, List.not_mem_nil, or_false] at hst
    rcases hst with rfl | rfl <;> exact ⟨region_keeps, .inl (by simp), fun _ => ⟨by simp, by simp⟩⟩
  have hX : ∀ x ∈ bothFields, ((fun p : Fin 2 => if p = 0 then 0 else 4) x.2, x.2) ∈ bothFields ∧
      InCells exFile x.2 (bothData ((fun p : Fin 2 => if p = 0 then 0 else 4) x.2)) placeOf ∧
      ∃ r ∈ bothData ((fun p : Fin 2 => if p = 0 then 0 else 4) x.2), ∀ d, |((placeOf r d : ℚ) : ℝ) - (if d = 0 then 7 / 4 else 2)| < 1 / 2 := by
    have h0 : ∃ r ∈ sixRows, ∀ d, |((placeOf r d : ℚ) : ℝ) - (if d = 0 then 7 / 4 else 2)| < 1 / 2 := by
      refine ⟨[3 / 2, 2, 2], by simp [sixRows], fun d => ?_⟩
      rw [place_six (i := 2) (by norm_num) rfl d]
      fin_cases d <;> norm_num [sixAt]
    have h1 : ∃ r ∈ starRows, ∀ d, |((placeOf r d : ℚ) : ℝ) - (if d = 0 then 7 / 4 else 2)| < 1 / 2 := by
      refine ⟨[17 / 8, 2, 2], by simp [starRows], fun d => ?_⟩
      rw [place_star (i := 1) (by norm_num) rfl d]
      fin_cases d <;> norm_num [starAt, abs_lt]
    intro x hx
    simp only [bothFields, List.mem_cons, List.not_mem_nil, or_false] at hx
    rcases hx with rfl | rfl | rfl | rfl
    · exact ⟨by simp [bothFields], six_cells, h0⟩
    · exact ⟨by simp [bothFields], six_cells, h0⟩
    · exact ⟨by simp [bothFields], star_cells, h1⟩
    · exact ⟨by simp [bothFields], star_cells, h1⟩
  obtain ⟨⟨g, E⟩, he⟩ := c137_succeeds exFile both_fit (ι := fun q : ℚ => (q : ℝ)) Rat.cast_strictMono (ctr := fun d => if d = 0 then 7 / 4 else 2) (rad := 1 / 2)
    [⟨[regionOp], false, fun _ => .contiguous⟩, ⟨[regionOp], false, fun _ => .chunked 2⟩] hss (X := fun p => if p = 0 then 0 else 4) (pos := placeOf) hX
  refine ⟨g, E, he, fun s' h1 h2 h3 => ?_⟩
  have hg := chain_fits both_fit Rat.cast_strictMono (fun st hst => ⟨(hss st hst).1, (hss st hst).2.2⟩) he
  have h := c137_chain exFile g both_fit (ι := fun q : ℚ => (q : ℝ)) Rat.cast_strictMono (ctr := fun d => if d = 0 then 7 / 4 else 2) (rad := 1 / 2)
    [⟨[regionOp], false, fun _ => .contiguous⟩, ⟨[regionOp], false, fun _ => .chunked 2⟩] (fun st hst => ⟨(hss st hst).1, (hss st hst).2.2⟩) he [] (.inl rfl)
    (fun _ => .contiguous) (fun _ => ⟨by simp, by simp⟩) 0 (a := 1 / 2) (by norm_num) (ks := bothExponents) (s := bothState) (s' := s') (R' := E) bothState_ok
    (ty := bothTypes) (u := fun i => if i = 0 ∨ i = 4 then [3] else []) ?_ ?_ h2 h3 (types := [0, 1]) (X := fun p => if p = 0 then 0 else 4) (vc := 1) (vr := 2) ?_
    rfl rfl rfl rfl (σ := 1 / 2) (by norm_num) (pos := placeOf) ?_ ?_ ?_ ?_ (cuts := bothCuts) (l := bothMass) ?_ ?_ hls
  · rcases h with h | ⟨t, t', e1, e2, e3⟩
    · exact .inl h
    · exact .inr ⟨t, t', e1, e2, (e3 8 rfl).2⟩
  · intro i p hi
    match i with
    | 0 =>
      cases hi
      exact ⟨by simp [bothFields], rfl, rfl, by simp [bothData, sixRows, tuples, List.range_succ], rfl⟩
    | 1 => cases hi
    | 2 => cases hi
    | 3 =>
      cases hi
      exact ⟨by simp [bothFields], rfl, rfl, by simp [bothData, massRows, tuples], rfl⟩
    | 4 =>
      cases hi
      exact ⟨by simp [bothFields], rfl, rfl, by simp [bothData, starRows, tuples, List.range_succ], rfl⟩
    | 5 =>
      cases hi
      exact ⟨by simp [bothFields], rfl, rfl, by simp [bothData, tuples], rfl⟩
    | i + 6 => cases hi
  · intro i p hi
    have hm : (i, p) ∈ bothFields := by
      match i with
      | 0 => cases hi; simp [bothFields]
      | 1 => cases hi
      | 2 => cases hi
      | 3 => cases hi; simp [bothFields]
      | 4 => cases hi; simp [bothFields]
      | 5 => cases hi; simp [bothFields]
      | i + 6 => cases hi
    exact ⟨whole_load g hg.wf p (E i) (hg.len _ hm) _ (by simp) (by simp), h1 i p hi⟩
  · intro p _
    fin_cases p <;> exact ⟨rfl, rfl, rfl, rfl⟩
  · intro p _ r hr d
    fin_cases p
    · obtain ⟨i, hi⟩ := List.mem_iff_getElem?.1 (show r ∈ sixRows from hr)
      have hi' : i < 6 := (List.getElem?_eq_some_iff.1 hi).1
      simp only [place_six hi' hi]
      interval_cases i <;> cases hi <;> fin_cases d <;> simp [bothState, sixAt, Arr.phys]
    · obtain ⟨i, hi⟩ := List.mem_iff_getElem?.1 (show r ∈ starRows from hr)
      have hi' : i < 3 := (List.getElem?_eq_some_iff.1 hi).1
      simp only [place_star hi' hi]
      interval_cases i <;> cases hi <;> fin_cases d <;> simp [bothState, starAt, Arr.phys]
  · intro d
    fin_cases d <;> simp [bothState, Arr.phys] <;> norm_num
  · simp [bothState, Arr.phys]
  · intro p _
    fin_cases p
    · exact six_cells
    · exact star_cells
  · intro d hd
    simp only [bothCuts, List.mem_cons, List.not_mem_nil, or_false] at hd
    rcases hd with rfl | rfl
    · exact ⟨by simp, rfl, by simp, .inl rfl, fun rank _ => ⟨_, PerRow.var (rank := rank) (row := OfType bothTypes 0) 3⟩⟩
    · exact ⟨by simp, rfl, by simp, .inl rfl, fun rank _ => ⟨_, PerRow.var (rank := rank) (row := OfType bothTypes 1) 5⟩⟩
  · intro d hd
    simp only [bothMass, List.mem_cons, List.not_mem_nil, or_false] at hd
    subst hd
    exact ⟨rfl, rfl, rfl⟩

end Verif.Props
