import Verif.Props.RowScripts
import Verif.Spec.TypeScripts

/-!
# C136: scripts with fields of several particle types
-/

namespace Verif.Props
open Verif Verif.Cosmo Verif.Formulas Verif.Selections Verif.Spec

/-! ### Only the variables that are used matter -/

private theorem eval_uses {P : Nat → Prop} {shapes shapes' : Nat → List Nat} {env env' : Nat → Arr} (h : ∀ i, P i → shapes i = shapes' i ∧ env i = env' i) {e : Shaped.Expr}
    (he : UsesOnly P e) : Shaped.eval shapes env e = Shaped.eval shapes' env' e := by
  induction e with
  | var i =>
    have := h i he
    simp only [Shaped.eval, this.1, this.2]
  | nums S v => rfl
  | two f s t ih ih' => simp only [Shaped.eval, ih he.1, ih' he.2]
  | one f s ih => simp only [Shaped.eval, ih he]
  | pow s q ih => simp only [Shaped.eval, ih he]
  | total g s ih => simp only [Shaped.eval, ih he]
  | reduce g k s ih => simp only [Shaped.eval, ih he]
  | select j k s ih => simp only [Shaped.eval, ih he]
  | take js k s ih => simp only [Shaped.eval, ih he]
  | newaxis k s ih => simp only [Shaped.eval, ih he]
  | reshape S s ih => simp only [Shaped.eval, ih he]
  | transpose s ih => simp only [Shaped.eval, ih he]
  | physical s ih => simp only [Shaped.eval, ih he]
  | comoving s ih => simp only [Shaped.eval, ih he]

private theorem cond_uses {P : Nat → Prop} {shapes shapes' : Nat → List Nat} {env env' : Nat → Arr} (h : ∀ i, P i → shapes i = shapes' i ∧ env i = env' i) {c : Cond}
    (hc : CondUsesOnly P c) : evalCond shapes env c = evalCond shapes' env' c := by
  induction c with
  | cmp f s t => simp only [evalCond, eval_uses h hc.1, eval_uses h hc.2]
  | and c d ih ih' => simp only [evalCond, ih hc.1, ih' hc.2]
  | or c d ih ih' => simp only [evalCond, ih hc.1, ih' hc.2]
  | not c ih => simp only [evalCond, ih hc]

/-! ### One type after the other -/

variable {κ : Type} [DecidableEq κ]

/-- The second state for the type `k`: fields of other types are those of the first state. -/
private noncomputable def onlyType (ty : Nat → Option κ) (k : κ) (s s' : Selections.State) : Selections.State where
  shapes := fun i => if ty i = some k ∨ ty i = none then s'.shapes i else s.shapes i
  env := fun i => if ty i = some k ∨ ty i = none then s'.env i else s.env i

private theorem onlyType_ok {a : ℝ} {ks : Nat → ℝ} {s s' : Selections.State} (hs : ScriptState a ks s) (hs' : ScriptState a ks s') (ty : Nat → Option κ) (k : κ) :
    ScriptState a ks (onlyType ty k s s') := by
  refine ⟨fun i => ?_, fun i => ?_⟩ <;> simp only [onlyType]
  · split
    · exact hs'.conv i
    · exact hs.conv i
  · split
    · exact hs'.length i
    · exact hs.length i

private theorem onlyType_rows {n : κ → Nat} {rows : κ → List Int} {ty : Nat → Option κ} {s s' : Selections.State} (h : TypeStates n rows ty s s') (k : κ) :
    RowStates (n k) (rows k) (OfType ty k) s (onlyType ty k s s') := by
  refine ⟨fun i hi => ?_, fun i hi => ?_⟩
  · have hi : ty i = some k := of_decide_eq_true hi
    simp only [onlyType, hi, true_or, if_true]
    exact h.rows i k hi
  · have hi : ty i ≠ some k := of_decide_eq_false hi
    simp only [onlyType]
    by_cases h0 : ty i = none
    · rw [if_pos (.inr h0), if_pos (.inr h0)]
      exact h.fixed i h0
    · rw [if_neg (by tauto), if_neg (by tauto)]
      exact ⟨rfl, rfl⟩

private theorem step_of_run {i : Nat} {d : Step} {s t : Selections.State} (h : run [(i, d)] s = .ok t) :
    ∃ x z, evalStep s.shapes s.env d = .ok x ∧ x.val = .cosmo z ∧ t = ⟨Function.update s.shapes i x.shape, Function.update s.env i z⟩ := by
  simp only [run] at h
  cases hx : evalStep s.shapes s.env d with
  | error e => rw [hx] at h; cases h
  | ok x =>
    rw [hx] at h
    rcases x with ⟨S, v | z⟩
    · cases h
    · exact ⟨_, z, rfl, rfl, (Except.ok.inj h).symm⟩

private theorem run_of_step {i : Nat} {d : Step} {s : Selections.State} {x : Shaped.Value} {z : Arr} (h : evalStep s.shapes s.env d = .ok x) (hz : x.val = .cosmo z) :
    run [(i, d)] s = .ok ⟨Function.update s.shapes i x.shape, Function.update s.env i z⟩ := by
  simp only [run, h]
  show (s.put i x).bind _ = _
  unfold State.put
  rw [hz]
  rfl

private theorem run_cons (i : Nat) (d : Step) (l : List (Nat × Step)) (s : Selections.State) : run ((i, d) :: l) s = (run [(i, d)] s).bind (run l) := by
  simp only [run]
  cases evalStep s.shapes s.env d with
  | error e => rfl
  | ok x =>
    show (s.put i x).bind _ = ((s.put i x).bind _).bind _
    cases s.put i x with
    | error e => rfl
    | ok t => rfl

private theorem state_of_run {a : ℝ} (ha : 0 < a) {ks : Nat → ℝ} {i : Nat} {d : Step} {k : ℝ} (hd : StepScales ks d k) {s t : Selections.State} (hs : ScriptState a ks s)
    (h : run [(i, d)] s = .ok t) : ScriptState a (Function.update ks i k) t := by
  have := step_agrees ha hs.conv hs.length hd
  obtain ⟨x, z, e1, e2, rfl⟩ := step_of_run h
  rw [e1] at this
  generalize stepMeaning _ d = T at this
  cases this with
  | @ok _ T u1 u2 u3 u4 =>
    rw [e2] at u2 u3
    have hc : Conv a k z := by
      rcases u3 with h | ⟨n, h⟩
      · exact h
      · cases h
    refine ⟨fun j => ?_, fun j => ?_⟩
    · by_cases hj : j = i
      · subst hj
        simpa using hc
      · simpa [hj] using hs.conv j
    · by_cases hj : j = i
      · subst hj
        have h1 : z.phys.length = T.values.length := by rw [← u2]; rfl
        have h2 : z.phys.length = z.val.length := by
          unfold Arr.phys
          split <;> simp
        rw [h2] at h1
        simp only [Function.update_self, h1, u1]
        simp [NumberTable.values]
      · simpa [hj] using hs.length j

/-- C136: a script whose lines each use fields of one particle type, and whatever has been cut out of any of them, run on selected rows of each type and on
all rows: the same exception, or fields with the selected rows of their type, and the same values for all cuts and what was computed from these. -/
theorem c136_script {a : ℝ} (ha : 0 < a) {ks ls : Nat → ℝ} {l : List (Nat × Step)} (h : ScriptScales ks l ls) {s s' : Selections.State} (hs : ScriptState a ks s)
    (hs' : ScriptState a ks s') {n : κ → Nat} {rows : κ → List Int} (hrows : ∀ k, ∀ r ∈ rows k, 0 ≤ r ∧ r < n k) (hsort : ∀ k, (rows k).Pairwise (· < ·))
    {ty ty' : Nat → Option κ} (hr : TypeStates n rows ty s s') (hl : TypeScript (fun k r => r ∈ rows k) ty l s ty') :
    (∃ err, run l s = .error err ∧ run l s' = .error err) ∨ ∃ t t', run l s = .ok t ∧ run l s' = .ok t' ∧ TypeStates n rows ty' t t' := by
  induction h generalizing s s' ty with
  | nil ks =>
    cases hl
    exact .inr ⟨s, s', rfl, rfl, hr⟩
  | @cons ks ls i d kk l hd _ ih =>
    -- one line with fields of the type `k`
    have line : ∀ (k : κ) (b : Bool), RowScript (· ∈ rows k) (OfType ty k) [(i, d)] s (Function.update (OfType ty k) i b) →
        evalStep s'.shapes s'.env d = evalStep (onlyType ty k s s').shapes (onlyType ty k s s').env d →
        (∀ t, run [(i, d)] s = .ok t → TypeScript (fun k r => r ∈ rows k) (Function.update ty i (if b then some k else none)) l t ty') →
        (∃ err, run ((i, d) :: l) s = .error err ∧ run ((i, d) :: l) s' = .error err) ∨
        ∃ t t', run ((i, d) :: l) s = .ok t ∧ run ((i, d) :: l) s' = .ok t' ∧ TypeStates n rows ty' t t' := by
      intro k b hscript heq next
      rw [run_cons i d l s, run_cons i d l s']
      have hone := c134_script ha (.cons hd (.nil _)) hs (onlyType_ok hs hs' ty k) (hrows k) (hsort k) (onlyType_rows hr k) hscript
      rcases hone with ⟨err, e1, e2⟩ | ⟨t, t1, e1, e2, e3⟩
      · left
        have : run [(i, d)] s' = .error err := by
          simp only [run] at e2 ⊢
          rw [heq]
          generalize evalStep _ _ d = y at e2 ⊢
          rcases y with e | ⟨S, v | z⟩
          · exact e2
          · exact e2
          · cases e2
        rw [e1, this]
        exact ⟨err, rfl, rfl⟩
      · obtain ⟨x, z, f1, f2, f3⟩ := step_of_run e1
        obtain ⟨x', z', g1, g2, g3⟩ := step_of_run e2
        rw [← heq] at g1
        have e4 := run_of_step (i := i) g1 g2
        have k1 := state_of_run ha hd hs e1
        have k2 := state_of_run ha hd hs' e4
        rw [e1, e4]
        refine ih k1 k2 ?_ (next t e1)
        refine ⟨fun j p hj => ?_, fun j hj => ?_⟩
        · by_cases hji : j = i
          · subst hji
            simp only [Function.update_self] at hj
            cases b with
            | false => cases hj
            | true =>
              simp only [if_true, Option.some.injEq] at hj
              subst hj
              have := e3.rows j (by simp)
              rw [g3] at this
              simpa using this
          · have hj : ty j = some p := by simpa [hji] using hj
            rw [f3]
            simpa [hji] using hr.rows j p hj
        · by_cases hji : j = i
          · subst hji
            simp only [Function.update_self] at hj
            cases b with
            | true => cases hj
            | false =>
              have := e3.fixed j (by simp)
              rw [g3] at this
              simpa using this
          · have hj : ty j = none := by simpa [hji] using hj
            rw [f3]
            simpa [hji] using hr.fixed j hj
    have same : ∀ (k : κ) (j : Nat), OfTypeOrFree ty k j → s'.shapes j = (onlyType ty k s s').shapes j ∧ s'.env j = (onlyType ty k s s').env j := by
      intro k j hj
      have hj : ty j = some k ∨ ty j = none := hj
      simp only [onlyType, if_pos hj, and_self]
    cases hl with
    | formula k hp hu next =>
      exact line k _ (.formula hp fun t _ => .nil _ _) (by simp only [evalStep]; exact eval_uses (same k) hu) next
    | cut k hp hc hu huc hsel next =>
      exact line k false (.cut hp hc hsel fun t _ => .nil _ _) (by simp only [evalStep, eval_uses (same k) hu, cond_uses (same k) huc]) next
    | choose k hc hp hp' huc hu hu' next =>
      exact line k true (.choose hc hp hp' fun t _ => .nil _ _) (by simp only [evalStep, eval_uses (same k) hu, eval_uses (same k) hu', cond_uses (same k) huc]) next

section
open Verif.Accel Verif.Mask
variable {K : Type} [Field K] [LinearOrder K] [IsStrictOrderedRing K] {m : Nat}

/-- C136: the same for fields of any particle types that were read with one mask. -/
theorem c136_masked (f : File K m) (hf : WF f) (ops : List (Op K)) (hi : ∀ op ∈ ops, IndicesOk f op)
    (h1 : (Mask.run f ops).constrained ≠ some .indices) (h2 : (Mask.run f ops).constrained ≠ some .index) (lay : Nat → Layout)
    (hlay : ∀ i, lay i ≠ .remote ∧ ∀ c, lay i = .chunked c → 0 < c) {a : ℝ} (ha : 0 < a) {ks ls : Nat → ℝ} {l : List (Nat × Step)} (h : ScriptScales ks l ls)
    {s s' : Selections.State} (hs : ScriptState a ks s) {ty ty' : Nat → Option (Fin m)} {u : Nat → List Nat} {R R' : Nat → List (List ℝ)}
    (hr : ∀ i p, ty i = some p → s.shapes i = f.rows p :: u i ∧ HoldsRows (f.rows p) (u i) (R i) (s.env i).val ∧
      load (Mask.run f ops) (lay i) (R i) p = .ok ((R' i).map some) ∧ s'.shapes i = (R' i).length :: u i ∧ HoldsRows (R' i).length (u i) (R' i) (s'.env i).val)
    (hfix : ∀ i, ty i = none → s'.shapes i = s.shapes i ∧ (s'.env i).val = (s.env i).val)
    (hattr : ∀ i, (s'.env i).comoving = (s.env i).comoving ∧ (s'.env i).cf = (s.env i).cf ∧ (s'.env i).vt = (s.env i).vt)
    (hl : TypeScript (fun p => Selects (Mask.run f ops) p) ty l s ty') :
    (∃ err, Selections.run l s = .error err ∧ Selections.run l s' = .error err) ∨
    ∃ t t', Selections.run l s = .ok t ∧ Selections.run l s' = .ok t' ∧ ∀ i, ty' i = none → t'.shapes i = t.shapes i ∧ (t'.env i).phys = (t.env i).phys := by
  have key := fun p : Fin m => loaded_states f hf ops hi p h1 h2 lay hlay (s' := onlyType ty p s s') hs (row := OfType ty p) (u := u) (R := R) (R' := R')
    (fun i hi => by
      have hi : ty i = some p := of_decide_eq_true hi
      simp only [onlyType, hi, true_or, if_true]
      exact hr i p hi)
    (fun i hi => by
      have hi : ty i ≠ some p := of_decide_eq_false hi
      simp only [onlyType]
      by_cases h0 : ty i = none
      · rw [if_pos (.inr h0), if_pos (.inr h0)]
        exact hfix i h0
      · rw [if_neg (by tauto), if_neg (by tauto)]
        exact ⟨rfl, rfl⟩)
    (fun i => by
      simp only [onlyType]
      split
      · exact hattr i
      · exact ⟨rfl, rfl, rfl⟩)
  choose rows g1 g2 g3 g4 g5 using key
  have hphys : ∀ i, ty i = none → (s'.env i).phys = (s.env i).phys := by
    intro i hi
    obtain ⟨-, e1⟩ := hfix i hi
    obtain ⟨e2, e3, e4⟩ := hattr i
    rw [show s'.env i = s.env i from by
      cases hx : s'.env i
      cases hy : s.env i
      simp only [hx, hy] at e1 e2 e3 e4
      simp only [e1, e2, e3, e4]]
  have hs' : ScriptState a ks s' := by
    refine ⟨fun i => ?_, fun i => ?_⟩
    · cases hti : ty i with
      | none =>
        obtain ⟨e2, e3, e4⟩ := hattr i
        obtain ⟨-, e1⟩ := hfix i hti
        rw [show s'.env i = s.env i from by
          cases hx : s'.env i
          cases hy : s.env i
          simp only [hx, hy] at e1 e2 e3 e4
          simp only [e1, e2, e3, e4]]
        exact hs.conv i
      | some p =>
        have := (g4 p).conv i
        simpa [onlyType, hti] using this
    · cases hti : ty i with
      | none =>
        obtain ⟨e0, e1⟩ := hfix i hti
        rw [e0, e1]
        exact hs.length i
      | some p =>
        have := (g4 p).length i
        simpa [onlyType, hti] using this
  have hsel : (fun p => Selects (Mask.run f ops) p) = fun p r => r ∈ rows p := by
    funext p r
    exact propext (g3 p r).symm
  rw [hsel] at hl
  have hst : TypeStates f.rows rows ty s s' := by
    refine ⟨fun i p hi => ?_, fun i hi => ⟨(hfix i hi).1, hphys i hi⟩⟩
    have := (g5 p).rows i (by simp [OfType, hi])
    simpa [onlyType, hi] using this
  rcases c136_script ha h hs hs' g1 g2 hst hl with h | ⟨t, t', e1, e2, e3⟩
  · exact .inl h
  · exact .inr ⟨t, t', e1, e2, e3.fixed⟩

end

/-! ### Spheres -/

private theorem free_rows {row : Nat → Bool} {e : Shaped.Expr} (h : UsesOnly (fun j => row j = false) e) (rank : Nat → Nat) : ∃ q, PerRow rank row e false q := by
  induction e with
  | var i => exact ⟨rank i, by simpa [show row i = false from h] using PerRow.var (rank := rank) (row := row) i⟩
  | nums S v => exact ⟨_, .nums S v⟩
  | two f s t ih ih' =>
    obtain ⟨q, g⟩ := ih h.1
    obtain ⟨q', g'⟩ := ih' h.2
    exact ⟨_, .neither g g'⟩
  | one f s ih => exact (ih h).imp' _ fun _ g => .one g
  | pow s q ih => exact (ih h).imp' _ fun _ g => .pow q g
  | total g s ih =>
    obtain ⟨q, g⟩ := ih h
    exact ⟨_, .total g⟩
  | reduce g k s ih => exact (ih h).imp' _ fun _ g => .reduce g (by simp)
  | select j k s ih => exact (ih h).imp' _ fun _ g => .select g (by simp)
  | take js k s ih => exact (ih h).imp' _ fun _ g => .take g (by simp)
  | newaxis k s ih => exact (ih h).imp' _ fun _ g => .newaxis g (by simp)
  | reshape S s ih =>
    obtain ⟨q, g⟩ := ih h
    exact ⟨_, .reshape S g⟩
  | transpose s ih => exact (ih h).imp' _ fun _ g => .transpose g
  | physical s ih => exact (ih h).imp' _ fun _ g => .physical g
  | comoving s ih => exact (ih h).imp' _ fun _ g => .comoving g

private theorem uses_mono {P Q : Nat → Prop} (h : ∀ j, P j → Q j) {e : Shaped.Expr} (he : UsesOnly P e) : UsesOnly Q e := by
  induction e with
  | var i => exact h i he
  | nums S v => trivial
  | two f s t ih ih' => exact ⟨ih he.1, ih' he.2⟩
  | one f s ih => exact ih he
  | pow s q ih => exact ih he
  | total g s ih => exact ih he
  | reduce g k s ih => exact ih he
  | select j k s ih => exact ih he
  | take js k s ih => exact ih he
  | newaxis k s ih => exact ih he
  | reshape S s ih => exact ih he
  | transpose s ih => exact ih he
  | physical s ih => exact ih he
  | comoving s ih => exact ih he

private theorem keep_type {ty : Nat → Option κ} {i : Nat} (h : ty i = none) : Function.update ty i none = ty := by
  rw [← h, Function.update_eq_self]

private theorem free_script (sel : κ → Int → Prop) (k : κ) {ty : Nat → Option κ} {l : List (Nat × Shaped.Expr)}
    (hl : ∀ d ∈ l, ty d.1 = none ∧ UsesOnly (fun j => ty j = none) d.2) (s : Selections.State) :
    TypeScript sel ty (l.map fun d => (d.1, .formula d.2)) s ty := by
  induction l generalizing s with
  | nil => exact .nil ty s
  | cons d l ih =>
    obtain ⟨⟨h1, h2⟩, hl⟩ := List.forall_mem_cons.1 hl
    obtain ⟨q, hq⟩ := free_rows (row := OfType ty k) (uses_mono (fun j hj => by simp [OfType, hj]) h2) fun j => (s.shapes j).length
    refine .formula k hq (uses_mono (fun j hj => .inr hj) h2) fun t _ => ?_
    simp only [Bool.false_eq_true, if_false]
    rw [keep_type h1]
    exact ih hl t

/-- Cuts of fields of several types, with one condition for each type that depends on the variables in `W` only. -/
private theorem type_cuts {a : ℝ} (ha : 0 < a) (sel : κ → Int → Prop) (k : κ) {ty : Nat → Option κ} {W : Nat → Prop} {S : Nat → List Nat} {p : Nat → List ℝ}
    {κs : Nat → ℝ} {c : κ → Cond} {types : List κ}
    (hc : ∀ (ks : Nat → ℝ) (s : Selections.State), ScriptState a ks s → (∀ j, W j → s.shapes j = S j ∧ (s.env j).phys = p j ∧ ks j = κs j) → ∀ k ∈ types,
      CondPerRow (fun j => (s.shapes j).length) (OfType ty k) (c k) ∧
      ∀ b, evalCond s.shapes s.env (c k) = .ok b → ∀ r : Int, valueAt b.val r = some true → sel k r)
    (huc : ∀ k ∈ types, CondUsesOnly (OfTypeOrFree ty k) (c k)) {rank : Nat → Nat} {names : List Nat} {cuts : List (Nat × κ × Shaped.Expr)}
    {l : List (Nat × Shaped.Expr)}
    (hcuts : ∀ d ∈ cuts, d.1 ∈ names ∧ ¬ W d.1 ∧ ty d.1 = none ∧ d.2.1 ∈ types ∧ UsesOnly (OfTypeOrFree ty d.2.1) d.2.2 ∧
      ∀ rank', (∀ j, j ∉ names → rank' j = rank j) → ∃ q, PerRow rank' (OfType ty d.2.1) d.2.2 true q)
    (hl : ∀ d ∈ l, ty d.1 = none ∧ UsesOnly (fun j => ty j = none) d.2) {ks ls : Nat → ℝ}
    (h : ScriptScales ks ((cuts.map fun d => (d.1, .select d.2.2 (c d.2.1))) ++ l.map fun d => (d.1, .formula d.2)) ls) {s : Selections.State} (hs : ScriptState a ks s)
    (hw : ∀ j, W j → s.shapes j = S j ∧ (s.env j).phys = p j ∧ ks j = κs j) (hrank : ∀ j, j ∉ names → (s.shapes j).length = rank j) :
    TypeScript sel ty ((cuts.map fun d => (d.1, .select d.2.2 (c d.2.1))) ++ l.map fun d => (d.1, .formula d.2)) s ty := by
  induction cuts generalizing ks s with
  | nil => exact free_script sel k hl s
  | cons d cuts ih =>
    obtain ⟨hd, hcuts⟩ := List.forall_mem_cons.1 hcuts
    obtain ⟨d1, d2, d3, d4, d5, d6⟩ := hd
    obtain ⟨q, hq⟩ := d6 (fun j => (s.shapes j).length) hrank
    simp only [List.map_cons, List.cons_append] at h ⊢
    cases h with
    | cons hd hrest =>
      obtain ⟨k1, k2⟩ := hc ks s hs hw _ d4
      refine .cut d.2.1 hq k1 d5 (huc _ d4) k2 fun t ht => ?_
      rw [keep_type d3]
      have hst := state_of_run ha hd hs ht
      obtain ⟨x, z, -, -, rfl⟩ := step_of_run ht
      refine ih hcuts hrest hst (fun j hj => ?_) fun j hj => ?_
      · have : j ≠ d.1 := fun h => d2 (h ▸ hj)
        simpa [this] using hw j hj
      · have : j ≠ d.1 := fun h => hj (h ▸ d1)
        simpa [this] using hrank j hj

/-- Rows of the variable `x` closer to the variable `c` than the variable `r`. -/
noncomputable def sphereAt (x c r : Nat) : Cond :=
  .cmp .less (.one .sqrt (.reduce List.sum 1 (.one .square (.two .subtract (.var x) (.var c))))) (.var r)

/-- The same with the names of `sphere`. -/
private def names (x c r : Nat) (i : Nat) : Nat := if i = 0 then x else if i = 1 then c else r

private theorem sphereAt_flags (x c r : Nat) (s : Selections.State) :
    evalCond s.shapes s.env (sphereAt x c r) = evalCond (fun i => s.shapes (names x c r i)) (fun i => s.env (names x c r i)) sphere := rfl

section
open Verif.Accel Verif.Mask
variable {K : Type} [Field K] [LinearOrder K] [IsStrictOrderedRing K] {m : Nat}

/-- A mask of a region that contains the cube around a sphere selects all particles of the cube. -/
theorem sphere_selected (f : File K m) (hf : WF f) (rows : List (Option (List K))) (reg : Fin 3 → K × K) (hreg : RegionIs f.box rows reg) (hw : InWindow f.box reg)
    (union : Bool) {ι : K → ℝ} (hι : StrictMono ι) {ctr : Fin 3 → ℝ} {rad : ℝ} (hcube : ∀ d, ι (reg d).1 ≤ ctr d - rad ∧ ctr d + rad ≤ ι (reg d).2) {p : Fin m}
    {i : Int} {c : Cell K} (hc : c ∈ f.cells p) (hh : Holds c i) {x : Fin 3 → K} (hx : ∀ d, c.lo d ≤ x d ∧ x d ≤ c.hi d) (hin : ∀ d, |ι (x d) - ctr d| < rad) :
    Selects (Mask.run f [.spatial rows union]) p i := by
  refine c12_complete_rows f hf rows reg hreg hw union p i c hc hh x hx fun d => ⟨0, ?_⟩
  have q2 := abs_lt.1 (hin d)
  obtain ⟨q3, q4⟩ := hcube d
  have l1 : (reg d).1 < x d := hι.lt_iff_lt.1 (by linarith [q2.1])
  have l2 : x d < (reg d).2 := hι.lt_iff_lt.1 (by linarith [q2.2])
  have hup : wrapUpper (f.box d) (reg d).1 (reg d).2 = (reg d).2 := if_neg (not_lt.2 (l1.trans l2).le)
  rw [hup]
  simpa using ⟨l1, l2⟩

/-- C136: totals and means over several particle types in a sphere. `X p` are the coordinates of the type `p`; the script cuts fields of the types in
`types` at the radius and computes from all that it has cut. With a mask that selects all particles in the cube around the sphere the results are the same
as with all particles of all types. -/
theorem c136_cube (f : File K m) (hf : WF f) (ops : List (Op K)) (hi : ∀ op ∈ ops, IndicesOk f op)
    (k1 : (Mask.run f ops).constrained ≠ some .indices) (k2 : (Mask.run f ops).constrained ≠ some .index) (p₀ : Fin m) (lay : Nat → Layout) (hlay : ∀ i, lay i ≠ .remote ∧ ∀ c, lay i = .chunked c → 0 < c) {a : ℝ} (ha : 0 < a) {ks ls : Nat → ℝ}
    {s s' : Selections.State} (hs : ScriptState a ks s) {ty : Nat → Option (Fin m)} {u : Nat → List Nat} {R R' : Nat → List (List ℝ)}
    (hr : ∀ i p, ty i = some p → s.shapes i = f.rows p :: u i ∧ HoldsRows (f.rows p) (u i) (R i) (s.env i).val ∧
      load (Mask.run f ops) (lay i) (R i) p = .ok ((R' i).map some) ∧ s'.shapes i = (R' i).length :: u i ∧
      HoldsRows (R' i).length (u i) (R' i) (s'.env i).val)
    (hfix : ∀ i, ty i = none → s'.shapes i = s.shapes i ∧ (s'.env i).val = (s.env i).val)
    (hattr : ∀ i, (s'.env i).comoving = (s.env i).comoving ∧ (s'.env i).cf = (s.env i).cf ∧ (s'.env i).vt = (s.env i).vt)
    {types : List (Fin m)} {X : Fin m → Nat} {vc vr : Nat} (hX : ∀ p ∈ types, ty (X p) = some p ∧ u (X p) = [3] ∧ ks (X p) = ks vc ∧ ks (X p) = ks vr)
    (tc : ty vc = none) (tr : ty vr = none) (hc : s.shapes vc = [3]) (hv : s.shapes vr = []) {ι : K → ℝ} {σ : ℝ} (hσ : 0 < σ)
    {P : Fin m → Nat → Fin 3 → K} {ctr : Fin 3 → ℝ} {rad : ℝ}
    (hP : ∀ p ∈ types, ∀ i < f.rows p, ∀ d : Fin 3, (s.env (X p)).phys.getD (i * 3 + d.val) 0 = ι (P p i d) * σ)
    (hctr : ∀ d : Fin 3, (s.env vc).phys.getD d.val 0 = ctr d * σ) (hrad : (s.env vr).phys.getD 0 0 = rad * σ)
    (hsel : ∀ p ∈ types, ∀ i : Nat, i < f.rows p → (∀ d, |ι (P p i d) - ctr d| < rad) → Selects (Mask.run f ops) p i) {cuts : List (Nat × Fin m × Shaped.Expr)} {l : List (Nat × Shaped.Expr)}
    (hcuts : ∀ d ∈ cuts, (d.1 ≠ vc ∧ d.1 ≠ vr) ∧ ty d.1 = none ∧ d.2.1 ∈ types ∧ UsesOnly (OfTypeOrFree ty d.2.1) d.2.2 ∧
      ∀ rank : Nat → Nat, (∀ j, j ∉ cuts.map (·.1) → rank j = (s.shapes j).length) → ∃ q, PerRow rank (OfType ty d.2.1) d.2.2 true q)
    (hl : ∀ d ∈ l, ty d.1 = none ∧ UsesOnly (fun j => ty j = none) d.2)
    (h : ScriptScales ks ((cuts.map fun d => (d.1, .select d.2.2 (sphereAt (X d.2.1) vc vr))) ++ l.map fun d => (d.1, .formula d.2)) ls) :
    (∃ err, Selections.run ((cuts.map fun d => (d.1, .select d.2.2 (sphereAt (X d.2.1) vc vr))) ++ l.map fun d => (d.1, .formula d.2)) s = .error err ∧
      Selections.run ((cuts.map fun d => (d.1, .select d.2.2 (sphereAt (X d.2.1) vc vr))) ++ l.map fun d => (d.1, .formula d.2)) s' = .error err) ∨
    ∃ t t', Selections.run ((cuts.map fun d => (d.1, .select d.2.2 (sphereAt (X d.2.1) vc vr))) ++ l.map fun d => (d.1, .formula d.2)) s = .ok t ∧
      Selections.run ((cuts.map fun d => (d.1, .select d.2.2 (sphereAt (X d.2.1) vc vr))) ++ l.map fun d => (d.1, .formula d.2)) s' = .ok t' ∧
      ∀ i, ty i = none → t'.shapes i = t.shapes i ∧ (t'.env i).phys = (t.env i).phys := by
  refine c136_masked f hf ops hi k1 k2 lay hlay ha h hs hr hfix hattr ?_
  refine type_cuts ha _ p₀ (W := fun j => j = vc ∨ j = vr ∨ ∃ p ∈ types, j = X p) (S := s.shapes) (p := fun j => (s.env j).phys) (κs := ks)
    (c := fun p => sphereAt (X p) vc vr) (types := types) ?_ (fun p hp => ?_) (rank := fun j => (s.shapes j).length)
    (names := cuts.map (·.1)) (fun d hd => ?_) hl h hs (fun j _ => ⟨rfl, rfl, rfl⟩) fun j _ => rfl
  · intro ks' t ht hlow p hp
    obtain ⟨x1, x2, x3, x4⟩ := hX p hp
    obtain ⟨s0, e0, t0⟩ := hlow (X p) (.inr (.inr ⟨p, hp, rfl⟩))
    obtain ⟨s1, e1, t1⟩ := hlow vc (.inl rfl)
    obtain ⟨s2, e2, t2⟩ := hlow vr (.inr (.inl rfl))
    rw [(hr _ p x1).1, x2] at s0
    rw [hc] at s1
    rw [hv] at s2
    have pv : ∀ i, PerRow (fun j => (t.shapes j).length) (OfType ty p) (.var i) (OfType ty p i) (t.shapes i).length := fun i =>
      PerRow.var (rank := fun j => (t.shapes j).length) (row := OfType ty p) i
    have q0 := pv (X p)
    have q1 := pv vc
    have q2 := pv vr
    rw [show OfType ty p (X p) = true by simp [OfType, x1], s0] at q0
    rw [show OfType ty p vc = false by simp [OfType, tc], s1] at q1
    rw [show OfType ty p vr = false by simp [OfType, tr], s2] at q2
    refine ⟨.left .less (.one (.reduce (.one (.left q0 q1 (by simp))) (by simp))) q2, fun b hbv i hi => ?_⟩
    rw [sphereAt_flags] at hbv
    have hst : ScriptState a (fun i => ks' (names (X p) vc vr i)) ⟨fun i => t.shapes (names (X p) vc vr i), fun i => t.env (names (X p) vc vr i)⟩ :=
      ⟨fun i => ht.conv _, fun i => ht.length _⟩
    obtain ⟨i1, i2, i3⟩ := sphere_flags ha hst (n := f.rows p) s0 s1 s2 (by
      show ks' (X p) = ks' vc
      rw [t0, t1, x3]) (by
      show ks' (X p) = ks' vr
      rw [t0, t2, x4]) hbv hi
    obtain ⟨j, rfl⟩ := Int.eq_ofNat_of_zero_le i1
    have hj : j < f.rows p := by exact_mod_cast i2
    refine hsel p hp j hj fun d => ?_
    have q1 : |(t.env (X p)).phys.getD (((j : Int)).toNat * 3 + d.val) 0 - (t.env vc).phys.getD d.val 0| < (t.env vr).phys.getD 0 0 := i3 d.val d.isLt
    rwa [Int.toNat_natCast, e0, e1, e2, hP p hp j hj d, hctr, hrad, ← sub_mul, abs_mul, abs_of_pos hσ, mul_lt_mul_iff_left₀ hσ] at q1
  · exact ⟨⟨.inl (hX p hp).1, .inr tc⟩, .inr tr⟩
  · obtain ⟨g1, g2, g3, g4, g5⟩ := hcuts d hd
    refine ⟨List.mem_map_of_mem hd, ?_, g2, g3, g4, g5⟩
    rintro (h | h | ⟨p, hp, h⟩)
    · exact g1.1 h
    · exact g1.2 h
    · rw [h, (hX p hp).1] at g2
      cases g2

/-- C136: totals and means over several particle types in a sphere. With the mask of a region that contains
the cube around the sphere the results are the same as with all particles of all types. -/
theorem c136_sphere (f : File K m) (hf : WF f) (rows : List (Option (List K))) (reg : Fin 3 → K × K) (hreg : RegionIs f.box rows reg) (hw : InWindow f.box reg)
    (union : Bool) (p₀ : Fin m) (lay : Nat → Layout) (hlay : ∀ i, lay i ≠ .remote ∧ ∀ c, lay i = .chunked c → 0 < c) {a : ℝ} (ha : 0 < a) {ks ls : Nat → ℝ}
    {s s' : Selections.State} (hs : ScriptState a ks s) {ty : Nat → Option (Fin m)} {u : Nat → List Nat} {R R' : Nat → List (List ℝ)}
    (hr : ∀ i p, ty i = some p → s.shapes i = f.rows p :: u i ∧ HoldsRows (f.rows p) (u i) (R i) (s.env i).val ∧
      load (Mask.run f [.spatial rows union]) (lay i) (R i) p = .ok ((R' i).map some) ∧ s'.shapes i = (R' i).length :: u i ∧
      HoldsRows (R' i).length (u i) (R' i) (s'.env i).val)
    (hfix : ∀ i, ty i = none → s'.shapes i = s.shapes i ∧ (s'.env i).val = (s.env i).val)
    (hattr : ∀ i, (s'.env i).comoving = (s.env i).comoving ∧ (s'.env i).cf = (s.env i).cf ∧ (s'.env i).vt = (s.env i).vt)
    {types : List (Fin m)} {X : Fin m → Nat} {vc vr : Nat} (hX : ∀ p ∈ types, ty (X p) = some p ∧ u (X p) = [3] ∧ ks (X p) = ks vc ∧ ks (X p) = ks vr)
    (tc : ty vc = none) (tr : ty vr = none) (hc : s.shapes vc = [3]) (hv : s.shapes vr = []) {ι : K → ℝ} (hι : StrictMono ι) {σ : ℝ} (hσ : 0 < σ)
    {P : Fin m → Nat → Fin 3 → K} {ctr : Fin 3 → ℝ} {rad : ℝ}
    (hP : ∀ p ∈ types, ∀ i < f.rows p, ∀ d : Fin 3, (s.env (X p)).phys.getD (i * 3 + d.val) 0 = ι (P p i d) * σ)
    (hctr : ∀ d : Fin 3, (s.env vc).phys.getD d.val 0 = ctr d * σ) (hrad : (s.env vr).phys.getD 0 0 = rad * σ)
    (hcells : ∀ p ∈ types, ∀ i < f.rows p, ∃ c ∈ f.cells p, Holds c i ∧ ∀ d, c.lo d ≤ P p i d ∧ P p i d ≤ c.hi d)
    (hcube : ∀ d, ι (reg d).1 ≤ ctr d - rad ∧ ctr d + rad ≤ ι (reg d).2) {cuts : List (Nat × Fin m × Shaped.Expr)} {l : List (Nat × Shaped.Expr)}
    (hcuts : ∀ d ∈ cuts, (d.1 ≠ vc ∧ d.1 ≠ vr) ∧ ty d.1 = none ∧ d.2.1 ∈ types ∧ UsesOnly (OfTypeOrFree ty d.2.1) d.2.2 ∧
      ∀ rank : Nat → Nat, (∀ j, j ∉ cuts.map (·.1) → rank j = (s.shapes j).length) → ∃ q, PerRow rank (OfType ty d.2.1) d.2.2 true q)
    (hl : ∀ d ∈ l, ty d.1 = none ∧ UsesOnly (fun j => ty j = none) d.2)
    (h : ScriptScales ks ((cuts.map fun d => (d.1, .select d.2.2 (sphereAt (X d.2.1) vc vr))) ++ l.map fun d => (d.1, .formula d.2)) ls) :
    (∃ err, Selections.run ((cuts.map fun d => (d.1, .select d.2.2 (sphereAt (X d.2.1) vc vr))) ++ l.map fun d => (d.1, .formula d.2)) s = .error err ∧
      Selections.run ((cuts.map fun d => (d.1, .select d.2.2 (sphereAt (X d.2.1) vc vr))) ++ l.map fun d => (d.1, .formula d.2)) s' = .error err) ∨
    ∃ t t', Selections.run ((cuts.map fun d => (d.1, .select d.2.2 (sphereAt (X d.2.1) vc vr))) ++ l.map fun d => (d.1, .formula d.2)) s = .ok t ∧
      Selections.run ((cuts.map fun d => (d.1, .select d.2.2 (sphereAt (X d.2.1) vc vr))) ++ l.map fun d => (d.1, .formula d.2)) s' = .ok t' ∧
      ∀ i, ty i = none → t'.shapes i = t.shapes i ∧ (t'.env i).phys = (t.env i).phys := by
  obtain ⟨k1, k2⟩ := only_spatial f hf rows union
  refine c136_cube f hf [.spatial rows union] (by simp [IndicesOk]) k1 k2 p₀ lay hlay ha hs hr hfix hattr hX tc tr hc hv hσ hP hctr hrad
    (fun p hp j hj hin => ?_) hcuts hl h
  obtain ⟨c, hc, hh, hcin⟩ := hcells p hp j hj
  exact sphere_selected f hf rows reg hreg hw union hι hcube hc hh hcin hin

end

/-! ### The mass of gas and stars in a sphere -/

section
open Verif.Accel Verif.Mask

/-- The region of `regionS` reads the second star. -/
private theorem stars_load {α : Type} (ds : List α) (hd : ds.length = 3) : load (Mask.run exFile regionS) .contiguous ds 1 = .ok (select ds [1]) := by
  obtain ⟨rows, hr⟩ := c115_mask_rows exFile exFile_wf regionS regionS_ok 1
  have e : load (Mask.run exFile regionS) .contiguous (List.range 3) 1 = .ok [some 1] := by decide +kernel
  have e2 := hr ℕ (List.range 3) .contiguous rfl (by simp) (by simp)
  rw [e] at e2
  have e3 : rows = [1] := by
    have at' : ∀ (i : Int) (j : Nat), valueAt (List.range 3) i = some j → i = j := by
      intro i j hi
      unfold valueAt at hi
      split_ifs at hi with h0
      obtain ⟨h1, h2⟩ := List.getElem?_eq_some_iff.1 hi
      rw [List.getElem_range] at h2
      omega
    have h := (Except.ok.inj e2).symm
    match rows, h with
    | [a], h =>
      simp only [select, List.map_cons, List.map_nil, List.cons.injEq, and_true] at h
      rw [at' a 1 h]
      rfl
    | [], h => simp [select] at h
    | _ :: _ :: _, h => simp [select] at h
  rw [hr α ds .contiguous (by rw [hd]; rfl) (by simp) (by simp), e3]

/-- Where the three stars are. -/
def starAt : Nat → Fin 3 → ℚ := fun i d => if d = 0 then (if i = 0 then 1 / 2 else if i = 1 then 17 / 8 else 7 / 2) else 2

noncomputable def starRows : List (List ℝ) := [[1 / 2, 2, 2], [17 / 8, 2, 2], [7 / 2, 2, 2]]

/-- Positions of the gas, centre, radius, masses of the gas, positions and masses of the stars; names for results. -/
noncomputable def bothState : Selections.State where
  shapes := fun i => match i with | 0 => [6, 3] | 1 => [3] | 2 => [] | 3 => [6] | 4 => [3, 3] | 5 => [3] | _ => [0]
  env := fun i => match i with
    | 0 => ⟨sixRows.flatten, some true, some ⟨some 1, some (1 / 2)⟩, true⟩
    | 1 => ⟨[7 / 8, 1, 1], some false, some ⟨some 1, some (1 / 2)⟩, true⟩
    | 2 => ⟨[1 / 2], some true, some ⟨some 1, some (1 / 2)⟩, true⟩
    | 3 => ⟨massRows.flatten, some true, some ⟨some 0, some (1 / 2)⟩, true⟩
    | 4 => ⟨starRows.flatten, some true, some ⟨some 1, some (1 / 2)⟩, true⟩
    | 5 => ⟨[7, 8, 9], some true, some ⟨some 0, some (1 / 2)⟩, true⟩
    | _ => ⟨[], some true, some ⟨some 0, some (1 / 2)⟩, true⟩

/-- The same with the rows that the region reads: two of the gas and one of the stars. -/
noncomputable def bothState' : Selections.State where
  shapes := fun i => match i with | 0 => [2, 3] | 1 => [3] | 2 => [] | 3 => [2] | 4 => [1, 3] | 5 => [1] | _ => [0]
  env := fun i => match i with
    | 0 => ⟨[3 / 2, 2, 2, 5 / 2, 2, 2], some true, some ⟨some 1, some (1 / 2)⟩, true⟩
    | 1 => ⟨[7 / 8, 1, 1], some false, some ⟨some 1, some (1 / 2)⟩, true⟩
    | 2 => ⟨[1 / 2], some true, some ⟨some 1, some (1 / 2)⟩, true⟩
    | 3 => ⟨[3, 4], some true, some ⟨some 0, some (1 / 2)⟩, true⟩
    | 4 => ⟨[17 / 8, 2, 2], some true, some ⟨some 1, some (1 / 2)⟩, true⟩
    | 5 => ⟨[8], some true, some ⟨some 0, some (1 / 2)⟩, true⟩
    | _ => ⟨[], some true, some ⟨some 0, some (1 / 2)⟩, true⟩

def bothExponents : Nat → ℝ := fun i => match i with | 0 => 1 | 1 => 1 | 2 => 1 | 4 => 1 | _ => 0

def bothTypes : Nat → Option (Fin 2) := fun i => match i with | 0 => some 0 | 3 => some 0 | 4 => some 1 | 5 => some 1 | _ => none

theorem bothState_ok : ScriptState (1 / 2) bothExponents bothState := by
  refine ⟨fun i => ?_, fun i => ?_⟩
  · match i with
    | 0 => exact ⟨by norm_num, rfl, rfl, by simp [bothState]⟩
    | 1 => exact ⟨by norm_num, rfl, rfl, by simp [bothState]⟩
    | 2 => exact ⟨by norm_num, rfl, rfl, by simp [bothState]⟩
    | 3 => exact ⟨by norm_num, rfl, rfl, by simp [bothState]⟩
    | 4 => exact ⟨by norm_num, rfl, rfl, by simp [bothState]⟩
    | 5 => exact ⟨by norm_num, rfl, rfl, by simp [bothState]⟩
    | i + 6 => exact ⟨by norm_num, rfl, rfl, by simp [bothState]⟩
  · match i with
    | 0 => simp [bothState, sixRows, tuples, List.range_succ]
    | 1 => simp [bothState, tuples, List.range_succ]
    | 2 => simp [bothState, tuples]
    | 3 => simp [bothState, massRows, tuples, List.range_succ]
    | 4 => simp [bothState, starRows, tuples, List.range_succ]
    | 5 => simp [bothState, tuples, List.range_succ]
    | i + 6 => simp [bothState, tuples]

/-- The masses of the gas and of the stars in the sphere. -/
noncomputable def bothCuts : List (Nat × Fin 2 × Shaped.Expr) := [(6, 0, .var 3), (7, 1, .var 5)]

/-- The mass of both. -/
noncomputable def bothMass : List (Nat × Shaped.Expr) := [(8, .two .add (.total List.sum (.var 6)) (.total List.sum (.var 7)))]

noncomputable def bothScript : List (Nat × Selections.Step) :=
  (bothCuts.map fun d => (d.1, .select d.2.2 (sphereAt (if d.2.1 = 0 then 0 else 4) 1 2))) ++ bothMass.map fun d => (d.1, .formula d.2)

private theorem both_seven (ks : Nat → ℝ) : ShapedDimension (Function.update ks 7 0) (.var 7) 0 := by
  have := ShapedDimension.var (ks := Function.update ks 7 0) 7
  rwa [Function.update_self] at this

theorem both_scales : ∃ ls, ScriptScales bothExponents bothScript ls := by
  have hv : ∀ (ks : Nat → ℝ) i, ShapedDimension ks (.var i) (ks i) := fun ks i => ShapedDimension.var (ks := ks) i
  have hc : ∀ (ks : Nat → ℝ) (x : Nat), ks x = 1 → ks 1 = 1 → ks 2 = 1 → CondScales ks (sphereAt x 1 2) := fun ks x h h1 h2 => by
    have hx := hv ks x
    have hy := hv ks 1
    have hz := hv ks 2
    rw [h] at hx
    rw [h1] at hy
    rw [h2] at hz
    have := ShapedDimension.sqrt (.reduce scales_sum 1 (.square (.sum (f := .subtract) (by simp) hx hy)))
    rw [mul_div_cancel_left₀ _ (two_ne_zero)] at this
    exact .cmp .less (.formula this) (.formula hz)
  refine ⟨_, .cons (.select (hv _ 3) (fun h => h) (hc _ 0 rfl rfl rfl)) (.cons (.select (hv _ 5) (fun h => h) (hc _ 4 ?_ ?_ ?_))
    (.cons (.formula (.sum (by simp) (.total scales_sum (hv _ 6)) (.total scales_sum (both_seven _))) (fun h => h.2)) (.nil _)))⟩
  all_goals simp [bothExponents]

/-- The mask of the region reads two of six gas particles and one of three stars; the mass in the sphere is that of all gas and stars. -/
example {t t' : Selections.State} (ht : Selections.run bothScript bothState = .ok t) (ht' : Selections.run bothScript bothState' = .ok t') :
    (t'.env 8).phys = (t.env 8).phys := by
  obtain ⟨ls, hls⟩ := both_scales
  have h := c136_sphere exFile exFile_wf [some [5 / 4, 9 / 4], none, none] (fun d => if d = 0 then (5 / 4, 9 / 4) else (0, 4)) ?_ ?_ false 0 (fun _ => .contiguous)
    (fun _ => ⟨by simp, by simp⟩) (a := 1 / 2) (by norm_num) (ks := bothExponents) (s := bothState) (s' := bothState') bothState_ok (ty := bothTypes)
    (u := fun i => if i = 0 ∨ i = 4 then [3] else [])
    (R := fun i => if i = 0 then sixRows else if i = 3 then massRows else if i = 4 then starRows else [[7], [8], [9]])
    (R' := fun i => if i = 0 then [[3 / 2, 2, 2], [5 / 2, 2, 2]] else if i = 3 then [[3], [4]] else if i = 4 then [[17 / 8, 2, 2]] else [[8]]) ?_ ?_ ?_
    (types := [0, 1]) (X := fun p => if p = 0 then 0 else 4) (vc := 1) (vr := 2) ?_ rfl rfl rfl rfl (ι := fun q => (q : ℝ))
    Rat.cast_strictMono (σ := 1 / 2) (by norm_num) (P := fun p => if p = 0 then sixAt else starAt) (ctr := fun d => if d = 0 then 7 / 4 else 2) (rad := 1 / 2)
    ?_ ?_ ?_ ?_ ?_ (cuts := bothCuts) (l := bothMass) ?_ ?_ hls
  · change (∃ err, Selections.run bothScript bothState = .error err ∧ Selections.run bothScript bothState' = .error err) ∨
      ∃ t t', Selections.run bothScript bothState = .ok t ∧ Selections.run bothScript bothState' = .ok t' ∧ _ at h
    rw [ht, ht'] at h
    rcases h with ⟨err, h, -⟩ | ⟨_, _, h1, h2, h⟩
    · cases h
    · cases h1
      cases h2
      exact (h 8 rfl).2
  · refine ⟨rfl, fun d => ?_⟩
    fin_cases d <;> simp [exFile]
  · intro d
    fin_cases d <;> norm_num [exFile]
  · intro i p hi
    match i with
    | 0 =>
      cases hi
      refine ⟨rfl, ⟨rfl, by simp [sixRows, tuples, List.range_succ], rfl⟩, ?_, rfl, ⟨rfl, by simp [tuples, List.range_succ], rfl⟩⟩
      refine (regionS_loads _ rfl).trans ?_
      simp [select, valueAt, sixRows]
    | 1 => cases hi
    | 2 => cases hi
    | 3 =>
      cases hi
      refine ⟨rfl, ⟨rfl, by simp [massRows, tuples], rfl⟩, ?_, rfl, ⟨rfl, by simp [tuples], rfl⟩⟩
      refine (regionS_loads _ rfl).trans ?_
      simp [select, valueAt, massRows]
    | 4 =>
      cases hi
      refine ⟨rfl, ⟨rfl, by simp [starRows, tuples, List.range_succ], rfl⟩, ?_, rfl, ⟨rfl, by simp [tuples, List.range_succ], rfl⟩⟩
      refine (stars_load _ rfl).trans ?_
      simp [select, valueAt, starRows]
    | 5 =>
      cases hi
      refine ⟨rfl, ⟨rfl, by simp [tuples], rfl⟩, ?_, rfl, ⟨rfl, by simp [tuples], rfl⟩⟩
      refine (stars_load _ rfl).trans ?_
      simp [select, valueAt]
    | i + 6 => cases hi
  · intro i hi
    match i with
    | 0 => cases hi
    | 1 => exact ⟨rfl, rfl⟩
    | 2 => exact ⟨rfl, rfl⟩
    | 3 => cases hi
    | 4 => cases hi
    | 5 => cases hi
    | i + 6 => exact ⟨rfl, rfl⟩
  · intro i
    match i with
    | 0 => exact ⟨rfl, rfl, rfl⟩
    | 1 => exact ⟨rfl, rfl, rfl⟩
    | 2 => exact ⟨rfl, rfl, rfl⟩
    | 3 => exact ⟨rfl, rfl, rfl⟩
    | 4 => exact ⟨rfl, rfl, rfl⟩
    | 5 => exact ⟨rfl, rfl, rfl⟩
    | i + 6 => exact ⟨rfl, rfl, rfl⟩
  · intro p _
    fin_cases p <;> exact ⟨rfl, rfl, rfl, rfl⟩
  · intro p _ i hi d
    fin_cases p
    · have hi : i < 6 := hi
      interval_cases i <;> fin_cases d <;> simp [bothState, sixRows, sixAt, Arr.phys]
    · have hi : i < 3 := hi
      interval_cases i <;> fin_cases d <;> simp [bothState, starRows, starAt, Arr.phys]
  · intro d
    fin_cases d <;> simp [bothState, Arr.phys] <;> norm_num
  · simp [bothState, Arr.phys]
  · intro p _ i hi
    fin_cases p
    · have hi : i < 6 := hi
      interval_cases i
      · exact ⟨exCell 0 2 0, by simp [exFile], by simp [Holds, exCell], fun d => by fin_cases d <;> norm_num [exCell, sixAt]⟩
      · exact ⟨exCell 0 2 0, by simp [exFile], by simp [Holds, exCell], fun d => by fin_cases d <;> norm_num [exCell, sixAt]⟩
      · exact ⟨exCell 2 1 1, by simp [exFile], by simp [Holds, exCell], fun d => by fin_cases d <;> norm_num [exCell, sixAt]⟩
      · exact ⟨exCell 3 1 2, by simp [exFile], by simp [Holds, exCell], fun d => by fin_cases d <;> norm_num [exCell, sixAt]⟩
      · exact ⟨exCell 4 2 3, by simp [exFile], by simp [Holds, exCell], fun d => by fin_cases d <;> norm_num [exCell, sixAt]⟩
      · exact ⟨exCell 4 2 3, by simp [exFile], by simp [Holds, exCell], fun d => by fin_cases d <;> norm_num [exCell, sixAt]⟩
    · have hi : i < 3 := hi
      interval_cases i
      · exact ⟨exCell 0 1 0, by simp [exFile], by simp [Holds, exCell], fun d => by fin_cases d <;> norm_num [exCell, starAt]⟩
      · exact ⟨exCell 1 1 2, by simp [exFile], by simp [Holds, exCell], fun d => by fin_cases d <;> norm_num [exCell, starAt]⟩
      · exact ⟨exCell 2 1 3, by simp [exFile], by simp [Holds, exCell], fun d => by fin_cases d <;> norm_num [exCell, starAt]⟩
  · intro d
    fin_cases d <;> norm_num
  · intro d hd
    simp only [bothCuts, List.mem_cons, List.not_mem_nil, or_false] at hd
    rcases hd with rfl | rfl
    · exact ⟨by simp, rfl, by simp, .inl rfl, fun rank _ => ⟨_, PerRow.var (rank := rank) (row := OfType bothTypes 0) 3⟩⟩
    · exact ⟨by simp, rfl, by simp, .inl rfl, fun rank _ => ⟨_, PerRow.var (rank := rank) (row := OfType bothTypes 1) 5⟩⟩
  · intro d hd
    simp only [bothMass, List.mem_cons, List.not_mem_nil, or_false] at hd
    subst hd
    exact ⟨rfl, rfl, rfl⟩

end

end Verif.Props
