import Verif.Props.SelectionRows

/-!
# C134: scripts with cuts after reading with a mask
-/

namespace Verif.Props
open Verif Verif.Cosmo Verif.Formulas Verif.Selections Verif.Spec
open Verif.Programs (Cmp)
open Verif.Shaped (In mem_tuples values_at length_tuples)

/-! ### Naming a result -/

private theorem phys_len (x : Arr) : x.phys.length = x.val.length := by
  unfold Arr.phys
  split <;> simp

/-- The state after a line: the value is stored under its name. -/
private theorem put_ok {a k : ℝ} {ks : Nat → ℝ} {s : Selections.State} (hs : ScriptState a ks s) {x : Shaped.Value} {T : NumberTable} (h1 : x.shape = T.shape)
    (h2 : x.val.phys = T.values) (h3 : ∃ z, x.val = .cosmo z ∧ Conv a k z) (i : Nat) :
    ∃ t, s.put i x = .ok t ∧ ScriptState a (Function.update ks i k) t ∧ t.shapes = Function.update s.shapes i x.shape ∧
      ∀ j, (t.env j).phys = if j = i then x.val.phys else (s.env j).phys := by
  obtain ⟨z, hz, hc⟩ := h3
  refine ⟨⟨Function.update s.shapes i x.shape, Function.update s.env i z⟩, ?_, ⟨fun j => ?_, fun j => ?_⟩, rfl, fun j => ?_⟩
  · unfold State.put
    rw [hz]
  · by_cases hj : j = i
    · subst hj
      simpa using hc
    · simpa [hj] using hs.conv j
  · by_cases hj : j = i
    · subst hj
      have : z.phys.length = T.values.length := by
        rw [← h2, hz]
        rfl
      rw [phys_len] at this
      simp only [Function.update_self, this, h1]
      simp [NumberTable.values]
    · simpa [hj] using hs.length j
  · by_cases hj : j = i
    · subst hj
      simp [hz, Opd.phys]
    · simp [hj]

private theorem cosmo_of {a k : ℝ} {x : Shaped.Value} {T : NumberTable} (h : ValueAgrees a k False (.ok x) (.ok T)) :
    x.shape = T.shape ∧ x.val.phys = T.values ∧ ∃ z, x.val = .cosmo z ∧ Conv a k z := by
  cases h with
  | ok u1 u2 u3 u4 =>
    refine ⟨u1, u2, ?_⟩
    rcases x with ⟨S, v | z⟩
    · exact (u4.1 ⟨v, rfl⟩).elim
    · refine ⟨z, rfl, ?_⟩
      rcases u3 with h | ⟨n, h⟩
      · exact h
      · cases h

/-! ### Choices -/

private theorem fit_one (n : Nat) : Fit [n] [n] ∧ Fit [n] [] ∧ Fit [] [n] ∧ Fit [] [] := by
  refine ⟨fun d => .inl rfl, fun d => .inr (.inr (by simp [lengthOf])), fun d => .inr (.inl (by simp [lengthOf])), fun d => .inl rfl⟩

private theorem fitted_one (n : Nat) : fitted [n] [n] = [n] ∧ fitted [n] [] = [n] ∧ fitted [] [n] = [n] ∧ fitted [] [] = [] := by
  refine ⟨by simp [fitted, lengthOf], ?_, by simp [fitted, lengthOf], by simp [fitted]⟩
  simp only [fitted, lengthOf]
  simp
  exact fun h => h.symm

/-- One number for each row or a single number: shapes and entries. -/
private theorem one_entries {n : Nat} {js : List Nat} (hjs : ∀ j ∈ js, j < n) {X X' : NumberTable} (h : TableRows n js true 1 X X' ∨ TableRows n js false 0 X X') :
    (X.shape = [n] ∧ X'.shape = [js.length] ∨ X.shape = [] ∧ X'.shape = []) ∧
    ∀ i (hi : i < js.length), X'.entry (own X'.shape [i]) = X.entry (own X.shape [js[i]]) := by
  rcases h with h | h
  · obtain ⟨u, a1, a2, a3, a4⟩ := h
    obtain rfl : u = [] := List.length_eq_zero_iff.1 (by omega)
    refine ⟨.inl ⟨a1, a2⟩, fun i hi => ?_⟩
    rw [a1, a2, own_one hi, own_one (hjs _ (List.getElem_mem hi)), a4 i hi [] .nil]
  · obtain ⟨rfl, b⟩ := h
    have hb := List.length_eq_zero_iff.1 b
    refine ⟨.inr ⟨hb, hb⟩, fun i hi => ?_⟩
    rw [hb, own_nil, own_nil]

open Classical in
private theorem choose_rows {n : Nat} {js : List Nat} (hjs : ∀ j ∈ js, j < n) {B B' : FlagTable} (h1 : B.shape = [n]) (h2 : B'.shape = [js.length])
    (h3 : ∀ i (hi : i < js.length), B'.holds [i] ↔ B.holds [js[i]]) {X X' Y Y' : NumberTable}
    (hX : TableRows n js true 1 X X' ∨ TableRows n js false 0 X X') (hY : TableRows n js true 1 Y Y' ∨ TableRows n js false 0 Y Y') :
    ∃ T T', B.choose X Y = .ok T ∧ B'.choose X' Y' = .ok T' ∧ TableRows n js true 1 T T' := by
  obtain ⟨x1, x2⟩ := one_entries hjs hX
  obtain ⟨y1, y2⟩ := one_entries hjs hY
  have key : ∀ {m : Nat} {B : FlagTable} {X Y : NumberTable}, B.shape = [m] → X.shape = [m] ∨ X.shape = [] → Y.shape = [m] ∨ Y.shape = [] →
      B.choose X Y = .ok ⟨[m], fun l => if B.holds (own B.shape l) then X.entry (own X.shape l) else Y.entry (own Y.shape l)⟩ := by
    intro m B X Y hB hX hY
    obtain ⟨f1, f2, f3, f4⟩ := fit_one m
    obtain ⟨g1, g2, g3, g4⟩ := fitted_one m
    unfold FlagTable.choose
    rcases hX with hX | hX <;> rcases hY with hY | hY <;> simp only [hB, hX, hY, g1, g2, g3, g4, f1, f2, f3, f4, and_self, if_true]
  refine ⟨_, _, key h1 (x1.imp (·.1) (·.1)) (y1.imp (·.1) (·.1)), key h2 (x1.imp (·.2) (·.2)) (y1.imp (·.2) (·.2)), [], rfl, rfl, rfl, fun i hi l hl => ?_⟩
  cases hl
  have hj := hjs _ (List.getElem_mem hi)
  simp only
  rw [x2 i hi, y2 i hi, h1, h2, own_one hi, own_one hj, propext (h3 i hi)]

/-! ### Scripts -/

private theorem tables_of {n : Nat} {rows : List Int} (hrows : ∀ r ∈ rows, 0 ≤ r ∧ r < n) {row : Nat → Bool} {s s' : Selections.State} (h : RowStates n rows row s s') (i : Nat) :
    TableRows n (rows.map Int.toNat) (row i) (s.shapes i).length (tableOf (s.shapes i) (s.env i).phys) (tableOf (s'.shapes i) (s'.env i).phys) := by
  cases hi : row i with
  | true => exact table_rows_of hrows (h.rows i hi)
  | false => exact ⟨by rw [(h.fixed i hi).1, (h.fixed i hi).2], rfl⟩

/-- What a line gives: the same exception, or results with the rows. -/
private inductive LineRows (n : Nat) (rows : List Int) (b : Bool) : Except Err Shaped.Value → Except Err Shaped.Value → Prop
  | error (e : Err) : LineRows n rows b (.error e) (.error e)
  | ok {x x' : Shaped.Value} (h : b = true → RowsOfShaped n rows x.shape x.val.phys x'.shape x'.val.phys)
      (h' : b = false → x'.shape = x.shape ∧ x'.val.phys = x.val.phys) : LineRows n rows b (.ok x) (.ok x')

private theorem line_of_tables {a k : ℝ} {B : Prop} {n : Nat} {rows : List Int} (hrows : ∀ r ∈ rows, 0 ≤ r ∧ r < n) {b : Bool} {q : Nat}
    {y y' : Except Err Shaped.Value} {t t' : Except Err NumberTable} (h : TableRowsE n (rows.map Int.toNat) b q t t') (h1 : ValueAgrees a k B y t)
    (h2 : ValueAgrees a k B y' t') : LineRows n rows b y y' := by
  cases h with
  | error e =>
    cases h1
    cases h2
    exact .error e
  | ok h => cases h1 with
    | ok a1 a2 a3 a4 => cases h2 with
      | ok b1 b2 b3 b4 =>
        refine .ok (fun hb => ?_) (fun hb => ?_)
        · subst hb
          rw [a1, a2, b1, b2]
          exact rows_of_table hrows h
        · subst hb
          obtain ⟨rfl, -⟩ := h
          exact ⟨b1.trans a1.symm, b2.trans a2.symm⟩

private theorem states_put {n : Nat} {rows : List Int} {row : Nat → Bool} {s s' t t' : Selections.State} (h : RowStates n rows row s s') {i : Nat} {b : Bool}
    {x x' : Shaped.Value} (hx : LineRows n rows b (.ok x) (.ok x')) (t1 : t.shapes = Function.update s.shapes i x.shape)
    (t2 : ∀ j, (t.env j).phys = if j = i then x.val.phys else (s.env j).phys) (t3 : t'.shapes = Function.update s'.shapes i x'.shape)
    (t4 : ∀ j, (t'.env j).phys = if j = i then x'.val.phys else (s'.env j).phys) : RowStates n rows (Function.update row i b) t t' := by
  cases hx with
  | ok g g' =>
    constructor
    · intro j hj
      rw [t1, t2, t3, t4]
      by_cases h' : j = i
      · subst h'
        simpa using g (by simpa using hj)
      · simpa [h'] using h.rows j (by simpa [h'] using hj)
    · intro j hj
      rw [t1, t2, t3, t4]
      by_cases h' : j = i
      · subst h'
        simpa using g' (by simpa using hj)
      · simpa [h'] using h.fixed j (by simpa [h'] using hj)

/-- C134: a script in which all cuts keep to the rows of the list, run on these rows and on all rows: the same exception, or variables with the rows of
those of the script for all rows, and the same values for the variables that were cut out and all that was computed from them. -/
theorem c134_script {a : ℝ} (ha : 0 < a) {ks ls : Nat → ℝ} {l : List (Nat × Step)} (h : ScriptScales ks l ls) {s s' : Selections.State} (hs : ScriptState a ks s)
    (hs' : ScriptState a ks s') {n : Nat} {rows : List Int} (hrows : ∀ r ∈ rows, 0 ≤ r ∧ r < n) (hsort : rows.Pairwise (· < ·)) {row row' : Nat → Bool}
    (hr : RowStates n rows row s s') (hl : RowScript (· ∈ rows) row l s row') :
    (∃ err, run l s = .error err ∧ run l s' = .error err) ∨ ∃ t t', run l s = .ok t ∧ run l s' = .ok t' ∧ RowStates n rows row' t t' := by
  have hjs : ∀ j ∈ rows.map Int.toNat, j < n := by
    intro j hj
    obtain ⟨r, hr, rfl⟩ := List.mem_map.1 hj
    have := hrows r hr
    omega
  induction h generalizing s s' row with
  | nil ks =>
    cases hl
    exact .inr ⟨s, s', rfl, rfl, hr⟩
  | @cons ks ls i d k l hd _ ih =>
    -- one line, whatever it is
    have line : ∀ b, LineRows n rows b (evalStep s.shapes s.env d) (evalStep s'.shapes s'.env d) →
        (∀ t, run [(i, d)] s = .ok t → RowScript (· ∈ rows) (Function.update row i b) l t row') →
        (∃ err, run ((i, d) :: l) s = .error err ∧ run ((i, d) :: l) s' = .error err) ∨
        ∃ t t', run ((i, d) :: l) s = .ok t ∧ run ((i, d) :: l) s' = .ok t' ∧ RowStates n rows row' t t' := by
      intro b hline next
      have a1 := step_agrees ha hs.conv hs.length hd
      have a2 := step_agrees ha hs'.conv hs'.length hd
      simp only [run]
      simp only [run] at next
      generalize evalStep s.shapes s.env d = y at a1 hline next ⊢
      generalize evalStep s'.shapes s'.env d = y' at a2 hline ⊢
      generalize stepMeaning _ d = T at a1
      generalize stepMeaning _ d = T' at a2
      cases hline with
      | error e => exact .inl ⟨e, rfl, rfl⟩
      | @ok x x' g g' => cases T with
        | error e => cases a1
        | ok T => cases T' with
          | error e => cases a2
          | ok T' =>
            obtain ⟨c1, c2, c3⟩ := cosmo_of a1
            obtain ⟨d1, d2, d3⟩ := cosmo_of a2
            obtain ⟨t, p1, p2, p3, p4⟩ := put_ok hs c1 c2 c3 i
            obtain ⟨t', q1, q2, q3, q4⟩ := put_ok hs' d1 d2 d3 i
            simp only [Except.bind, p1, q1] at next ⊢
            exact ih p2 q2 (states_put hr (.ok g g') p3 p4 q3 q4) (next t rfl)
    cases hl with
    | formula hp next =>
      refine line _ ?_ next
      cases hd with
      | formula hd hb =>
        exact line_of_tables hrows (table_rows hjs (tables_of hrows hr) hp) (formula_agrees ha hs.conv hs.length (.formula hd))
          (formula_agrees ha hs'.conv hs'.length (.formula hd))
    | @cut _ _ _ e c _ _ q hp hc hsel next =>
      refine line _ ?_ next
      cases hd with
      | select hd hb hcs =>
        have := c133_exact ha hs hs' hrows hsort hr.rows hr.fixed hd hb hcs hp hc hsel
        generalize evalStep s.shapes s.env (.select e c) = y at this ⊢
        generalize evalStep s'.shapes s'.env (.select e c) = y' at this ⊢
        cases y <;> cases y' <;> simp only [Except.map, Except.error.injEq, Except.ok.injEq, Prod.mk.injEq, reduceCtorEq] at this
        · rw [this]
          exact .error _
        · exact .ok (by simp) fun _ => this
    | @choose _ _ _ e e' c _ _ hc hp hp' next =>
      refine line _ ?_ next
      have one : ∀ {e : Shaped.Expr}, OnePerRow (fun j => (s.shapes j).length) row e →
          (∃ err, shapedMeaning (fun i => tableOf (s.shapes i) (s.env i).phys) e = .error err ∧
            shapedMeaning (fun i => tableOf (s'.shapes i) (s'.env i).phys) e = .error err) ∨
          ∃ X X', shapedMeaning (fun i => tableOf (s.shapes i) (s.env i).phys) e = .ok X ∧ shapedMeaning (fun i => tableOf (s'.shapes i) (s'.env i).phys) e = .ok X' ∧
            (TableRows n (rows.map Int.toNat) true 1 X X' ∨ TableRows n (rows.map Int.toNat) false 0 X X') := by
        intro e he
        rcases he with he | he
        · have := table_rows hjs (tables_of hrows hr) he
          generalize shapedMeaning (fun i => tableOf (s.shapes i) (s.env i).phys) e = R at this ⊢
          generalize shapedMeaning (fun i => tableOf (s'.shapes i) (s'.env i).phys) e = R' at this ⊢
          cases this with
          | error e => exact .inl ⟨e, rfl, rfl⟩
          | ok h => exact .inr ⟨_, _, rfl, rfl, .inl h⟩
        · have := table_rows hjs (tables_of hrows hr) he
          generalize shapedMeaning (fun i => tableOf (s.shapes i) (s.env i).phys) e = R at this ⊢
          generalize shapedMeaning (fun i => tableOf (s'.shapes i) (s'.env i).phys) e = R' at this ⊢
          cases this with
          | error e => exact .inl ⟨e, rfl, rfl⟩
          | ok h => exact .inr ⟨_, _, rfl, rfl, .inr h⟩
      have t1 : TableRowsE n (rows.map Int.toNat) true 1 (stepMeaning (fun i => tableOf (s.shapes i) (s.env i).phys) (.choose c e e'))
          (stepMeaning (fun i => tableOf (s'.shapes i) (s'.env i).phys) (.choose c e e')) := by
        have f := flag_rows hjs (tables_of hrows hr) hc
        simp only [stepMeaning]
        generalize condMeaning (fun i => tableOf (s.shapes i) (s.env i).phys) c = G at f ⊢
        generalize condMeaning (fun i => tableOf (s'.shapes i) (s'.env i).phys) c = G' at f ⊢
        cases f with
        | error e => exact .error e
        | ok b1 b2 b3 =>
          rcases one hp with ⟨err, e1, e2⟩ | ⟨X, X', e1, e2, hX⟩
          · rw [e1, e2]
            exact .error err
          · rcases one hp' with ⟨err, g1, g2⟩ | ⟨Y, Y', g1, g2, hY⟩
            · rw [e1, e2, g1, g2]
              exact .error err
            · rw [e1, e2, g1, g2]
              obtain ⟨T, T', c1, c2, c3⟩ := choose_rows hjs b1 b2 b3 hX hY
              simp only [Except.bind, c1, c2]
              exact .ok c3
      exact line_of_tables hrows t1 (step_agrees ha hs.conv hs.length hd) (step_agrees ha hs'.conv hs'.length hd)

section
open Verif.Accel Verif.Mask
variable {K : Type} [Field K] [LinearOrder K] [IsStrictOrderedRing K] {m : Nat}

/-- C134: the same for fields that a mask read, with any history of constraints that does not end in a list of indices, if it selects all rows that the
script cuts out of all data. -/
theorem c134_masked (f : File K m) (hf : WF f) (ops : List (Op K)) (hi : ∀ op ∈ ops, IndicesOk f op) (p : Fin m)
    (h1 : (Mask.run f ops).constrained ≠ some .indices) (h2 : (Mask.run f ops).constrained ≠ some .index) (lay : Nat → Layout)
    (hlay : ∀ i, lay i ≠ .remote ∧ ∀ c, lay i = .chunked c → 0 < c) {a : ℝ} (ha : 0 < a) {ks ls : Nat → ℝ} {l : List (Nat × Step)} (h : ScriptScales ks l ls)
    {s s' : Selections.State} (hs : ScriptState a ks s) {row row' : Nat → Bool} {u : Nat → List Nat} {R R' : Nat → List (List ℝ)}
    (hr : ∀ i, row i = true → s.shapes i = f.rows p :: u i ∧ HoldsRows (f.rows p) (u i) (R i) (s.env i).val ∧
      load (Mask.run f ops) (lay i) (R i) p = .ok ((R' i).map some) ∧ s'.shapes i = (R' i).length :: u i ∧ HoldsRows (R' i).length (u i) (R' i) (s'.env i).val)
    (hfix : ∀ i, row i = false → s'.shapes i = s.shapes i ∧ (s'.env i).val = (s.env i).val)
    (hattr : ∀ i, (s'.env i).comoving = (s.env i).comoving ∧ (s'.env i).cf = (s.env i).cf ∧ (s'.env i).vt = (s.env i).vt)
    (hl : RowScript (Selects (Mask.run f ops) p) row l s row') :
    (∃ err, Selections.run l s = .error err ∧ Selections.run l s' = .error err) ∨
    ∃ t t', Selections.run l s = .ok t ∧ Selections.run l s' = .ok t' ∧ ∀ i, row' i = false → t'.shapes i = t.shapes i ∧ (t'.env i).phys = (t.env i).phys := by
  obtain ⟨rows, g1, g2, g3, g4, g5⟩ := loaded_states f hf ops hi p h1 h2 lay hlay hs hr hfix hattr
  have : Selects (Mask.run f ops) p = (· ∈ rows) := by
    funext i
    exact propext (g3 i).symm
  rw [this] at hl
  rcases c134_script ha h hs g4 g1 g2 g5 hl with h | ⟨t, t', e1, e2, e3⟩
  · exact .inl h
  · exact .inr ⟨t, t', e1, e2, e3.fixed⟩

/-- What the lines after the cuts use are variables without rows: their numbers of dimensions do not matter. -/
private theorem any_rank {rank : Nat → Nat} {row : Nat → Bool} {e : Shaped.Expr} {b : Bool} {q : Nat} (h : PerRow rank row e b q) (hb : b = false) (rank' : Nat → Nat) :
    ∃ q', PerRow rank' row e false q' := by
  induction h with
  | var i => exact ⟨rank' i, by simpa [hb] using PerRow.var (rank := rank') (row := row) i⟩
  | nums S v => exact ⟨_, .nums S v⟩
  | both _ _ _ _ => cases hb
  | left _ _ _ _ _ => cases hb
  | right _ _ _ _ _ => cases hb
  | neither _ _ ih ih' =>
    obtain ⟨q, h⟩ := ih rfl
    obtain ⟨q', h'⟩ := ih' rfl
    exact ⟨_, .neither h h'⟩
  | one _ ih =>
    obtain ⟨q, h⟩ := ih hb
    exact ⟨_, .one h⟩
  | pow x _ ih =>
    obtain ⟨q, h⟩ := ih hb
    exact ⟨_, .pow x h⟩
  | total _ ih =>
    obtain ⟨q, h⟩ := ih rfl
    exact ⟨_, .total h⟩
  | reduce _ _ ih =>
    obtain ⟨q, h⟩ := ih hb
    exact ⟨_, .reduce h (by simp)⟩
  | select _ _ ih =>
    obtain ⟨q, h⟩ := ih hb
    exact ⟨_, .select h (by simp)⟩
  | take _ _ ih =>
    obtain ⟨q, h⟩ := ih hb
    exact ⟨_, .take h (by simp)⟩
  | newaxis _ _ ih =>
    obtain ⟨q, h⟩ := ih hb
    exact ⟨_, .newaxis h (by simp)⟩
  | reshape S _ ih =>
    obtain ⟨q, h⟩ := ih rfl
    exact ⟨_, .reshape S h⟩
  | transpose _ ih =>
    obtain ⟨q, h⟩ := ih rfl
    exact ⟨_, .transpose h⟩
  | physical _ ih =>
    obtain ⟨q, h⟩ := ih hb
    exact ⟨_, .physical h⟩
  | comoving _ ih =>
    obtain ⟨q, h⟩ := ih hb
    exact ⟨_, .comoving h⟩

private theorem keep_row {row : Nat → Bool} {i : Nat} (h : row i = false) : Function.update row i false = row := by
  rw [← h, Function.update_eq_self]

private theorem formulas_script (sel : Int → Prop) {row : Nat → Bool} {rank : Nat → Nat} {l : List (Nat × Shaped.Expr)}
    (hl : ∀ d ∈ l, row d.1 = false ∧ ∃ q, PerRow rank row d.2 false q) (s : Selections.State) :
    RowScript sel row (l.map fun d => (d.1, .formula d.2)) s row := by
  induction l generalizing s with
  | nil => exact .nil row s
  | cons d l ih =>
    obtain ⟨hd, hl⟩ := List.forall_mem_cons.1 hl
    obtain ⟨h1, q, h2⟩ := hd
    obtain ⟨q', h3⟩ := any_rank h2 rfl fun j => (s.shapes j).length
    refine .formula h3 fun t _ => ?_
    rw [keep_row h1]
    exact ih hl t

/-- Cuts with one condition, one after the other: the variables below `w` keep their values, and the condition depends on these only. -/
theorem cuts_script {a : ℝ} (ha : 0 < a) (sel : Int → Prop) {row : Nat → Bool} {w : Nat} {S : Nat → List Nat} {p : Nat → List ℝ} {κ : Nat → ℝ} {c : Cond}
    (hc : ∀ (ks : Nat → ℝ) (s : Selections.State), ScriptState a ks s → (∀ j < w, s.shapes j = S j ∧ (s.env j).phys = p j ∧ ks j = κ j) →
      CondPerRow (fun j => (s.shapes j).length) row c ∧ ∀ b, evalCond s.shapes s.env c = .ok b → ∀ r : Int, valueAt b.val r = some true → sel r)
    {rank : Nat → Nat} {names : List Nat} {cuts l : List (Nat × Shaped.Expr)}
    (hcuts : ∀ d ∈ cuts, d.1 ∈ names ∧ w ≤ d.1 ∧ row d.1 = false ∧ ∀ rank', (∀ j, j ∉ names → rank' j = rank j) → ∃ q, PerRow rank' row d.2 true q)
    (hl : ∀ d ∈ l, row d.1 = false ∧ ∃ q, PerRow rank row d.2 false q) {ks ls : Nat → ℝ}
    (h : ScriptScales ks ((cuts.map fun d => (d.1, .select d.2 c)) ++ l.map fun d => (d.1, .formula d.2)) ls) {s : Selections.State} (hs : ScriptState a ks s)
    (hw : ∀ j < w, s.shapes j = S j ∧ (s.env j).phys = p j ∧ ks j = κ j) (hrank : ∀ j, j ∉ names → (s.shapes j).length = rank j) :
    RowScript sel row ((cuts.map fun d => (d.1, .select d.2 c)) ++ l.map fun d => (d.1, .formula d.2)) s row := by
  induction cuts generalizing ks s with
  | nil => exact formulas_script sel hl s
  | cons d cuts ih =>
    obtain ⟨hd, hcuts⟩ := List.forall_mem_cons.1 hcuts
    obtain ⟨d1, d2, d3, d4⟩ := hd
    obtain ⟨q, hq⟩ := d4 (fun j => (s.shapes j).length) hrank
    simp only [List.map_cons, List.cons_append] at h ⊢
    cases h with
    | cons hd hrest =>
      obtain ⟨k1, k2⟩ := hc ks s hs hw
      refine .cut hq k1 k2 fun t ht => ?_
      rw [keep_row d3]
      have a1 := step_agrees ha hs.conv hs.length hd
      simp only [Selections.run] at ht
      generalize evalStep s.shapes s.env (.select d.2 c) = y at a1 ht
      generalize stepMeaning _ (.select d.2 c) = T at a1
      cases y with
      | error e => cases ht
      | ok x => cases T with
        | error e => cases a1
        | ok T =>
          obtain ⟨c1, c2, c3⟩ := cosmo_of a1
          obtain ⟨t', w1, w2, w3, w4⟩ := put_ok hs c1 c2 c3 d.1
          simp only [Except.bind, w1, Except.ok.injEq] at ht
          subst ht
          refine ih hcuts hrest w2 (fun j hj => ?_) fun j hj => ?_
          · have : j ≠ d.1 := by omega
            simpa [w3, w4, this] using hw j hj
          · have : j ≠ d.1 := fun h => hj (h ▸ d1)
            simpa [w3, this] using hrank j hj

/-- C134: totals and means in a sphere. A script cuts any quantities of the particles in a sphere, and computes from what it has cut. With the mask of
a region that contains the cube around the sphere all results are the same as with all particles. -/
theorem c134_sphere (f : File K m) (hf : WF f) (rows : List (Option (List K))) (reg : Fin 3 → K × K) (hreg : RegionIs f.box rows reg) (hw : InWindow f.box reg)
    (union : Bool) (p : Fin m) (lay : Nat → Layout) (hlay : ∀ i, lay i ≠ .remote ∧ ∀ c, lay i = .chunked c → 0 < c) {a : ℝ} (ha : 0 < a) {ks ls : Nat → ℝ}
    {s s' : Selections.State} (hs : ScriptState a ks s) {row : Nat → Bool} {u : Nat → List Nat} {R R' : Nat → List (List ℝ)}
    (hr : ∀ i, row i = true → s.shapes i = f.rows p :: u i ∧ HoldsRows (f.rows p) (u i) (R i) (s.env i).val ∧
      load (Mask.run f [.spatial rows union]) (lay i) (R i) p = .ok ((R' i).map some) ∧ s'.shapes i = (R' i).length :: u i ∧
      HoldsRows (R' i).length (u i) (R' i) (s'.env i).val)
    (hfix : ∀ i, row i = false → s'.shapes i = s.shapes i ∧ (s'.env i).val = (s.env i).val)
    (hattr : ∀ i, (s'.env i).comoving = (s.env i).comoving ∧ (s'.env i).cf = (s.env i).cf ∧ (s'.env i).vt = (s.env i).vt)
    (r0 : row 0 = true) (r1 : row 1 = false) (r2 : row 2 = false) (u0 : u 0 = [3]) (h1 : s.shapes 1 = [3]) (h2 : s.shapes 2 = []) (hk : ks 0 = ks 1)
    (hk' : ks 0 = ks 2) {ι : K → ℝ} (hι : StrictMono ι) {σ : ℝ} (hσ : 0 < σ) {P : Nat → Fin 3 → K} {ctr : Fin 3 → ℝ} {rad : ℝ}
    (hP : ∀ i < f.rows p, ∀ d : Fin 3, (s.env 0).phys.getD (i * 3 + d.val) 0 = ι (P i d) * σ)
    (hctr : ∀ d : Fin 3, (s.env 1).phys.getD d.val 0 = ctr d * σ) (hrad : (s.env 2).phys.getD 0 0 = rad * σ)
    (hcells : ∀ i < f.rows p, ∃ c ∈ f.cells p, Holds c i ∧ ∀ d, c.lo d ≤ P i d ∧ P i d ≤ c.hi d)
    (hcube : ∀ d, ι (reg d).1 ≤ ctr d - rad ∧ ctr d + rad ≤ ι (reg d).2) {cuts l : List (Nat × Shaped.Expr)}
    (hcuts : ∀ d ∈ cuts, 3 ≤ d.1 ∧ row d.1 = false ∧
      ∀ rank : Nat → Nat, (∀ j, j ∉ cuts.map (·.1) → rank j = (s.shapes j).length) → ∃ q, PerRow rank row d.2 true q)
    (hl : ∀ d ∈ l, row d.1 = false ∧ ∃ q, PerRow (fun j => (s.shapes j).length) row d.2 false q)
    (h : ScriptScales ks ((cuts.map fun d => (d.1, .select d.2 sphere)) ++ l.map fun d => (d.1, .formula d.2)) ls) :
    (∃ err, Selections.run ((cuts.map fun d => (d.1, .select d.2 sphere)) ++ l.map fun d => (d.1, .formula d.2)) s = .error err ∧
      Selections.run ((cuts.map fun d => (d.1, .select d.2 sphere)) ++ l.map fun d => (d.1, .formula d.2)) s' = .error err) ∨
    ∃ t t', Selections.run ((cuts.map fun d => (d.1, .select d.2 sphere)) ++ l.map fun d => (d.1, .formula d.2)) s = .ok t ∧
      Selections.run ((cuts.map fun d => (d.1, .select d.2 sphere)) ++ l.map fun d => (d.1, .formula d.2)) s' = .ok t' ∧
      ∀ i, row i = false → t'.shapes i = t.shapes i ∧ (t'.env i).phys = (t.env i).phys := by
  have h0 : s.shapes 0 = [f.rows p, 3] := by rw [(hr 0 r0).1, u0]
  obtain ⟨k1, k2⟩ := only_spatial f hf rows union
  refine c134_masked f hf [.spatial rows union] (by simp [IndicesOk]) p k1 k2 lay hlay ha h hs hr hfix hattr ?_
  refine cuts_script ha _ (w := 3) (S := s.shapes) (p := fun j => (s.env j).phys) (κ := ks) ?_ (rank := fun j => (s.shapes j).length)
    (names := cuts.map (·.1)) (fun d hd => ?_) hl h hs (fun j _ => ⟨rfl, rfl, rfl⟩) fun j _ => rfl
  · intro ks' t ht hlow
    obtain ⟨s0, e0, t0⟩ := hlow 0 (by omega)
    obtain ⟨s1, e1, t1⟩ := hlow 1 (by omega)
    obtain ⟨s2, e2, t2⟩ := hlow 2 (by omega)
    rw [h0] at s0
    rw [h1] at s1
    rw [h2] at s2
    have pv : ∀ i, PerRow (fun j => (t.shapes j).length) row (.var i) (row i) (t.shapes i).length := fun i =>
      PerRow.var (rank := fun j => (t.shapes j).length) (row := row) i
    have q0 := pv 0
    have q1 := pv 1
    have q2 := pv 2
    rw [r0, s0] at q0
    rw [r1, s1] at q1
    rw [r2, s2] at q2
    have pr : PerRow (fun i => (t.shapes i).length) row radii true 1 := .one (.reduce (.one (.left q0 q1 (by simp))) (by simp))
    refine ⟨.left .less pr q2, fun b hbv i hi => ?_⟩
    obtain ⟨i1, i2, i3⟩ := sphere_flags ha ht s0 s1 s2 (by rw [t0, t1, hk]) (by rw [t0, t2, hk']) hbv hi
    obtain ⟨j, rfl⟩ := Int.eq_ofNat_of_zero_le i1
    have hj : j < f.rows p := by exact_mod_cast i2
    obtain ⟨c, hc, hh, hin⟩ := hcells j hj
    refine c12_complete_rows f hf rows reg hreg hw union p j c hc hh (P j) hin fun d => ⟨0, ?_⟩
    have q1 := i3 d.val d.isLt
    rw [Int.toNat_natCast, e0, e1, e2, hP j hj d, hctr, hrad, ← sub_mul, abs_mul, abs_of_pos hσ, mul_lt_mul_iff_left₀ hσ] at q1
    have q2 := abs_lt.1 q1
    obtain ⟨q3, q4⟩ := hcube d
    have l1 : (reg d).1 < P j d := hι.lt_iff_lt.1 (by linarith [q2.1])
    have l2 : P j d < (reg d).2 := hι.lt_iff_lt.1 (by linarith [q2.2])
    have hup : wrapUpper (f.box d) (reg d).1 (reg d).2 = (reg d).2 := if_neg (not_lt.2 (l1.trans l2).le)
    rw [hup]
    simpa using ⟨l1, l2⟩
  · obtain ⟨g1, g2, g3⟩ := hcuts d hd
    exact ⟨List.mem_map_of_mem hd, g1, g2, g3⟩

end

/-! ### The centre of mass of the particles in a sphere -/

/-- Positions, centre, radius and masses; names for results. -/
private noncomputable def ballState : Selections.State where
  shapes := fun i => match i with | 0 => [6, 3] | 1 => [3] | 2 => [] | 3 => [6] | _ => [0]
  env := fun i => match i with
    | 0 => ⟨sixRows.flatten, some true, some ⟨some 1, some (1 / 2)⟩, true⟩
    | 1 => ⟨[7 / 8, 1, 1], some false, some ⟨some 1, some (1 / 2)⟩, true⟩
    | 2 => ⟨[1 / 2], some true, some ⟨some 1, some (1 / 2)⟩, true⟩
    | 3 => ⟨massRows.flatten, some true, some ⟨some 0, some (1 / 2)⟩, true⟩
    | _ => ⟨[], some true, some ⟨some 0, some (1 / 2)⟩, true⟩

/-- The same with the rows that the region reads. -/
private noncomputable def ballState' : Selections.State where
  shapes := fun i => match i with | 0 => [2, 3] | 1 => [3] | 2 => [] | 3 => [2] | _ => [0]
  env := fun i => match i with
    | 0 => ⟨[3 / 2, 2, 2, 5 / 2, 2, 2], some true, some ⟨some 1, some (1 / 2)⟩, true⟩
    | 1 => ⟨[7 / 8, 1, 1], some false, some ⟨some 1, some (1 / 2)⟩, true⟩
    | 2 => ⟨[1 / 2], some true, some ⟨some 1, some (1 / 2)⟩, true⟩
    | 3 => ⟨[3, 4], some true, some ⟨some 0, some (1 / 2)⟩, true⟩
    | _ => ⟨[], some true, some ⟨some 0, some (1 / 2)⟩, true⟩

private def ballExponents : Nat → ℝ := fun i => match i with | 0 => 1 | 1 => 1 | 2 => 1 | _ => 0

private theorem ballState_ok : ScriptState (1 / 2) ballExponents ballState := by
  refine ⟨fun i => ?_, fun i => ?_⟩
  · match i with
    | 0 => exact ⟨by norm_num, rfl, rfl, by simp [ballState]⟩
    | 1 => exact ⟨by norm_num, rfl, rfl, by simp [ballState]⟩
    | 2 => exact ⟨by norm_num, rfl, rfl, by simp [ballState]⟩
    | 3 => exact ⟨by norm_num, rfl, rfl, by simp [ballState]⟩
    | i + 4 => exact ⟨by norm_num, rfl, rfl, by simp [ballState]⟩
  · match i with
    | 0 => simp [ballState, sixRows, tuples, List.range_succ]
    | 1 => simp [ballState, tuples, List.range_succ]
    | 2 => simp [ballState, tuples]
    | 3 => simp [ballState, massRows, tuples, List.range_succ]
    | i + 4 => simp [ballState, tuples]

/-- The masses and the positions of the particles in the sphere. -/
private noncomputable def ballCuts : List (Nat × Shaped.Expr) := [(4, .var 3), (5, .var 0)]

/-- Their total mass, and their centre of mass `(m[:, None] * x).sum(axis=0) / M`. -/
private noncomputable def ballMeans : List (Nat × Shaped.Expr) :=
  [(6, .total List.sum (.var 4)), (7, .two .divide (.reduce List.sum 0 (.two .multiply (.newaxis 1 (.var 4)) (.var 5))) (.var 6))]

private theorem ball_scales : ∃ ls, ScriptScales ballExponents ((ballCuts.map fun d => (d.1, .select d.2 sphere)) ++ ballMeans.map fun d => (d.1, .formula d.2)) ls := by
  have hv : ∀ (ks : Nat → ℝ) i, ShapedDimension ks (.var i) (ks i) := fun ks i => ShapedDimension.var (ks := ks) i
  have hc : ∀ ks : Nat → ℝ, ks 0 = ks 1 → ks 0 = ks 2 → CondScales ks sphere := fun ks h h' =>
    .cmp .less (.formula (radii_scale h)) (by rw [h']; exact .formula (hv ks 2))
  refine ⟨_, .cons (.select (hv _ 3) (fun h => h) (hc _ rfl rfl)) (.cons (.select (hv _ 0) (fun h => h) (hc _ ?_ ?_)) (.cons (.formula (.total scales_sum (hv _ 4)) (fun h => h))
    (.cons (.formula (.div (.reduce scales_sum 0 (.mul (.newaxis 1 (hv _ 4)) (hv _ 5))) (hv _ 6)) (fun h => h.2)) (.nil _))))⟩
  · simp [ballExponents]
  · simp [ballExponents]

/-- The mask of the region reads two of the six particles; total mass and centre of mass of the particles in the sphere are those of all six. -/
example {t t' : Selections.State} (ht : run ((ballCuts.map fun d => (d.1, .select d.2 sphere)) ++ ballMeans.map fun d => (d.1, .formula d.2)) ballState = .ok t)
    (ht' : run ((ballCuts.map fun d => (d.1, .select d.2 sphere)) ++ ballMeans.map fun d => (d.1, .formula d.2)) ballState' = .ok t') :
    (t'.env 6).phys = (t.env 6).phys ∧ (t'.env 7).phys = (t.env 7).phys := by
  obtain ⟨ls, hls⟩ := ball_scales
  have h := c134_sphere exFile exFile_wf [some [5 / 4, 9 / 4], none, none] (fun d => if d = 0 then (5 / 4, 9 / 4) else (0, 4)) ?_ ?_ false 0 (fun _ => .contiguous)
    (fun _ => ⟨by simp, by simp⟩) (a := 1 / 2) (by norm_num) (ks := ballExponents) (s := ballState) (s' := ballState') ballState_ok (row := fun i => i == 0 || i == 3)
    (u := fun i => if i = 0 then [3] else []) (R := fun i => if i = 0 then sixRows else massRows)
    (R' := fun i => if i = 0 then [[3 / 2, 2, 2], [5 / 2, 2, 2]] else [[3], [4]]) ?_ ?_ ?_ rfl rfl rfl rfl rfl rfl rfl rfl (ι := fun q => (q : ℝ))
    Rat.cast_strictMono (σ := 1 / 2) (by norm_num) (P := sixAt) (ctr := fun d => if d = 0 then 7 / 4 else 2) (rad := 1 / 2) ?_ ?_ ?_ ?_ ?_ (cuts := ballCuts)
    (l := ballMeans) ?_ ?_ hls
  · rw [ht, ht'] at h
    rcases h with ⟨err, h, -⟩ | ⟨_, _, h1, h2, h⟩
    · cases h
    · cases h1
      cases h2
      exact ⟨(h 6 rfl).2, (h 7 rfl).2⟩
  · refine ⟨rfl, fun d => ?_⟩
    fin_cases d <;> simp [exFile]
  · intro d
    fin_cases d <;> norm_num [exFile]
  · intro i hi
    match i with
    | 0 =>
      refine ⟨rfl, ⟨rfl, by simp [sixRows, tuples, List.range_succ], rfl⟩, ?_, rfl, ⟨rfl, by simp [tuples, List.range_succ], rfl⟩⟩
      refine (regionS_loads _ rfl).trans ?_
      simp [select, valueAt, sixRows]
    | 1 => cases hi
    | 2 => cases hi
    | 3 =>
      refine ⟨rfl, ⟨rfl, by simp [massRows, tuples], rfl⟩, ?_, rfl, ⟨rfl, by simp [tuples], rfl⟩⟩
      refine (regionS_loads _ rfl).trans ?_
      simp [select, valueAt, massRows]
    | i + 4 => simp at hi
  · intro i hi
    match i with
    | 0 => cases hi
    | 1 => exact ⟨rfl, rfl⟩
    | 2 => exact ⟨rfl, rfl⟩
    | 3 => cases hi
    | i + 4 => exact ⟨rfl, rfl⟩
  · intro i
    match i with
    | 0 => exact ⟨rfl, rfl, rfl⟩
    | 1 => exact ⟨rfl, rfl, rfl⟩
    | 2 => exact ⟨rfl, rfl, rfl⟩
    | 3 => exact ⟨rfl, rfl, rfl⟩
    | i + 4 => exact ⟨rfl, rfl, rfl⟩
  · intro i hi d
    have hi : i < 6 := hi
    interval_cases i <;> fin_cases d <;> simp [ballState, sixRows, sixAt, Arr.phys]
  · intro d
    fin_cases d <;> simp [ballState, Arr.phys] <;> norm_num
  · simp [ballState, Arr.phys]
  · intro i hi
    have hi : i < 6 := hi
    interval_cases i
    · exact ⟨exCell 0 2 0, by simp [exFile], by simp [Holds, exCell], fun d => by fin_cases d <;> norm_num [exCell, sixAt]⟩
    · exact ⟨exCell 0 2 0, by simp [exFile], by simp [Holds, exCell], fun d => by fin_cases d <;> norm_num [exCell, sixAt]⟩
    · exact ⟨exCell 2 1 1, by simp [exFile], by simp [Holds, exCell], fun d => by fin_cases d <;> norm_num [exCell, sixAt]⟩
    · exact ⟨exCell 3 1 2, by simp [exFile], by simp [Holds, exCell], fun d => by fin_cases d <;> norm_num [exCell, sixAt]⟩
    · exact ⟨exCell 4 2 3, by simp [exFile], by simp [Holds, exCell], fun d => by fin_cases d <;> norm_num [exCell, sixAt]⟩
    · exact ⟨exCell 4 2 3, by simp [exFile], by simp [Holds, exCell], fun d => by fin_cases d <;> norm_num [exCell, sixAt]⟩
  · intro d
    fin_cases d <;> norm_num
  · intro d hd
    simp only [ballCuts, List.mem_cons, List.not_mem_nil, or_false] at hd
    rcases hd with rfl | rfl
    · exact ⟨by simp, rfl, fun rank _ => ⟨_, PerRow.var (rank := rank) (row := fun i => i == 0 || i == 3) 3⟩⟩
    · exact ⟨by simp, rfl, fun rank _ => ⟨_, PerRow.var (rank := rank) (row := fun i => i == 0 || i == 3) 0⟩⟩
  · have hv : ∀ i, PerRow (fun j => (ballState.shapes j).length) (fun i => i == 0 || i == 3) (.var i) (i == 0 || i == 3) _ := fun i =>
      PerRow.var (rank := fun j => (ballState.shapes j).length) (row := fun i => i == 0 || i == 3) i
    intro d hd
    simp only [ballMeans, List.mem_cons, List.not_mem_nil, or_false] at hd
    rcases hd with rfl | rfl
    · exact ⟨rfl, _, .total (hv 4)⟩
    · exact ⟨rfl, _, .neither (.reduce (.neither (.newaxis (hv 4) (by simp)) (hv 5)) (by simp)) (hv 6)⟩

end Verif.Props
