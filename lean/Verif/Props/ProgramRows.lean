import Verif.Spec.ProgramRows
import Verif.Props.Programs
import Verif.Props.FormulaRows

/-!
# C118: programs with the rows of arrays
-/

namespace Verif.Props
open Verif Verif.Cosmo Verif.Formulas Verif.Programs Verif.Spec

private theorem len_rows {rows : List Int} {x y : Arr} (h : RowsOfArray rows x y) : y.val.length = rows.length := by
  have := congrArg List.length h.vals
  simpa [select] using this

private theorem conv_rows {rows : List Int} {x y : Arr} (h : RowsOfArray rows x y) (b : Bool) :
    (∃ q, (if b then x.convertToPhysical else x.convertToComoving) = .error q ∧
      (if b then y.convertToPhysical else y.convertToComoving) = .error q) ∨
    ∃ x' y', (if b then x.convertToPhysical else x.convertToComoving) = .ok x' ∧
      (if b then y.convertToPhysical else y.convertToComoving) = .ok y' ∧ RowsOfArray rows x' y' ∧ x'.val.length = x.val.length := by
  have hm : ∀ r : ℝ, (y.val.map (· * r)).map some = select (x.val.map (· * r)) rows := by
    intro r
    have : select (x.val.map (· * r)) rows = (select x.val rows).map (Option.map (· * r)) := by
      simp only [select, List.map_map]
      refine List.map_congr_left fun i _ => ?_
      simp only [Function.comp, valueAt]
      split_ifs <;> simp
    rw [this, ← h.vals]
    simp
  have hd : ∀ r : ℝ, (y.val.map (· / r)).map some = select (x.val.map (· / r)) rows := by
    intro r
    have := hm (1 / r)
    simpa [div_eq_mul_inv] using this
  have hf : y.factor = x.factor := by unfold Arr.factor; rw [h.cf]
  cases b
  · simp only [Bool.false_eq_true, if_false]
    unfold Arr.convertToComoving
    rw [h.comoving, h.vt, hf]
    split_ifs
    · exact .inr ⟨x, y, rfl, rfl, h, rfl⟩
    · exact .inl ⟨_, rfl, rfl⟩
    · cases x.factor with
      | error e => exact .inl ⟨e, rfl, rfl⟩
      | ok r => exact .inr ⟨_, _, rfl, rfl, ⟨hd _, rfl, h.cf, rfl⟩, by simp⟩
  · simp only [if_true]
    unfold Arr.convertToPhysical
    rw [h.comoving, hf]
    rcases x.comoving with _ | _ | _
    · exact .inl ⟨_, rfl, rfl⟩
    · exact .inr ⟨x, y, rfl, rfl, h, rfl⟩
    · cases x.factor with
      | error e => exact .inl ⟨e, rfl, rfl⟩
      | ok r => exact .inr ⟨_, _, rfl, rfl, ⟨hm _, rfl, h.cf, h.vt⟩, by simp⟩

private theorem rows_env {n : Nat} {rows : List Int} {s t : State} (h : RowsOfState n rows s t) :
    (∀ i, RowsOfArray rows (s.env i) (t.env i)) ∧ ∀ i, (s.env i).val.length = n := by
  refine ⟨fun i => ?_, fun i => h.length _⟩
  unfold State.env
  rw [h.vars]
  exact h.heap _

private theorem rows_store {n : Nat} {rows : List Int} {s t : State} (h : RowsOfState n rows s t) (x : Nat) {y z : Arr}
    (hz : RowsOfArray rows y z) (hy : y.val.length = n) : RowsOfState n rows (s.store x y) (t.store x z) := by
  refine ⟨h.vars, h.next, fun l => ?_, fun l => ?_⟩
  · simp only [State.store, h.vars]
    by_cases hl : l = s.vars x
    · subst hl; simpa using hz
    · simpa [Function.update_of_ne hl] using h.heap l
  · simp only [State.store]
    by_cases hl : l = s.vars x
    · subst hl; simpa using hy
    · simpa [Function.update_of_ne hl] using h.length l

private theorem rows_new {n : Nat} {rows : List Int} {s t : State} (h : RowsOfState n rows s t) (x : Nat) {y z : Arr}
    (hz : RowsOfArray rows y z) (hy : y.val.length = n) : RowsOfState n rows (s.new x y) (t.new x z) := by
  refine ⟨?_, ?_, fun l => ?_, fun l => ?_⟩
  · simp only [State.new, h.vars, h.next]
  · simp only [State.new, h.next]
  · simp only [State.new, h.next]
    by_cases hl : l = s.next
    · subst hl; simpa using hz
    · simpa [Function.update_of_ne hl] using h.heap l
  · simp only [State.new]
    by_cases hl : l = s.next
    · subst hl; simpa using hy
    · simpa [Function.update_of_ne hl] using h.length l

/-- C118. A program of formulas row by row, with assignments, second names, in-place operations, conversions in place and handlers of
exceptions, run with some rows of the arrays, ends as it does with all rows, and all its arrays then are these rows of the arrays that the
program computes from all rows, with the same attributes and the same names. Rows may be repeated and in any order. -/
theorem c118_rows {n : Nat} {rows : List Int} : ∀ {p : Stmt}, RowProgram p → ∀ {s t : State}, RowsOfState n rows s t →
    (∀ o s', Runs s p o s' → ∃ t', Runs t p o t' ∧ RowsOfState n rows s' t') ∧
      ∀ o t', Runs t p o t' → ∃ s', Runs s p o s' ∧ RowsOfState n rows s' t'
  | .skip, _, s, t, h => by
    refine ⟨fun o s' hr => ?_, fun o t' hr => ?_⟩ <;> cases hr
    · exact ⟨t, .skip t, h⟩
    · exact ⟨s, .skip s, h⟩
  | .assign x e, hp, s, t, h => by
    have hname : ∀ y, RowsOfState n rows { s with vars := Function.update s.vars x (s.vars y) }
        { t with vars := Function.update t.vars x (t.vars y) } :=
      fun y => ⟨by simp only [h.vars], h.next, h.heap, h.length⟩
    rcases c115_rows (rows_env h).1 (rows_env h).2 hp with ⟨q, e1, e2⟩ | ⟨c, e1, e2⟩ | ⟨u, v, e1, e2, huv, hu⟩
    · refine ⟨fun o s' hr => ?_, fun o t' hr => ?_⟩
      · cases hr with
        | name _ _ y => exact ⟨_, .name t x y, hname y⟩
        | assign _ _ _ z hv he => rw [he] at e1; cases e1
        | assignErr _ _ _ err he => rw [he] at e1; cases e1; exact ⟨t, .assignErr t x e _ e2, h⟩
      · cases hr with
        | name _ _ y => exact ⟨_, .name s x y, hname y⟩
        | assign _ _ _ z hv he => rw [he] at e2; cases e2
        | assignErr _ _ _ err he => rw [he] at e2; cases e2; exact ⟨s, .assignErr s x e _ e1, h⟩
    · refine ⟨fun o s' hr => ?_, fun o t' hr => ?_⟩
      · cases hr with
        | name _ _ y => exact ⟨_, .name t x y, hname y⟩
        | assign _ _ _ z hv he => rw [he] at e1; cases e1
        | assignErr _ _ _ err he => rw [he] at e1; cases e1
      · cases hr with
        | name _ _ y => exact ⟨_, .name s x y, hname y⟩
        | assign _ _ _ z hv he => rw [he] at e2; cases e2
        | assignErr _ _ _ err he => rw [he] at e2; cases e2
    · refine ⟨fun o s' hr => ?_, fun o t' hr => ?_⟩
      · cases hr with
        | name _ _ y => exact ⟨_, .name t x y, hname y⟩
        | assign _ _ _ z hv he => rw [he] at e1; cases e1; exact ⟨_, .assign t x e v hv e2, rows_new h x huv hu⟩
        | assignErr _ _ _ err he => rw [he] at e1; cases e1
      · cases hr with
        | name _ _ y => exact ⟨_, .name s x y, hname y⟩
        | assign _ _ _ z hv he => rw [he] at e2; cases e2; exact ⟨_, .assign s x e u hv e1, rows_new h x huv hu⟩
        | assignErr _ _ _ err he => rw [he] at e2; cases e2
  | .into x e, hp, s, t, h => by
    rcases c115_rows (rows_env h).1 (rows_env h).2 hp with ⟨q, e1, e2⟩ | ⟨c, e1, e2⟩ | ⟨u, v, e1, e2, huv, hu⟩
    · refine ⟨fun o s' hr => ?_, fun o t' hr => ?_⟩
      · cases hr with
        | into _ _ _ z he hl => rw [he] at e1; cases e1
        | intoShape _ _ _ z he hl => rw [he] at e1; cases e1
        | intoErr _ _ _ err he => rw [he] at e1; cases e1; exact ⟨t, .intoErr t x e _ e2, h⟩
      · cases hr with
        | into _ _ _ z he hl => rw [he] at e2; cases e2
        | intoShape _ _ _ z he hl => rw [he] at e2; cases e2
        | intoErr _ _ _ err he => rw [he] at e2; cases e2; exact ⟨s, .intoErr s x e _ e1, h⟩
    · refine ⟨fun o s' hr => ?_, fun o t' hr => ?_⟩
      · cases hr with
        | into _ _ _ z he hl => rw [he] at e1; cases e1
        | intoShape _ _ _ z he hl => rw [he] at e1; cases e1
        | intoErr _ _ _ err he => rw [he] at e1; cases e1
      · cases hr with
        | into _ _ _ z he hl => rw [he] at e2; cases e2
        | intoShape _ _ _ z he hl => rw [he] at e2; cases e2
        | intoErr _ _ _ err he => rw [he] at e2; cases e2
    · have l1 : u.val.length = (s.env x).val.length := by rw [hu, (rows_env h).2]
      have l2 : v.val.length = (t.env x).val.length := by rw [len_rows huv, len_rows ((rows_env h).1 x)]
      refine ⟨fun o s' hr => ?_, fun o t' hr => ?_⟩
      · cases hr with
        | into _ _ _ z he hl => rw [he] at e1; cases e1; exact ⟨_, .into t x e v e2 l2, rows_store h x huv hu⟩
        | intoShape _ _ _ z he hl => rw [he] at e1; cases e1; exact absurd l1 hl
        | intoErr _ _ _ err he => rw [he] at e1; cases e1
      · cases hr with
        | into _ _ _ z he hl => rw [he] at e2; cases e2; exact ⟨_, .into s x e u e1 l1, rows_store h x huv hu⟩
        | intoShape _ _ _ z he hl => rw [he] at e2; cases e2; exact absurd l2 hl
        | intoErr _ _ _ err he => rw [he] at e2; cases e2
  | .convert b x, _, s, t, h => by
    rcases conv_rows ((rows_env h).1 x) b with ⟨q, e1, e2⟩ | ⟨u, v, e1, e2, huv, hu⟩
    · refine ⟨fun o s' hr => ?_, fun o t' hr => ?_⟩
      · cases hr with
        | convert _ _ _ z he => rw [he] at e1; cases e1
        | convertErr _ _ _ err he => rw [he] at e1; cases e1; exact ⟨t, .convertErr t b x _ e2, h⟩
      · cases hr with
        | convert _ _ _ z he => rw [he] at e2; cases e2
        | convertErr _ _ _ err he => rw [he] at e2; cases e2; exact ⟨s, .convertErr s b x _ e1, h⟩
    · have hu' : u.val.length = n := hu.trans ((rows_env h).2 x)
      refine ⟨fun o s' hr => ?_, fun o t' hr => ?_⟩
      · cases hr with
        | convert _ _ _ z he => rw [he] at e1; cases e1; exact ⟨_, .convert t b x v e2, rows_store h x huv hu'⟩
        | convertErr _ _ _ err he => rw [he] at e1; cases e1
      · cases hr with
        | convert _ _ _ z he => rw [he] at e2; cases e2; exact ⟨_, .convert s b x u e1, rows_store h x huv hu'⟩
        | convertErr _ _ _ err he => rw [he] at e2; cases e2
  | .seq p q, hp, s, t, h => by
    refine ⟨fun o s' hr => ?_, fun o t' hr => ?_⟩
    · cases hr with
      | seq _ m _ _ _ _ r1 r2 =>
        obtain ⟨t1, g1, h1⟩ := (c118_rows hp.1 h).1 _ _ r1
        obtain ⟨t2, g2, h2⟩ := (c118_rows hp.2 h1).1 _ _ r2
        exact ⟨t2, .seq t t1 t2 p q o g1 g2, h2⟩
      | seqErr _ _ _ _ err r1 =>
        obtain ⟨t1, g1, h1⟩ := (c118_rows hp.1 h).1 _ _ r1
        exact ⟨t1, .seqErr t t1 p q err g1, h1⟩
    · cases hr with
      | seq _ m _ _ _ _ r1 r2 =>
        obtain ⟨t1, g1, h1⟩ := (c118_rows hp.1 h).2 _ _ r1
        obtain ⟨t2, g2, h2⟩ := (c118_rows hp.2 h1).2 _ _ r2
        exact ⟨t2, .seq s t1 t2 p q o g1 g2, h2⟩
      | seqErr _ _ _ _ err r1 =>
        obtain ⟨t1, g1, h1⟩ := (c118_rows hp.1 h).2 _ _ r1
        exact ⟨t1, .seqErr s t1 p q err g1, h1⟩
  | .attempt p q, hp, s, t, h => by
    refine ⟨fun o s' hr => ?_, fun o t' hr => ?_⟩
    · cases hr with
      | attempt _ _ _ _ r1 =>
        obtain ⟨t1, g1, h1⟩ := (c118_rows hp.1 h).1 _ _ r1
        exact ⟨t1, .attempt t t1 p q g1, h1⟩
      | rescue _ m _ _ _ err _ r1 r2 =>
        obtain ⟨t1, g1, h1⟩ := (c118_rows hp.1 h).1 _ _ r1
        obtain ⟨t2, g2, h2⟩ := (c118_rows hp.2 h1).1 _ _ r2
        exact ⟨t2, .rescue t t1 t2 p q err o g1 g2, h2⟩
    · cases hr with
      | attempt _ _ _ _ r1 =>
        obtain ⟨t1, g1, h1⟩ := (c118_rows hp.1 h).2 _ _ r1
        exact ⟨t1, .attempt s t1 p q g1, h1⟩
      | rescue _ m _ _ _ err _ r1 r2 =>
        obtain ⟨t1, g1, h1⟩ := (c118_rows hp.1 h).2 _ _ r1
        obtain ⟨t2, g2, h2⟩ := (c118_rows hp.2 h1).2 _ _ r2
        exact ⟨t2, .rescue s t1 t2 p q err o g1 g2, h2⟩
  | .ite c p q, hp, _, _, _ => absurd hp id
  | .while c p, hp, _, _, _ => absurd hp id

section
open Verif.Accel Verif.Mask
variable {K : Type} [Field K] [LinearOrder K] [IsStrictOrderedRing K] {m : Nat}

/-- C118. Such a program, run with fields read with a mask, ends as with the whole fields, and what it computes is what the mask would
load from a file that holds what the program computes from the whole fields. -/
theorem c118_masked (f : File K m) (hf : WF f) (ops : List (Op K)) (hi : ∀ op ∈ ops, IndicesOk f op) (k : Fin m) (lay : Nat → Layout)
    (hlay : ∀ i, lay i ≠ .remote ∧ ∀ c, lay i = .chunked c → 0 < c) {s t : State} (hv : t.vars = s.vars) (hx : t.next = s.next)
    (hn : ∀ l, (s.heap l).val.length = f.rows k)
    (hload : ∀ l, load (run f ops) (lay l) (s.heap l).val k = .ok ((t.heap l).val.map some))
    (hattr : ∀ l, (t.heap l).comoving = (s.heap l).comoving ∧ (t.heap l).cf = (s.heap l).cf ∧ (t.heap l).vt = (s.heap l).vt) {p : Stmt}
    (hp : RowProgram p) {o o' : Option Err} {s' t' : State} (hs : Runs s p o s') (ht : Runs t p o' t') :
    o' = o ∧ ∀ i, (t'.env i).comoving = (s'.env i).comoving ∧ (t'.env i).cf = (s'.env i).cf ∧ (t'.env i).vt = (s'.env i).vt ∧
      ∀ l : Layout, l ≠ .remote → (∀ c, l = .chunked c → 0 < c) →
        load (run f ops) l (s'.env i).val k = .ok ((t'.env i).val.map some) := by
  obtain ⟨rows, hrows⟩ := c115_mask_rows f hf ops hi k
  have h0 : RowsOfState (s.heap 0).val.length rows s t := by
    refine ⟨hv, hx, fun l => ⟨?_, (hattr l).1, (hattr l).2.1, (hattr l).2.2⟩, fun l => ?_⟩
    · have h := hrows ℝ (s.heap l).val (lay l) (hn l) (hlay l).1 (hlay l).2
      rw [hload l] at h
      exact Except.ok.inj h
    · have h1 := hn l
      have h2 := hn 0
      omega
  obtain ⟨t1, g1, h1⟩ := (c118_rows hp h0).1 _ _ hs
  obtain ⟨rfl, rfl⟩ := c117_unique g1 _ _ ht
  refine ⟨rfl, fun i => ?_⟩
  have h := (rows_env h1).1 i
  refine ⟨h.comoving, h.cf, h.vt, fun l hl hc => ?_⟩
  have hlen : ((s'.env i).val.length : Int) = f.rows k := by
    have h2 := hn 0
    have h3 := (rows_env h1).2 i
    omega
  rw [hrows ℝ (s'.env i).val l (by omega) hl hc, h.vals]

end

/-! Examples: comoving lengths `[1, 5]` and `[2, 4]` at `a = 1/2`, and their first rows. -/

private noncomputable def lenX : Arr := ⟨[1, 5], some true, some ⟨some 1, some (1 / 2)⟩, true⟩
private noncomputable def lenY : Arr := ⟨[2, 4], some true, some ⟨some 1, some (1 / 2)⟩, true⟩
private noncomputable def allS : State := ⟨id, fun l => if l = 0 then lenX else lenY, 2⟩
private noncomputable def firstS : State := ⟨id, fun l => if l = 0 then { lenX with val := [1] } else { lenY with val := [2] }, 2⟩

private theorem firstS_rows : RowsOfState 2 [0] allS firstS := by
  refine ⟨rfl, rfl, fun l => ?_, fun l => ?_⟩
  · by_cases hl : l = 0
    · simp only [allS, firstS, hl, if_true]
      exact ⟨rfl, rfl, rfl, rfl⟩
    · simp only [allS, firstS, hl, if_false]
      exact ⟨rfl, rfl, rfl, rfl⟩
  · by_cases hl : l = 0
    · simp only [allS, hl, if_true]
      rfl
    · simp only [allS, hl, if_false]
      rfl

private theorem conv_all (i : Nat) : Conv (1 / 2) 1 (allS.env i) ∧ Conv (1 / 2) 1 (firstS.env i) := by
  by_cases hl : i = 0
  · simp only [allS, firstS, State.env, hl, id, if_true]
    exact ⟨⟨by norm_num, rfl, rfl, by simp [lenX]⟩, ⟨by norm_num, rfl, rfl, by simp [lenX]⟩⟩
  · simp only [allS, firstS, State.env, hl, id, if_false]
    exact ⟨⟨by norm_num, rfl, rfl, by simp [lenY]⟩, ⟨by norm_num, rfl, rfl, by simp [lenY]⟩⟩

/-- `np.all(x < y)`. -/
private def condS : Cond := ⟨.less, .var 0, .var 1, true⟩

private theorem condS_tests : test allS.env condS = .ok (∀ b ∈ [((1 : ℝ) * (1 / 2) < 2 * (1 / 2)), ((5 : ℝ) * (1 / 2) < 4 * (1 / 2))], b) ∧
    test firstS.env condS = .ok (∀ b ∈ [((1 : ℝ) * (1 / 2) < 2 * (1 / 2))], b) := by
  have h1 := c114_compare (by norm_num) (fun i => (conv_all i).1) (s := .var 0) (t := .var 1) (.var 0) (.var 1) id id .less (fun p q => p < q)
    (List.mem_cons_self ..)
  have h2 := c114_compare (by norm_num) (fun i => (conv_all i).2) (s := .var 0) (t := .var 1) (.var 0) (.var 1) id id .less (fun p q => p < q)
    (List.mem_cons_self ..)
  unfold test condS
  simp only [Cmp.ufunc, Cmp.rel]
  rw [h1, h2]
  constructor
  · simp [meaning, allS, State.env, Arr.phys, lenX, lenY, Except.bind, Except.map, bcast2]
  · simp [meaning, firstS, State.env, Arr.phys, lenX, lenY, Except.bind, Except.map, bcast2]

/-- C118 does not hold for programs that decide with comparisons, though all formulas are row by row: `if np.all(x < y): z = x` gives
another `z` for the first row than in the first row of all. -/
theorem c118_branches_fails : ∃ (c : Cond) (x y : Nat) (rows : List Int) (s t s' t' : State), RowByRow c.left ∧ RowByRow c.right ∧
    RowsOfState 2 rows s t ∧ Runs s (.ite c (.assign x (.var y)) .skip) none s' ∧ Runs t (.ite c (.assign x (.var y)) .skip) none t' ∧
      ¬ RowsOfArray rows (s'.env x) (t'.env x) := by
  refine ⟨condS, 2, 0, [0], allS, firstS, _, _, trivial, trivial, firstS_rows,
    .iteFalse _ _ _ _ _ _ _ condS_tests.1 (fun h => by
      have := h ((5 : ℝ) * (1 / 2) < 4 * (1 / 2)) (List.mem_cons_of_mem _ (List.mem_cons_self ..))
      norm_num at this) (.skip _), .iteTrue _ _ _ _ _ _ _ condS_tests.2 (by norm_num) (.name _ _ _), ?_⟩
  intro h
  have := h.vals
  simp [State.env, allS, firstS, lenX, lenY, select, valueAt] at this

/-- `x += y; z = x; z.convert_to_physical()` with all rows and with the first one. -/
example : RowProgram (.seq (.into 0 (.two .add (.var 0) (.var 1))) (.seq (.assign 2 (.var 0)) (.convert true 2))) ∧
    RowsOfState 2 [0] allS firstS ∧
    ∃ s' t', Runs allS (.seq (.into 0 (.two .add (.var 0) (.var 1))) (.seq (.assign 2 (.var 0)) (.convert true 2))) none s' ∧
      Runs firstS (.seq (.into 0 (.two .add (.var 0) (.var 1))) (.seq (.assign 2 (.var 0)) (.convert true 2))) none t' ∧
      (s'.env 0).phys = [3 / 2, 9 / 2] ∧ RowsOfArray [0] (s'.env 0) (t'.env 0) := by
  have hp : RowProgram (.seq (.into 0 (.two .add (.var 0) (.var 1))) (.seq (.assign 2 (.var 0)) (.convert true 2))) :=
    ⟨⟨trivial, trivial⟩, trivial, trivial⟩
  refine ⟨hp, firstS_rows, ?_⟩
  have ht : Tallies (1 / 2) allS ⟨id, fun _ => 1, fun l => (allS.heap l).phys, 2⟩ := ⟨rfl, rfl, fun l => (conv_all l).1, fun l => rfl⟩
  have hm : Computes ⟨id, fun _ => 1, fun l => (allS.heap l).phys, 2⟩
      (.seq (.into 0 (.two .add (.var 0) (.var 1))) (.seq (.assign 2 (.var 0)) (.convert true 2))) none
      ⟨Function.update id 2 0, Function.update (fun _ => 1) 0 1, Function.update (fun l => (allS.heap l).phys) 0 [3 / 2, 9 / 2], 2⟩ := by
    refine .seq _ _ _ _ _ _ (.into _ _ _ 1 [3 / 2, 9 / 2] (.sum (by simp) (.var 0) (.var 1)) (fun h => h.1) ?_ ?_)
      (.seq _ _ _ _ _ _ (.name _ _ _) (.convert _ _ _))
    · simp [meaning, Ledger.vals, allS, lenX, lenY, Arr.phys, Except.bind, bcast2, numbers2]
      norm_num
    · simp [Ledger.vals, allS, lenX, Arr.phys]
  obtain ⟨⟨s', hs⟩, hu⟩ := c117_programs ht hm
  obtain ⟨t', hr, h⟩ := (c118_rows hp firstS_rows).1 _ _ hs
  refine ⟨s', t', hs, hr, ?_, (rows_env h).1 0⟩
  obtain ⟨-, hf⟩ := hu _ _ hs
  have h0 := hf.phys 0
  unfold State.env
  rw [hf.vars]
  simpa using h0

section
open Verif.Accel Verif.Mask

def regionS : List (Op ℚ) := [.spatial [some [5 / 4, 9 / 4], none, none] false]

theorem regionS_ok : ∀ op ∈ regionS, IndicesOk exFile op := by
  intro op hop
  rw [regionS, List.mem_singleton] at hop
  rw [hop]
  trivial

theorem regionS_loads {α : Type} (ds : List α) (hd : ds.length = 6) :
    load (run exFile regionS) .contiguous ds 0 = .ok (select ds [2, 3]) := by
  obtain ⟨rows, hr⟩ := c115_mask_rows exFile exFile_wf regionS regionS_ok 0
  have e : load (run exFile regionS) .contiguous (List.range 6) 0 = .ok [some 2, some 3] := by decide +kernel
  have e2 := hr ℕ (List.range 6) .contiguous rfl (by simp) (by simp)
  rw [e] at e2
  have e3 : rows = [2, 3] := by
    have at' : ∀ (i : Int) (j : Nat), valueAt (List.range 6) i = some j → i = j := by
      intro i j hi
      unfold valueAt at hi
      split_ifs at hi with h0
      obtain ⟨h1, h2⟩ := List.getElem?_eq_some_iff.1 hi
      rw [List.getElem_range] at h2
      omega
    have h := (Except.ok.inj e2).symm
    match rows, h with
    | [a, b], h =>
      simp only [select, List.map_cons, List.map_nil, List.cons.injEq, and_true] at h
      rw [at' a 2 h.1, at' b 3 h.2]
      rfl
    | [], h => simp [select] at h
    | [_], h => simp [select] at h
    | _ :: _ :: _ :: _, h => simp [select] at h
  rw [hr α ds .contiguous (by rw [hd]; rfl) (by simp) (by simp), e3]

private noncomputable def sixX : Arr := ⟨[1, 2, 3, 4, 5, 6], some true, some ⟨some 1, some (1 / 2)⟩, true⟩

/-- `y = x; y.convert_to_physical()` with six lengths and with the third and fourth, which a region of the box has. -/
example : ∃ s' t', Runs ⟨id, fun _ => sixX, 1⟩ (.seq (.assign 1 (.var 0)) (.convert true 1)) none s' ∧
    Runs ⟨id, fun _ => { sixX with val := [3, 4] }, 1⟩ (.seq (.assign 1 (.var 0)) (.convert true 1)) none t' ∧
    (s'.env 1).comoving = (t'.env 1).comoving ∧
    load (run exFile regionS) (.chunked 4) (s'.env 1).val 0 = .ok ((t'.env 1).val.map some) := by
  have hs : ∃ s', Runs ⟨id, fun _ => sixX, 1⟩ (.seq (.assign 1 (.var 0)) (.convert true 1)) none s' :=
    ⟨_, .seq _ _ _ _ _ _ (.name _ _ _) (.convert _ _ _ _ rfl)⟩
  have ht : ∃ t', Runs ⟨id, fun _ => { sixX with val := [3, 4] }, 1⟩ (.seq (.assign 1 (.var 0)) (.convert true 1)) none t' :=
    ⟨_, .seq _ _ _ _ _ _ (.name _ _ _) (.convert _ _ _ _ rfl)⟩
  obtain ⟨s', hs⟩ := hs
  obtain ⟨t', ht⟩ := ht
  have h := (c118_masked exFile exFile_wf regionS regionS_ok 0 (fun _ => .contiguous) (fun _ => ⟨by simp, by simp⟩) (s := ⟨id, fun _ => sixX, 1⟩)
    (t := ⟨id, fun _ => { sixX with val := [3, 4] }, 1⟩) rfl rfl (fun _ => rfl) (fun _ => regionS_loads _ rfl) (fun _ => ⟨rfl, rfl, rfl⟩)
    (p := .seq (.assign 1 (.var 0)) (.convert true 1)) ⟨trivial, trivial⟩ hs ht).2 1
  exact ⟨s', t', hs, ht, h.1.symm, h.2.2.2 (.chunked 4) (by simp) (by simp)⟩

end

end Verif.Props
