import Verif.Spec.UnitProgramRows
import Verif.Props.UnitPrograms
import Verif.Props.ProgramRows

/-!
# Programs with units on some rows of the arrays (C128)
-/

namespace Verif.Props
open Verif Verif.Cosmo Verif.Formulas Verif.UnitFormulas Verif.UnitPrograms Verif.Spec

variable {D : Type} [AddCommGroup D] [Module ℝ D]

private theorem valueAt_map {α β : Type} (f : α → β) (l : List α) (i : Int) : valueAt (l.map f) i = (valueAt l i).map f := by
  unfold valueAt
  split_ifs <;> simp

private theorem rowsOf_map (f : ℝ → ℝ) {v w : List ℝ} {rows : List Int} (h : RowsOf rows v w) : RowsOf rows (v.map f) (w.map f) := by
  unfold RowsOf at *
  have h2 : select (v.map f) rows = (select v rows).map (Option.map f) := by simp [select, valueAt_map]
  rw [h2, ← h]
  simp

private theorem rowsOf_zip (f : ℝ → ℝ → ℝ) {l m : List ℝ} : ∀ {rows : List Int} {l' m' : List ℝ},
    RowsOf rows l l' → RowsOf rows m m' → RowsOf rows (List.zipWith f l m) (List.zipWith f l' m')
  | [], [], [], _, _ => rfl
  | [], [], _ :: _, _, h => by simp [RowsOf, select] at h
  | [], _ :: _, _, h, _ => by simp [RowsOf, select] at h
  | _ :: _, [], _, h, _ => by simp [RowsOf, select] at h
  | _ :: _, _ :: _, [], _, h => by simp [RowsOf, select] at h
  | i :: rows, x :: l', y :: m', h1, h2 => by
    simp only [RowsOf, select, List.map_cons, List.cons.injEq] at h1 h2
    have ih := rowsOf_zip f (rows := rows) (l' := l') (m' := m') h1.2 h2.2
    simp only [RowsOf, select] at ih
    simp only [RowsOf, select, List.map_cons, List.zipWith_cons_cons, List.cons.injEq]
    refine ⟨?_, ih⟩
    have e1 := h1.1
    have e2 := h2.1
    unfold valueAt at e1 e2 ⊢
    by_cases hi : i < 0
    · rw [if_pos hi] at e1; cases e1
    · rw [if_neg hi] at e1 e2 ⊢
      simp [List.getElem?_zipWith, ← e1, ← e2]

private theorem rowsOf_length {v w : List ℝ} {rows : List Int} (h : RowsOf rows v w) : w.length = rows.length := by
  have := congrArg List.length h
  simpa [select] using this

private theorem bcast_left (f : ℝ → ℝ → ℝ) (c : ℝ) (v : List ℝ) : bcast2 f [c] v = .ok (v.map (fun y => f c y)) := by
  unfold bcast2
  split_ifs with h
  · match v, h with
    | [y], _ => rfl
  · match v with
    | [] => rfl
    | [y] => rfl
    | _ :: _ :: _ => rfl

private theorem bcast_right (f : ℝ → ℝ → ℝ) (c : ℝ) (v : List ℝ) : bcast2 f v [c] = .ok (v.map (fun x => f x c)) := by
  unfold bcast2
  split_ifs with h
  · match v, h with
    | [y], _ => rfl
  · match v, h with
    | [], _ => rfl
    | [y], h => exact absurd rfl h
    | _ :: _ :: _, _ => rfl

private theorem bcast_same (f : ℝ → ℝ → ℝ) {v w : List ℝ} (h : v.length = w.length) : bcast2 f v w = .ok (List.zipWith f v w) := by
  unfold bcast2
  rw [if_pos h]

private theorem meaning_rows {n : Nat} {rows : List Int} {vals vals' : Nat → List ℝ} (hv : ∀ i, RowsOf rows (vals i) (vals' i))
    (hn : ∀ i, (vals i).length = n) : ∀ {e : Expr}, RowByRow e →
    (Bare e ∧ ∃ c, meaning vals e = .ok [c] ∧ meaning vals' e = .ok [c]) ∨
      (¬ Bare e ∧ ∃ v w, meaning vals e = .ok v ∧ meaning vals' e = .ok w ∧ RowsOf rows v w ∧ v.length = n)
  | .var i, _ => .inr ⟨id, _, _, rfl, rfl, hv i, hn i⟩
  | .nums _, ⟨c, h⟩ => .inl ⟨trivial, c, by rw [h]; rfl, by rw [h]; rfl⟩
  | .two f s t, ⟨hs, ht⟩ => by
    simp only [meaning]
    rcases meaning_rows hv hn hs with ⟨bs, c, e1, e2⟩ | ⟨bs, v, w, e1, e2, h1, l1⟩ <;>
      rcases meaning_rows hv hn ht with ⟨bt, d, f1, f2⟩ | ⟨bt, x, y, f1, f2, h2, l2⟩ <;>
      rw [e1, e2, f1, f2] <;> simp only [Except.bind]
    · exact .inl ⟨⟨bs, bt⟩, numbers2 f c d, by rw [bcast_left]; rfl, by rw [bcast_left]; rfl⟩
    · refine .inr ⟨fun h => bt h.2, _, _, bcast_left .., bcast_left .., rowsOf_map _ h2, by simpa using l2⟩
    · refine .inr ⟨fun h => bs h.1, _, _, bcast_right .., bcast_right .., rowsOf_map _ h1, by simpa using l1⟩
    · refine .inr ⟨fun h => bs h.1, _, _, bcast_same _ (l1.trans l2.symm), bcast_same _ ((rowsOf_length h1).trans (rowsOf_length h2).symm),
        rowsOf_zip _ h1 h2, by simp [l1, l2]⟩
  | .one f s, hs => by
    simp only [meaning]
    rcases meaning_rows hv hn (e := s) hs with ⟨bs, c, e1, e2⟩ | ⟨bs, v, w, e1, e2, h1, l1⟩ <;> rw [e1, e2] <;> simp only [Except.map]
    · exact .inl ⟨bs, numbers1 f c, rfl, rfl⟩
    · exact .inr ⟨bs, _, _, rfl, rfl, rowsOf_map _ h1, by simpa using l1⟩
  | .pow s q, hs => by
    simp only [meaning]
    rcases meaning_rows hv hn (e := s) hs with ⟨bs, c, e1, e2⟩ | ⟨bs, v, w, e1, e2, h1, l1⟩ <;> rw [e1, e2] <;> simp only [Except.map]
    · exact .inl ⟨bs, c ^ q, rfl, rfl⟩
    · exact .inr ⟨bs, _, _, rfl, rfl, rowsOf_map _ h1, by simpa using l1⟩
  | .whole f s, h => absurd h id
  | .physical s, hs => meaning_rows hv hn (e := s) hs
  | .comoving s, hs => meaning_rows hv hn (e := s) hs

/-- C128. A formula of some rows of arrays with units: its amounts are these rows of the amounts of the formula of the whole arrays.
The frames and units of the rows need not be those of the whole arrays. -/
theorem c128_rows {n : Nat} {rows : List Int} {a : ℝ} (ha : 0 < a) {ks : Nat → ℝ} {ds : Nat → D} {env env' : Nat → Arr × U D}
    (henv : ∀ i, Conv a (ks i) (env i).1) (henv' : ∀ i, Conv a (ks i) (env' i).1) (hsz : ∀ i, 0 < (env i).2.size)
    (hsz' : ∀ i, 0 < (env' i).2.size) (hdim : ∀ i, (env i).2.dim = ds i) (hdim' : ∀ i, (env' i).2.dim = ds i)
    (hrows : ∀ i, RowsOf rows (amounts (env i)) (amounts (env' i))) (hn : ∀ i, (env i).1.val.length = n) {e : UExpr D} {k : ℝ} {d : D}
    (hd : Measures ds e d) (hk : Dimension ks (ofAmounts e) k) (hr : RowByRow (ofAmounts e)) (hb : ¬ Bare (ofAmounts e)) :
    ∃ z z' : Arr × U D, evalU env e = .ok (.cosmo z.1, z.2) ∧ evalU env' e = .ok (.cosmo z'.1, z'.2) ∧
      RowsOf rows (amounts z) (amounts z') ∧ z.1.val.length = n ∧ z'.2.dim = z.2.dim ∧ z'.1.cf = z.1.cf := by
  have h1 := c125_value ha henv hsz hdim hd hk
  have h2 := c125_value ha henv' hsz' hdim' hd hk
  rcases meaning_rows hrows (fun i => (amounts_len _).trans (hn i)) hr with ⟨h, -⟩ | ⟨-, v, w, e1, e2, h3, l3⟩
  · exact absurd h hb
  rw [e1] at h1
  rw [e2] at h2
  cases hr1 : evalU env e with
  | error err => rw [hr1] at h1; cases h1
  | ok r => cases hr2 : evalU env' e with
    | error err => rw [hr2] at h2; cases h2
    | ok r' =>
      obtain ⟨-, d1, -, g1⟩ := c125_result ha henv hsz hdim hd hk hr1
      obtain ⟨-, d2, -, g2⟩ := c125_result ha henv' hsz' hdim' hd hk hr2
      obtain ⟨x, rx, cx⟩ := g1 hb
      obtain ⟨y, ry, cy⟩ := g2 hb
      obtain ⟨r, u⟩ := r
      obtain ⟨r', u'⟩ := r'
      dsimp only at rx ry d1 d2
      subst rx ry
      rw [hr1] at h1
      rw [hr2] at h2
      have q1 : amounts (x, u) = v := Except.ok.inj h1
      have q2 : amounts (y, u') = w := Except.ok.inj h2
      refine ⟨(x, u), (y, u'), rfl, rfl, by rw [q1, q2]; exact h3, ?_, d2.trans d1.symm, cy.cf.trans cx.cf.symm⟩
      rw [← amounts_len (x, u), q1]
      exact l3

private theorem rows_suits {n : Nat} {rows : List Int} {σ τ : Account D} (h : RowsOfAccount n rows σ τ) {e : UExpr D} {k : ℝ} {d : D}
    (hd : Suits σ e k d) : Suits τ e k d := by
  unfold Suits at *
  rw [h.vars, h.exps, h.dims]
  exact hd

private theorem rows_symm_suits {n : Nat} {rows : List Int} {σ τ : Account D} (h : RowsOfAccount n rows σ τ) {e : UExpr D} {k : ℝ} {d : D}
    (hd : Suits τ e k d) : Suits σ e k d := by
  unfold Suits at *
  rw [h.vars, h.exps, h.dims] at hd
  exact hd

private theorem rows_meaning {n : Nat} {rows : List Int} {σ τ : Account D} (h : RowsOfAccount n rows σ τ) {e : UExpr D}
    (hr : RowByRow (ofAmounts e)) :
    (Bare (ofAmounts e) ∧ ∃ c, meaning σ.vals (ofAmounts e) = .ok [c] ∧ meaning τ.vals (ofAmounts e) = .ok [c]) ∨
      (¬ Bare (ofAmounts e) ∧ ∃ v w, meaning σ.vals (ofAmounts e) = .ok v ∧ meaning τ.vals (ofAmounts e) = .ok w ∧ RowsOf rows v w ∧ v.length = n) :=
  meaning_rows (fun i => by unfold Account.vals; rw [h.vars]; exact h.nums _) (fun i => h.length _) hr

/-- Some arrays with these amounts, exponents and dimensions. -/
private theorem some_state {a : ℝ} (ha : 0 < a) (σ : Account D) : ∃ s, Balances a s σ := by
  refine ⟨⟨σ.vars, fun l => (⟨σ.nums l, some false, some ⟨some (σ.exps l), some a⟩, true⟩, ⟨1, σ.dims l⟩), σ.next⟩, rfl, rfl,
    fun l => ⟨ha, rfl, rfl, nofun⟩, fun l => one_pos, fun l => rfl, fun l => ?_⟩
  simp [amounts, Arr.phys]

private theorem not_both {a : ℝ} (ha : 0 < a) {σ : Account D} {e : UExpr D} {k : ℝ} {d : D} {v : List ℝ} {err : Err} (hd : Suits σ e k d)
    (hv : meaning σ.vals (ofAmounts e) = .ok v) (hf : Fails a σ e err) : False := by
  obtain ⟨s, hs⟩ := some_state ha σ
  obtain ⟨r, hr⟩ := evalU_some hs hd hv
  rw [evalU_error hs hf] at hr
  cases hr

private theorem fails_value {n : Nat} {rows : List Int} {a : ℝ} {σ τ : Account D} (h : RowsOfAccount n rows σ τ) {e : UExpr D} {err : Err} :
    (Fails a σ e err ∨ Fails a τ e err) → RowByRow (ofAmounts e) → err = .value := by
  rintro (hf | hf)
  · induction hf with
    | @numbers e k d err hd he =>
      intro hr
      rcases rows_meaning h hr with ⟨-, c, e1, -⟩ | ⟨-, v, w, e1, -⟩ <;> rw [e1] at he <;> cases he
    | sum => exact fun _ => rfl
    | factor => exact fun _ => rfl
    | unit => exact fun _ => rfl
    | left _ ih => exact fun hr => ih hr.1
    | right _ _ _ ih => exact fun hr => ih hr.2
    | one _ ih => exact fun hr => ih hr
    | pow _ ih => exact fun hr => ih hr
    | whole _ ih => exact fun hr => absurd hr id
    | physical _ ih => exact fun hr => ih hr
    | comoving _ ih => exact fun hr => ih hr
    | convert _ ih => exact fun hr => ih hr
    | times _ ih => exact fun hr => ih hr.1
  · induction hf with
    | @numbers e k d err hd he =>
      intro hr
      rcases rows_meaning h hr with ⟨-, c, -, e1⟩ | ⟨-, v, w, -, e1, -⟩ <;> rw [e1] at he <;> cases he
    | sum => exact fun _ => rfl
    | factor => exact fun _ => rfl
    | unit => exact fun _ => rfl
    | left _ ih => exact fun hr => ih hr.1
    | right _ _ _ ih => exact fun hr => ih hr.2
    | one _ ih => exact fun hr => ih hr
    | pow _ ih => exact fun hr => ih hr
    | whole _ ih => exact fun hr => absurd hr id
    | physical _ ih => exact fun hr => ih hr
    | comoving _ ih => exact fun hr => ih hr
    | convert _ ih => exact fun hr => ih hr
    | times _ ih => exact fun hr => ih hr.1

private theorem rows_new {n : Nat} {rows : List Int} {σ τ : Account D} (h : RowsOfAccount n rows σ τ) (x : Nat) (k : ℝ) (d : D) {v w : List ℝ}
    (hvw : RowsOf rows v w) (hn : v.length = n) :
    RowsOfAccount n rows
      ⟨Function.update σ.vars x σ.next, Function.update σ.exps σ.next k, Function.update σ.dims σ.next d, Function.update σ.nums σ.next v, σ.next + 1⟩
      ⟨Function.update τ.vars x τ.next, Function.update τ.exps τ.next k, Function.update τ.dims τ.next d, Function.update τ.nums τ.next w, τ.next + 1⟩ := by
  refine ⟨by simp only [h.vars, h.next], by simp only [h.next], by simp only [h.exps, h.next], by simp only [h.dims, h.next], fun l => ?_, fun l => ?_⟩
  · simp only [h.next]
    by_cases hl : l = σ.next
    · subst hl; simpa using hvw
    · simpa [hl] using h.nums l
  · by_cases hl : l = σ.next
    · subst hl; simpa using hn
    · simpa [hl] using h.length l

private theorem rows_store {n : Nat} {rows : List Int} {σ τ : Account D} (h : RowsOfAccount n rows σ τ) (x : Nat) (k : ℝ) (d : D) {v w : List ℝ}
    (hvw : RowsOf rows v w) (hn : v.length = n) :
    RowsOfAccount n rows
      ⟨σ.vars, Function.update σ.exps (σ.vars x) k, Function.update σ.dims (σ.vars x) d, Function.update σ.nums (σ.vars x) v, σ.next⟩
      ⟨τ.vars, Function.update τ.exps (τ.vars x) k, Function.update τ.dims (τ.vars x) d, Function.update τ.nums (τ.vars x) w, τ.next⟩ := by
  refine ⟨h.vars, h.next, by simp only [h.exps, h.vars], by simp only [h.dims, h.vars], fun l => ?_, fun l => ?_⟩
  · simp only [h.vars]
    by_cases hl : l = σ.vars x
    · subst hl; simpa using hvw
    · simpa [hl] using h.nums l
  · by_cases hl : l = σ.vars x
    · subst hl; simpa using hn
    · simpa [hl] using h.length l

private theorem suits_unique {a : ℝ} (ha : 0 < a) {σ : Account D} {e : UExpr D} {k k' : ℝ} {d d' : D} {v : List ℝ} (hd : Suits σ e k d)
    (hd' : Suits σ e k' d') (hb : ¬ Bare (ofAmounts e)) (hv : meaning σ.vals (ofAmounts e) = .ok v) : k' = k ∧ d' = d := by
  obtain ⟨s, hs⟩ := some_state ha σ
  obtain ⟨z, e1, c1, -, d1, -⟩ := evalU_ok hs hd hb hv
  obtain ⟨z', e2, c2, -, d2, -⟩ := evalU_ok hs hd' hb hv
  rw [e1] at e2
  simp only [Except.ok.injEq, Prod.mk.injEq, Opd.cosmo.injEq] at e2
  have h1 := c1.cf
  rw [e2.1, c2.cf] at h1
  simp only [Option.some.injEq, CF.mk.injEq] at h1
  exact ⟨h1.1, by rw [← d1, ← d2, e2.2]⟩

/-- For the account: if both are defined, what a program does with some rows are these rows of what it does with all. -/
private theorem rows_both {n : Nat} {rows : List Int} {a : ℝ} (ha : 0 < a) {b b' : Bool} {σ σ' : Account D} {p : Stmt D} {o : Option Err}
    (hm : Performs a b σ p o σ') : ∀ {τ τ' : Account D} {o' : Option Err}, RowsOfAccount n rows σ τ → RowWise p → Performs a b' τ p o' τ' →
      o' = o ∧ RowsOfAccount n rows σ' τ' := by
  induction hm with
  | skip σ => intro τ τ' o' h hp hm'; cases hm'; exact ⟨rfl, h⟩
  | name σ x y =>
    intro τ τ' o' h hp hm'
    cases hm' with
    | name => exact ⟨rfl, by simp only [h.vars], h.next, h.exps, h.dims, h.nums, h.length⟩
    | assign _ _ _ k d v hv => exact absurd rfl (hv y)
    | assignErr _ _ _ err he => cases he with | numbers _ he => cases he
  | assign σ x e k d v hv hd hb he =>
    intro τ τ' o' h hp hm'
    rcases rows_meaning h hp with ⟨h1, -⟩ | ⟨-, v1, w1, e1, e2, h3, l3⟩
    · exact absurd h1 hb
    cases he.symm.trans e1
    cases hm' with
    | name _ _ y => exact absurd rfl (hv y)
    | assign _ _ _ k' d' v' hv' hd' hb' he' =>
      cases he'.symm.trans e2
      obtain ⟨rfl, rfl⟩ := suits_unique ha (rows_suits h hd) hd' hb e2
      exact ⟨rfl, rows_new h x _ _ h3 l3⟩
    | assignErr _ _ _ err he' => exact (not_both ha (rows_suits h hd) e2 he').elim
  | assignErr σ x e err he =>
    intro τ τ' o' h hp hm'
    cases hm' with
    | name _ _ y => cases he with | numbers _ he => cases he
    | assign _ _ _ k' d' v' hv' hd' hb' he' =>
      rcases rows_meaning h hp with ⟨h1, -⟩ | ⟨-, v1, w1, e1, e2, h3, l3⟩
      · exact absurd h1 hb'
      · exact (not_both ha (rows_symm_suits h hd') e1 he).elim
    | assignErr _ _ _ err' he' => exact ⟨by rw [fails_value h (.inl he) hp, fails_value h (.inr he') hp], h⟩
  | into σ x e k d v hd hb he hl =>
    intro τ τ' o' h hp hm'
    rcases rows_meaning h hp with ⟨h1, -⟩ | ⟨-, v1, w1, e1, e2, h3, l3⟩
    · exact absurd h1 hb
    cases he.symm.trans e1
    cases hm' with
    | into _ _ _ k' d' v' hd' hb' he' hl' =>
      cases he'.symm.trans e2
      obtain ⟨rfl, rfl⟩ := suits_unique ha (rows_suits h hd) hd' hb e2
      exact ⟨rfl, rows_store h x _ _ h3 l3⟩
    | intoShape _ _ _ k' d' v' hd' hb' he' hl' =>
      cases he'.symm.trans e2
      refine absurd ?_ hl'
      rw [rowsOf_length h3]
      exact (rowsOf_length (h.nums _)).symm
    | intoErr _ _ _ err he' => exact (not_both ha (rows_suits h hd) e2 he').elim
  | intoShape σ x e k d v hd hb he hl =>
    intro τ τ' o' h hp hm'
    rcases rows_meaning h hp with ⟨h1, -⟩ | ⟨-, v1, w1, e1, e2, h3, l3⟩
    · exact absurd h1 hb
    cases he.symm.trans e1
    exact absurd (l3.trans (h.length _).symm) hl
  | intoErr σ x e err he =>
    intro τ τ' o' h hp hm'
    cases hm' with
    | into _ _ _ k' d' v' hd' hb' he' hl' =>
      rcases rows_meaning h hp with ⟨h1, -⟩ | ⟨-, v1, w1, e1, e2, h3, l3⟩
      · exact absurd h1 hb'
      · exact (not_both ha (rows_symm_suits h hd') e1 he).elim
    | intoShape _ _ _ k' d' v' hd' hb' he' hl' =>
      rcases rows_meaning h hp with ⟨h1, -⟩ | ⟨-, v1, w1, e1, e2, h3, l3⟩
      · exact absurd h1 hb'
      · exact (not_both ha (rows_symm_suits h hd') e1 he).elim
    | intoErr _ _ _ err' he' => exact ⟨by rw [fails_value h (.inl he) hp, fails_value h (.inr he') hp], h⟩
  | convert σ c v x hu =>
    intro τ τ' o' h hp hm'
    cases hm' with
    | convert => exact ⟨rfl, h⟩
    | convertErr _ _ u _ hs hu' => exact absurd (by rw [h.vars, h.dims]; exact (hu u rfl).2) hu'
  | convertErr σ c u x hs hu =>
    intro τ τ' o' h hp hm'
    cases hm' with
    | convert _ _ _ _ hu' => exact absurd (by have := (hu' u rfl).2; rwa [h.vars, h.dims] at this) hu
    | convertErr => exact ⟨rfl, h⟩
  | seq σ τ υ p q o h1 h2 ih1 ih2 =>
    intro τ τ' o' h hp hm'
    cases hm' with
    | seq _ _ _ _ _ _ g1 g2 => exact ih2 (ih1 h hp.1 g1).2 hp.2 g2
    | seqErr _ _ _ _ err g1 => cases (ih1 h hp.1 g1).1
  | seqErr σ τ p q err h1 ih1 =>
    intro τ τ' o' h hp hm'
    cases hm' with
    | seq _ _ _ _ _ _ g1 g2 => cases (ih1 h hp.1 g1).1
    | seqErr _ _ _ _ err g1 => exact ih1 h hp.1 g1
  | iteErr => exact fun _ hp => absurd hp id
  | iteTrue => exact fun _ hp => absurd hp id
  | iteFalse => exact fun _ hp => absurd hp id
  | whileErr => exact fun _ hp => absurd hp id
  | whileDone => exact fun _ hp => absurd hp id
  | whileStep => exact fun _ hp => absurd hp id
  | whileStop => exact fun _ hp => absurd hp id
  | attempt σ τ p q h1 ih1 =>
    intro τ τ' o' h hp hm'
    cases hm' with
    | attempt _ _ _ _ g1 => exact ih1 h hp.1 g1
    | rescue _ _ _ _ _ err _ g1 g2 => cases (ih1 h hp.1 g1).1
  | rescue σ τ υ p q err o h1 h2 ih1 ih2 =>
    intro τ τ' o' h hp hm'
    cases hm' with
    | attempt _ _ _ _ g1 => cases (ih1 h hp.1 g1).1
    | rescue _ _ _ _ _ err _ g1 g2 => exact ih2 (ih1 h hp.1 g1).2 hp.2 g2

/-- What a program without `try` does without exceptions with all rows it does with some. -/
private theorem rows_performs {n : Nat} {rows : List Int} {a : ℝ} {b : Bool} {σ σ' : Account D} {p : Stmt D} {o : Option Err}
    (hm : Performs a b σ p o σ') : ∀ {τ : Account D}, o = none → RowsOfAccount n rows σ τ → RowWise p → NoAttempt p →
      ∃ τ', Performs a b τ p none τ' ∧ RowsOfAccount n rows σ' τ' := by
  induction hm with
  | skip σ => exact fun _ h _ _ => ⟨_, .skip _, h⟩
  | name σ x y => exact fun _ h _ _ => ⟨_, .name _ x y, by simp only [h.vars], h.next, h.exps, h.dims, h.nums, h.length⟩
  | assign σ x e k d v hv hd hb he =>
    intro τ _ h hp _
    rcases rows_meaning h hp with ⟨h1, -⟩ | ⟨-, v1, w1, e1, e2, h3, l3⟩
    · exact absurd h1 hb
    cases he.symm.trans e1
    exact ⟨_, .assign _ x e k d w1 hv (rows_suits h hd) hb e2, rows_new h x _ _ h3 l3⟩
  | into σ x e k d v hd hb he hl =>
    intro τ _ h hp _
    rcases rows_meaning h hp with ⟨h1, -⟩ | ⟨-, v1, w1, e1, e2, h3, l3⟩
    · exact absurd h1 hb
    cases he.symm.trans e1
    refine ⟨_, .into _ x e k d w1 (rows_suits h hd) hb e2 ?_, rows_store h x _ _ h3 l3⟩
    rw [rowsOf_length h3]
    exact (rowsOf_length (h.nums _)).symm
  | convert σ c v x hu => exact fun _ h _ _ => ⟨_, .convert _ c v x (by rw [h.vars, h.dims]; exact hu), h⟩
  | seq σ τ υ p q o h1 h2 ih1 ih2 =>
    intro τ ho h hp hq
    obtain ⟨τ1, g1, k1⟩ := ih1 rfl h hp.1 hq.1
    obtain ⟨τ2, g2, k2⟩ := ih2 ho k1 hp.2 hq.2
    exact ⟨τ2, .seq _ _ _ _ _ _ g1 g2, k2⟩
  | iteTrue => exact fun _ _ hp => absurd hp id
  | iteFalse => exact fun _ _ hp => absurd hp id
  | whileDone => exact fun _ _ hp => absurd hp id
  | whileStep => exact fun _ _ hp => absurd hp id
  | attempt => exact fun _ _ _ hq => absurd hq id
  | rescue => exact fun _ _ _ hq => absurd hq id
  | _ => exact fun h => nomatch h

private theorem rows_result {n : Nat} {rows : List Int} {a : ℝ} {s t : State D} {σ τ : Account D} (h : RowsOfAccount n rows σ τ)
    (hs : Balances a s σ) (ht : Balances a t τ) :
    t.vars = s.vars ∧ ∀ i, RowsOf rows (amounts (s.env i)) (amounts (t.env i)) ∧ (s.env i).1.val.length = n ∧
      (t.env i).2.dim = (s.env i).2.dim ∧ (t.env i).1.cf = (s.env i).1.cf := by
  refine ⟨by rw [hs.vars, ht.vars, h.vars], fun i => ⟨?_, ?_, ?_, ?_⟩⟩
  · rw [congrFun (balance_vals hs) i, congrFun (balance_vals ht) i]
    unfold Account.vals
    rw [h.vars]
    exact h.nums _
  · rw [← amounts_len, congrFun (balance_vals hs) i]
    exact h.length _
  · rw [balance_dims hs, balance_dims ht, h.vars, h.dims]
  · rw [(balance_conv hs i).cf, (balance_conv ht i).cf, h.vars, h.exps]

/-- C128. A program that is row by row and that ends without exceptions with all rows does so with some rows; at the end all variables
have these rows of their amounts, and the same exponents and dimensions. The rows may be given in other frames and units. -/
theorem c128_programs {n : Nat} {rows : List Int} {a : ℝ} {b : Bool} {s t : State D} {σ τ σ' : Account D} {p : Stmt D} (hs : Balances a s σ)
    (ht : Balances a t τ) (h : RowsOfAccount n rows σ τ) (hp : RowWise p) (hq : NoAttempt p) (hm : Performs a b σ p none σ') :
    (∃ t', Runs t p none t') ∧ ∀ o o' s' t', Runs s p o s' → Runs t p o' t' → o = none ∧ o' = none ∧ t'.vars = s'.vars ∧
      ∀ i, RowsOf rows (amounts (s'.env i)) (amounts (t'.env i)) ∧ (s'.env i).1.val.length = n ∧
        (t'.env i).2.dim = (s'.env i).2.dim ∧ (t'.env i).1.cf = (s'.env i).1.cf := by
  obtain ⟨τ', hm', h'⟩ := rows_performs hm rfl h hp hq
  refine ⟨(c126_programs ht hm').1, fun o o' s' t' rs rt => ?_⟩
  obtain ⟨ho, bs⟩ := (c126_programs hs hm).2 _ _ rs
  obtain ⟨ho', bt⟩ := (c126_programs ht hm').2 _ _ rt
  exact ⟨ho, ho', rows_result h' bs bt⟩

/-- C128, with `try`: if the meaning of the program is defined with all rows and with the rows, it ends with the same exception or
without one, and the variables have the rows. -/
theorem c128_attempts {n : Nat} {rows : List Int} {a : ℝ} {b b' : Bool} {s t s' t' : State D} {σ τ σ' τ' : Account D} {p : Stmt D}
    {q q' o o' : Option Err} (hs : Balances a s σ) (ht : Balances a t τ) (h : RowsOfAccount n rows σ τ) (hp : RowWise p)
    (hm : Performs a b σ p q σ') (hm' : Performs a b' τ p q' τ') (rs : Runs s p o s') (rt : Runs t p o' t') :
    o' = o ∧ t'.vars = s'.vars ∧ ∀ i, RowsOf rows (amounts (s'.env i)) (amounts (t'.env i)) ∧ (s'.env i).1.val.length = n ∧
      (t'.env i).2.dim = (s'.env i).2.dim ∧ (t'.env i).1.cf = (s'.env i).1.cf := by
  obtain ⟨e, h'⟩ := rows_both (balance_pos hs) hm h hp hm'
  obtain ⟨ho, bs⟩ := (c126_programs hs hm).2 _ _ rs
  obtain ⟨ho', bt⟩ := (c126_programs ht hm').2 _ _ rt
  exact ⟨by rw [ho', ho, e], rows_result h' bs bt⟩

section
open Verif.Accel Verif.Mask
variable {K : Type} [Field K] [LinearOrder K] [IsStrictOrderedRing K] {m : Nat}

/-- C128. A program that is row by row, with fields read with a mask: the amounts that it computes are what the mask would load from a
file that holds the amounts that it computes from the whole fields. Variables that are not fields are not in the state. -/
theorem c128_masked (f : File K m) (hf : WF f) (ops : List (Op K)) (hi : ∀ op ∈ ops, IndicesOk f op) (k : Fin m) (lay : Nat → Layout)
    (hlay : ∀ i, lay i ≠ .remote ∧ ∀ c, lay i = .chunked c → 0 < c) {a : ℝ} {b : Bool} {s t s' t' : State D} {σ σ' : Account D}
    (hs : Balances a s σ) (hv : t.vars = s.vars) (hx : t.next = s.next) (hn : ∀ l, ((s.heap l).1.val.length : Int) = f.rows k)
    (hload : ∀ l, load (run f ops) (lay l) (s.heap l).1.val k = .ok ((t.heap l).1.val.map some))
    (hattr : ∀ l, (t.heap l).1.comoving = (s.heap l).1.comoving ∧ (t.heap l).1.cf = (s.heap l).1.cf ∧ (t.heap l).1.vt = (s.heap l).1.vt ∧
      (t.heap l).2 = (s.heap l).2) {p : Stmt D} (hp : RowWise p) (hq : NoAttempt p) (hm : Performs a b σ p none σ') {o o' : Option Err}
    (rs : Runs s p o s') (rt : Runs t p o' t') :
    o = none ∧ o' = none ∧ ∀ i, (t'.env i).2.dim = (s'.env i).2.dim ∧ (t'.env i).1.cf = (s'.env i).1.cf ∧
      ∀ l : Layout, l ≠ .remote → (∀ c, l = .chunked c → 0 < c) →
        load (run f ops) l (amounts (s'.env i)) k = .ok ((amounts (t'.env i)).map some) := by
  obtain ⟨rows, hrows⟩ := c115_mask_rows f hf ops hi k
  have hvals : ∀ l, RowsOf rows (s.heap l).1.val (t.heap l).1.val := by
    intro l
    have h := hrows ℝ (s.heap l).1.val (lay l) (by have := hn l; omega) (hlay l).1 (hlay l).2
    rw [hload l] at h
    exact Except.ok.inj h
  have hamt : ∀ l, RowsOf rows (amounts (s.heap l)) (amounts (t.heap l)) := by
    intro l
    obtain ⟨h1, h2, h3, h4⟩ := hattr l
    unfold amounts
    rw [h4]
    refine rowsOf_map _ ?_
    unfold Arr.phys
    rw [h1, h2]
    split
    · exact rowsOf_map _ (hvals l)
    · exact hvals l
  have ht : Balances a t ⟨σ.vars, σ.exps, σ.dims, fun l => amounts (t.heap l), σ.next⟩ := by
    refine ⟨hv.trans hs.vars, hx.trans hs.next, fun l => ?_, fun l => ?_, fun l => ?_, fun l => rfl⟩
    · obtain ⟨h1, h2, h3, h4⟩ := hattr l
      obtain ⟨c1, c2, c3, c4⟩ := hs.conv l
      exact ⟨c1, h2.trans c2, h3.trans c3, h1 ▸ c4⟩
    · rw [(hattr l).2.2.2]; exact hs.size l
    · rw [(hattr l).2.2.2]; exact hs.dims l
  have hr : RowsOfAccount (s.heap 0).1.val.length rows σ ⟨σ.vars, σ.exps, σ.dims, fun l => amounts (t.heap l), σ.next⟩ := by
    refine ⟨rfl, rfl, rfl, rfl, fun l => ?_, fun l => ?_⟩
    · rw [← hs.amts l]; exact hamt l
    · rw [← hs.amts l, amounts_len]
      have h1 := hn l
      have h2 := hn 0
      omega
  obtain ⟨ho, ho', -, h⟩ := (c128_programs hs ht hr hp hq hm).2 _ _ _ _ rs rt
  refine ⟨ho, ho', fun i => ⟨(h i).2.2.1, (h i).2.2.2, fun l hl hc => ?_⟩⟩
  have hlen : ((s'.env i).1.val.length : Int) = f.rows k := by
    have h2 := hn 0
    have h3 := (h i).2.1
    omega
  rw [hrows ℝ (amounts (s'.env i)) l (by rw [amounts_len]; omega) hl hc, (h i).1]

end

/-! Examples: lengths in Mpc and kpc and times in Myr at `a = 1`; the first row of the lengths in Mpc is zero. -/

private noncomputable def physical (v : List ℝ) : Arr := ⟨v, some false, some ⟨some 0, some 1⟩, true⟩

private theorem physical_add (v w : List ℝ) (u u' : U D) :
    (ufuncUnits .add (likeUnits Bin.add.fn u u') [.cosmo (physical v), .cosmo (physical w)]) =
      (likeUnits Bin.add.fn u u' [v, w]).map (fun z => (physical z.1, z.2)) := by
  have hp : prepare true [.cosmo (physical v), .cosmo (physical w)] [] =
      .ok ⟨[.cosmo (physical v), .cosmo (physical w)], [], [some ⟨some 0, some 1⟩, some ⟨some 0, some 1⟩], [], some false, true⟩ := by
    simp [prepare, flags, physical, Opd.cf, Opd.vt]
  have hh : ∀ l, handle (registry .add) [some ⟨some 0, some 1⟩, some ⟨some 0, some 1⟩] l = .ok (some ⟨some 0, some 1⟩) := by
    intro l
    simp [handle, registry, reduce1, preserve2, same_refl]
  unfold ufuncUnits
  rw [hp]
  dsimp only
  rw [hh]
  dsimp only
  simp only [List.map_cons, List.map_nil, Opd.vals, physical]
  cases likeUnits Bin.add.fn u u' [v, w] <;> rfl

private noncomputable def wholeR (x : U (ℝ × ℝ)) : Nat → Arr × U (ℝ × ℝ)
  | 0 => (physical [0, 2], mpcE)
  | _ => (physical [3, 4], x)

private noncomputable def rowR (x : U (ℝ × ℝ)) : Nat → Arr × U (ℝ × ℝ)
  | 0 => (physical [0], mpcE)
  | _ => (physical [3], x)

/-- C128 is not true of formulas that are refused: a sum of lengths and times is refused for all rows, and it is accepted for the rows of a
mask in which all lengths are zero. -/
theorem c128_refused_fails : ∃ (env env' : Nat → Arr × U (ℝ × ℝ)) (rows : List Int) (e : UExpr (ℝ × ℝ)) (z : Arr × U (ℝ × ℝ)),
    (∀ i, RowsOfArray rows (env i).1 (env' i).1 ∧ (env' i).2 = (env i).2) ∧ RowByRow (ofAmounts e) ∧ evalU env e = .error .value ∧
      evalU env' e = .ok (.cosmo z.1, z.2) := by
  refine ⟨wholeR myrE, rowR myrE, [0], .two .add (.var 0) (.var 1), (physical [3], myrE), ?_, ⟨trivial, trivial⟩, ?_, ?_⟩
  · intro i
    match i with
    | 0 => exact ⟨⟨rfl, rfl, rfl, rfl⟩, rfl⟩
    | _ + 1 => exact ⟨⟨rfl, rfl, rfl, rfl⟩, rfl⟩
  · change (ufuncUnits .add (likeUnits Bin.add.fn mpcE myrE) [.cosmo (physical [0, 2]), .cosmo (physical [3, 4])]).map _ = _
    rw [physical_add]
    have h : likeUnits Bin.add.fn mpcE myrE [[0, 2], [3, 4]] = .error .value := by
      unfold likeUnits
      dsimp only
      rw [if_neg (by simp [mpcE, myrE]), if_neg (by simp), if_neg (by simp), if_pos (by simp [mpcE, myrE])]
    rw [h]
    rfl
  · change (ufuncUnits .add (likeUnits Bin.add.fn mpcE myrE) [.cosmo (physical [0]), .cosmo (physical [3])]).map _ = _
    rw [physical_add]
    have h : likeUnits Bin.add.fn mpcE myrE [[0], [3]] = .ok ([3], myrE) := by
      unfold likeUnits
      dsimp only
      rw [if_neg (by simp [mpcE, myrE]), if_pos (by simp)]
      simp [bcast2, Bin.fn, Except.map]
    rw [h]
    rfl

/-- C128 is about amounts: the unit of the result may be another one for the rows of a mask than for all rows, so that the bare numbers are
not the rows of the numbers. -/
theorem c128_numbers_fails : ∃ (env env' : Nat → Arr × U (ℝ × ℝ)) (rows : List Int) (e : UExpr (ℝ × ℝ)) (z z' : Arr × U (ℝ × ℝ)),
    (∀ i, RowsOfArray rows (env i).1 (env' i).1 ∧ (env' i).2 = (env i).2) ∧ RowByRow (ofAmounts e) ∧ evalU env e = .ok (.cosmo z.1, z.2) ∧
      evalU env' e = .ok (.cosmo z'.1, z'.2) ∧ ¬ RowsOf rows z.1.val z'.1.val ∧ RowsOf rows (amounts z) (amounts z') := by
  refine ⟨wholeR kpcE, rowR kpcE, [0], .two .add (.var 0) (.var 1), (physical [3 / 1000, 2 + 4 / 1000], mpcE), (physical [3], kpcE), ?_,
    ⟨trivial, trivial⟩, ?_, ?_, ?_, ?_⟩
  · intro i
    match i with
    | 0 => exact ⟨⟨rfl, rfl, rfl, rfl⟩, rfl⟩
    | _ + 1 => exact ⟨⟨rfl, rfl, rfl, rfl⟩, rfl⟩
  · change (ufuncUnits .add (likeUnits Bin.add.fn mpcE kpcE) [.cosmo (physical [0, 2]), .cosmo (physical [3, 4])]).map _ = _
    rw [physical_add]
    have h : likeUnits Bin.add.fn mpcE kpcE [[0, 2], [3, 4]] = .ok ([3 / 1000, 2 + 4 / 1000], mpcE) := by
      unfold likeUnits
      dsimp only
      rw [if_neg (by simp [mpcE, kpcE]), if_neg (by simp), if_neg (by simp), if_neg (by simp [mpcE, kpcE])]
      simp [bcast2, Bin.fn, Except.map, mpcE, kpcE, div_eq_mul_inv]
    rw [h]
    rfl
  · change (ufuncUnits .add (likeUnits Bin.add.fn mpcE kpcE) [.cosmo (physical [0]), .cosmo (physical [3])]).map _ = _
    rw [physical_add]
    have h : likeUnits Bin.add.fn mpcE kpcE [[0], [3]] = .ok ([3], kpcE) := by
      unfold likeUnits
      dsimp only
      rw [if_neg (by simp [mpcE, kpcE]), if_pos (by simp)]
      simp [bcast2, Bin.fn, Except.map]
    rw [h]
    rfl
  · intro h
    have h1 : [some (3 : ℝ)] = [some (3 / 1000)] := h
    norm_num at h1
  · change [some (3 * (1 : ℝ))] = [some (3 / 1000 * 1000)]
    norm_num

/-- The second rows of `accountE`, of arrays in other frames and units. -/
private noncomputable def secondA : Account (ℝ × ℝ) := ⟨id, fun | 0 => 1 | 1 => 1 | _ => 0, fun | 0 => (1, 0) | 1 => (1, 0) | _ => (0, 1),
  fun | 0 => [2000] | 1 => [500] | _ => [10], 3⟩

private noncomputable def secondS : State (ℝ × ℝ) := ⟨id, fun
  | 0 => (⟨[2000], some false, some ⟨some 1, some (1 / 2)⟩, true⟩, kpcE)
  | 1 => (⟨[1], some true, some ⟨some 1, some (1 / 2)⟩, true⟩, mpcE)
  | _ => (⟨[10], some true, some ⟨some 0, some (1 / 2)⟩, true⟩, myrE), 3⟩

private theorem secondS_balances : Balances (1 / 2) secondS secondA := by
  refine ⟨rfl, rfl, fun l => ?_, fun l => ?_, fun l => ?_, fun l => ?_⟩
  · match l with
    | 0 => exact ⟨by norm_num, rfl, rfl, nofun⟩
    | 1 => exact ⟨by norm_num, rfl, rfl, nofun⟩
    | _ + 2 => exact ⟨by norm_num, rfl, rfl, nofun⟩
  · match l with
    | 0 => exact one_pos
    | 1 => norm_num [secondS, mpcE]
    | _ + 2 => exact one_pos
  · match l with
    | 0 => rfl
    | 1 => rfl
    | _ + 2 => rfl
  · match l with
    | 0 => norm_num [secondS, secondA, kpcE, amounts, Arr.phys]
    | 1 => norm_num [secondS, secondA, mpcE, amounts, Arr.phys]
    | _ + 2 =>
      change List.map (· * (1 : ℝ)) (List.map (· * (1 / 2 : ℝ) ^ (0 : ℝ)) [10]) = [10]
      norm_num

private theorem second_rows : RowsOfAccount 2 [1] accountE secondA := by
  refine ⟨rfl, rfl, rfl, rfl, fun l => ?_, fun l => ?_⟩
  · match l with
    | 0 => rfl
    | 1 => rfl
    | _ + 2 => rfl
  · match l with
    | 0 => rfl
    | 1 => rfl
    | _ + 2 => rfl

/-- `z = x + y; w = z; w.convert_to_physical("kpc"); z /= t` for both rows and for the second one. -/
private noncomputable def progR : Stmt (ℝ × ℝ) :=
  .seq (.assign 3 (.two .add (.var 0) (.var 1))) (.seq (.assign 4 (.var 3)) (.seq (.convert (some true) (some kpcE) 4)
    (.into 3 (.two .divide (.var 3) (.var 2)))))

private theorem progR_performs : ∃ σ', Performs (1 / 2) true accountE progR none σ' ∧ σ'.vals 4 = [150, 250] := by
  refine ⟨_, .seq _ _ _ _ _ _ (.assign _ _ _ 1 (1, 0) [1500, 2500] (by intro y h; cases h) ?_ (fun h => h.1) ?_)
    (.seq _ _ _ _ _ _ (.name _ _ _) (.seq _ _ _ _ _ _ (.convert _ _ _ _ ?_)
      (.into _ _ _ (1 - 0) ((1, 0) - (0, 1)) [150, 250] ?_ (fun h => h.1) ?_ ?_))), ?_⟩
  · exact ⟨.sum (by simp) (.var (ks := fun i => accountE.exps (accountE.vars i)) 0) (.var (ks := fun i => accountE.exps (accountE.vars i)) 1),
      .like (by decide) (.var (ds := fun i => accountE.dims (accountE.vars i)) 0) (.var (ds := fun i => accountE.dims (accountE.vars i)) 1)⟩
  · simp [ofAmounts, meaning, accountE, Account.vals, Except.bind, bcast2, numbers2]; norm_num
  · intro u hu
    cases hu
    exact ⟨one_pos, by simp [accountE, kpcE]⟩
  · have h1 : ∀ σ : Account (ℝ × ℝ), σ.exps (σ.vars 3) = 1 → σ.dims (σ.vars 3) = (1, 0) → σ.exps (σ.vars 2) = 0 → σ.dims (σ.vars 2) = (0, 1) →
        Suits σ (.two .divide (.var 3) (.var 2)) (1 - 0) ((1, 0) - (0, 1)) := by
      intro σ k1 d1 k2 d2
      have g1 : Suits σ (.two .divide (.var 3) (.var 2)) (σ.exps (σ.vars 3) - σ.exps (σ.vars 2)) (σ.dims (σ.vars 3) - σ.dims (σ.vars 2)) := ⟨.div (.var (ks := fun i => σ.exps (σ.vars i)) 3) (.var (ks := fun i => σ.exps (σ.vars i)) 2),
        .div (.var (ds := fun i => σ.dims (σ.vars i)) 3) (.var (ds := fun i => σ.dims (σ.vars i)) 2)⟩
      rwa [k1, d1, k2, d2] at g1
    exact h1 _ (by simp [accountE]) (by simp [accountE]) (by simp [accountE]) (by simp [accountE])
  · simp [ofAmounts, meaning, accountE, Account.vals, Except.bind, bcast2, numbers2]; norm_num
  · simp [accountE, Account.vals]
  · simp [accountE, Account.vals]

example : (∃ t', Runs secondS progR none t') ∧ ∀ o t', Runs secondS progR o t' → o = none ∧ amounts (t'.env 4) = [250] := by
  obtain ⟨σ', hm, hv⟩ := progR_performs
  obtain ⟨h1, h2⟩ := c128_programs startE_balances secondS_balances second_rows (p := progR)
    ⟨⟨trivial, trivial⟩, trivial, trivial, trivial, trivial⟩ ⟨trivial, trivial, trivial, trivial⟩ hm
  refine ⟨h1, fun o t' ht => ?_⟩
  obtain ⟨⟨s', hs⟩, hu⟩ := c126_programs startE_balances hm
  obtain ⟨-, ho, -, h3⟩ := h2 _ _ _ _ hs ht
  have h4 := (h3 4).1
  rw [congrFun (balance_vals (hu _ _ hs).2) 4, hv] at h4
  refine ⟨ho, ?_⟩
  have h5 : (amounts (t'.env 4)).map some = [250].map some := h4
  exact List.map_injective_iff.2 (Option.some_injective ℝ) h5

/-- `try: x += t` and `except: w = x`: the sum of a length and a time is refused with both rows and with the second one. -/
example : ∃ σ' τ', Performs (1 / 2) true accountE (.attempt (.into 0 (.two .add (.var 0) (.var 2))) (.assign 3 (.var 0))) none σ' ∧
    Performs (1 / 2) true secondA (.attempt (.into 0 (.two .add (.var 0) (.var 2))) (.assign 3 (.var 0))) none τ' ∧
    RowsOfAccount 2 [1] σ' τ' := by
  have h1 : Performs (1 / 2) true accountE (.attempt (.into 0 (.two .add (.var 0) (.var 2))) (.assign 3 (.var 0))) none _ :=
    .rescue _ _ _ _ _ .value _ (.intoErr _ _ _ _ (.sum (by decide)
      ⟨.var (ks := fun i => accountE.exps (accountE.vars i)) 0, .var (ds := fun i => accountE.dims (accountE.vars i)) 0⟩
      ⟨.var (ks := fun i => accountE.exps (accountE.vars i)) 2, .var (ds := fun i => accountE.dims (accountE.vars i)) 2⟩
      (by simp [accountE]) ⟨[1000, 2000], rfl, 1000, by simp, by norm_num⟩ ⟨[10, 10], rfl, 10, by simp, by norm_num⟩)) (.name _ _ _)
  have h2 : Performs (1 / 2) true secondA (.attempt (.into 0 (.two .add (.var 0) (.var 2))) (.assign 3 (.var 0))) none _ :=
    .rescue _ _ _ _ _ .value _ (.intoErr _ _ _ _ (.sum (by decide)
      ⟨.var (ks := fun i => secondA.exps (secondA.vars i)) 0, .var (ds := fun i => secondA.dims (secondA.vars i)) 0⟩
      ⟨.var (ks := fun i => secondA.exps (secondA.vars i)) 2, .var (ds := fun i => secondA.dims (secondA.vars i)) 2⟩
      (by simp [secondA]) ⟨[2000], rfl, 2000, by simp, by norm_num⟩ ⟨[10], rfl, 10, by simp, by norm_num⟩)) (.name _ _ _)
  exact ⟨_, _, h1, h2, (rows_both (by norm_num) h1 second_rows ⟨⟨trivial, trivial⟩, trivial⟩ h2).2⟩

section
open Verif.Accel Verif.Mask

private noncomputable def allM : State (ℝ × ℝ) := ⟨id, fun
  | 0 => (physical [1, 2, 3, 4, 5, 6], mpcE)
  | _ => (physical [10, 20, 30, 40, 50, 60], kpcE), 2⟩

private noncomputable def someM : State (ℝ × ℝ) := ⟨id, fun
  | 0 => (physical [3, 4], mpcE)
  | _ => (physical [30, 40], kpcE), 2⟩

/-- `z = x + y` in a region of a file with six particles: what the mask loads of the sums in kpc. -/
example : ∃ s' t', Runs allM (.assign 2 (.two .add (.var 0) (.var 1))) none s' ∧ Runs someM (.assign 2 (.two .add (.var 0) (.var 1))) none t' ∧
    load (run exFile regionS) .contiguous (amounts (s'.env 2)) 0 = .ok ((amounts (t'.env 2)).map some) := by
  have hs : Balances 1 allM ⟨id, fun _ => 0, fun _ => (1, 0), fun l => amounts (allM.heap l), 2⟩ := by
    refine ⟨rfl, rfl, fun l => ?_, fun l => ?_, fun l => ?_, fun l => rfl⟩
    · match l with
      | 0 => exact ⟨one_pos, rfl, rfl, nofun⟩
      | _ + 1 => exact ⟨one_pos, rfl, rfl, nofun⟩
    · match l with
      | 0 => norm_num [allM, mpcE]
      | _ + 1 => exact one_pos
    · match l with
      | 0 => rfl
      | _ + 1 => rfl
  have ht : Balances 1 someM ⟨id, fun _ => 0, fun _ => (1, 0), fun l => amounts (someM.heap l), 2⟩ := by
    refine ⟨rfl, rfl, fun l => ?_, fun l => ?_, fun l => ?_, fun l => rfl⟩
    · match l with
      | 0 => exact ⟨one_pos, rfl, rfl, nofun⟩
      | _ + 1 => exact ⟨one_pos, rfl, rfl, nofun⟩
    · match l with
      | 0 => norm_num [someM, mpcE]
      | _ + 1 => exact one_pos
    · match l with
      | 0 => rfl
      | _ + 1 => rfl
  have hsuits : ∀ σ : Account (ℝ × ℝ), (σ.exps = fun _ => 0) → (σ.dims = fun _ => (1, 0)) → Suits σ (.two .add (.var 0) (.var 1)) 0 (1, 0) := by
    intro σ h1 h2
    unfold Suits
    rw [h1, h2]
    exact ⟨.sum (by simp) (.var (ks := fun _ => 0) 0) (.var (ks := fun _ => 0) 1),
      .like (by decide) (.var (ds := fun _ => (1, 0)) 0) (.var (ds := fun _ => (1, 0)) 1)⟩
  have hm := Performs.assign (a := 1) (strict := true) (⟨id, fun _ => 0, fun _ => (1, 0), fun l => amounts (allM.heap l), 2⟩ : Account (ℝ × ℝ)) 2
    (.two .add (.var 0) (.var 1)) 0 (1, 0) _ (by intro y h; cases h) (hsuits _ rfl rfl) (fun h => h.1) rfl
  have hm' := Performs.assign (a := 1) (strict := true) (⟨id, fun _ => 0, fun _ => (1, 0), fun l => amounts (someM.heap l), 2⟩ : Account (ℝ × ℝ)) 2
    (.two .add (.var 0) (.var 1)) 0 (1, 0) _ (by intro y h; cases h) (hsuits _ rfl rfl) (fun h => h.1) rfl
  obtain ⟨s', rs⟩ := (c126_programs hs hm).1
  obtain ⟨t', rt⟩ := (c126_programs ht hm').1
  refine ⟨s', t', rs, rt, ?_⟩
  refine ((c128_masked (s := allM) (t := someM) exFile exFile_wf regionS regionS_ok 0 (fun _ => .contiguous) (fun _ => ⟨by simp, by simp⟩) hs rfl rfl ?_ ?_ ?_
    (p := .assign 2 (.two .add (.var 0) (.var 1))) ⟨trivial, trivial⟩ trivial hm rs rt).2.2 2).2.2 .contiguous (by simp) (by simp)
  · intro l
    match l with
    | 0 => rfl
    | _ + 1 => rfl
  · intro l
    match l with
    | 0 => exact regionS_loads _ rfl
    | _ + 1 => exact regionS_loads _ rfl
  · intro l
    match l with
    | 0 => exact ⟨rfl, rfl, rfl, rfl⟩
    | _ + 1 => exact ⟨rfl, rfl, rfl, rfl⟩

end

end Verif.Props
