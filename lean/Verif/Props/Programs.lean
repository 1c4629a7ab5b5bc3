import Verif.Props.Formulas
import Verif.Spec.Programs

/-!
# C117: programs with arrays in any frames do what they do with physical numbers
-/

namespace Verif.Props
open Verif Verif.Cosmo Verif.Formulas Verif.Programs Verif.Spec

private theorem rel_eq (c : Cmp) : relation c = c.rel := by
  funext p q
  cases c <;> simp [relation, Cmp.rel]

private theorem phys_len (x : Arr) : x.phys.length = x.val.length := by
  unfold Arr.phys
  split <;> simp

private theorem shows_env {a : ℝ} {s : State} {σ : Ledger} (h : Tallies a s σ) :
    (∀ i, Conv a (σ.dims i) (s.env i)) ∧ (fun i => (s.env i).phys) = σ.vals := by
  refine ⟨fun i => ?_, funext fun i => ?_⟩
  · unfold Ledger.dims State.env; rw [h.vars]; exact h.conv _
  · unfold Ledger.vals State.env; rw [h.vars]; exact h.phys _

private theorem shows_pos {a : ℝ} {s : State} {σ : Ledger} (h : Tallies a s σ) : 0 < a := (h.conv 0).pos

private theorem eval_ok {a : ℝ} {s : State} {σ : Ledger} (h : Tallies a s σ) {e : Expr} {k : ℝ} (hd : Dimension σ.dims e k)
    (hb : ¬ Bare e) {v : List ℝ} (he : meaning σ.vals e = .ok v) :
    ∃ z, eval s.env e = .ok (.cosmo z) ∧ Conv a k z ∧ z.phys = v := by
  obtain ⟨henv, hvals⟩ := shows_env h
  have hv := c114_value (shows_pos h) henv hd
  rw [hvals, he] at hv
  cases hr : eval s.env e with
  | error err => rw [hr] at hv; cases hv
  | ok r =>
    obtain ⟨z, rfl, hz⟩ := (c114_factor (shows_pos h) henv hd hr).2 hb
    rw [hr] at hv
    exact ⟨z, rfl, hz, Except.ok.inj hv⟩

private theorem eval_error {a : ℝ} {s : State} {σ : Ledger} (h : Tallies a s σ) {e : Expr} {k : ℝ} (hd : Dimension σ.dims e k)
    {err : Err} (he : meaning σ.vals e = .error err) : eval s.env e = .error err := by
  obtain ⟨henv, hvals⟩ := shows_env h
  have hv := c114_value (shows_pos h) henv hd
  rw [hvals, he] at hv
  cases hr : eval s.env e with
  | error err' => rw [hr] at hv; exact congrArg Except.error (Except.error.inj hv)
  | ok r => rw [hr] at hv; cases hv

private theorem test_eq {a : ℝ} {s : State} {σ : Ledger} (h : Tallies a s σ) {c : Cond} (hd : Comparable σ c) {r : Except Err Prop}
    (hc : Outcome σ c r) : test s.env c = r := by
  obtain ⟨henv, hvals⟩ := shows_env h
  obtain ⟨k, h1, h2, b1, b2⟩ := hd
  have := c114_compare (shows_pos h) henv h1 h2 b1 b2 c.cmp.ufunc c.cmp.rel (by
    cases c.cmp <;> simp [Cmp.ufunc, Cmp.rel])
  unfold test
  rw [this, hvals, hc, rel_eq]

private theorem shows_store {a : ℝ} {s : State} {σ : Ledger} (h : Tallies a s σ) (x : Nat) {z : Arr} {k : ℝ} (hz : Conv a k z) :
    Tallies a (s.store x z)
      { σ with exps := Function.update σ.exps (σ.vars x) k, nums := Function.update σ.nums (σ.vars x) z.phys } := by
  refine ⟨h.vars, h.next, fun l => ?_, fun l => ?_⟩
  · simp only [State.store, h.vars]
    by_cases hl : l = σ.vars x
    · subst hl; simpa using hz
    · simpa [Function.update_of_ne hl] using h.conv l
  · simp only [State.store, h.vars]
    by_cases hl : l = σ.vars x
    · subst hl; simp
    · simpa [Function.update_of_ne hl] using h.phys l

/-- the numbers of the program are followed by the arrays -/
private theorem follows {a : ℝ} {σ σ' : Ledger} {p : Stmt} {o : Option Err} (hm : Computes σ p o σ') :
    ∀ s, Tallies a s σ → ∃ s', Runs s p o s' ∧ Tallies a s' σ' := by
  induction hm with
  | skip σ => exact fun s h => ⟨s, .skip s, h⟩
  | name σ x y =>
    intro s h
    refine ⟨_, .name s x y, ⟨?_, h.next, h.conv, h.phys⟩⟩
    simp only [h.vars]
  | assign σ x e k v hv hd hb he =>
    intro s h
    obtain ⟨z, h1, h2, h3⟩ := eval_ok h hd hb he
    refine ⟨_, .assign s x e z hv h1, ⟨?_, ?_, fun l => ?_, fun l => ?_⟩⟩
    · simp only [State.new, h.vars, h.next]
    · simp only [State.new, h.next]
    · simp only [State.new, h.next]
      by_cases hl : l = σ.next
      · subst hl; simpa using h2
      · simpa [Function.update_of_ne hl] using h.conv l
    · simp only [State.new, h.next]
      by_cases hl : l = σ.next
      · subst hl; simpa using h3
      · simpa [Function.update_of_ne hl] using h.phys l
  | assignErr σ x e k err hd he => exact fun s h => ⟨s, .assignErr s x e err (eval_error h hd he), h⟩
  | into σ x e k v hd hb he hl =>
    intro s h
    obtain ⟨z, h1, h2, h3⟩ := eval_ok h hd hb he
    have hlen : z.val.length = (s.env x).val.length := by
      rw [← phys_len z, ← phys_len (s.env x), h3, hl, ← (shows_env h).2]
    have := shows_store h x h2
    rw [h3] at this
    exact ⟨_, .into s x e z h1 hlen, this⟩
  | intoShape σ x e k v hd hb he hl =>
    intro s h
    obtain ⟨z, h1, h2, h3⟩ := eval_ok h hd hb he
    have hlen : z.val.length ≠ (s.env x).val.length := by
      rw [← phys_len z, ← phys_len (s.env x), h3]
      rw [← (shows_env h).2] at hl
      exact hl
    exact ⟨s, .intoShape s x e z h1 hlen, h⟩
  | intoErr σ x e k err hd he => exact fun s h => ⟨s, .intoErr s x e err (eval_error h hd he), h⟩
  | convert σ b x =>
    intro s h
    have hx := (shows_env h).1 x
    obtain ⟨z, h1, h2, -, h3⟩ := c23_convert hx (if b then .convertToPhysical else .convertToComoving)
    have he : (if b then (s.env x).convertToPhysical else (s.env x).convertToComoving) = .ok z := by
      cases b <;> exact h1
    have := shows_store h x h2
    have e1 : Function.update σ.exps (σ.vars x) (σ.dims x) = σ.exps := by simp [Ledger.dims]
    have e2 : Function.update σ.nums (σ.vars x) z.phys = σ.nums := by
      rw [h3, congrFun (shows_env h).2 x]; simp [Ledger.vals]
    rw [e1, e2] at this
    exact ⟨_, .convert s b x z he, this⟩
  | seq σ τ υ p q o _ _ ih1 ih2 =>
    intro s h
    obtain ⟨t, h1, h2⟩ := ih1 s h
    obtain ⟨u, h3, h4⟩ := ih2 t h2
    exact ⟨u, .seq s t u p q o h1 h3, h4⟩
  | seqErr σ τ p q err _ ih1 =>
    intro s h
    obtain ⟨t, h1, h2⟩ := ih1 s h
    exact ⟨t, .seqErr s t p q err h1, h2⟩
  | iteErr σ c p q err hd hc => exact fun s h => ⟨s, .iteErr s c p q err (test_eq h hd hc), h⟩
  | iteTrue σ τ c p q o b hd hc hb _ ih1 =>
    intro s h
    obtain ⟨t, h1, h2⟩ := ih1 s h
    exact ⟨t, .iteTrue s t c p q o b (test_eq h hd hc) hb h1, h2⟩
  | iteFalse σ τ c p q o b hd hc hb _ ih1 =>
    intro s h
    obtain ⟨t, h1, h2⟩ := ih1 s h
    exact ⟨t, .iteFalse s t c p q o b (test_eq h hd hc) hb h1, h2⟩
  | whileErr σ c p err hd hc => exact fun s h => ⟨s, .whileErr s c p err (test_eq h hd hc), h⟩
  | whileDone σ c p b hd hc hb => exact fun s h => ⟨s, .whileDone s c p b (test_eq h hd hc) hb, h⟩
  | whileStep σ τ υ c p o b hd hc hb _ _ ih1 ih2 =>
    intro s h
    obtain ⟨t, h1, h2⟩ := ih1 s h
    obtain ⟨u, h3, h4⟩ := ih2 t h2
    exact ⟨u, .whileStep s t u c p o b (test_eq h hd hc) hb h1 h3, h4⟩
  | whileStop σ τ c p err b hd hc hb _ ih1 =>
    intro s h
    obtain ⟨t, h1, h2⟩ := ih1 s h
    exact ⟨t, .whileStop s t c p err b (test_eq h hd hc) hb h1, h2⟩
  | attempt σ τ p q _ ih1 =>
    intro s h
    obtain ⟨t, h1, h2⟩ := ih1 s h
    exact ⟨t, .attempt s t p q h1, h2⟩
  | rescue σ τ υ p q err o _ _ ih1 ih2 =>
    intro s h
    obtain ⟨t, h1, h2⟩ := ih1 s h
    obtain ⟨u, h3, h4⟩ := ih2 t h2
    exact ⟨u, .rescue s t u p q err o h1 h3, h4⟩

/-- C117. A program has at most one way to end. -/
theorem c117_unique {s t : State} {p : Stmt} {o : Option Err} (h : Runs s p o t) :
    ∀ o' t', Runs s p o' t' → o' = o ∧ t' = t := by
  induction h with
  | skip s => intro o' t' h'; cases h'; exact ⟨rfl, rfl⟩
  | name s x y =>
    intro o' t' h'
    cases h' with
    | name => exact ⟨rfl, rfl⟩
    | assign _ _ _ z hv he => exact absurd rfl (hv y)
    | assignErr _ _ _ err he => cases he
  | assign s x e z hv he =>
    intro o' t' h'
    cases h' with
    | name _ _ y => exact absurd rfl (hv y)
    | assign _ _ _ z' hv' he' => rw [he] at he'; cases he'; exact ⟨rfl, rfl⟩
    | assignErr _ _ _ err he' => rw [he] at he'; cases he'
  | assignErr s x e err he =>
    intro o' t' h'
    cases h' with
    | name _ _ y => cases he
    | assign _ _ _ z' hv' he' => rw [he] at he'; cases he'
    | assignErr _ _ _ err' he' => rw [he] at he'; cases he'; exact ⟨rfl, rfl⟩
  | into s x e z he hl =>
    intro o' t' h'
    cases h' with
    | into _ _ _ z' he' hl' => rw [he] at he'; cases he'; exact ⟨rfl, rfl⟩
    | intoShape _ _ _ z' he' hl' => rw [he] at he'; cases he'; exact absurd hl hl'
    | intoErr _ _ _ err he' => rw [he] at he'; cases he'
  | intoShape s x e z he hl =>
    intro o' t' h'
    cases h' with
    | into _ _ _ z' he' hl' => rw [he] at he'; cases he'; exact absurd hl' hl
    | intoShape _ _ _ z' he' hl' => exact ⟨rfl, rfl⟩
    | intoErr _ _ _ err he' => rw [he] at he'; cases he'
  | intoErr s x e err he =>
    intro o' t' h'
    cases h' with
    | into _ _ _ z' he' hl' => rw [he] at he'; cases he'
    | intoShape _ _ _ z' he' hl' => rw [he] at he'; cases he'
    | intoErr _ _ _ err' he' => rw [he] at he'; cases he'; exact ⟨rfl, rfl⟩
  | convert s b x z he =>
    intro o' t' h'
    cases h' with
    | convert _ _ _ z' he' => rw [he] at he'; cases he'; exact ⟨rfl, rfl⟩
    | convertErr _ _ _ err he' => rw [he] at he'; cases he'
  | convertErr s b x err he =>
    intro o' t' h'
    cases h' with
    | convert _ _ _ z' he' => rw [he] at he'; cases he'
    | convertErr _ _ _ err' he' => rw [he] at he'; cases he'; exact ⟨rfl, rfl⟩
  | seq s t u p q o _ _ ih1 ih2 =>
    intro o' t' h'
    cases h' with
    | seq _ t2 _ _ _ _ g1 g2 => obtain ⟨-, rfl⟩ := ih1 _ _ g1; exact ih2 _ _ g2
    | seqErr _ _ _ _ err g1 => exact absurd (ih1 _ _ g1).1 (by simp)
  | seqErr s t p q err _ ih1 =>
    intro o' t' h'
    cases h' with
    | seq _ t2 _ _ _ _ g1 g2 => exact absurd (ih1 _ _ g1).1 (by simp)
    | seqErr _ _ _ _ err g1 => exact ih1 _ _ g1
  | iteErr s c p q err hc =>
    intro o' t' h'
    cases h' with
    | iteErr _ _ _ _ err' hc' => rw [hc] at hc'; cases hc'; exact ⟨rfl, rfl⟩
    | iteTrue _ _ _ _ _ _ b' hc' => rw [hc] at hc'; cases hc'
    | iteFalse _ _ _ _ _ _ b' hc' => rw [hc] at hc'; cases hc'
  | iteTrue s t c p q o b hc hb _ ih1 =>
    intro o' t' h'
    cases h' with
    | iteErr _ _ _ _ err' hc' => rw [hc] at hc'; cases hc'
    | iteTrue _ _ _ _ _ _ b' hc' hb' g1 => exact ih1 _ _ g1
    | iteFalse _ _ _ _ _ _ b' hc' hb' g1 => rw [hc] at hc'; cases hc'; exact absurd hb hb'
  | iteFalse s t c p q o b hc hb _ ih1 =>
    intro o' t' h'
    cases h' with
    | iteErr _ _ _ _ err' hc' => rw [hc] at hc'; cases hc'
    | iteTrue _ _ _ _ _ _ b' hc' hb' g1 => rw [hc] at hc'; cases hc'; exact absurd hb' hb
    | iteFalse _ _ _ _ _ _ b' hc' hb' g1 => exact ih1 _ _ g1
  | whileErr s c p err hc =>
    intro o' t' h'
    cases h' with
    | whileErr _ _ _ err' hc' => rw [hc] at hc'; cases hc'; exact ⟨rfl, rfl⟩
    | whileDone _ _ _ b' hc' hb' => rw [hc] at hc'; cases hc'
    | whileStep _ _ _ _ _ _ b' hc' hb' g1 g2 => rw [hc] at hc'; cases hc'
    | whileStop _ _ _ _ err' b' hc' hb' g1 => rw [hc] at hc'; cases hc'
  | whileDone s c p b hc hb =>
    intro o' t' h'
    cases h' with
    | whileErr _ _ _ err' hc' => rw [hc] at hc'; cases hc'
    | whileDone _ _ _ b' hc' hb' => exact ⟨rfl, rfl⟩
    | whileStep _ _ _ _ _ _ b' hc' hb' g1 g2 => rw [hc] at hc'; cases hc'; exact absurd hb' hb
    | whileStop _ _ _ _ err' b' hc' hb' g1 => rw [hc] at hc'; cases hc'; exact absurd hb' hb
  | whileStep s t u c p o b hc hb _ _ ih1 ih2 =>
    intro o' t' h'
    cases h' with
    | whileErr _ _ _ err' hc' => rw [hc] at hc'; cases hc'
    | whileDone _ _ _ b' hc' hb' => rw [hc] at hc'; cases hc'; exact absurd hb hb'
    | whileStep _ _ _ _ _ _ b' hc' hb' g1 g2 => obtain ⟨-, rfl⟩ := ih1 _ _ g1; exact ih2 _ _ g2
    | whileStop _ _ _ _ err' b' hc' hb' g1 => exact absurd (ih1 _ _ g1).1 (by simp)
  | whileStop s t c p err b hc hb _ ih1 =>
    intro o' t' h'
    cases h' with
    | whileErr _ _ _ err' hc' => rw [hc] at hc'; cases hc'
    | whileDone _ _ _ b' hc' hb' => rw [hc] at hc'; cases hc'; exact absurd hb hb'
    | whileStep _ _ _ _ _ _ b' hc' hb' g1 g2 => exact absurd (ih1 _ _ g1).1 (by simp)
    | whileStop _ _ _ _ err' b' hc' hb' g1 => exact ih1 _ _ g1
  | attempt s t p q _ ih1 =>
    intro o' t' h'
    cases h' with
    | attempt _ _ _ _ g1 => exact ih1 _ _ g1
    | rescue _ _ _ _ _ err _ g1 g2 => exact absurd (ih1 _ _ g1).1 (by simp)
  | rescue s t u p q err o _ _ ih1 ih2 =>
    intro o' t' h'
    cases h' with
    | attempt _ _ _ _ g1 => exact absurd (ih1 _ _ g1).1 (by simp)
    | rescue _ _ _ _ _ err' _ g1 g2 => obtain ⟨-, rfl⟩ := ih1 _ _ g1; exact ih2 _ _ g2

/-- C117. A program in which all formulas scale, run with arrays in any frames, ends as it does with the physical numbers: with the same
exception or none, and all arrays then hold the physical numbers and the factors that the program computes. -/
theorem c117_programs {a : ℝ} {s : State} {σ σ' : Ledger} {p : Stmt} {o : Option Err} (h : Tallies a s σ) (hm : Computes σ p o σ') :
    (∃ s', Runs s p o s') ∧ ∀ o' s', Runs s p o' s' → o' = o ∧ Tallies a s' σ' := by
  obtain ⟨t, h1, h2⟩ := follows hm s h
  refine ⟨⟨t, h1⟩, fun o' s' h' => ?_⟩
  obtain ⟨rfl, rfl⟩ := c117_unique h1 o' s' h'
  exact ⟨rfl, h2⟩

/-- C117. The frames of the arrays at the start do not matter: the program ends in the same way and all variables have the same physical
numbers and the same factors. -/
theorem c117_frames {a : ℝ} {s t : State} {σ σ' : Ledger} {p : Stmt} {o : Option Err} (h1 : Tallies a s σ) (h2 : Tallies a t σ)
    (hm : Computes σ p o σ') {o1 o2 : Option Err} {s' t' : State} (r1 : Runs s p o1 s') (r2 : Runs t p o2 t') :
    o1 = o2 ∧ s'.vars = t'.vars ∧ (∀ i, (s'.env i).phys = (t'.env i).phys) ∧ ∀ i, (s'.env i).cf = (t'.env i).cf := by
  obtain ⟨e1, k1⟩ := (c117_programs h1 hm).2 _ _ r1
  obtain ⟨e2, k2⟩ := (c117_programs h2 hm).2 _ _ r2
  refine ⟨e1.trans e2.symm, k1.vars.trans k2.vars.symm, fun i => ?_, fun i => ?_⟩
  · exact congrFun ((shows_env k1).2.trans (shows_env k2).2.symm) i
  · rw [((shows_env k1).1 i).cf, ((shows_env k2).1 i).cf]

private theorem means_unconverted {σ σ' : Ledger} {p : Stmt} {o : Option Err} (hm : Computes σ p o σ') :
    Computes σ (unconverted p) o σ' := by
  induction hm with
  | skip σ => exact .skip σ
  | name σ x y => exact .name σ x y
  | assign σ x e k v hv hd hb he => exact .assign σ x e k v hv hd hb he
  | assignErr σ x e k err hd he => exact .assignErr σ x e k err hd he
  | into σ x e k v hd hb he hl => exact .into σ x e k v hd hb he hl
  | intoShape σ x e k v hd hb he hl => exact .intoShape σ x e k v hd hb he hl
  | intoErr σ x e k err hd he => exact .intoErr σ x e k err hd he
  | convert σ b x => exact .skip σ
  | seq σ τ υ p q o _ _ ih1 ih2 => exact .seq σ τ υ _ _ o ih1 ih2
  | seqErr σ τ p q err _ ih1 => exact .seqErr σ τ _ _ err ih1
  | iteErr σ c p q err hd hc => exact .iteErr σ c _ _ err hd hc
  | iteTrue σ τ c p q o b hd hc hb _ ih1 => exact .iteTrue σ τ c _ _ o b hd hc hb ih1
  | iteFalse σ τ c p q o b hd hc hb _ ih1 => exact .iteFalse σ τ c _ _ o b hd hc hb ih1
  | whileErr σ c p err hd hc => exact .whileErr σ c _ err hd hc
  | whileDone σ c p b hd hc hb => exact .whileDone σ c _ b hd hc hb
  | whileStep σ τ υ c p o b hd hc hb _ _ ih1 ih2 => exact .whileStep σ τ υ c _ o b hd hc hb ih1 ih2
  | whileStop σ τ c p err b hd hc hb _ ih1 => exact .whileStop σ τ c _ err b hd hc hb ih1
  | attempt σ τ p q _ ih1 => exact .attempt σ τ _ _ ih1
  | rescue σ τ υ p q err o _ _ ih1 ih2 => exact .rescue σ τ υ _ _ err o ih1 ih2

/-- C117. Conversions in place anywhere in a program, also in loops and under other names of an array, change nothing but frames: without
them the program ends in the same way with the same physical numbers. -/
theorem c117_conversions {a : ℝ} {s : State} {σ σ' : Ledger} {p : Stmt} {o : Option Err} (h : Tallies a s σ) (hm : Computes σ p o σ')
    {o1 o2 : Option Err} {s1 s2 : State} (r1 : Runs s p o1 s1) (r2 : Runs s (unconverted p) o2 s2) :
    o1 = o2 ∧ s1.vars = s2.vars ∧ (∀ i, (s1.env i).phys = (s2.env i).phys) ∧ ∀ i, (s1.env i).cf = (s2.env i).cf := by
  obtain ⟨e1, k1⟩ := (c117_programs h hm).2 _ _ r1
  obtain ⟨e2, k2⟩ := (c117_programs h (means_unconverted hm)).2 _ _ r2
  refine ⟨e1.trans e2.symm, k1.vars.trans k2.vars.symm, fun i => ?_, fun i => ?_⟩
  · exact congrFun ((shows_env k1).2.trans (shows_env k2).2.symm) i
  · rw [((shows_env k1).1 i).cf, ((shows_env k2).1 i).cf]

/-- C117. A program without in-place operations, output arrays and conversions in place leaves every array as it was, whether or not its
formulas scale and whether or not it raises. -/
theorem c117_no_side_effects {s s' : State} {p : Stmt} {o : Option Err} (h : Runs s p o s') (h1 : NoInto p) (h2 : NoConvert p) :
    s.next ≤ s'.next ∧ ∀ l, l < s.next → s'.heap l = s.heap l := by
  induction h with
  | skip s => exact ⟨le_rfl, fun _ _ => rfl⟩
  | name s x y => exact ⟨le_rfl, fun _ _ => rfl⟩
  | assign s x e z hv he =>
    refine ⟨Nat.le_succ _, fun l hl => ?_⟩
    simp only [State.new]
    rw [Function.update_of_ne (by omega)]
  | assignErr s x e err he => exact ⟨le_rfl, fun _ _ => rfl⟩
  | into s x e z he hl => exact absurd h1 id
  | intoShape s x e z he hl => exact absurd h1 id
  | intoErr s x e err he => exact absurd h1 id
  | convert s b x z he => exact absurd h2 id
  | convertErr s b x err he => exact absurd h2 id
  | seq s t u p q o _ _ ih1 ih2 =>
    obtain ⟨a1, a2⟩ := ih1 h1.1 h2.1
    obtain ⟨b1, b2⟩ := ih2 h1.2 h2.2
    exact ⟨a1.trans b1, fun l hl => (b2 l (by omega)).trans (a2 l hl)⟩
  | seqErr s t p q err _ ih1 => exact ih1 h1.1 h2.1
  | iteErr s c p q err hc => exact ⟨le_rfl, fun _ _ => rfl⟩
  | iteTrue s t c p q o b hc hb _ ih1 => exact ih1 h1.1 h2.1
  | iteFalse s t c p q o b hc hb _ ih1 => exact ih1 h1.2 h2.2
  | whileErr s c p err hc => exact ⟨le_rfl, fun _ _ => rfl⟩
  | whileDone s c p b hc hb => exact ⟨le_rfl, fun _ _ => rfl⟩
  | whileStep s t u c p o b hc hb _ _ ih1 ih2 =>
    obtain ⟨a1, a2⟩ := ih1 h1 h2
    obtain ⟨b1, b2⟩ := ih2 h1 h2
    exact ⟨a1.trans b1, fun l hl => (b2 l (by omega)).trans (a2 l hl)⟩
  | whileStop s t c p err b hc hb _ ih1 => exact ih1 h1 h2
  | attempt s t p q _ ih1 => exact ih1 h1.1 h2.1
  | rescue s t u p q err o _ _ ih1 ih2 =>
    obtain ⟨a1, a2⟩ := ih1 h1.1 h2.1
    obtain ⟨b1, b2⟩ := ih2 h1.2 h2.2
    exact ⟨a1.trans b1, fun l hl => (b2 l (by omega)).trans (a2 l hl)⟩

/-- C117. A conversion in place puts the array into the frame that was asked for, under all its names, and leaves all other arrays and
all names as they were. -/
theorem c117_converted {a : ℝ} {s s' : State} {σ : Ledger} {b : Bool} {x : Nat} {o : Option Err} (h : Tallies a s σ)
    (hr : Runs s (.convert b x) o s') :
    o = none ∧ s'.vars = s.vars ∧ (∀ y, s.vars y = s.vars x → (s'.env y).comoving = some (!b)) ∧
      ∀ y, s.vars y ≠ s.vars x → s'.env y = s.env y := by
  obtain ⟨z, h1, -, h2, -⟩ := c23_convert ((shows_env h).1 x) (if b then .convertToPhysical else .convertToComoving)
  have he : (if b then (s.env x).convertToPhysical else (s.env x).convertToComoving) = .ok z := by
    cases b <;> exact h1
  cases hr with
  | convert _ _ _ z' he' =>
    rw [he] at he'
    cases he'
    refine ⟨rfl, rfl, fun y hy => ?_, fun y hy => ?_⟩
    · simp only [State.env, State.store, hy, Function.update_self]
      rw [h2]
      cases b <;> rfl
    · simp only [State.env, State.store, Function.update_of_ne hy]
  | convertErr _ _ _ err he' => rw [he] at he'; cases he'

/-- Comoving velocities with `a^-1`, physical `[12, 4]`. -/
private noncomputable def velP : Arr := ⟨[6, 2], some true, some ⟨some (-1), some (1 / 2)⟩, true⟩

/-- A physical potential with `a^-2`. -/
private noncomputable def potP : Arr := ⟨[8, 16], some false, some ⟨some (-2), some (1 / 2)⟩, true⟩

/-- The velocities are variable 0 and the potential variable 1. -/
private noncomputable def startP : State := ⟨id, fun i => if i = 0 then velP else potP, 2⟩

private noncomputable def ledgerP : Ledger := ⟨id, fun i => if i = 0 then -1 else -2, fun i => if i = 0 then [12, 4] else [8, 16], 2⟩

private theorem startP_shows : Tallies (1 / 2) startP ledgerP := by
  have hp : ((1 / 2 : ℝ)) ^ (-1 : ℝ) = 2 := by rw [Real.rpow_neg (by norm_num), Real.rpow_one]; norm_num
  refine ⟨rfl, rfl, fun l => ?_, fun l => ?_⟩
  · by_cases hl : l = 0
    · simp only [startP, ledgerP, hl, if_true]
      constructor <;> simp [velP]
    · simp only [startP, ledgerP, hl, if_false]
      constructor <;> simp [potP]
  · by_cases hl : l = 0
    · simp only [startP, ledgerP, hl, if_true, Arr.phys, velP, List.map_cons, List.map_nil, hp]
      norm_num
    · simp only [startP, ledgerP, hl, if_false, Arr.phys, potP]

/-- `np.any(x < 2 * phi)`. -/
private noncomputable def condP : Cond := ⟨.less, .var 2, .two .multiply (.nums [2]) (.var 1), false⟩

/-- `x = v ** 2; y = x; y.convert_to_physical()`, `while np.any(x < 2 * phi): x += phi; x.convert_to_comoving()`, and
`try: x += ones(3) * x` and `except: y = y + y`. -/
private noncomputable def progP : Stmt :=
  .seq (.assign 2 (.pow (.var 0) 2)) (.seq (.assign 3 (.var 2)) (.seq (.convert true 3) (.seq
    (.while condP (.seq (.into 2 (.two .add (.var 2) (.var 1))) (.convert false 2)))
    (.attempt (.into 2 (.two .add (.var 2) (.two .multiply (.nums [1, 1, 1]) (.var 2)))) (.assign 3 (.two .add (.var 3) (.var 3)))))))

private theorem dvar {ks : Nat → ℝ} {i : Nat} {k : ℝ} (h : ks i = k) : Dimension ks (.var i) k := h ▸ .var i

private theorem dtwice {ks : Nat → ℝ} {i : Nat} {k : ℝ} {v : List ℝ} (h : ks i = k) : Dimension ks (.two .multiply (.nums v) (.var i)) k := by
  have := Dimension.mul (Dimension.nums (ks := ks) v) (Dimension.var i)
  rwa [h, zero_add] at this

private theorem progP_means : ∃ σ', Computes ledgerP progP none σ' ∧ σ'.vals 2 = [152, 32] ∧ σ'.vals 3 = [304, 64] ∧ σ'.dims 3 = -2 := by
  refine ⟨_, .seq _ _ _ _ _ _ (.assign _ _ _ (-2) [144, 16] ?_ ?_ ?_ ?_) (.seq _ _ _ _ _ _ (.name _ _ _) (.seq _ _ _ _ _ _ (.convert _ _ _)
    (.seq _ _ _ _ _ _ (.whileStep _ _ _ _ _ _ (∃ b ∈ [(144 : ℝ) < 16, (16 : ℝ) < 32], b) ⟨-2, ?_, ?_, ?_, ?_⟩ ?_ ?_
      (.seq _ _ _ _ _ _ (.into _ _ _ (-2) [152, 32] ?_ ?_ ?_ ?_) (.convert _ _ _))
      (.whileDone _ _ _ (∃ b ∈ [(152 : ℝ) < 16, (32 : ℝ) < 32], b) ⟨-2, ?_, ?_, ?_, ?_⟩ ?_ ?_))
    (.rescue _ _ _ _ _ .value _ (.intoErr _ _ _ (-2) _ ?_ ?_) (.assign _ _ _ (-2) [304, 64] ?_ ?_ ?_ ?_))))), ?_⟩
  · intro y h; cases h
  · have := Dimension.pow (ks := ledgerP.dims) (Dimension.var 0) 2
    rwa [show ledgerP.dims 0 * 2 = (-2 : ℝ) by norm_num [ledgerP, Ledger.dims]] at this
  · exact id
  · simp [meaning, ledgerP, Ledger.vals, Except.map]; norm_num
  · exact dvar (by simp [ledgerP, Ledger.dims])
  · exact dtwice (by simp [ledgerP, Ledger.dims])
  · exact id
  · exact fun h => h.2
  · simp [Outcome, condP, meaning, ledgerP, Ledger.vals, Except.map, Except.bind, bcast2, numbers2, relation]; norm_num
  · exact ⟨(16 : ℝ) < 32, by simp, by norm_num⟩
  · exact .sum (by simp) (dvar (by simp [ledgerP, Ledger.dims])) (dvar (by simp [ledgerP, Ledger.dims]))
  · exact fun h => h.1
  · simp [meaning, ledgerP, Ledger.vals, Except.bind, bcast2, numbers2]; norm_num
  · simp [ledgerP, Ledger.vals]
  · exact dvar (by simp [ledgerP, Ledger.dims])
  · exact dtwice (by simp [ledgerP, Ledger.dims])
  · exact id
  · exact fun h => h.2
  · simp [Outcome, condP, meaning, ledgerP, Ledger.vals, Except.map, Except.bind, bcast2, numbers2, relation]; norm_num
  · norm_num
  · exact .sum (by simp) (dvar (by simp [ledgerP, Ledger.dims])) (dtwice (by simp [ledgerP, Ledger.dims]))
  · simp [meaning, ledgerP, Ledger.vals, Except.bind, bcast2]
  · intro y h; cases h
  · exact .sum (by simp) (dvar (by simp [ledgerP, Ledger.dims])) (dvar (by simp [ledgerP, Ledger.dims]))
  · exact fun h => h.1
  · simp [meaning, ledgerP, Ledger.vals, Except.bind, bcast2, numbers2]; norm_num
  · simp [ledgerP, Ledger.vals, Ledger.dims]

/-- The program runs, the loop turns once and the last sum is refused; `y` is `x` until then. -/
example : (∃ s', Runs startP progP none s') ∧
    ∀ o s', Runs startP progP o s' → o = none ∧ (s'.env 2).phys = [152, 32] ∧ (s'.env 3).phys = [304, 64] ∧
      (s'.env 3).cf = some ⟨some (-2), some (1 / 2)⟩ := by
  obtain ⟨σ', hm, h2, h3, hd⟩ := progP_means
  obtain ⟨h, hu⟩ := c117_programs startP_shows hm
  refine ⟨h, fun o s' hr => ?_⟩
  obtain ⟨ho, hs⟩ := hu o s' hr
  have hv := (shows_env hs).2
  refine ⟨ho, (congrFun hv 2).trans h2, (congrFun hv 3).trans h3, ?_⟩
  rw [((shows_env hs).1 3).cf, hd]

/-- The same with all arrays at the start in the other frame. -/
example : ∃ t, Tallies (1 / 2) t ledgerP ∧ (t.heap 0).comoving = some false ∧ (t.heap 1).comoving = some true ∧ ∃ t', Runs t progP none t' := by
  obtain ⟨σ', hm, -⟩ := progP_means
  have hp : ((1 / 2 : ℝ)) ^ (-2 : ℝ) = 4 := by
    rw [Real.rpow_neg (by norm_num), show (2 : ℝ) = ((2 : ℕ) : ℝ) by norm_num, Real.rpow_natCast]
    norm_num
  have ht : Tallies (1 / 2) ⟨id, fun i => if i = 0 then ⟨[12, 4], some false, some ⟨some (-1), some (1 / 2)⟩, true⟩ else
      ⟨[2, 4], some true, some ⟨some (-2), some (1 / 2)⟩, true⟩, 2⟩ ledgerP := by
    refine ⟨rfl, rfl, fun l => ?_, fun l => ?_⟩
    · by_cases hl : l = 0
      · simp only [ledgerP, hl, if_true]
        constructor <;> simp
      · simp only [ledgerP, hl, if_false]
        constructor <;> simp
    · by_cases hl : l = 0
      · simp only [ledgerP, hl, if_true, Arr.phys]
      · simp only [ledgerP, hl, if_false, Arr.phys, List.map_cons, List.map_nil, hp]
        norm_num
  exact ⟨_, ht, by simp, by simp, (c117_programs ht hm).1⟩

/-- `y = x; y.convert_to_physical()` with the comoving velocities: both are physical. -/
example : ∃ s', Runs startP (.seq (.assign 2 (.var 0)) (.convert true 2)) none s' ∧ (s'.env 0).comoving = some false ∧ (startP.env 0).comoving = some true := by
  have ht : Tallies (1 / 2) { startP with vars := Function.update startP.vars 2 (startP.vars 0) }
      { ledgerP with vars := Function.update ledgerP.vars 2 (ledgerP.vars 0) } :=
    ⟨rfl, rfl, startP_shows.conv, startP_shows.phys⟩
  obtain ⟨⟨s', hr⟩, -⟩ := c117_programs ht (.convert _ true 2)
  exact ⟨s', .seq _ _ _ _ _ _ (.name _ _ _) hr, (c117_converted ht hr).2.2.1 0 rfl, rfl⟩

/-- Without side effects: `x = v ** 2; y = x`. -/
example : NoInto (.seq (.assign 2 (.pow (.var 0) 2)) (.assign 3 (.var 2))) ∧ NoConvert (.seq (.assign 2 (.pow (.var 0) 2)) (.assign 3 (.var 2))) ∧
    ∃ s', Runs startP (.seq (.assign 2 (.pow (.var 0) 2)) (.assign 3 (.var 2))) none s' := by
  refine ⟨⟨trivial, trivial⟩, ⟨trivial, trivial⟩, ?_⟩
  refine (c117_programs startP_shows (.seq _ _ _ _ _ _ (.assign _ _ _ (-2) [144, 16] ?_ ?_ id ?_) (.name _ _ _))).1
  · intro y h; cases h
  · have := Dimension.pow (ks := ledgerP.dims) (Dimension.var 0) 2
    rwa [show ledgerP.dims 0 * 2 = (-2 : ℝ) by norm_num [ledgerP, Ledger.dims]] at this
  · simp [meaning, ledgerP, Ledger.vals, Except.map]; norm_num

end Verif.Props
