import Verif.Props.UnitPrograms
import Verif.Spec.TypedPrograms

/-!
# C127: programs that pass a check of exponents, dimensions and lengths
-/

namespace Verif.Props
open Verif Verif.Cosmo Verif.Formulas Verif.UnitFormulas Verif.UnitPrograms Verif.Spec
open Verif.Programs (Cmp)

variable {D : Type} [AddCommGroup D] [Module ℝ D]

section typed
variable {a : ℝ} {ks : Nat → ℝ} {ds : Nat → D}

private theorem typed_pos {s : State D} (h : TypedState a ks ds s) : 0 < a := (h.conv 0).pos

private theorem typed_value {s : State D} (h : TypedState a ks ds s) {e : UExpr D} {k : ℝ} {d : D} (ht : HasType ks ds e k d) :
    (evalU s.env e).map valueAmounts = meaning (fun i => amounts (s.env i)) (ofAmounts e) :=
  c125_value (typed_pos h) h.conv h.size h.dims ht.2.2 ht.2.1

private theorem typed_result {s : State D} (h : TypedState a ks ds s) {e : UExpr D} {k : ℝ} {d : D} (ht : HasType ks ds e k d) {r : Val D}
    (hr : evalU s.env e = .ok r) : ∃ z : Arr × U D, r = (.cosmo z.1, z.2) ∧ Conv a k z.1 ∧ 0 < z.2.size ∧ z.2.dim = d := by
  obtain ⟨r1, r2, -, r4⟩ := c125_result (typed_pos h) h.conv h.size h.dims ht.2.2 ht.2.1 hr
  obtain ⟨x, hx, hc⟩ := r4 ht.1
  obtain ⟨o, u⟩ := r
  cases hx
  exact ⟨(x, u), rfl, hc, r1, r2⟩

private theorem cf_inj {k l : ℝ} {x : Arr} (h : Conv a k x) (h' : Conv a l x) : k = l := by
  have := h.cf.symm.trans h'.cf
  simpa using this

private theorem typed_name {s : State D} (h : TypedState a ks ds s) {x y : Nat} (ht : HasType ks ds (.var y) (ks x) (ds x)) :
    TypedState a ks ds { s with vars := Function.update s.vars x (s.vars y) } := by
  have hk : ks y = ks x := by
    have h1 := ht.2.1
    generalize ks x = k at h1
    cases h1; rfl
  have hd : ds y = ds x := by
    have h1 := ht.2.2
    generalize ds x = d at h1
    cases h1; rfl
  have he : ∀ i, ({ s with vars := Function.update s.vars x (s.vars y) } : State D).env i = s.env (if i = x then y else i) := by
    intro i
    simp only [State.env]
    by_cases hi : i = x
    · subst hi; simp
    · simp [Function.update_of_ne hi, hi]
  refine ⟨fun i => ?_, fun i => ?_, fun i => ?_, fun i => ?_⟩
  · rw [he]
    by_cases hi : i = x
    · subst hi; simp only [if_true]; rw [← hk]; exact h.conv y
    · simp only [hi, if_false]; exact h.conv i
  · rw [he]; exact h.size _
  · rw [he]
    by_cases hi : i = x
    · subst hi; simp only [if_true]; rw [← hd]; exact h.dims y
    · simp only [hi, if_false]; exact h.dims i
  · dsimp only
    by_cases hi : i = x
    · subst hi; simp only [Function.update_self]; exact h.made y
    · simp only [Function.update_of_ne hi]; exact h.made i

private theorem new_env {s : State D} (hm : ∀ i, s.vars i < s.next) (x : Nat) (z : Arr × U D) (i : Nat) :
    (s.new x z).env i = if i = x then z else s.env i := by
  simp only [State.env, State.new]
  by_cases hi : i = x
  · subst hi; simp
  · simp only [Function.update_of_ne hi, hi, if_false]
    rw [Function.update_of_ne (hm i).ne]

private theorem store_env (s : State D) (x : Nat) (z : Arr × U D) (i : Nat) :
    (s.store x z).env i = if s.vars i = s.vars x then z else s.env i := by
  simp only [State.env, State.store]
  by_cases hi : s.vars i = s.vars x
  · simp [hi]
  · simp [Function.update_of_ne hi, hi]

private theorem typed_new {s : State D} (h : TypedState a ks ds s) {x : Nat} {z : Arr × U D} (h1 : Conv a (ks x) z.1) (h2 : 0 < z.2.size)
    (h3 : z.2.dim = ds x) : TypedState a ks ds (s.new x z) := by
  refine ⟨fun i => ?_, fun i => ?_, fun i => ?_, fun i => ?_⟩
  · rw [new_env h.made]
    by_cases hi : i = x
    · subst hi; simpa using h1
    · simpa [hi] using h.conv i
  · rw [new_env h.made]
    by_cases hi : i = x
    · subst hi; simpa using h2
    · simpa [hi] using h.size i
  · rw [new_env h.made]
    by_cases hi : i = x
    · subst hi; simpa using h3
    · simpa [hi] using h.dims i
  · simp only [State.new]
    by_cases hi : i = x
    · subst hi; simp
    · rw [Function.update_of_ne hi]; exact Nat.lt_succ_of_lt (h.made i)

private theorem typed_alias {s : State D} (h : TypedState a ks ds s) {x i : Nat} (hi : s.vars i = s.vars x) : ks i = ks x ∧ ds i = ds x := by
  have he : s.env i = s.env x := by simp only [State.env, hi]
  refine ⟨cf_inj (h.conv i) (by rw [he]; exact h.conv x), ?_⟩
  rw [← h.dims i, ← h.dims x, he]

private theorem typed_store {s : State D} (h : TypedState a ks ds s) {x : Nat} {z : Arr × U D} (h1 : Conv a (ks x) z.1) (h2 : 0 < z.2.size)
    (h3 : z.2.dim = ds x) : TypedState a ks ds (s.store x z) := by
  refine ⟨fun i => ?_, fun i => ?_, fun i => ?_, h.made⟩
  · rw [store_env]
    by_cases hi : s.vars i = s.vars x
    · rw [if_pos hi, (typed_alias h hi).1]; exact h1
    · rw [if_neg hi]; exact h.conv i
  · rw [store_env]
    by_cases hi : s.vars i = s.vars x
    · rw [if_pos hi]; exact h2
    · rw [if_neg hi]; exact h.size i
  · rw [store_env]
    by_cases hi : s.vars i = s.vars x
    · rw [if_pos hi, (typed_alias h hi).2]; exact h3
    · rw [if_neg hi]; exact h.dims i

private theorem pair_of {z z' : Arr × U D} (h : ((.cosmo z.1, z.2) : Val D) = (.cosmo z'.1, z'.2)) : z = z' := by
  cases z; cases z'
  simp only [Prod.mk.injEq, Opd.cosmo.injEq] at h
  exact Prod.ext h.1 h.2

/-- C127. In a program that passes the check every variable keeps its exponent and its dimensions, in all states in which a run can end,
with an exception or without, whatever arrays are named by several variables. -/
theorem c127_preserved {s s' : State D} {p : Stmt D} {o : Option Err} (hr : Runs s p o s') (h : TypedState a ks ds s)
    (hp : TypeChecks ks ds p) : TypedState a ks ds s' := by
  induction hr with
  | skip s => exact h
  | name s x y => exact typed_name h hp
  | assign s x e z hv he =>
    obtain ⟨z', h0, h1, h2, h3⟩ := typed_result h hp he
    obtain rfl := pair_of h0
    exact typed_new h h1 h2 h3
  | assignErr s x e err he => exact h
  | into s x e z he hl =>
    obtain ⟨z', h0, h1, h2, h3⟩ := typed_result h hp he
    obtain rfl := pair_of h0
    exact typed_store h h1 h2 h3
  | intoShape s x e z he hl => exact h
  | intoErr s x e err he => exact h
  | convert s b v x =>
    obtain ⟨-, z2, z3, z4, -⟩ := convertIn_ok (b := b) (v := v) (h.conv x) (h.size x) (fun u hm => ⟨(hp u hm).1, by rw [(hp u hm).2, h.dims x]⟩)
    exact typed_store h z2 z3 (z4.trans (h.dims x))
  | seq s t u p q o _ _ ih1 ih2 => exact ih2 (ih1 h hp.1) hp.2
  | seqErr s t p q err _ ih1 => exact ih1 h hp.1
  | iteErr s c p q err hc => exact h
  | iteTrue s t c p q o b hc hb _ ih1 => exact ih1 h hp.2.1
  | iteFalse s t c p q o b hc hb _ ih1 => exact ih1 h hp.2.2
  | whileErr s c p err hc => exact h
  | whileDone s c p b hc hb => exact h
  | whileStep s t u c p o b hc hb _ _ ih1 ih2 => exact ih2 (ih1 h hp.2) hp
  | whileStop s t c p err b hc hb _ ih1 => exact ih1 h hp.2
  | attempt s t p q _ ih1 => exact ih1 h hp.1
  | rescue s t u p q err o _ _ ih1 ih2 => exact ih2 (ih1 h hp.1) hp.2

private theorem balance_typed {s : State D} {σ : Account D} (h : Balances a s σ) (hm : ∀ i, s.vars i < s.next) :
    TypedState a (fun i => σ.exps (σ.vars i)) (fun i => σ.dims (σ.vars i)) s :=
  ⟨balance_conv h, balance_size h, balance_dims h, hm⟩

private theorem typed_exps {s : State D} {σ : Account D} (hb : Balances a s σ) (h : TypedState a ks ds s) :
    (fun i => σ.exps (σ.vars i)) = ks ∧ (fun i => σ.dims (σ.vars i)) = ds :=
  ⟨funext fun i => cf_inj (balance_conv hb i) (h.conv i), funext fun i => (balance_dims hb i).symm.trans (h.dims i)⟩

private theorem typed_suits {s : State D} {σ : Account D} (hb : Balances a s σ) (h : TypedState a ks ds s) {e : UExpr D} {k : ℝ} {d : D}
    (ht : HasType ks ds e k d) : Suits σ e k d := by
  obtain ⟨e1, e2⟩ := typed_exps hb h
  unfold Suits
  rw [e1, e2]
  exact ht.2

private theorem ruling_typed {s : State D} {σ : Account D} (hb : Balances a s σ) (h : TypedState a ks ds s) {c : Cond D}
    (hc : ConditionChecks ks ds c) {r : Except Err Prop} (hr : test s.env c = r) : Ruling a σ c r := by
  obtain ⟨k, d, h0, hl, hr'⟩ := hc
  have := Ruling.alike (a := a) h0 (typed_suits hb h hl) (typed_suits hb h hr')
  rwa [← testU_eq hb this, hr] at this

/-- C127. Every run of a program that passes the check computes what the program means for physical amounts; the meaning never has to
refuse a step because of exponents, dimensions or conversions. (c126_programs is the converse.) -/
theorem c127_computes {s s' : State D} {p : Stmt D} {o : Option Err} (hr : Runs s p o s') {σ : Account D} (hb : Balances a s σ)
    (h : TypedState a ks ds s) (hp : TypeChecks ks ds p) : ∃ σ', Performs a true σ p o σ' ∧ Balances a s' σ' := by
  suffices ∃ σ', Performs a true σ p o σ' by
    obtain ⟨σ', hm⟩ := this
    exact ⟨σ', hm, ((c126_programs hb hm).2 o s' hr).2⟩
  have err : ∀ {s : State D} {σ : Account D}, Balances a s σ → TypedState a ks ds s → ∀ {e : UExpr D} {k : ℝ} {d : D} {err : Err},
      HasType ks ds e k d → evalU s.env e = .error err → Fails a σ e err := by
    intro s σ hb h e k d err ht he
    refine .numbers (typed_suits hb h ht) ?_
    rw [← balance_vals hb, ← typed_value h ht, he]
    rfl
  have val : ∀ {s : State D} {σ : Account D}, Balances a s σ → TypedState a ks ds s → ∀ {e : UExpr D} {k : ℝ} {d : D} {z : Arr × U D},
      HasType ks ds e k d → evalU s.env e = .ok (.cosmo z.1, z.2) → meaning σ.vals (ofAmounts e) = .ok (amounts z) := by
    intro s σ hb h e k d z ht he
    rw [← balance_vals hb, ← typed_value h ht, he]
    rfl
  induction hr generalizing σ with
  | skip s => exact ⟨_, .skip σ⟩
  | name s x y => exact ⟨_, .name σ x y⟩
  | assign s x e z hv he => exact ⟨_, .assign σ x e _ _ _ hv (typed_suits hb h hp) hp.1 (val hb h hp he)⟩
  | assignErr s x e er he => exact ⟨_, .assignErr σ x e er (err hb h hp he)⟩
  | into s x e z he hl =>
    refine ⟨_, .into σ x e _ _ _ (typed_suits hb h hp) hp.1 (val hb h hp he) ?_⟩
    rw [← congrFun (balance_vals hb) x, amounts_len, amounts_len, hl]
  | intoShape s x e z he hl =>
    refine ⟨_, .intoShape σ x e _ _ _ (typed_suits hb h hp) hp.1 (val hb h hp he) ?_⟩
    rw [← congrFun (balance_vals hb) x, amounts_len, amounts_len]
    exact hl
  | intoErr s x e er he => exact ⟨_, .intoErr σ x e er (err hb h hp he)⟩
  | convert s b v x =>
    have hu : ∀ u ∈ v, 0 < u.size ∧ u.dim = σ.dims (σ.vars x) := fun u hm =>
      ⟨(hp u hm).1, by rw [(hp u hm).2]; exact (congrFun (typed_exps hb h).2 x).symm⟩
    rw [(c126_converted hb hu (Runs.convert s b v x)).1]
    exact ⟨_, .convert σ b v x hu⟩
  | seq s t u p q o r1 _ ih1 ih2 =>
    obtain ⟨τ, h1⟩ := ih1 hb h hp.1
    obtain ⟨υ, h2⟩ := ih2 ((c126_programs hb h1).2 _ _ r1).2 (c127_preserved r1 h hp.1) hp.2
    exact ⟨υ, .seq σ τ υ p q o h1 h2⟩
  | seqErr s t p q er _ ih1 =>
    obtain ⟨τ, h1⟩ := ih1 hb h hp.1
    exact ⟨τ, .seqErr σ τ p q er h1⟩
  | iteErr s c p q er hc => exact ⟨_, .iteErr σ c p q er (ruling_typed hb h hp.1 hc)⟩
  | iteTrue s t c p q o b hc hb' _ ih1 =>
    obtain ⟨τ, h1⟩ := ih1 hb h hp.2.1
    exact ⟨τ, .iteTrue σ τ c p q o b (ruling_typed hb h hp.1 hc) hb' h1⟩
  | iteFalse s t c p q o b hc hb' _ ih1 =>
    obtain ⟨τ, h1⟩ := ih1 hb h hp.2.2
    exact ⟨τ, .iteFalse σ τ c p q o b (ruling_typed hb h hp.1 hc) hb' h1⟩
  | whileErr s c p er hc => exact ⟨_, .whileErr σ c p er (ruling_typed hb h hp.1 hc)⟩
  | whileDone s c p b hc hb' => exact ⟨_, .whileDone σ c p b (ruling_typed hb h hp.1 hc) hb'⟩
  | whileStep s t u c p o b hc hb' r1 _ ih1 ih2 =>
    obtain ⟨τ, h1⟩ := ih1 hb h hp.2
    obtain ⟨υ, h2⟩ := ih2 ((c126_programs hb h1).2 _ _ r1).2 (c127_preserved r1 h hp.2) hp
    exact ⟨υ, .whileStep σ τ υ c p o b (ruling_typed hb h hp.1 hc) hb' h1 h2⟩
  | whileStop s t c p er b hc hb' _ ih1 =>
    obtain ⟨τ, h1⟩ := ih1 hb h hp.2
    exact ⟨τ, .whileStop σ τ c p er b (ruling_typed hb h hp.1 hc) hb' h1⟩
  | attempt s t p q _ ih1 =>
    obtain ⟨τ, h1⟩ := ih1 hb h hp.1
    exact ⟨τ, .attempt σ τ p q h1⟩
  | rescue s t u p q er o r1 _ ih1 ih2 =>
    obtain ⟨τ, h1⟩ := ih1 hb h hp.1
    obtain ⟨υ, h2⟩ := ih2 ((c126_programs hb h1).2 _ _ r1).2 (c127_preserved r1 h hp.1) hp.2
    exact ⟨υ, .rescue σ τ υ p q er o h1 h2⟩

/-- C127. Whether a program that passes the check ends at all, and how, does not depend on the units and frames at the start: it ends with
one choice if and only if it ends with another one, with the same exception or none, and the amounts are then the same. -/
theorem c127_ends {s t : State D} {p : Stmt D} {o : Option Err} {σ : Account D} (h1 : Balances a s σ) (h2 : Balances a t σ)
    (h : TypedState a ks ds s) (hp : TypeChecks ks ds p) :
    ((∃ s', Runs s p o s') ↔ ∃ t', Runs t p o t') ∧
      ∀ s' t', Runs s p o s' → Runs t p o t' → s'.vars = t'.vars ∧ ∀ i, amounts (s'.env i) = amounts (t'.env i) := by
  have ht : TypedState a ks ds t := by
    obtain ⟨e1, e2⟩ := typed_exps h1 h
    have := balance_typed h2 (fun i => by rw [h2.vars, h2.next, ← h1.vars, ← h1.next]; exact h.made i)
    rwa [e1, e2] at this
  refine ⟨⟨fun ⟨s', hr⟩ => ?_, fun ⟨t', hr⟩ => ?_⟩, fun s' t' hr hr' => ?_⟩
  · obtain ⟨σ', hm, -⟩ := c127_computes hr h1 h hp
    exact (c126_programs h2 hm).1
  · obtain ⟨σ', hm, -⟩ := c127_computes hr h2 ht hp
    exact (c126_programs h1 hm).1
  · obtain ⟨σ', hm, -⟩ := c127_computes hr h1 h hp
    obtain ⟨-, g1, g2, -⟩ := c126_units h1 h2 hm hr hr'
    exact ⟨g1, g2⟩

private theorem bcast_ok {β : Type} {f : ℝ → ℝ → β} {v w : List ℝ} {r : Nat} (h : Broadcasts v.length w.length r) :
    ∃ z, bcast2 f v w = .ok z ∧ z.length = r := by
  unfold bcast2
  by_cases he : v.length = w.length
  · rw [if_pos he]
    refine ⟨_, rfl, ?_⟩
    rw [List.length_zipWith, ← he, Nat.min_self]
    rcases h with ⟨-, h⟩ | ⟨-, h⟩ | ⟨-, h⟩
    · exact h.symm
    · rw [h, he]
    · exact h.symm
  · rw [if_neg he]
    rcases h with ⟨h, -⟩ | ⟨h, hr⟩ | ⟨h, hr⟩
    · exact absurd h he
    · obtain ⟨x, rfl⟩ := List.length_eq_one_iff.mp h
      exact ⟨_, rfl, by rw [List.length_map, hr]⟩
    · obtain ⟨y, rfl⟩ := List.length_eq_one_iff.mp h
      match v with
      | [] => exact ⟨_, rfl, by rw [List.length_map, hr]⟩
      | [x] => exact absurd rfl he
      | x :: x' :: l => exact ⟨_, rfl, by rw [List.length_map, hr]⟩

private theorem length_meaning {ms : Nat → Nat} {vals : Nat → List ℝ} (hv : ∀ i, (vals i).length = ms i) {e : UExpr D} {m : Nat}
    (h : HasLength ms e m) : ∃ v, meaning vals (ofAmounts e) = .ok v ∧ v.length = m := by
  induction h with
  | var i => exact ⟨_, rfl, hv i⟩
  | nums v => exact ⟨_, rfl, rfl⟩
  | @two f s t m n r _ _ h ih1 ih2 =>
    obtain ⟨v, e1, rfl⟩ := ih1
    obtain ⟨w, e2, rfl⟩ := ih2
    simp only [ofAmounts, meaning, e1, e2, Except.bind]
    exact bcast_ok h
  | one _ ih => obtain ⟨v, e1, rfl⟩ := ih; simp only [ofAmounts, meaning, e1, Except.map]; exact ⟨_, rfl, by simp⟩
  | pow _ ih => obtain ⟨v, e1, rfl⟩ := ih; simp only [ofAmounts, meaning, e1, Except.map]; exact ⟨_, rfl, by simp⟩
  | whole _ hf ih => obtain ⟨v, e1, h1⟩ := ih; simp only [ofAmounts, meaning, e1, Except.map]; exact ⟨_, rfl, hf v h1⟩
  | physical _ ih => exact ih
  | comoving _ ih => exact ih
  | convert _ ih => exact ih
  | times _ ih =>
    obtain ⟨v, e1, rfl⟩ := ih
    simp only [ofAmounts, meaning, e1, Except.bind]
    exact bcast_ok (.inr (.inr ⟨rfl, rfl⟩))

private theorem typed_no_error {ms : Nat → Nat} {s : State D} (h : TypedState a ks ds s) (hl : ∀ i, (s.env i).1.val.length = ms i) {e : UExpr D}
    {k : ℝ} {d : D} {m : Nat} (ht : HasType ks ds e k d) (hm : HasLength ms e m) :
    ∃ z : Arr × U D, evalU s.env e = .ok (.cosmo z.1, z.2) ∧ z.1.val.length = m := by
  obtain ⟨v, h1, h2⟩ := length_meaning (vals := fun i => amounts (s.env i)) (fun i => by rw [amounts_len, hl]) hm
  rw [← typed_value h ht] at h1
  cases he : evalU s.env e with
  | error er => rw [he] at h1; cases h1
  | ok r =>
    obtain ⟨z, rfl, -⟩ := typed_result h ht he
    rw [he] at h1
    have : amounts z = v := Except.ok.inj h1
    exact ⟨z, rfl, by rw [← amounts_len, this, h2]⟩

private theorem typed_test {ms : Nat → Nat} {s : State D} (h : TypedState a ks ds s) (hl : ∀ i, (s.env i).1.val.length = ms i) {c : Cond D}
    (hc : ConditionChecks ks ds c) (hm : ∃ m n r, HasLength ms c.left m ∧ HasLength ms c.right n ∧ Broadcasts m n r) :
    ∃ b, test s.env c = .ok b := by
  obtain ⟨k, d, h0, h1, h2⟩ := hc
  obtain ⟨m, n, r, m1, m2, m3⟩ := hm
  have hv : ∀ i, (amounts (s.env i)).length = ms i := fun i => by rw [amounts_len, hl]
  obtain ⟨v, v1, rfl⟩ := length_meaning (vals := fun i => amounts (s.env i)) hv m1
  obtain ⟨w, w1, rfl⟩ := length_meaning (vals := fun i => amounts (s.env i)) hv m2
  obtain ⟨z, z1, -⟩ := bcast_ok (f := c.cmp.rel) m3
  unfold test
  rw [c125_compare (typed_pos h) h.conv h.size h.dims h0 h1.2.2 h2.2.2 h1.2.1 h2.2.1 c.cmp.ufunc c.cmp.rel
    (by cases c.cmp <;> simp [Cmp.ufunc, Cmp.rel]), v1, w1]
  simp only [Except.bind, z1]
  exact ⟨_, rfl⟩

/-- C127. If the lengths pass their check too, no run raises an exception, and all variables keep their lengths. -/
theorem c127_no_exceptions {ms : Nat → Nat} {s s' : State D} {p : Stmt D} {o : Option Err} (hr : Runs s p o s') (h : TypedState a ks ds s)
    (hl : ∀ i, (s.env i).1.val.length = ms i) (hp : TypeChecks ks ds p) (hq : LengthsCheck ms p) :
    o = none ∧ ∀ i, (s'.env i).1.val.length = ms i := by
  induction hr with
  | skip s => exact ⟨rfl, hl⟩
  | name s x y =>
    refine ⟨rfl, fun i => ?_⟩
    have hxy : ms y = ms x := by
      have h1 : HasLength ms (.var y : UExpr D) (ms x) := hq
      generalize ms x = m at h1
      cases h1; rfl
    simp only [State.env]
    by_cases hi : i = x
    · subst hi; simp only [Function.update_self]; rw [← hxy]; exact hl y
    · rw [Function.update_of_ne hi]; exact hl i
  | assign s x e z hv he =>
    refine ⟨rfl, fun i => ?_⟩
    obtain ⟨z', h1, h2⟩ := typed_no_error h hl hp hq
    obtain rfl := pair_of (Except.ok.inj (he.symm.trans h1))
    rw [new_env h.made]
    by_cases hi : i = x
    · subst hi; simpa using h2
    · simpa [hi] using hl i
  | assignErr s x e err he =>
    obtain ⟨z', h1, h2⟩ := typed_no_error h hl hp hq
    rw [he] at h1; cases h1
  | into s x e z he hlen =>
    refine ⟨rfl, fun i => ?_⟩
    rw [store_env]
    by_cases hi : s.vars i = s.vars x
    · rw [if_pos hi, hlen, ← hl i]
      simp only [State.env, hi]
    · rw [if_neg hi]; exact hl i
  | intoShape s x e z he hlen =>
    obtain ⟨z', h1, h2⟩ := typed_no_error h hl hp hq
    obtain rfl := pair_of (Except.ok.inj (he.symm.trans h1))
    exact absurd (h2.trans (hl x).symm) hlen
  | intoErr s x e err he =>
    obtain ⟨z', h1, h2⟩ := typed_no_error h hl hp hq
    rw [he] at h1; cases h1
  | convert s b v x =>
    obtain ⟨z1, -, -, -, z5, -⟩ := convertIn_ok (b := b) (v := v) (h.conv x) (h.size x) (fun u hm => ⟨(hp u hm).1, by rw [(hp u hm).2, h.dims x]⟩)
    refine ⟨z1, fun i => ?_⟩
    rw [store_env]
    by_cases hi : s.vars i = s.vars x
    · rw [if_pos hi, ← amounts_len, z5, amounts_len, ← hl i]
      simp only [State.env, hi]
    · rw [if_neg hi]; exact hl i
  | seq s t u p q o r1 _ ih1 ih2 => exact ih2 (c127_preserved r1 h hp.1) (ih1 h hl hp.1 hq.1).2 hp.2 hq.2
  | seqErr s t p q err _ ih1 => exact absurd (ih1 h hl hp.1 hq.1).1 (by simp)
  | iteErr s c p q err hc =>
    obtain ⟨b, hb⟩ := typed_test h hl hp.1 hq.1
    rw [hc] at hb; cases hb
  | iteTrue s t c p q o b hc hb _ ih1 => exact ih1 h hl hp.2.1 hq.2.1
  | iteFalse s t c p q o b hc hb _ ih1 => exact ih1 h hl hp.2.2 hq.2.2
  | whileErr s c p err hc =>
    obtain ⟨b, hb⟩ := typed_test h hl hp.1 hq.1
    rw [hc] at hb; cases hb
  | whileDone s c p b hc hb => exact ⟨rfl, hl⟩
  | whileStep s t u c p o b hc hb r1 _ ih1 ih2 => exact ih2 (c127_preserved r1 h hp.2) (ih1 h hl hp.2 hq.2).2 hp hq
  | whileStop s t c p err b hc hb _ ih1 => exact absurd (ih1 h hl hp.2 hq.2).1 (by simp)
  | attempt s t p q _ ih1 => exact ih1 h hl hp.1 hq.1
  | rescue s t u p q err o r1 _ ih1 ih2 => exact absurd (ih1 h hl hp.1 hq.1).1 (by simp)

private theorem runs_some : ∀ {p : Stmt D} {s : State D}, TypedState a ks ds s → TypeChecks ks ds p → LoopFree p → ∃ o s', Runs s p o s'
  | .skip, s, _, _, _ => ⟨_, _, .skip s⟩
  | .assign x e, s, h, hp, _ => by
    by_cases hv : ∀ y, e ≠ .var y
    · cases he : evalU s.env e with
      | error er => exact ⟨_, _, .assignErr s x e er he⟩
      | ok r =>
        obtain ⟨z, rfl, -⟩ := typed_result h hp he
        exact ⟨_, _, .assign s x e z hv he⟩
    · push_neg at hv
      obtain ⟨y, rfl⟩ := hv
      exact ⟨_, _, .name s x y⟩
  | .into x e, s, h, hp, _ => by
    cases he : evalU s.env e with
    | error er => exact ⟨_, _, .intoErr s x e er he⟩
    | ok r =>
      obtain ⟨z, rfl, -⟩ := typed_result h hp he
      by_cases hl : z.1.val.length = (s.env x).1.val.length
      · exact ⟨_, _, .into s x e z he hl⟩
      · exact ⟨_, _, .intoShape s x e z he hl⟩
  | .convert b v x, s, _, _, _ => ⟨_, _, .convert s b v x⟩
  | .seq p q, s, h, hp, hf => by
    obtain ⟨o, t, r1⟩ := runs_some (p := p) h hp.1 hf.1
    cases o with
    | some er => exact ⟨_, _, .seqErr s t p q er r1⟩
    | none =>
      obtain ⟨o, u, r2⟩ := runs_some (p := q) (c127_preserved r1 h hp.1) hp.2 hf.2
      exact ⟨_, _, .seq s t u p q o r1 r2⟩
  | .ite c p q, s, h, hp, hf => by
    cases hc : test s.env c with
    | error er => exact ⟨_, _, .iteErr s c p q er hc⟩
    | ok b =>
      by_cases hb : b
      · obtain ⟨o, t, r1⟩ := runs_some (p := p) h hp.2.1 hf.1
        exact ⟨_, _, .iteTrue s t c p q o b hc hb r1⟩
      · obtain ⟨o, t, r1⟩ := runs_some (p := q) h hp.2.2 hf.2
        exact ⟨_, _, .iteFalse s t c p q o b hc hb r1⟩
  | .while _ _, _, _, _, hf => absurd hf id
  | .attempt p q, s, h, hp, hf => by
    obtain ⟨o, t, r1⟩ := runs_some (p := p) h hp.1 hf.1
    cases o with
    | none => exact ⟨_, _, .attempt s t p q r1⟩
    | some er =>
      obtain ⟨o, u, r2⟩ := runs_some (p := q) (c127_preserved r1 h hp.1) hp.2 hf.2
      exact ⟨_, _, .rescue s t u p q er o r1 r2⟩

/-- C127. A program without loops that passes both checks ends without an exception, from every state that the checks assume. -/
theorem c127_progress {ms : Nat → Nat} {s : State D} {p : Stmt D} (h : TypedState a ks ds s) (hl : ∀ i, (s.env i).1.val.length = ms i)
    (hp : TypeChecks ks ds p) (hq : LengthsCheck ms p) (hf : LoopFree p) : ∃ s', Runs s p none s' := by
  obtain ⟨o, s', hr⟩ := runs_some h hp hf
  obtain ⟨rfl, -⟩ := c127_no_exceptions hr h hl hp hq
  exact ⟨s', hr⟩

end typed

/-! Positions (0) and lengths (1, 3, 4) scale with `a`, times (2 and all others) do not, 5 is a velocity; all have two entries. The state is
that of C126 with variables 3 and 4 naming the lengths and 5 a velocity. -/

private noncomputable def ksT : Nat → ℝ := fun i => if i = 0 ∨ i = 1 ∨ i = 3 ∨ i = 4 ∨ i = 5 then 1 else 0

private noncomputable def dsT : Nat → ℝ × ℝ := fun i => if i = 0 ∨ i = 1 ∨ i = 3 ∨ i = 4 then (1, 0) else if i = 5 then (1, -1) else (0, 1)

private noncomputable def startT : State (ℝ × ℝ) :=
  ⟨fun i => if i = 0 then 0 else if i = 1 ∨ i = 3 ∨ i = 4 then 1 else if i = 5 then 3 else 2, fun l =>
    if l = 3 then (⟨[3, 4], some true, some ⟨some 1, some (1 / 2)⟩, true⟩, ⟨5, (1, -1)⟩) else startE.heap l, 4⟩

private theorem startT_typed : TypedState (1 / 2) ksT dsT startT ∧ ∀ i, (startT.env i).1.val.length = 2 := by
  have h : ∀ i : Nat, (Conv (1 / 2) (ksT i) (startT.env i).1 ∧ 0 < (startT.env i).2.size ∧ (startT.env i).2.dim = dsT i ∧
      startT.vars i < startT.next) ∧ (startT.env i).1.val.length = 2 := by
    intro i
    by_cases h0 : i = 0
    · subst h0
      refine ⟨⟨⟨by norm_num, ?_, ?_, ?_⟩, ?_, ?_, ?_⟩, ?_⟩ <;> simp [startT, State.env, startE, ksT, dsT, mpcE]
    by_cases h1 : i = 1 ∨ i = 3 ∨ i = 4
    · refine ⟨⟨⟨by norm_num, ?_, ?_, ?_⟩, ?_, ?_, ?_⟩, ?_⟩ <;> rcases h1 with rfl | rfl | rfl <;> simp [startT, State.env, startE, ksT, dsT, kpcE]
    by_cases h5 : i = 5
    · subst h5
      refine ⟨⟨⟨by norm_num, ?_, ?_, ?_⟩, ?_, ?_, ?_⟩, ?_⟩ <;> simp [startT, State.env, ksT, dsT]
    · have h1' := h1
      push_neg at h1'
      refine ⟨⟨⟨by norm_num, ?_, ?_, ?_⟩, ?_, ?_, ?_⟩, ?_⟩ <;> simp [startT, State.env, startE, ksT, dsT, myrE, h0, h1', h5]
  exact ⟨⟨fun i => (h i).1.1, fun i => (h i).1.2.1, fun i => (h i).1.2.2.1, fun i => (h i).1.2.2.2⟩, fun i => (h i).2⟩

/-- `z = x + y; w = z; w.convert_to_physical("kpc")`, `if np.any(z < 4 * y): w += y` and `else: v = w / t`. -/
private noncomputable def progT : Stmt (ℝ × ℝ) :=
  .seq (.assign 3 (.two .add (.var 0) (.var 1))) (.seq (.assign 4 (.var 3)) (.seq (.convert (some true) (some kpcE) 4)
    (.ite ⟨.less, .var 3, .two .multiply (.nums [4]) (.var 1), false⟩ (.into 4 (.two .add (.var 4) (.var 1)))
      (.assign 5 (.two .divide (.var 4) (.var 2))))))

private theorem type_var {ks : Nat → ℝ} {ds : Nat → D} {i : Nat} {k : ℝ} {d : D} (h : ks i = k) (h' : ds i = d) : HasType ks ds (.var i) k d := by
  subst h h'
  exact ⟨fun h => h, .var i, .var i⟩

private theorem type_add {ks : Nat → ℝ} {ds : Nat → D} {s t : UExpr D} {k : ℝ} {d : D} (h : HasType ks ds s k d) (h' : HasType ks ds t k d) :
    HasType ks ds (.two .add s t) k d :=
  ⟨fun hb => h.1 hb.1, .sum (by simp) h.2.1 h'.2.1, .like (by decide) h.2.2 h'.2.2⟩

private theorem progT_checks : TypeChecks ksT dsT progT ∧ LengthsCheck (fun _ => 2) progT ∧ LoopFree progT := by
  refine ⟨⟨type_add (type_var (by simp [ksT]) (by simp [dsT])) (type_var (by simp [ksT]) (by simp [dsT])),
    type_var (by simp [ksT]) (by simp [dsT]), ?_, ⟨1, (1, 0), by simp, type_var (by simp [ksT]) (by simp [dsT]), ?_⟩,
    type_add (type_var (by simp [ksT]) (by simp [dsT])) (type_var (by simp [ksT]) (by simp [dsT])), ?_⟩, ?_, ?_⟩
  · intro u hu
    cases hu
    exact ⟨one_pos, by simp [kpcE, dsT]⟩
  · have h1 := Dimension.mul (Dimension.nums (ks := ksT) [4]) (Dimension.var (ks := ksT) 1)
    have h2 := Measures.mul (Measures.nums (ds := dsT) [4]) (Measures.var (ds := dsT) 1)
    rw [zero_add] at h1 h2
    refine ⟨fun h => h.2, ?_, ?_⟩
    · have e : ksT 1 = 1 := by simp [ksT]
      rw [e] at h1; exact h1
    · have e : dsT 1 = (1, 0) := by simp [dsT]
      rw [e] at h2; exact h2
  · have h1 := Dimension.div (Dimension.var (ks := ksT) 4) (Dimension.var (ks := ksT) 2)
    have h2 := Measures.div (Measures.var (ds := dsT) 4) (Measures.var (ds := dsT) 2)
    refine ⟨fun h => h.1, ?_, ?_⟩
    · have e : ksT 4 - ksT 2 = ksT 5 := by simp [ksT]
      rw [e] at h1; exact h1
    · have e : dsT 4 - dsT 2 = dsT 5 := by simp [dsT]
      rw [e] at h2; exact h2
  · have v : ∀ i, HasLength (fun _ => 2) (.var i : UExpr (ℝ × ℝ)) 2 := fun i => .var i
    exact ⟨.two (v 0) (v 1) (.inl ⟨rfl, rfl⟩), v 3, trivial, ⟨2, 2, 2, v 3, .two (.nums [4]) (v 1) (.inr (.inl ⟨rfl, rfl⟩)), .inl ⟨rfl, rfl⟩⟩,
      .two (v 4) (v 1) (.inl ⟨rfl, rfl⟩), .two (v 4) (v 2) (.inl ⟨rfl, rfl⟩)⟩
  · exact ⟨trivial, trivial, trivial, trivial, trivial⟩

/-- The program passes both checks and has no loop, so it ends without an exception and keeps all types. -/
example : (∃ s', Runs startT progT none s') ∧ ∀ o s', Runs startT progT o s' → o = none ∧ TypedState (1 / 2) ksT dsT s' := by
  obtain ⟨h1, h2, h3⟩ := progT_checks
  obtain ⟨ht, hl⟩ := startT_typed
  exact ⟨c127_progress ht hl h1 h2 h3, fun o s' hr => ⟨(c127_no_exceptions hr ht hl h1 h2).1, c127_preserved hr ht h1⟩⟩

/-- The account of C126 has a state that the check assumes, for programs with the variables 0, 1 and the times. -/
example : Balances (1 / 2) { startE with vars := fun i => min i 2 } { accountE with vars := fun i => min i 2 } ∧
    TypedState (1 / 2) (fun i => accountE.exps (min i 2)) (fun i => accountE.dims (min i 2)) { startE with vars := fun i => min i 2 } := by
  have hb : Balances (1 / 2) { startE with vars := fun i => min i 2 } { accountE with vars := fun i => min i 2 } :=
    ⟨rfl, startE_balances.next, startE_balances.conv, startE_balances.size, startE_balances.dims, startE_balances.amts⟩
  exact ⟨hb, balance_typed hb (fun i => by simp only [startE]; omega)⟩

end Verif.Props
