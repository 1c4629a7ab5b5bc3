import Verif.Props.UnitFormulas
import Verif.Spec.UnitPrograms

/-!
# C126: programs with arrays in any frames and units do what they do with physical amounts
-/

namespace Verif.Props
open Verif Verif.Cosmo Verif.Formulas Verif.UnitFormulas Verif.UnitPrograms Verif.Spec
open Verif.Programs (Cmp)

variable {D : Type} [AddCommGroup D] [Module ℝ D]

theorem amountRel_eq (c : Cmp) : amountRelation c = c.rel := by
  funext p q
  cases c <;> simp [amountRelation, Cmp.rel]

theorem amounts_len (x : Arr × U D) : (amounts x).length = x.1.val.length := by
  unfold amounts Arr.phys
  split <;> simp

private theorem pair_inj {z z' : Arr × U D} (h : (Except.ok (Opd.cosmo z.1, z.2) : Except Err (Val D)) = .ok (.cosmo z'.1, z'.2)) : z = z' := by
  cases z; cases z'
  simp only [Except.ok.injEq, Prod.mk.injEq, Opd.cosmo.injEq] at h
  exact Prod.ext h.1 h.2

theorem balance_conv {a : ℝ} {s : State D} {σ : Account D} (h : Balances a s σ) (i : Nat) : Conv a (σ.exps (σ.vars i)) (s.env i).1 := by
  unfold State.env; rw [h.vars]; exact h.conv _

theorem balance_size {a : ℝ} {s : State D} {σ : Account D} (h : Balances a s σ) (i : Nat) : 0 < (s.env i).2.size := h.size _

theorem balance_dims {a : ℝ} {s : State D} {σ : Account D} (h : Balances a s σ) (i : Nat) : (s.env i).2.dim = σ.dims (σ.vars i) := by
  unfold State.env; rw [h.vars]; exact h.dims _

theorem balance_vals {a : ℝ} {s : State D} {σ : Account D} (h : Balances a s σ) : (fun i => amounts (s.env i)) = σ.vals := by
  funext i
  unfold Account.vals State.env; rw [h.vars]; exact h.amts _

theorem balance_pos {a : ℝ} {s : State D} {σ : Account D} (h : Balances a s σ) : 0 < a := (h.conv 0).pos

theorem evalU_ok {a : ℝ} {s : State D} {σ : Account D} (h : Balances a s σ) {e : UExpr D} {k : ℝ} {d : D} (hd : Suits σ e k d)
    (hb : ¬ Bare (ofAmounts e)) {v : List ℝ} (he : meaning σ.vals (ofAmounts e) = .ok v) :
    ∃ z : Arr × U D, evalU s.env e = .ok (.cosmo z.1, z.2) ∧ Conv a k z.1 ∧ 0 < z.2.size ∧ z.2.dim = d ∧ amounts z = v := by
  have hv := c125_value (balance_pos h) (balance_conv h) (balance_size h) (balance_dims h) hd.2 hd.1
  rw [balance_vals h, he] at hv
  cases hr : evalU s.env e with
  | error err => rw [hr] at hv; cases hv
  | ok r =>
    obtain ⟨r1, r2, -, r4⟩ := c125_result (balance_pos h) (balance_conv h) (balance_size h) (balance_dims h) hd.2 hd.1 hr
    obtain ⟨x, hx, hc⟩ := r4 hb
    obtain ⟨o, u⟩ := r
    cases hx
    rw [hr] at hv
    exact ⟨(x, u), rfl, hc, r1, r2, Except.ok.inj hv⟩

theorem evalU_some {a : ℝ} {s : State D} {σ : Account D} (h : Balances a s σ) {e : UExpr D} {k : ℝ} {d : D} (hd : Suits σ e k d)
    {v : List ℝ} (he : meaning σ.vals (ofAmounts e) = .ok v) : ∃ r, evalU s.env e = .ok r := by
  have hv := c125_value (balance_pos h) (balance_conv h) (balance_size h) (balance_dims h) hd.2 hd.1
  rw [balance_vals h, he] at hv
  cases hr : evalU s.env e with
  | error err => rw [hr] at hv; cases hv
  | ok r => exact ⟨r, rfl⟩

theorem evalU_error {a : ℝ} {s : State D} {σ : Account D} (h : Balances a s σ) {e : UExpr D} {err : Err} (he : Fails a σ e err) :
    evalU s.env e = .error err := by
  induction he with
  | @numbers e k d err hd he =>
    have hv := c125_value (balance_pos h) (balance_conv h) (balance_size h) (balance_dims h) hd.2 hd.1
    rw [balance_vals h, he] at hv
    cases hr : evalU s.env e with
    | error err' => rw [hr] at hv; exact congrArg Except.error (Except.error.inj hv)
    | ok r => rw [hr] at hv; cases hv
  | sum hf hs ht hcd ns nt =>
    obtain ⟨v, hv, nv⟩ := ns
    obtain ⟨w, hw, nw⟩ := nt
    rw [← balance_vals h] at hv hw
    exact c125_refused (balance_pos h) (balance_conv h) (balance_size h) (balance_dims h) hcd hs.2 ht.2 hs.1 ht.1 hv hw nv nw hf
  | factor hf hs ht hkl =>
    obtain ⟨bs, ⟨c, hs⟩, v, hv⟩ := hs
    obtain ⟨bt, ⟨d, ht⟩, w, hw⟩ := ht
    rw [← balance_vals h] at hv hw
    exact c125_factor_refused (balance_pos h) (balance_conv h) (balance_size h) (balance_dims h) hkl hs.2 ht.2 hs.1 ht.1 bs bt hv hw hf
  | unit hs hb hv hu =>
    rw [← balance_vals h] at hv
    exact c125_convert_refused (balance_pos h) (balance_conv h) (balance_size h) (balance_dims h) hs.2 hs.1 hb hv hu
  | left _ ih => simp only [evalU, ih, Except.bind]
  | right hd hv _ ih =>
    obtain ⟨r, hr⟩ := evalU_some h hd hv
    simp only [evalU, hr, ih, Except.bind]
  | one _ ih => simp only [evalU, ih, Except.bind]
  | pow _ ih => simp only [evalU, ih, Except.bind]
  | whole _ ih => simp only [evalU, ih, Except.bind]
  | physical _ ih => simp only [evalU, ih, Except.bind]
  | comoving _ ih => simp only [evalU, ih, Except.bind]
  | convert _ ih => simp only [evalU, ih, Except.bind]
  | times _ ih => simp only [evalU, ih, Except.bind]

theorem testU_eq {a : ℝ} {s : State D} {σ : Account D} (h : Balances a s σ) {c : Cond D} {r : Except Err Prop} (hc : Ruling a σ c r) :
    test s.env c = r := by
  unfold test
  cases hc with
  | alike h0 hl hr =>
    rw [c125_compare (balance_pos h) (balance_conv h) (balance_size h) (balance_dims h) h0 hl.2 hr.2 hl.1 hr.1 c.cmp.ufunc c.cmp.rel
      (by cases c.cmp <;> simp [Cmp.ufunc, Cmp.rel]), balance_vals h, amountRel_eq]
  | refused h0 h0' hd hl hr nl nr =>
    obtain ⟨v, hv, nv⟩ := nl
    obtain ⟨w, hw, nw⟩ := nr
    rw [← balance_vals h] at hv hw
    rw [c125_compare_refused (balance_pos h) (balance_conv h) (balance_size h) (balance_dims h) hd h0 h0' hl.2 hr.2 hl.1 hr.1 hv hw nv nw
      c.cmp.ufunc c.cmp.rel (by cases c.cmp <;> simp [Cmp.ufunc])]
    rfl
  | factor hl hr hkl =>
    obtain ⟨bs, ⟨c', hs⟩, v, hv⟩ := hl
    obtain ⟨bt, ⟨d', ht⟩, w, hw⟩ := hr
    rw [← balance_vals h] at hv hw
    rw [c125_factor_compare_refused (balance_pos h) (balance_conv h) (balance_size h) (balance_dims h) hkl hs.2 ht.2 hs.1 ht.1 bs bt hv hw
      c.cmp.ufunc c.cmp.rel (by cases c.cmp <;> simp [Cmp.ufunc])]
    rfl
  | left hl =>
    unfold compareU
    rw [evalU_error h hl]
    rfl
  | right hd hv hr =>
    obtain ⟨r, hr'⟩ := evalU_some h hd hv
    unfold compareU
    rw [hr', evalU_error h hr]
    rfl

private theorem balance_store {a : ℝ} {s : State D} {σ : Account D} (h : Balances a s σ) (x : Nat) {z : Arr × U D} {k : ℝ} {d : D}
    (hz : Conv a k z.1) (h0 : 0 < z.2.size) (hd : z.2.dim = d) :
    Balances a (s.store x z) ⟨σ.vars, Function.update σ.exps (σ.vars x) k, Function.update σ.dims (σ.vars x) d,
      Function.update σ.nums (σ.vars x) (amounts z), σ.next⟩ := by
  refine ⟨h.vars, h.next, fun l => ?_, fun l => ?_, fun l => ?_, fun l => ?_⟩
  all_goals
    simp only [State.store, h.vars]
    by_cases hl : l = σ.vars x
  · subst hl; simpa using hz
  · simpa [Function.update_of_ne hl] using h.conv l
  · subst hl; simpa using h0
  · simpa [Function.update_of_ne hl] using h.size l
  · subst hl; simpa using hd
  · simpa [Function.update_of_ne hl] using h.dims l
  · subst hl; simp
  · simpa [Function.update_of_ne hl] using h.amts l

private theorem unitIn_ok {a k : ℝ} {x : Arr × U D} {v : Option (U D)} (hx : Conv a k x.1) (h0 : 0 < x.2.size)
    (hu : ∀ u ∈ v, 0 < u.size ∧ u.dim = x.2.dim) :
    (unitIn v x).2 = none ∧ Conv a k (unitIn v x).1.1 ∧ 0 < (unitIn v x).1.2.size ∧ (unitIn v x).1.2.dim = x.2.dim ∧
      amounts (unitIn v x).1 = amounts x ∧ (∀ u ∈ v, (unitIn v x).1.2 = u) ∧ (v = none → (unitIn v x).1.2 = x.2) ∧
      (unitIn v x).1.1.comoving = x.1.comoving := by
  cases v with
  | none => exact ⟨rfl, hx, h0, rfl, rfl, nofun, fun _ => rfl, rfl⟩
  | some u =>
    obtain ⟨u0, ud⟩ := hu u rfl
    have hun : unitIn (some u) x = ((propagate (List.map (· * (x.2.size / u.size))) x.1, u), none) := if_neg (not_not.mpr ud.symm)
    rw [hun]
    refine ⟨rfl, ?_, u0, ud, ?_, ?_, nofun, rfl⟩
    · exact ⟨hx.1, hx.2, hx.3, hx.4⟩
    · obtain ⟨x, w⟩ := x
      unfold amounts Arr.phys propagate
      simp only
      split
      · simp only [List.map_map]
        refine List.map_congr_left fun q _ => ?_
        simp only [Function.comp]
        field_simp
      · simp only [List.map_map]
        refine List.map_congr_left fun q _ => ?_
        simp only [Function.comp]
        field_simp
    · intro w hw
      cases hw
      rfl

private theorem convertIn_refused {b : Option Bool} {u : U D} {x : Arr × U D} (h : x.2.dim ≠ u.dim) :
    convertIn b (some u) x = (x, some .value) := by
  have hun : unitIn (some u) x = (x, some .value) := if_pos h
  unfold convertIn
  rw [hun]

theorem convertIn_ok {a k : ℝ} {b : Option Bool} {v : Option (U D)} {x : Arr × U D} (hx : Conv a k x.1) (h0 : 0 < x.2.size)
    (hu : ∀ u ∈ v, 0 < u.size ∧ u.dim = x.2.dim) :
    (convertIn b v x).2 = none ∧ Conv a k (convertIn b v x).1.1 ∧ 0 < (convertIn b v x).1.2.size ∧ (convertIn b v x).1.2.dim = x.2.dim ∧
      amounts (convertIn b v x).1 = amounts x ∧ (∀ u ∈ v, (convertIn b v x).1.2 = u) ∧ (v = none → (convertIn b v x).1.2 = x.2) ∧
      (convertIn b v x).1.1.comoving = match b with | some c => some (!c) | none => x.1.comoving := by
  obtain ⟨u1, u2, u3, u4, u5, u6, u7, u8⟩ := unitIn_ok hx h0 hu
  unfold convertIn
  generalize unitIn v x = r at *
  obtain ⟨y, e⟩ := r
  cases u1
  cases b with
  | none => exact ⟨rfl, u2, u3, u4, u5, u6, u7, u8⟩
  | some c =>
    obtain ⟨z, h1, h2, hf, h3⟩ := c23_convert u2 (if c then .convertToPhysical else .convertToComoving)
    have he : (if c then y.1.convertToPhysical else y.1.convertToComoving) = .ok z := by
      cases c <;> exact h1
    dsimp only
    rw [he]
    refine ⟨rfl, h2, u3, u4, ?_, u6, u7, ?_⟩
    · rw [← u5]
      unfold amounts
      dsimp only
      rw [h3]
    · dsimp only
      rw [hf]
      cases c <;> rfl

/-- the numbers of the program are followed by the arrays -/
private theorem pays {a : ℝ} {strict : Bool} {σ σ' : Account D} {p : Stmt D} {o : Option Err} (hm : Performs a strict σ p o σ') :
    ∀ s, Balances a s σ → ∃ s', Runs s p o s' ∧ Balances a s' σ' := by
  induction hm with
  | skip σ => exact fun s h => ⟨s, .skip s, h⟩
  | name σ x y =>
    intro s h
    refine ⟨_, .name s x y, ⟨?_, h.next, h.conv, h.size, h.dims, h.amts⟩⟩
    simp only [h.vars]
  | assign σ x e k d v hv hd hb he =>
    intro s h
    obtain ⟨z, h1, h2, h3, h4, h5⟩ := evalU_ok h hd hb he
    refine ⟨_, .assign s x e z hv h1, ⟨?_, ?_, fun l => ?_, fun l => ?_, fun l => ?_, fun l => ?_⟩⟩
    · simp only [State.new, h.vars, h.next]
    · simp only [State.new, h.next]
    all_goals
      simp only [State.new, h.next]
      by_cases hl : l = σ.next
    · subst hl; simpa using h2
    · simpa [Function.update_of_ne hl] using h.conv l
    · subst hl; simpa using h3
    · simpa [Function.update_of_ne hl] using h.size l
    · subst hl; simpa using h4
    · simpa [Function.update_of_ne hl] using h.dims l
    · subst hl; simpa using h5
    · simpa [Function.update_of_ne hl] using h.amts l
  | assignErr σ x e err he => exact fun s h => ⟨s, .assignErr s x e err (evalU_error h he), h⟩
  | into σ x e k d v hd hb he hl =>
    intro s h
    obtain ⟨z, h1, h2, h3, h4, h5⟩ := evalU_ok h hd hb he
    have hlen : z.1.val.length = (s.env x).1.val.length := by
      rw [← amounts_len z, ← amounts_len (s.env x), h5, hl, ← congrFun (balance_vals h) x]
    have := balance_store h x h2 h3 h4
    rw [h5] at this
    exact ⟨_, .into s x e z h1 hlen, this⟩
  | intoShape σ x e k d v hd hb he hl =>
    intro s h
    obtain ⟨z, h1, h2, h3, h4, h5⟩ := evalU_ok h hd hb he
    have hlen : z.1.val.length ≠ (s.env x).1.val.length := by
      rw [← amounts_len z, ← amounts_len (s.env x), h5]
      rw [← congrFun (balance_vals h) x] at hl
      exact hl
    exact ⟨s, .intoShape s x e z h1 hlen, h⟩
  | intoErr σ x e err he => exact fun s h => ⟨s, .intoErr s x e err (evalU_error h he), h⟩
  | convert σ b v x hu =>
    intro s h
    have hz := convertIn_ok (b := b) (v := v) (balance_conv h x) (balance_size h x) (fun u hm => ⟨(hu u hm).1, by rw [(hu u hm).2, balance_dims h x]⟩)
    obtain ⟨z1, z2, z3, z4, z5, -⟩ := hz
    have := balance_store h x z2 z3 (z4.trans (balance_dims h x))
    rw [z5, congrFun (balance_vals h) x] at this
    have e1 : Function.update σ.exps (σ.vars x) (σ.exps (σ.vars x)) = σ.exps := by simp
    have e2 : Function.update σ.nums (σ.vars x) (σ.vals x) = σ.nums := by simp [Account.vals]
    have e3 : Function.update σ.dims (σ.vars x) (σ.dims (σ.vars x)) = σ.dims := by simp
    rw [e1, e2, e3] at this
    have hr := Runs.convert s b v x
    rw [z1] at hr
    exact ⟨_, hr, this⟩
  | convertErr σ b u x hs hu =>
    intro s h
    have hn : (s.env x).2.dim ≠ u.dim := by rw [balance_dims h x]; exact Ne.symm hu
    have hr := Runs.convert s b (some u) x
    rw [convertIn_refused hn] at hr
    refine ⟨s, ?_, h⟩
    simpa [State.store, State.env] using hr
  | seq σ τ υ p q o _ _ ih1 ih2 =>
    intro s h
    obtain ⟨t, h1, h2⟩ := ih1 s h
    obtain ⟨u, h3, h4⟩ := ih2 t h2
    exact ⟨u, .seq s t u p q o h1 h3, h4⟩
  | seqErr σ τ p q err _ ih1 =>
    intro s h
    obtain ⟨t, h1, h2⟩ := ih1 s h
    exact ⟨t, .seqErr s t p q err h1, h2⟩
  | iteErr σ c p q err hc => exact fun s h => ⟨s, .iteErr s c p q err (testU_eq h hc), h⟩
  | iteTrue σ τ c p q o b hc hb _ ih1 =>
    intro s h
    obtain ⟨t, h1, h2⟩ := ih1 s h
    exact ⟨t, .iteTrue s t c p q o b (testU_eq h hc) hb h1, h2⟩
  | iteFalse σ τ c p q o b hc hb _ ih1 =>
    intro s h
    obtain ⟨t, h1, h2⟩ := ih1 s h
    exact ⟨t, .iteFalse s t c p q o b (testU_eq h hc) hb h1, h2⟩
  | whileErr σ c p err hc => exact fun s h => ⟨s, .whileErr s c p err (testU_eq h hc), h⟩
  | whileDone σ c p b hc hb => exact fun s h => ⟨s, .whileDone s c p b (testU_eq h hc) hb, h⟩
  | whileStep σ τ υ c p o b hc hb _ _ ih1 ih2 =>
    intro s h
    obtain ⟨t, h1, h2⟩ := ih1 s h
    obtain ⟨u, h3, h4⟩ := ih2 t h2
    exact ⟨u, .whileStep s t u c p o b (testU_eq h hc) hb h1 h3, h4⟩
  | whileStop σ τ c p err b hc hb _ ih1 =>
    intro s h
    obtain ⟨t, h1, h2⟩ := ih1 s h
    exact ⟨t, .whileStop s t c p err b (testU_eq h hc) hb h1, h2⟩
  | attempt σ τ p q _ ih1 =>
    intro s h
    obtain ⟨t, h1, h2⟩ := ih1 s h
    exact ⟨t, .attempt s t p q h1, h2⟩
  | rescue σ τ υ p q err o _ _ ih1 ih2 =>
    intro s h
    obtain ⟨t, h1, h2⟩ := ih1 s h
    obtain ⟨u, h3, h4⟩ := ih2 t h2
    exact ⟨u, .rescue s t u p q err o h1 h3, h4⟩

/-- C126. A program has at most one way to end. -/
theorem c126_unique {s t : State D} {p : Stmt D} {o : Option Err} (h : Runs s p o t) :
    ∀ o' t', Runs s p o' t' → o' = o ∧ t' = t := by
  induction h with
  | skip s => intro o' t' h'; cases h'; exact ⟨rfl, rfl⟩
  | name s x y =>
    intro o' t' h'
    cases h' with
    | name => exact ⟨rfl, rfl⟩
    | assign _ _ _ z hv he => exact absurd rfl (hv y)
    | assignErr _ _ _ err he => cases he
  | assign s x e z hv he =>
    intro o' t' h'
    cases h' with
    | name _ _ y => exact absurd rfl (hv y)
    | assign _ _ _ z' hv' he' => obtain rfl := pair_inj (he.symm.trans he'); exact ⟨rfl, rfl⟩
    | assignErr _ _ _ err he' => rw [he] at he'; cases he'
  | assignErr s x e err he =>
    intro o' t' h'
    cases h' with
    | name _ _ y => cases he
    | assign _ _ _ z' hv' he' => rw [he] at he'; cases he'
    | assignErr _ _ _ err' he' => rw [he] at he'; cases he'; exact ⟨rfl, rfl⟩
  | into s x e z he hl =>
    intro o' t' h'
    cases h' with
    | into _ _ _ z' he' hl' => obtain rfl := pair_inj (he.symm.trans he'); exact ⟨rfl, rfl⟩
    | intoShape _ _ _ z' he' hl' => obtain rfl := pair_inj (he.symm.trans he'); exact absurd hl hl'
    | intoErr _ _ _ err he' => rw [he] at he'; cases he'
  | intoShape s x e z he hl =>
    intro o' t' h'
    cases h' with
    | into _ _ _ z' he' hl' => obtain rfl := pair_inj (he.symm.trans he'); exact absurd hl' hl
    | intoShape _ _ _ z' he' hl' => exact ⟨rfl, rfl⟩
    | intoErr _ _ _ err he' => rw [he] at he'; cases he'
  | intoErr s x e err he =>
    intro o' t' h'
    cases h' with
    | into _ _ _ z' he' hl' => rw [he] at he'; cases he'
    | intoShape _ _ _ z' he' hl' => rw [he] at he'; cases he'
    | intoErr _ _ _ err' he' => rw [he] at he'; cases he'; exact ⟨rfl, rfl⟩
  | convert s b v x => intro o' t' h'; cases h'; exact ⟨rfl, rfl⟩
  | seq s t u p q o _ _ ih1 ih2 =>
    intro o' t' h'
    cases h' with
    | seq _ t2 _ _ _ _ g1 g2 => obtain ⟨-, rfl⟩ := ih1 _ _ g1; exact ih2 _ _ g2
    | seqErr _ _ _ _ err g1 => exact absurd (ih1 _ _ g1).1 (by simp)
  | seqErr s t p q err _ ih1 =>
    intro o' t' h'
    cases h' with
    | seq _ t2 _ _ _ _ g1 g2 => exact absurd (ih1 _ _ g1).1 (by simp)
    | seqErr _ _ _ _ err g1 => exact ih1 _ _ g1
  | iteErr s c p q err hc =>
    intro o' t' h'
    cases h' with
    | iteErr _ _ _ _ err' hc' => rw [hc] at hc'; cases hc'; exact ⟨rfl, rfl⟩
    | iteTrue _ _ _ _ _ _ b' hc' => rw [hc] at hc'; cases hc'
    | iteFalse _ _ _ _ _ _ b' hc' => rw [hc] at hc'; cases hc'
  | iteTrue s t c p q o b hc hb _ ih1 =>
    intro o' t' h'
    cases h' with
    | iteErr _ _ _ _ err' hc' => rw [hc] at hc'; cases hc'
    | iteTrue _ _ _ _ _ _ b' hc' hb' g1 => exact ih1 _ _ g1
    | iteFalse _ _ _ _ _ _ b' hc' hb' g1 => rw [hc] at hc'; cases hc'; exact absurd hb hb'
  | iteFalse s t c p q o b hc hb _ ih1 =>
    intro o' t' h'
    cases h' with
    | iteErr _ _ _ _ err' hc' => rw [hc] at hc'; cases hc'
    | iteTrue _ _ _ _ _ _ b' hc' hb' g1 => rw [hc] at hc'; cases hc'; exact absurd hb' hb
    | iteFalse _ _ _ _ _ _ b' hc' hb' g1 => exact ih1 _ _ g1
  | whileErr s c p err hc =>
    intro o' t' h'
    cases h' with
    | whileErr _ _ _ err' hc' => rw [hc] at hc'; cases hc'; exact ⟨rfl, rfl⟩
    | whileDone _ _ _ b' hc' hb' => rw [hc] at hc'; cases hc'
    | whileStep _ _ _ _ _ _ b' hc' hb' g1 g2 => rw [hc] at hc'; cases hc'
    | whileStop _ _ _ _ err' b' hc' hb' g1 => rw [hc] at hc'; cases hc'
  | whileDone s c p b hc hb =>
    intro o' t' h'
    cases h' with
    | whileErr _ _ _ err' hc' => rw [hc] at hc'; cases hc'
    | whileDone _ _ _ b' hc' hb' => exact ⟨rfl, rfl⟩
    | whileStep _ _ _ _ _ _ b' hc' hb' g1 g2 => rw [hc] at hc'; cases hc'; exact absurd hb' hb
    | whileStop _ _ _ _ err' b' hc' hb' g1 => rw [hc] at hc'; cases hc'; exact absurd hb' hb
  | whileStep s t u c p o b hc hb _ _ ih1 ih2 =>
    intro o' t' h'
    cases h' with
    | whileErr _ _ _ err' hc' => rw [hc] at hc'; cases hc'
    | whileDone _ _ _ b' hc' hb' => rw [hc] at hc'; cases hc'; exact absurd hb hb'
    | whileStep _ _ _ _ _ _ b' hc' hb' g1 g2 => obtain ⟨-, rfl⟩ := ih1 _ _ g1; exact ih2 _ _ g2
    | whileStop _ _ _ _ err' b' hc' hb' g1 => exact absurd (ih1 _ _ g1).1 (by simp)
  | whileStop s t c p err b hc hb _ ih1 =>
    intro o' t' h'
    cases h' with
    | whileErr _ _ _ err' hc' => rw [hc] at hc'; cases hc'
    | whileDone _ _ _ b' hc' hb' => rw [hc] at hc'; cases hc'; exact absurd hb hb'
    | whileStep _ _ _ _ _ _ b' hc' hb' g1 g2 => exact absurd (ih1 _ _ g1).1 (by simp)
    | whileStop _ _ _ _ err' b' hc' hb' g1 => exact ih1 _ _ g1
  | attempt s t p q _ ih1 =>
    intro o' t' h'
    cases h' with
    | attempt _ _ _ _ g1 => exact ih1 _ _ g1
    | rescue _ _ _ _ _ err _ g1 g2 => exact absurd (ih1 _ _ g1).1 (by simp)
  | rescue s t u p q err o _ _ ih1 ih2 =>
    intro o' t' h'
    cases h' with
    | attempt _ _ _ _ g1 => exact absurd (ih1 _ _ g1).1 (by simp)
    | rescue _ _ _ _ _ err' _ g1 g2 => obtain ⟨-, rfl⟩ := ih1 _ _ g1; exact ih2 _ _ g2

/-- C126. A program in which all formulas scale and have dimensions (or are refused because they have none), run with arrays in any frames
and units, ends as it does with the physical amounts: with the same exception or none, and all arrays then hold the amounts, factors and
dimensions that the program computes. -/
theorem c126_programs {a : ℝ} {strict : Bool} {s : State D} {σ σ' : Account D} {p : Stmt D} {o : Option Err} (h : Balances a s σ)
    (hm : Performs a strict σ p o σ') : (∃ s', Runs s p o s') ∧ ∀ o' s', Runs s p o' s' → o' = o ∧ Balances a s' σ' := by
  obtain ⟨t, h1, h2⟩ := pays hm s h
  refine ⟨⟨t, h1⟩, fun o' s' h' => ?_⟩
  obtain ⟨rfl, rfl⟩ := c126_unique h1 o' s' h'
  exact ⟨rfl, h2⟩

private theorem same_env {a : ℝ} {s t : State D} {σ : Account D} (h1 : Balances a s σ) (h2 : Balances a t σ) :
    s.vars = t.vars ∧ (∀ i, amounts (s.env i) = amounts (t.env i)) ∧ (∀ i, (s.env i).2.dim = (t.env i).2.dim) ∧
      ∀ i, (s.env i).1.cf = (t.env i).1.cf :=
  ⟨h1.vars.trans h2.vars.symm, fun i => congrFun ((balance_vals h1).trans (balance_vals h2).symm) i,
    fun i => (balance_dims h1 i).trans (balance_dims h2 i).symm, fun i => (balance_conv h1 i).cf.trans (balance_conv h2 i).cf.symm⟩

/-- C126. The frames and units of the arrays at the start do not matter: the program ends in the same way and all variables have the same
physical amounts, dimensions and factors. -/
theorem c126_units {a : ℝ} {strict : Bool} {s t : State D} {σ σ' : Account D} {p : Stmt D} {o : Option Err} (h1 : Balances a s σ)
    (h2 : Balances a t σ) (hm : Performs a strict σ p o σ') {o1 o2 : Option Err} {s' t' : State D} (r1 : Runs s p o1 s') (r2 : Runs t p o2 t') :
    o1 = o2 ∧ s'.vars = t'.vars ∧ (∀ i, amounts (s'.env i) = amounts (t'.env i)) ∧ (∀ i, (s'.env i).2.dim = (t'.env i).2.dim) ∧
      ∀ i, (s'.env i).1.cf = (t'.env i).1.cf := by
  obtain ⟨e1, k1⟩ := (c126_programs h1 hm).2 _ _ r1
  obtain ⟨e2, k2⟩ := (c126_programs h2 hm).2 _ _ r2
  exact ⟨e1.trans e2.symm, same_env k1 k2⟩

private theorem performs_without {a : ℝ} {σ σ' : Account D} {p : Stmt D} {o : Option Err} (hm : Performs a true σ p o σ') :
    Performs a true σ (withoutConversions p) o σ' := by
  induction hm with
  | skip σ => exact .skip σ
  | name σ x y => exact .name σ x y
  | assign σ x e k d v hv hd hb he => exact .assign σ x e k d v hv hd hb he
  | assignErr σ x e err he => exact .assignErr σ x e err he
  | into σ x e k d v hd hb he hl => exact .into σ x e k d v hd hb he hl
  | intoShape σ x e k d v hd hb he hl => exact .intoShape σ x e k d v hd hb he hl
  | intoErr σ x e err he => exact .intoErr σ x e err he
  | convert σ b v x hu => exact .skip σ
  | convertErr σ b u x hs hu => cases hs
  | seq σ τ υ p q o _ _ ih1 ih2 => exact .seq σ τ υ _ _ o ih1 ih2
  | seqErr σ τ p q err _ ih1 => exact .seqErr σ τ _ _ err ih1
  | iteErr σ c p q err hc => exact .iteErr σ c _ _ err hc
  | iteTrue σ τ c p q o b hc hb _ ih1 => exact .iteTrue σ τ c _ _ o b hc hb ih1
  | iteFalse σ τ c p q o b hc hb _ ih1 => exact .iteFalse σ τ c _ _ o b hc hb ih1
  | whileErr σ c p err hc => exact .whileErr σ c _ err hc
  | whileDone σ c p b hc hb => exact .whileDone σ c _ b hc hb
  | whileStep σ τ υ c p o b hc hb _ _ ih1 ih2 => exact .whileStep σ τ υ c _ o b hc hb ih1 ih2
  | whileStop σ τ c p err b hc hb _ ih1 => exact .whileStop σ τ c _ err b hc hb ih1
  | attempt σ τ p q _ ih1 => exact .attempt σ τ _ _ ih1
  | rescue σ τ υ p q err o _ _ ih1 ih2 => exact .rescue σ τ υ _ _ err o ih1 ih2

/-- C126. Conversions in place of units and frames that are not refused change no amounts anywhere in a program, also in loops and under
other names of an array: without them the program ends in the same way. -/
theorem c126_conversions {a : ℝ} {s : State D} {σ σ' : Account D} {p : Stmt D} {o : Option Err} (h : Balances a s σ)
    (hm : Performs a true σ p o σ') {o1 o2 : Option Err} {s1 s2 : State D} (r1 : Runs s p o1 s1) (r2 : Runs s (withoutConversions p) o2 s2) :
    o1 = o2 ∧ s1.vars = s2.vars ∧ (∀ i, amounts (s1.env i) = amounts (s2.env i)) ∧ (∀ i, (s1.env i).2.dim = (s2.env i).2.dim) ∧
      ∀ i, (s1.env i).1.cf = (s2.env i).1.cf := by
  obtain ⟨e1, k1⟩ := (c126_programs h hm).2 _ _ r1
  obtain ⟨e2, k2⟩ := (c126_programs h (performs_without hm)).2 _ _ r2
  exact ⟨e1.trans e2.symm, same_env k1 k2⟩

/-- C126. A program without in-place operations, output arrays and conversions in place leaves every array as it was, whether or not its
formulas scale and have dimensions and whether or not it raises. -/
theorem c126_no_side_effects {s s' : State D} {p : Stmt D} {o : Option Err} (h : Runs s p o s') (h1 : OnlyNew p) :
    s.next ≤ s'.next ∧ ∀ l, l < s.next → s'.heap l = s.heap l := by
  induction h with
  | skip s => exact ⟨le_rfl, fun _ _ => rfl⟩
  | name s x y => exact ⟨le_rfl, fun _ _ => rfl⟩
  | assign s x e z hv he =>
    refine ⟨Nat.le_succ _, fun l hl => ?_⟩
    simp only [State.new]
    rw [Function.update_of_ne (by omega)]
  | assignErr s x e err he => exact ⟨le_rfl, fun _ _ => rfl⟩
  | into s x e z he hl => exact absurd h1 id
  | intoShape s x e z he hl => exact absurd h1 id
  | intoErr s x e err he => exact absurd h1 id
  | convert s b v x => exact absurd h1 id
  | seq s t u p q o _ _ ih1 ih2 =>
    obtain ⟨a1, a2⟩ := ih1 h1.1
    obtain ⟨b1, b2⟩ := ih2 h1.2
    exact ⟨a1.trans b1, fun l hl => (b2 l (by omega)).trans (a2 l hl)⟩
  | seqErr s t p q err _ ih1 => exact ih1 h1.1
  | iteErr s c p q err hc => exact ⟨le_rfl, fun _ _ => rfl⟩
  | iteTrue s t c p q o b hc hb _ ih1 => exact ih1 h1.1
  | iteFalse s t c p q o b hc hb _ ih1 => exact ih1 h1.2
  | whileErr s c p err hc => exact ⟨le_rfl, fun _ _ => rfl⟩
  | whileDone s c p b hc hb => exact ⟨le_rfl, fun _ _ => rfl⟩
  | whileStep s t u c p o b hc hb _ _ ih1 ih2 =>
    obtain ⟨a1, a2⟩ := ih1 h1
    obtain ⟨b1, b2⟩ := ih2 h1
    exact ⟨a1.trans b1, fun l hl => (b2 l (by omega)).trans (a2 l hl)⟩
  | whileStop s t c p err b hc hb _ ih1 => exact ih1 h1
  | attempt s t p q _ ih1 => exact ih1 h1.1
  | rescue s t u p q err o _ _ ih1 ih2 =>
    obtain ⟨a1, a2⟩ := ih1 h1.1
    obtain ⟨b1, b2⟩ := ih2 h1.2
    exact ⟨a1.trans b1, fun l hl => (b2 l (by omega)).trans (a2 l hl)⟩

/-- C126. A conversion in place to a unit with the dimensions of the array (or to no unit) and to a frame (or to none) leaves the array in
that unit and frame, under all its names, with the amounts it had, and leaves all other arrays and all names as they were. -/
theorem c126_converted {a : ℝ} {s s' : State D} {σ : Account D} {b : Option Bool} {v : Option (U D)} {x : Nat} {o : Option Err}
    (h : Balances a s σ) (hu : ∀ u ∈ v, 0 < u.size ∧ u.dim = σ.dims (σ.vars x)) (hr : Runs s (.convert b v x) o s') :
    o = none ∧ s'.vars = s.vars ∧ (∀ y, s.vars y = s.vars x → (∀ c, b = some c → (s'.env y).1.comoving = some (!c)) ∧
        (b = none → (s'.env y).1.comoving = (s.env y).1.comoving) ∧ (∀ u, v = some u → (s'.env y).2 = u) ∧
        (v = none → (s'.env y).2 = (s.env y).2) ∧ amounts (s'.env y) = amounts (s.env y)) ∧
      ∀ y, s.vars y ≠ s.vars x → s'.env y = s.env y := by
  obtain ⟨z1, -, -, -, z5, z6, z7, z8⟩ := convertIn_ok (b := b) (v := v) (balance_conv h x) (balance_size h x)
    (fun u hm => ⟨(hu u hm).1, by rw [(hu u hm).2, balance_dims h x]⟩)
  cases hr
  refine ⟨z1, rfl, fun y hy => ?_, fun y hy => ?_⟩
  · have e1 : (s.store x (convertIn b v (s.env x)).1).env y = (convertIn b v (s.env x)).1 := by
      simp only [State.env, State.store, hy, Function.update_self]
    have e2 : s.env y = s.env x := by simp only [State.env, hy]
    rw [e1, e2]
    refine ⟨fun c hc => ?_, fun hb => ?_, fun u hv => z6 u hv, z7, z5⟩
    · rw [z8, hc]
    · rw [z8, hb]
  · simp only [State.env, State.store, Function.update_of_ne hy]

/-- C126. A conversion in place to a unit with other dimensions is refused and changes nothing: neither the unit nor the frame. -/
theorem c126_convert_refused {s s' : State D} {b : Option Bool} {u : U D} {x : Nat} {o : Option Err} (hu : u.dim ≠ (s.env x).2.dim)
    (hr : Runs s (.convert b (some u) x) o s') : o = some .value ∧ s' = s := by
  have he := convertIn_refused (b := b) (x := s.env x) (u := u) (Ne.symm hu)
  cases hr
  rw [he]
  exact ⟨rfl, by simp [State.store, State.env]⟩

/-! Comoving positions in Mpc (variable 0), physical lengths in kpc (1) and times in Myr (all others) at `a = 1/2`; dimensions are
exponents of length and time. -/

noncomputable def mpcE : U (ℝ × ℝ) := ⟨1000, (1, 0)⟩

noncomputable def kpcE : U (ℝ × ℝ) := ⟨1, (1, 0)⟩

noncomputable def myrE : U (ℝ × ℝ) := ⟨1, (0, 1)⟩

noncomputable def startE : State (ℝ × ℝ) := ⟨id, fun
  | 0 => (⟨[2, 4], some true, some ⟨some 1, some (1 / 2)⟩, true⟩, mpcE)
  | 1 => (⟨[500, 500], some false, some ⟨some 1, some (1 / 2)⟩, true⟩, kpcE)
  | _ => (⟨[10, 10], some false, some ⟨some 0, some (1 / 2)⟩, true⟩, myrE), 3⟩

noncomputable def accountE : Account (ℝ × ℝ) := ⟨id, fun | 0 => 1 | 1 => 1 | _ => 0, fun | 0 => (1, 0) | 1 => (1, 0) | _ => (0, 1),
  fun | 0 => [1000, 2000] | 1 => [500, 500] | _ => [10, 10], 3⟩

theorem startE_balances : Balances (1 / 2) startE accountE := by
  refine ⟨rfl, rfl, fun l => ?_, fun l => ?_, fun l => ?_, fun l => ?_⟩
  · match l with
    | 0 => exact ⟨by norm_num, rfl, rfl, nofun⟩
    | 1 => exact ⟨by norm_num, rfl, rfl, nofun⟩
    | _ + 2 => exact ⟨by norm_num, rfl, rfl, nofun⟩
  · match l with
    | 0 => norm_num [startE, mpcE]
    | 1 => norm_num [startE, kpcE]
    | _ + 2 => exact one_pos
  · match l with
    | 0 => rfl
    | 1 => rfl
    | _ + 2 => rfl
  · match l with
    | 0 => norm_num [startE, accountE, mpcE, amounts, Arr.phys]
    | 1 => norm_num [startE, accountE, kpcE, amounts, Arr.phys]
    | _ + 2 =>
      change List.map (· * (1 : ℝ)) [10, 10] = [10, 10]
      norm_num

/-- `np.any(z < 4 * y)`. -/
private noncomputable def condE : Cond (ℝ × ℝ) := ⟨.less, .var 3, .two .multiply (.nums [4]) (.var 1), false⟩

/-- `z = x + y; w = z; w.convert_to_physical("kpc")`, `while np.any(z < 4 * y): z += y; z.convert_to_comoving("Mpc")`, and
`try: z += t` and `except: try: w.convert_to_physical("Myr")` and `except: v = w / t`. -/
private noncomputable def progE : Stmt (ℝ × ℝ) :=
  .seq (.assign 3 (.two .add (.var 0) (.var 1))) (.seq (.assign 4 (.var 3)) (.seq (.convert (some true) (some kpcE) 4) (.seq
    (.while condE (.seq (.into 3 (.two .add (.var 3) (.var 1))) (.convert (some false) (some mpcE) 3)))
    (.attempt (.into 3 (.two .add (.var 3) (.var 2))) (.attempt (.convert (some true) (some myrE) 4) (.assign 5 (.two .divide (.var 4) (.var 2))))))))

private theorem suits_var {σ : Account D} {i : Nat} {k : ℝ} {d : D} (h : σ.exps (σ.vars i) = k) (h' : σ.dims (σ.vars i) = d) :
    Suits σ (.var i) k d := by
  subst h h'
  exact ⟨Dimension.var (ks := fun i => σ.exps (σ.vars i)) i, Measures.var (ds := fun i => σ.dims (σ.vars i)) i⟩

private theorem suits_add {σ : Account D} {s t : UExpr D} {k : ℝ} {d : D} (h : Suits σ s k d) (h' : Suits σ t k d) : Suits σ (.two .add s t) k d :=
  ⟨.sum (by simp) h.1 h'.1, .like (by decide) h.2 h'.2⟩

private theorem suits_times {σ : Account D} {t : UExpr D} {v : List ℝ} {k : ℝ} {d : D} (h : Suits σ t k d) :
    Suits σ (.two .multiply (.nums v) t) k d := by
  have h1 := Dimension.mul (Dimension.nums (ks := fun i => σ.exps (σ.vars i)) v) h.1
  have h2 := Measures.mul (Measures.nums (ds := fun i => σ.dims (σ.vars i)) v) h.2
  rw [zero_add] at h1 h2
  exact ⟨h1, h2⟩

private theorem ruling_of {a : ℝ} {σ : Account D} {c : Cond D} {r r' : Except Err Prop} (h : Ruling a σ c r) (hr : r = r') : Ruling a σ c r' := hr ▸ h

private theorem progE_performs : ∃ σ', Performs (1 / 2) false accountE progE none σ' ∧ σ'.vals 3 = [2000, 3000] ∧ σ'.vals 4 = [2000, 3000] ∧
    σ'.vals 5 = [200, 300] ∧ σ'.dims (σ'.vars 5) = (1, -1) := by
  refine ⟨_, .seq _ _ _ _ _ _ (.assign _ _ _ 1 (1, 0) [1500, 2500] (by intro y h; cases h) ?_ (fun h => h.1) ?_)
    (.seq _ _ _ _ _ _ (.name _ _ _) (.seq _ _ _ _ _ _ (.convert _ _ _ _ ?_)
    (.seq _ _ _ _ _ _ (.whileStep _ _ _ _ _ _ (∃ b ∈ [(1500 : ℝ) < 2000, (2500 : ℝ) < 2000], b)
      (ruling_of (.alike (k := 1) (d := ((1, 0) : ℝ × ℝ)) (by simp) ?_ ?_) ?_) ?_
      (.seq _ _ _ _ _ _ (.into _ _ _ 1 (1, 0) [2000, 3000] ?_ (fun h => h.1) ?_ ?_) (.convert _ _ _ _ ?_))
      (.whileDone _ _ _ (∃ b ∈ [(2000 : ℝ) < 2000, (3000 : ℝ) < 2000], b)
        (ruling_of (.alike (k := 1) (d := ((1, 0) : ℝ × ℝ)) (by simp) ?_ ?_) ?_) ?_))
    (.rescue _ _ _ _ _ .value _ (.intoErr _ _ _ _ (.sum (k := 1) (l := 0) (c := ((1, 0) : ℝ × ℝ)) (d := ((0, 1) : ℝ × ℝ)) (by decide) ?_ ?_ (by simp)
        ⟨[2000, 3000], ?_, 2000, by simp, by norm_num⟩ ⟨[10, 10], ?_, 10, by simp, by norm_num⟩))
      (.rescue _ _ _ _ _ .value _ (.convertErr _ _ _ _ rfl ?_) (.assign _ _ _ (1 - 0) ((1, 0) - (0, 1)) [200, 300] (by intro y h; cases h) ?_
        (fun h => h.1) ?_)))))), ?_⟩
  · exact suits_add (suits_var rfl rfl) (suits_var rfl rfl)
  · simp [ofAmounts, meaning, accountE, Account.vals, Except.bind, bcast2, numbers2]; norm_num
  · intro u hu
    cases hu
    exact ⟨one_pos, by simp [accountE, kpcE]⟩
  · exact suits_var (by simp [accountE]) (by simp [accountE])
  · exact suits_times (suits_var (by simp [accountE]) (by simp [accountE]))
  · simp [condE, ofAmounts, meaning, accountE, Account.vals, Except.map, Except.bind, bcast2, numbers2, amountRelation]; norm_num
  · exact ⟨(1500 : ℝ) < 2000, by simp, by norm_num⟩
  · exact suits_add (suits_var (by simp [accountE]) (by simp [accountE])) (suits_var (by simp [accountE]) (by simp [accountE]))
  · simp [ofAmounts, meaning, accountE, Account.vals, Except.bind, bcast2, numbers2]; norm_num
  · simp [accountE, Account.vals]
  · intro u hu
    cases hu
    exact ⟨by norm_num [mpcE], by simp [accountE, mpcE]⟩
  · exact suits_var (by simp [accountE]) (by simp [accountE])
  · exact suits_times (suits_var (by simp [accountE]) (by simp [accountE]))
  · simp [condE, ofAmounts, meaning, accountE, Account.vals, Except.map, Except.bind, bcast2, numbers2, amountRelation]; norm_num
  · norm_num
  · exact suits_var (by simp [accountE]) (by simp [accountE])
  · exact suits_var (by simp [accountE]) (by simp [accountE])
  · simp [ofAmounts, meaning, accountE, Account.vals]
  · simp [ofAmounts, meaning, accountE, Account.vals]
  · simp [accountE, myrE]
  · have h1 : ∀ σ : Account (ℝ × ℝ), Suits σ (.var 4) 1 (1, 0) → Suits σ (.var 2) 0 (0, 1) →
        Suits σ (.two .divide (.var 4) (.var 2)) (1 - 0) ((1, 0) - (0, 1)) := fun σ a b => ⟨.div a.1 b.1, .div a.2 b.2⟩
    exact h1 _ (suits_var (by simp [accountE]) (by simp [accountE])) (suits_var (by simp [accountE]) (by simp [accountE]))
  · simp [ofAmounts, meaning, accountE, Account.vals, Except.bind, bcast2, numbers2]; norm_num
  · simp [accountE, Account.vals]

/-- The program runs: the loop turns once, the sum of a length and a time is refused and so is the conversion to Myr; `w` is `z`. -/
example : (∃ s', Runs startE progE none s') ∧
    ∀ o s', Runs startE progE o s' → o = none ∧ amounts (s'.env 3) = [2000, 3000] ∧ amounts (s'.env 4) = [2000, 3000] ∧
      amounts (s'.env 5) = [200, 300] ∧ (s'.env 5).2.dim = (1, -1) := by
  obtain ⟨σ', hm, h3, h4, h5, hd⟩ := progE_performs
  obtain ⟨h, hu⟩ := c126_programs startE_balances hm
  refine ⟨h, fun o s' hr => ?_⟩
  obtain ⟨ho, hs⟩ := hu o s' hr
  have hv := balance_vals hs
  exact ⟨ho, (congrFun hv 3).trans h3, (congrFun hv 4).trans h4, (congrFun hv 5).trans h5, (balance_dims hs 5).trans hd⟩

/-- The same account has arrays in other frames and units: here the positions are physical and in kpc. -/
example : ∃ t, Balances (1 / 2) t accountE ∧ (t.heap 0).2 = kpcE ∧ (t.heap 0).1.comoving = some false ∧ (startE.heap 0).2 = mpcE ∧
    ∃ t', Runs t progE none t' := by
  obtain ⟨σ', hm, -⟩ := progE_performs
  have hc : ∀ u ∈ some kpcE, 0 < u.size ∧ u.dim = accountE.dims (accountE.vars 0) := by
    intro u hu
    cases hu
    exact ⟨one_pos, rfl⟩
  obtain ⟨⟨t, hr⟩, ht⟩ := c126_programs startE_balances (.convert (strict := true) accountE (some true) (some kpcE) 0 hc)
  have hb := (ht _ _ hr).2
  obtain ⟨-, h2, h3, -⟩ := c126_converted startE_balances hc hr
  obtain ⟨g1, -, g3, -⟩ := h3 0 rfl
  have hv : t.vars 0 = 0 := by rw [h2]; rfl
  refine ⟨t, hb, ?_, ?_, rfl, (c126_programs hb hm).1⟩
  · have := g3 kpcE rfl
    rwa [State.env, hv] at this
  · have := g1 true rfl
    rwa [State.env, hv] at this

/-- `w = x; w.convert_to_units("kpc")`: without the conversion the amounts are the same. -/
example : ∃ σ', Performs (1 / 2) true accountE (.seq (.assign 3 (.var 0)) (.convert none (some kpcE) 3)) none σ' ∧
    withoutConversions (.seq (.assign 3 (.var 0)) (.convert none (some kpcE) 3)) = .seq (.assign 3 (.var 0)) (.skip : Stmt (ℝ × ℝ)) := by
  refine ⟨_, .seq _ _ _ _ _ _ (.name _ _ _) (.convert _ _ _ _ ?_), rfl⟩
  intro u hu
  cases hu
  exact ⟨one_pos, by simp [accountE, kpcE]⟩

/-- Without side effects: `z = x + y; w = z`. A conversion of the positions to Myr is refused. -/
example : OnlyNew (.seq (.assign 3 (.two .add (.var 0) (.var 1))) (.assign 4 (.var 3)) : Stmt (ℝ × ℝ)) ∧ myrE.dim ≠ (startE.env 0).2.dim := by
  refine ⟨⟨trivial, trivial⟩, ?_⟩
  simp [myrE, startE, State.env, mpcE]

/-- `z = 1 / (x + t) ** 2` is refused because of the dimensions and, independently, because of the factors. -/
example : Fails (1 / 2) accountE (.two .divide (.nums [1]) (.pow (.two .add (.var 0) (.var 2)) 2)) .value ∧ Far (1 / 2) 1 0 := by
  have hf : Far (1 / 2) 1 0 := by
    unfold Far
    rw [Real.rpow_zero, Real.rpow_one, abs_one, show (1 / 2 : ℝ) - 1 = -(1 / 2) by norm_num, abs_neg, abs_of_pos (by norm_num)]
    norm_num
  refine ⟨.right (v := [1]) ⟨.nums [1], .nums [1]⟩ rfl (.pow (.factor (k := 1) (l := 0) (by decide) ⟨fun h => h, ⟨(1, 0), suits_var rfl rfl⟩, _, rfl⟩
    ⟨fun h => h, ⟨(0, 1), suits_var rfl rfl⟩, _, rfl⟩ hf)), hf⟩

end Verif.Props
