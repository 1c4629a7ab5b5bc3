import Verif.Spec.Formulas
import Verif.Props.CosmoReduce

/-!
# Formulas of arrays in any frames (C114)
-/

namespace Verif.Props
open Verif Verif.Cosmo Verif.Formulas Verif.Spec


/-- A bare array. -/
def IsPlain (o : Opd) : Prop := ∃ v, o = .plain v

theorem fn2 (f : Bin) : numbers2 f = f.fn := by
  funext x y
  cases f
  case maximum => exact (max_def x y).symm
  case fmax => exact (max_def x y).symm
  case minimum => exact (min_def x y).symm
  case fmin => exact (min_def x y).symm
  case hypot => simp only [numbers2, Bin.fn, pow_two]
  all_goals rfl

private theorem fn1 (f : Un) : numbers1 f = f.fn := by
  funext x
  cases f
  case negative => exact zero_sub x
  case absolute =>
    simp only [numbers1, Un.fn]
    split_ifs with h
    · exact (abs_of_nonneg h).symm
    · rw [zero_sub, abs_of_neg (not_le.1 h)]
  case sqrt => exact (Real.sqrt_eq_rpow x).symm
  case square => exact pow_two x
  all_goals rfl

private theorem apply2_cosmo {f : Bin} {o p : Opd} (h : ¬ (IsPlain o ∧ IsPlain p)) :
    apply2 f o p = (ufunc f.ufunc (num2 f.fn) [o, p]).map .cosmo := by
  cases o with
  | cosmo x => rfl
  | plain u => cases p with
    | cosmo y => rfl
    | plain v => exact absurd ⟨⟨u, rfl⟩, ⟨v, rfl⟩⟩ h

private theorem cov2 {a k l m : ℝ} (ha : 0 < a) {f : Bin} {o p : Opd} (ho : HasExp a o k) (hp : HasExp a p l)
    (hplain : IsPlain o → IsPlain p → m = 0)
    (hh : ¬ (IsPlain o ∧ IsPlain p) → handle (registry f.ufunc) [o.cf, p.cf] [o, p] = .ok (some ⟨some m, some a⟩))
    (hom : ∀ u v, f.fn (u * a ^ k) (v * a ^ l) = f.fn u v * a ^ m) :
    (apply2 f o p).map Opd.phys = bcast2 f.fn o.phys p.phys ∧
      ∀ r, apply2 f o p = .ok r → HasExp a r m ∧ (IsPlain r ↔ IsPlain o ∧ IsPlain p) := by
  by_cases hb : IsPlain o ∧ IsPlain p
  · have hm := hplain hb.1 hb.2
    obtain ⟨⟨u, rfl⟩, v, rfl⟩ := hb
    simp only [apply2, num2, Opd.phys]
    cases bcast2 f.fn u v with
    | error e => exact ⟨rfl, by rintro r hr; cases hr⟩
    | ok w =>
      refine ⟨rfl, ?_⟩
      rintro r hr
      cases hr
      exact ⟨hm, ⟨fun _ => ⟨⟨u, rfl⟩, v, rfl⟩, fun _ => ⟨w, rfl⟩⟩⟩
  · rw [apply2_cosmo hb]
    have hne : flags [o, p] ≠ [] := by
      intro h
      obtain ⟨u, v, rfl, rfl⟩ := not_flags_nil h
      exact hb ⟨⟨u, rfl⟩, v, rfl⟩
    obtain ⟨e1, e2⟩ := ufunc2_cov ho hp hne (hh hb) ha hom
    have e3 : num2 f.fn [o.phys, p.phys] = bcast2 f.fn o.phys p.phys := rfl
    rw [← e3, ← e1]
    cases hu : ufunc f.ufunc (num2 f.fn) [o, p] with
    | error e => exact ⟨rfl, by rintro r hr; cases hr⟩
    | ok z =>
      refine ⟨rfl, ?_⟩
      rintro r hr
      cases hr
      exact ⟨e2 z hu, ⟨fun ⟨v, h⟩ => (by cases h), fun h => absurd h hb⟩⟩

private theorem cov1 {a k m : ℝ} {f : Un} {o : Opd} (ho : HasExp a o k) (hplain : k = 0 → m = 0)
    (hh : ∀ x, Conv a k x → handle (registry f.ufunc) [x.cf] [.cosmo x] = .ok (some ⟨some m, some a⟩))
    (hom : 0 < a → ∀ u, f.fn (u * a ^ k) = f.fn u * a ^ m) :
    (apply1 f o).map Opd.phys = .ok (o.phys.map f.fn) ∧ ∀ r, apply1 f o = .ok r → HasExp a r m ∧ (IsPlain r ↔ IsPlain o) := by
  cases o with
  | plain u =>
    refine ⟨rfl, ?_⟩
    rintro r hr
    cases hr
    exact ⟨hplain ho, ⟨fun _ => ⟨u, rfl⟩, fun _ => ⟨_, rfl⟩⟩⟩
  | cosmo x =>
    have hx : Conv a k x := ho
    obtain ⟨z, e1, e2, e3, -⟩ := ufunc1_cov (f := f.fn) hx (hh x hx) (hom hx.pos)
    simp only [apply1, e1]
    refine ⟨congrArg Except.ok e3, ?_⟩
    rintro r hr
    cases hr
    exact ⟨e2, ⟨fun ⟨v, h⟩ => (by cases h), fun ⟨v, h⟩ => (by cases h)⟩⟩

private theorem covPow {a k : ℝ} (q : ℝ) {o : Opd} (ho : HasExp a o k) :
    (applyPow q o).map Opd.phys = .ok (o.phys.map (· ^ q)) ∧ ∀ r, applyPow q o = .ok r → HasExp a r (k * q) ∧ (IsPlain r ↔ IsPlain o) := by
  cases o with
  | plain u =>
    refine ⟨rfl, ?_⟩
    rintro r hr
    cases hr
    have h0 : k = 0 := ho
    exact ⟨by simp [HasExp, h0], ⟨fun _ => ⟨u, rfl⟩, fun _ => ⟨_, rfl⟩⟩⟩
  | cosmo x =>
    have hx : Conv a k x := ho
    obtain ⟨e1, e2⟩ := c24_power (l := 0) (e := q) (p := .plain [q]) hx rfl (Real.rpow_zero a) rfl
    simp only [applyPow]
    cases hu : ufunc .power (num2 (· ^ ·)) [.cosmo x, .plain [q]] with
    | error e => rw [hu] at e1; cases e1
    | ok z =>
      rw [hu] at e1
      refine ⟨congrArg Except.ok (Except.ok.inj e1), ?_⟩
      rintro r hr
      cases hr
      exact ⟨e2 z hu, ⟨fun ⟨v, h⟩ => (by cases h), fun ⟨v, h⟩ => (by cases h)⟩⟩

private theorem covWhole {a k : ℝ} {f : List ℝ → List ℝ} (hf : Homogeneous f) {o : Opd} (ho : HasExp a o k) :
    (applyWhole f o).map Opd.phys = .ok (f o.phys) ∧ ∀ r, applyWhole f o = .ok r → HasExp a r k ∧ (IsPlain r ↔ IsPlain o) := by
  cases o with
  | plain u =>
    refine ⟨rfl, ?_⟩
    rintro r hr
    cases hr
    exact ⟨ho, ⟨fun _ => ⟨u, rfl⟩, fun _ => ⟨_, rfl⟩⟩⟩
  | cosmo x =>
    have hx : Conv a k x := ho
    obtain ⟨e1, e2, -⟩ := c52_propagated hf hx
    refine ⟨congrArg Except.ok e2, ?_⟩
    rintro r hr
    cases hr
    exact ⟨e1, ⟨fun ⟨v, h⟩ => (by cases h), fun ⟨v, h⟩ => (by cases h)⟩⟩

private theorem covTo {a k : ℝ} (b : Bool) {o : Opd} (ho : HasExp a o k) (hb : ¬ IsPlain o) :
    (applyTo b o).map Opd.phys = .ok o.phys ∧ ∀ r, applyTo b o = .ok r → HasExp a r k ∧ ¬ IsPlain r := by
  cases o with
  | plain u => exact absurd ⟨u, rfl⟩ hb
  | cosmo x =>
    have hx : Conv a k x := ho
    have : ∃ y, (if b then x.toPhysical else x.toComoving) = .ok y ∧ Conv a k y ∧ y.phys = x.phys := by
      cases b
      · obtain ⟨y, e, hy, -, hp⟩ := convertToComoving_ok hx
        exact ⟨y, by simpa [toComoving_eq hx] using e, hy, hp⟩
      · obtain ⟨y, e, hy, -, hp⟩ := convertToPhysical_ok hx
        exact ⟨y, by simpa [toPhysical_eq hx] using e, hy, hp⟩
    obtain ⟨y, e, hy, hp⟩ := this
    simp only [applyTo, e]
    refine ⟨congrArg Except.ok hp, ?_⟩
    rintro r hr
    cases hr
    exact ⟨hy, fun ⟨v, h⟩ => (by cases h)⟩

private theorem bind_map {α β γ δ : Type} {x : Except Err α} {g : α → Except Err β} {h : β → γ} {φ : α → δ} {ψ : δ → Except Err γ}
    (hg : ∀ r, x = .ok r → (g r).map h = ψ (φ r)) : (x.bind g).map h = (x.map φ).bind ψ := by
  cases x with
  | error e => rfl
  | ok r => exact hg r rfl

private theorem map_bind' {α β : Type} (x : Except Err α) (f : α → β) : x.map f = x.bind (fun v => .ok (f v)) := by
  cases x <;> rfl

private theorem eval1 {a k m : ℝ} {env : Nat → Arr} {s : Expr} {B : Prop} {φ : List ℝ → List ℝ} {g : Opd → Except Err Opd}
    (ih : (eval env s).map Opd.phys = meaning (fun i => (env i).phys) s ∧ ∀ r, eval env s = .ok r → HasExp a r k ∧ (IsPlain r ↔ Bare s))
    (hg : ∀ o, HasExp a o k → (IsPlain o ↔ Bare s) → (g o).map Opd.phys = .ok (φ o.phys) ∧ ∀ r, g o = .ok r → HasExp a r m ∧ (IsPlain r ↔ B)) :
    ((eval env s).bind g).map Opd.phys = (meaning (fun i => (env i).phys) s).map φ ∧
      ∀ r, (eval env s).bind g = .ok r → HasExp a r m ∧ (IsPlain r ↔ B) := by
  obtain ⟨e1, e2⟩ := ih
  constructor
  · rw [← e1, map_bind' _ φ]
    exact bind_map (fun r hr => (hg r (e2 r hr).1 (e2 r hr).2).1)
  · intro r hr
    cases hs : eval env s with
    | error e => rw [hs] at hr; cases hr
    | ok o =>
      rw [hs] at hr
      exact (hg o (e2 o hs).1 (e2 o hs).2).2 r hr

private theorem eval2 {a k l m : ℝ} {env : Nat → Arr} {f : Bin} {s t : Expr}
    (ihs : (eval env s).map Opd.phys = meaning (fun i => (env i).phys) s ∧ ∀ r, eval env s = .ok r → HasExp a r k ∧ (IsPlain r ↔ Bare s))
    (iht : (eval env t).map Opd.phys = meaning (fun i => (env i).phys) t ∧ ∀ r, eval env t = .ok r → HasExp a r l ∧ (IsPlain r ↔ Bare t))
    (hg : ∀ o p, HasExp a o k → HasExp a p l → (IsPlain o ↔ Bare s) → (IsPlain p ↔ Bare t) →
      (apply2 f o p).map Opd.phys = bcast2 f.fn o.phys p.phys ∧ ∀ r, apply2 f o p = .ok r → HasExp a r m ∧ (IsPlain r ↔ IsPlain o ∧ IsPlain p)) :
    (eval env (.two f s t)).map Opd.phys = meaning (fun i => (env i).phys) (.two f s t) ∧
      ∀ r, eval env (.two f s t) = .ok r → HasExp a r m ∧ (IsPlain r ↔ Bare (.two f s t)) := by
  obtain ⟨e1, e2⟩ := ihs
  obtain ⟨f1, f2⟩ := iht
  simp only [eval, meaning, Bare, fn1, fn2]
  constructor
  · rw [← e1, ← f1]
    refine bind_map (fun o ho => bind_map (fun p hp => ?_))
    obtain ⟨h1, h2⟩ := e2 o ho
    obtain ⟨h3, h4⟩ := f2 p hp
    exact (hg o p h1 h3 h2 h4).1
  · intro r hr
    cases hs : eval env s with
    | error e => rw [hs] at hr; cases hr
    | ok o => cases ht : eval env t with
      | error e => rw [hs, ht] at hr; cases hr
      | ok p =>
        rw [hs, ht] at hr
        obtain ⟨h1, h2⟩ := e2 o hs
        obtain ⟨h3, h4⟩ := f2 p ht
        obtain ⟨h5, h6⟩ := (hg o p h1 h3 h2 h4).2 r hr
        exact ⟨h5, by rw [h6, h2, h4]⟩

private theorem plain_zero {a k : ℝ} {o : Opd} (h : HasExp a o k) (hp : IsPlain o) : k = 0 := by
  obtain ⟨v, rfl⟩ := hp
  exact h

private theorem rpow_half {a : ℝ} (ha : 0 < a) (k u : ℝ) : Real.sqrt (u * a ^ k) = Real.sqrt u * a ^ (k / 2) := by
  have hk := Real.rpow_pos_of_pos ha k
  rw [Real.sqrt_mul' u hk.le, Real.sqrt_eq_rpow (a ^ k), ← Real.rpow_mul ha.le]
  congr 2
  ring

/-- The factor rules of operations with two operands, and how their numbers scale. -/
theorem binary_rule {a k l m : ℝ} (ha : 0 < a) {f : Bin} {o p : Opd} (ho : HasExp a o k) (hp : HasExp a p l)
    (h : (f ∈ [Bin.add, .subtract, .fmax, .fmin, .hypot, .remainder] ∧ k = l ∧ k = m) ∨
      (f ∈ [Bin.maximum, .minimum] ∧ k = l ∧ k = m ∧ (IsPlain o → IsPlain p)) ∨ (f = .multiply ∧ m = k + l) ∨ (f = .divide ∧ m = k - l)) :
    (IsPlain o → IsPlain p → m = 0) ∧
      (¬ (IsPlain o ∧ IsPlain p) → handle (registry f.ufunc) [o.cf, p.cf] [o, p] = .ok (some ⟨some m, some a⟩)) ∧
      ∀ u v, f.fn (u * a ^ k) (v * a ^ l) = f.fn u v * a ^ m := by
  rcases h with ⟨hf, rfl, rfl⟩ | ⟨hf, rfl, rfl, hb⟩ | ⟨rfl, rfl⟩ | ⟨rfl, rfl⟩
  · refine ⟨fun h _ => plain_zero ho h, fun hb => ?_, ?_⟩
    · have hreg : registry f.ufunc = .preserve := by
        simp only [List.mem_cons, List.not_mem_nil, or_false] at hf
        rcases hf with rfl | rfl | rfl | rfl | rfl | rfl <;> rfl
      rw [hreg]
      cases o with
      | plain u => cases p with
        | plain v => exact absurd ⟨⟨u, rfl⟩, v, rfl⟩ hb
        | cosmo y =>
          have hy : Conv a k y := hp
          simp [handle, reduce1, preserve2, Opd.cf, hy.cf, pure, Except.pure, bind, Except.bind]
      | cosmo x => cases p with
        | plain v =>
          have hx : Conv a k x := ho
          simp [handle, reduce1, preserve2, Opd.cf, hx.cf, pure, Except.pure, bind, Except.bind]
        | cosmo y =>
          have hx : Conv a k x := ho
          have hy : Conv a k y := hp
          simp [handle, reduce1, preserve2, Opd.cf, hx.cf, hy.cf, same_refl, pure, Except.pure, bind, Except.bind]
    · have hc := Real.rpow_pos_of_pos ha k
      intro u v
      simp only [List.mem_cons, List.not_mem_nil, or_false] at hf
      rcases hf with rfl | rfl | rfl | rfl | rfl | rfl
      · exact (add_mul u v _).symm
      · exact (sub_mul u v _).symm
      · exact (max_mul_of_nonneg u v hc.le).symm
      · exact (min_mul_of_nonneg u v hc.le).symm
      · simp only [Bin.fn]
        rw [show u * a ^ k * (u * a ^ k) + v * a ^ k * (v * a ^ k) = (u * u + v * v) * (a ^ k * a ^ k) by ring,
          Real.sqrt_mul' _ (mul_self_nonneg _), Real.sqrt_mul_self hc.le]
      · simp only [Bin.fn]
        rw [mul_div_mul_right _ _ hc.ne']
        ring
  · refine ⟨fun h _ => plain_zero ho h, fun hnb => ?_, ?_⟩
    · have hreg : registry f.ufunc = .passthrough := by
        simp only [List.mem_cons, List.not_mem_nil, or_false] at hf
        rcases hf with rfl | rfl <;> rfl
      rw [hreg]
      cases o with
      | plain u => exact absurd ⟨⟨u, rfl⟩, hb ⟨u, rfl⟩⟩ hnb
      | cosmo x => cases p with
        | plain v =>
          have hx : Conv a k x := ho
          simp [handle, passthrough2, Opd.cf, hx.cf]
        | cosmo y =>
          have hx : Conv a k x := ho
          have hy : Conv a k y := hp
          simp [handle, passthrough2, Opd.cf, hx.cf, hy.cf, same_refl]
    · have hc := Real.rpow_pos_of_pos ha k
      intro u v
      simp only [List.mem_cons, List.not_mem_nil, or_false] at hf
      rcases hf with rfl | rfl
      · exact (max_mul_of_nonneg u v hc.le).symm
      · exact (min_mul_of_nonneg u v hc.le).symm
  · refine ⟨fun h1 h2 => by rw [plain_zero ho h1, plain_zero hp h2, add_zero], fun hb => ?_, ?_⟩
    · cases o with
      | plain u => cases p with
        | plain v => exact absurd ⟨⟨u, rfl⟩, v, rfl⟩ hb
        | cosmo y =>
          have h0 : k = 0 := ho
          have hy : Conv a l y := hp
          simp [Bin.ufunc, handle, registry, reduce1, Opd.cf, hy.cf, mul2, h0, pure, Except.pure, bind, Except.bind]
      | cosmo x => cases p with
        | plain v =>
          have h0 : l = 0 := hp
          have hx : Conv a k x := ho
          simp [Bin.ufunc, handle, registry, reduce1, Opd.cf, hx.cf, mul2, h0, pure, Except.pure, bind, Except.bind]
        | cosmo y =>
          have hx : Conv a k x := ho
          have hy : Conv a l y := hp
          simp [Bin.ufunc, handle, registry, reduce1, Opd.cf, hx.cf, hy.cf, mul2, CF.mul, Except.map, pure, Except.pure, bind, Except.bind]
    · intro u v
      simp only [Bin.fn]
      rw [Real.rpow_add ha]
      ring
  · refine ⟨fun h1 h2 => by rw [plain_zero ho h1, plain_zero hp h2, sub_zero], fun hb => ?_, ?_⟩
    · cases o with
      | plain u => cases p with
        | plain v => exact absurd ⟨⟨u, rfl⟩, v, rfl⟩ hb
        | cosmo y =>
          have h0 : k = 0 := ho
          have hy : Conv a l y := hp
          simp [Bin.ufunc, handle, registry, Opd.cf, hy.cf, mul2, h0, powerCF, CF.pow]
      | cosmo x => cases p with
        | plain v =>
          have h0 : l = 0 := hp
          have hx : Conv a k x := ho
          simp [Bin.ufunc, handle, registry, Opd.cf, hx.cf, mul2, h0, powerCF]
        | cosmo y =>
          have hx : Conv a k x := ho
          have hy : Conv a l y := hp
          simp [Bin.ufunc, handle, registry, Opd.cf, hx.cf, hy.cf, mul2, CF.mul, Except.map, powerCF, CF.pow, sub_eq_add_neg]
    · intro u v
      simp only [Bin.fn]
      have := (Real.rpow_pos_of_pos ha l).ne'
      rw [Real.rpow_sub ha]
      field_simp

theorem formula_value {a : ℝ} (ha : 0 < a) {ks : Nat → ℝ} {env : Nat → Arr} (henv : ∀ i, Conv a (ks i) (env i)) {e : Expr} {k : ℝ}
    (h : Dimension ks e k) : (eval env e).map Opd.phys = meaning (fun i => (env i).phys) e ∧
      ∀ r, eval env e = .ok r → HasExp a r k ∧ (IsPlain r ↔ Bare e) := by
  induction h with
  | var i =>
    refine ⟨rfl, ?_⟩
    rintro r hr
    cases hr
    exact ⟨henv i, ⟨fun ⟨v, h⟩ => (by cases h), fun h => h.elim⟩⟩
  | nums v =>
    refine ⟨rfl, ?_⟩
    rintro r hr
    cases hr
    exact ⟨rfl, ⟨fun _ => trivial, fun _ => ⟨v, rfl⟩⟩⟩
  | @sum f s t k hf hs ht ihs iht =>
    refine eval2 ihs iht (fun o p ho hp _ _ => ?_)
    obtain ⟨h1, h2, h3⟩ := binary_rule ha ho hp (.inl ⟨hf, rfl, rfl⟩)
    exact cov2 ha ho hp h1 h2 h3
  | @extremum f s t k hf hs ht hb ihs iht =>
    refine eval2 ihs iht (fun o p ho hp hos hpt => ?_)
    obtain ⟨h1, h2, h3⟩ := binary_rule ha ho hp (.inr (.inl ⟨hf, rfl, rfl, fun h => hpt.2 (hb (hos.1 h))⟩))
    exact cov2 ha ho hp h1 h2 h3
  | @mul s t k l hs ht ihs iht =>
    refine eval2 ihs iht (fun o p ho hp _ _ => ?_)
    obtain ⟨h1, h2, h3⟩ := binary_rule ha ho hp (.inr (.inr (.inl ⟨rfl, rfl⟩)))
    exact cov2 ha ho hp h1 h2 h3
  | @div s t k l hs ht ihs iht =>
    refine eval2 ihs iht (fun o p ho hp _ _ => ?_)
    obtain ⟨h1, h2, h3⟩ := binary_rule ha ho hp (.inr (.inr (.inr ⟨rfl, rfl⟩)))
    exact cov2 ha ho hp h1 h2 h3
  | @same f s k hf hs ih =>
    simp only [eval, meaning, Bare, fn1, fn2]
    refine eval1 ih (fun o ho hb => ?_)
    have := cov1 (f := f) (m := k) ho (fun h => h) (fun x hx => by
      simp only [List.mem_cons, List.not_mem_nil, or_false] at hf
      rcases hf with rfl | rfl <;> simp [Un.ufunc, handle, registry, hx.cf]) (fun ha u => by
      simp only [List.mem_cons, List.not_mem_nil, or_false] at hf
      rcases hf with rfl | rfl
      · simp only [Un.fn]; ring
      · simp only [Un.fn]; rw [abs_mul, abs_of_pos (Real.rpow_pos_of_pos ha k)])
    exact ⟨this.1, fun r hr => ⟨(this.2 r hr).1, (this.2 r hr).2.trans hb⟩⟩
  | @sqrt s k hs ih =>
    simp only [eval, meaning, Bare, fn1, fn2]
    refine eval1 ih (fun o ho hb => ?_)
    have := cov1 (f := .sqrt) (m := k / 2) ho (fun h => by rw [h, zero_div]) (fun x hx => by
      simp [Un.ufunc, handle, registry, hx.cf, powerCF, CF.pow, div_eq_mul_inv]) (fun ha u => rpow_half ha k u)
    exact ⟨this.1, fun r hr => ⟨(this.2 r hr).1, (this.2 r hr).2.trans hb⟩⟩
  | @square s k hs ih =>
    simp only [eval, meaning, Bare, fn1, fn2]
    refine eval1 ih (fun o ho hb => ?_)
    have := cov1 (f := .square) (m := 2 * k) ho (fun h => by rw [h, mul_zero]) (fun x hx => by
      simp [Un.ufunc, handle, registry, hx.cf, powerCF, CF.pow, mul_comm]) (fun ha u => by
      simp only [Un.fn]
      rw [two_mul, Real.rpow_add ha]
      ring)
    exact ⟨this.1, fun r hr => ⟨(this.2 r hr).1, (this.2 r hr).2.trans hb⟩⟩
  | @cbrt s k hs ih =>
    simp only [eval, meaning, Bare, fn1, fn2]
    refine eval1 ih (fun o ho hb => ?_)
    have := cov1 (f := .cbrt) (m := k / 3) ho (fun h => by rw [h, zero_div]) (fun x hx => by
      simp [Un.ufunc, handle, registry, hx.cf, powerCF, CF.pow, div_eq_mul_inv]) (fun ha u => by
      have hc := Real.rpow_pos_of_pos ha k
      have h3 : (a ^ k) ^ (1 / 3 : ℝ) = a ^ (k / 3) := by
        rw [← Real.rpow_mul ha.le]
        congr 1
        ring
      simp only [Un.fn]
      by_cases hu : 0 ≤ u
      · rw [if_pos hu, if_pos (mul_nonneg hu hc.le), Real.mul_rpow hu hc.le, h3]
      · have hu' : u < 0 := not_le.1 hu
        rw [if_neg hu, if_neg (not_le.2 (mul_neg_of_neg_of_pos hu' hc)), ← neg_mul, Real.mul_rpow (neg_nonneg.2 hu'.le) hc.le, h3]
        ring)
    exact ⟨this.1, fun r hr => ⟨(this.2 r hr).1, (this.2 r hr).2.trans hb⟩⟩
  | @reciprocal s k hs ih =>
    simp only [eval, meaning, Bare, fn1, fn2]
    refine eval1 ih (fun o ho hb => ?_)
    have := cov1 (f := .reciprocal) (m := -k) ho (fun h => by rw [h, neg_zero]) (fun x hx => by
      simp [Un.ufunc, handle, registry, hx.cf, powerCF, CF.pow]) (fun ha u => by
      simp only [Un.fn]
      rw [Real.rpow_neg ha.le, one_div, mul_inv, one_div])
    exact ⟨this.1, fun r hr => ⟨(this.2 r hr).1, (this.2 r hr).2.trans hb⟩⟩
  | @pow s k hs q ih =>
    simp only [eval, meaning, Bare, fn1, fn2]
    refine eval1 ih (fun o ho hb => ?_)
    have := covPow q ho
    exact ⟨this.1, fun r hr => ⟨(this.2 r hr).1, (this.2 r hr).2.trans hb⟩⟩
  | @whole s k f hf hs ih =>
    simp only [eval, meaning, Bare, fn1, fn2]
    refine eval1 ih (fun o ho hb => ?_)
    have := covWhole hf ho
    exact ⟨this.1, fun r hr => ⟨(this.2 r hr).1, (this.2 r hr).2.trans hb⟩⟩
  | @physical s k hs hb ih =>
    have := eval1 (φ := fun x => x) (B := Bare s) ih (fun o ho hbo => by
      have := covTo true ho (fun h => hb (hbo.1 h))
      exact ⟨this.1, fun r hr => ⟨(this.2 r hr).1, iff_of_false (this.2 r hr).2 hb⟩⟩)
    simp only [eval, meaning, Bare, fn1, fn2]
    refine ⟨?_, this.2⟩
    rw [this.1]
    cases meaning (fun i => (env i).phys) s <;> rfl
  | @comoving s k hs hb ih =>
    have := eval1 (φ := fun x => x) (B := Bare s) ih (fun o ho hbo => by
      have := covTo false ho (fun h => hb (hbo.1 h))
      exact ⟨this.1, fun r hr => ⟨(this.2 r hr).1, iff_of_false (this.2 r hr).2 hb⟩⟩)
    simp only [eval, meaning, Bare, fn1, fn2]
    refine ⟨?_, this.2⟩
    rw [this.1]
    cases meaning (fun i => (env i).phys) s <;> rfl

/-- C114: the physical values of a formula are the formula of the physical values, whatever the frames of the variables, and if the
shapes do not fit, there is the same error. -/
theorem c114_value {a : ℝ} (ha : 0 < a) {ks : Nat → ℝ} {env : Nat → Arr} (henv : ∀ i, Conv a (ks i) (env i)) {e : Expr} {k : ℝ}
    (h : Dimension ks e k) : (eval env e).map Opd.phys = meaning (fun i => (env i).phys) e :=
  (formula_value ha henv h).1

/-- C114: the result has the factor that the formula says; it is a `cosmo_array` if there is a variable in the formula. -/
theorem c114_factor {a : ℝ} (ha : 0 < a) {ks : Nat → ℝ} {env : Nat → Arr} (henv : ∀ i, Conv a (ks i) (env i)) {e : Expr} {k : ℝ}
    (h : Dimension ks e k) {r : Opd} (hr : eval env e = .ok r) :
    (Bare e → k = 0 ∧ ∃ v, r = .plain v) ∧ (¬ Bare e → ∃ x, r = .cosmo x ∧ Conv a k x) := by
  obtain ⟨h1, h2⟩ := (formula_value ha henv h).2 r hr
  refine ⟨fun hb => ⟨plain_zero h1 (h2.2 hb), h2.2 hb⟩, fun hb => ?_⟩
  cases r with
  | plain v => exact absurd (h2.1 ⟨v, rfl⟩) hb
  | cosmo x => exact ⟨x, rfl, h1⟩

/-- C114: the frames of the variables do not matter. -/
theorem c114_frames {a : ℝ} (ha : 0 < a) {ks : Nat → ℝ} {env env' : Nat → Arr} (henv : ∀ i, Conv a (ks i) (env i))
    (henv' : ∀ i, Conv a (ks i) (env' i)) (hp : ∀ i, (env i).phys = (env' i).phys) {e : Expr} {k : ℝ} (h : Dimension ks e k) :
    (eval env e).map Opd.phys = (eval env' e).map Opd.phys := by
  rw [c114_value ha henv h, c114_value ha henv' h]
  exact congrArg (fun vals => meaning vals e) (funext hp)

/-- C114: formulas that mean the same for numbers give the same physical values for arrays in any frames. -/
theorem c114_equivalent {a : ℝ} (ha : 0 < a) {ks : Nat → ℝ} {env : Nat → Arr} (henv : ∀ i, Conv a (ks i) (env i)) {e e' : Expr} {k l : ℝ}
    (h : Dimension ks e k) (h' : Dimension ks e' l) (he : meaning (fun i => (env i).phys) e = meaning (fun i => (env i).phys) e') :
    (eval env e).map Opd.phys = (eval env e').map Opd.phys := by
  rw [c114_value ha henv h, c114_value ha henv h', he]

/-- C114: comparisons of two formulas are those of the numbers. -/
theorem c114_compare {a : ℝ} (ha : 0 < a) {ks : Nat → ℝ} {env : Nat → Arr} (henv : ∀ i, Conv a (ks i) (env i)) {s t : Expr} {k : ℝ}
    (hs : Dimension ks s k) (ht : Dimension ks t k) (hbs : ¬ Bare s) (hbt : ¬ Bare t) (u : Ufunc) (r : ℝ → ℝ → Prop)
    (hur : (u, r) ∈ [(Ufunc.less, fun p q : ℝ => p < q), (.lessEqual, fun p q => p ≤ q), (.greater, fun p q => p > q),
      (.greaterEqual, fun p q => p ≥ q), (.equal, fun p q => p = q), (.notEqual, fun p q => p ≠ q)]) :
    Formulas.compare u r env s t = (meaning (fun i => (env i).phys) s).bind fun v => (meaning (fun i => (env i).phys) t).bind fun w =>
      bcast2 r v w := by
  obtain ⟨e1, e2⟩ := formula_value ha henv hs
  obtain ⟨f1, f2⟩ := formula_value ha henv ht
  rw [← e1, ← f1]
  unfold Formulas.compare
  cases h1 : eval env s with
  | error e => rfl
  | ok o => cases h2 : eval env t with
    | error e => rfl
    | ok p =>
      obtain ⟨x, rfl, hx⟩ := (c114_factor ha henv hs h1).2 hbs
      obtain ⟨y, rfl, hy⟩ := (c114_factor ha henv ht h2).2 hbt
      exact c25_compare hx hy u r hur

/-! Formulas that need not scale. -/

/-- The length of the result of a broadcast. -/
private def len2 (m n : Nat) : Except Err Nat :=
  if m = n then .ok m else if m = 1 then .ok n else if n = 1 then .ok m else .error .value

private theorem bcast2_len (f : ℝ → ℝ → ℝ) (xs ys : List ℝ) : (bcast2 f xs ys).map List.length = len2 xs.length ys.length := by
  unfold bcast2 len2
  by_cases h : xs.length = ys.length
  · simp [h, Except.map]
  · rw [if_neg h, if_neg h]
    match xs, ys with
    | [x], ys => simp [Except.map]
    | [], [y] => simp [Except.map]
    | [], [] => exact absurd rfl h
    | [], y :: z :: ys => simp [Except.map]
    | x :: w :: xs, [y] => simp [Except.map]
    | x :: w :: xs, [] => simp [Except.map]
    | x :: w :: xs, y :: z :: ys => simp [Except.map]

private theorem handle2 {a : ℝ} (f : Bin) {o p : Opd} (ho : Mix a o) (hp : Mix a p) (hb : ¬ (IsPlain o ∧ IsPlain p)) :
    ∃ R : Except Err ℝ, ∀ ins, handle (registry f.ufunc) [o.cf, p.cf] ins = R.map (fun m => some ⟨some m, some a⟩) := by
  cases o with
  | plain u => cases p with
    | plain v => exact absurd ⟨⟨u, rfl⟩, v, rfl⟩ hb
    | cosmo y =>
      obtain ⟨l, hy⟩ := hp
      have : (∃ e, ∀ ins, handle (registry f.ufunc) [(Opd.plain u).cf, (Opd.cosmo y).cf] ins = .error e) ∨
          ∃ m, ∀ ins, handle (registry f.ufunc) [(Opd.plain u).cf, (Opd.cosmo y).cf] ins = .ok (some ⟨some m, some a⟩) := by
        cases f <;> simp [Bin.ufunc, registry, handle, reduce1, Opd.cf, hy.cf, preserve2, mul2, passthrough2, powerCF, CF.pow, pure,
          Except.pure, bind, Except.bind]
      rcases this with ⟨e, h⟩ | ⟨m, h⟩
      · exact ⟨.error e, h⟩
      · exact ⟨.ok m, h⟩
  | cosmo x =>
    obtain ⟨k, hx⟩ := ho
    cases p with
    | plain v =>
      have : (∃ e, ∀ ins, handle (registry f.ufunc) [(Opd.cosmo x).cf, (Opd.plain v).cf] ins = .error e) ∨
          ∃ m, ∀ ins, handle (registry f.ufunc) [(Opd.cosmo x).cf, (Opd.plain v).cf] ins = .ok (some ⟨some m, some a⟩) := by
        cases f <;> simp [Bin.ufunc, registry, handle, reduce1, Opd.cf, hx.cf, preserve2, mul2, passthrough2, powerCF, pure,
          Except.pure, bind, Except.bind]
      rcases this with ⟨e, h⟩ | ⟨m, h⟩
      · exact ⟨.error e, h⟩
      · exact ⟨.ok m, h⟩
    | cosmo y =>
      obtain ⟨l, hy⟩ := hp
      have : (∃ e, ∀ ins, handle (registry f.ufunc) [(Opd.cosmo x).cf, (Opd.cosmo y).cf] ins = .error e) ∨
          ∃ m, ∀ ins, handle (registry f.ufunc) [(Opd.cosmo x).cf, (Opd.cosmo y).cf] ins = .ok (some ⟨some m, some a⟩) := by
        by_cases hs : CF.same ⟨some k, some a⟩ ⟨some l, some a⟩
        · cases f <;> simp [Bin.ufunc, registry, handle, reduce1, Opd.cf, hx.cf, hy.cf, preserve2, mul2, passthrough2, powerCF, pure,
            Except.pure, bind, Except.bind, hs, CF.mul, CF.pow, Except.map]
        · cases f <;> simp [Bin.ufunc, registry, handle, reduce1, Opd.cf, hx.cf, hy.cf, preserve2, mul2, passthrough2, powerCF, pure,
            Except.pure, bind, Except.bind, hs, CF.mul, CF.pow, Except.map]
      rcases this with ⟨e, h⟩ | ⟨m, h⟩
      · exact ⟨.error e, h⟩
      · exact ⟨.ok m, h⟩

private theorem handle1 {a k : ℝ} (f : Un) {x : Arr} (hx : Conv a k x) :
    ∃ m, ∀ ins, handle (registry f.ufunc) [x.cf] ins = .ok (some ⟨some m, some a⟩) := by
  cases f <;> simp [Un.ufunc, registry, handle, hx.cf, powerCF, CF.pow]

private theorem same_len {a : ℝ} {b : Bool} {o p : Opd} (ho : Mix a o) (h : Same a b o p) : p.vals.length = o.vals.length := by
  have key : ∃ k, HasExp a o k := by
    cases o with
    | plain v => exact ⟨0, rfl⟩
    | cosmo x => exact ho
  obtain ⟨k, hk⟩ := key
  have e := congrArg List.length (h.phys hk)
  rw [List.length_map] at e
  rw [← e]
  cases o with
  | plain v => rfl
  | cosmo x =>
    have hx : Conv a k x := hk
    rcases hx.framed_cases with hc | hc
    · simp [Opd.phys, Opd.vals, phys_true hx hc]
    · simp [Opd.phys, Opd.vals, phys_false hc]

private theorem shape2 {a : ℝ} (ha : 0 < a) {u : Ufunc} {fn : ℝ → ℝ → ℝ} {o p : Opd} (ho : Mix a o) (hp : Mix a p) (hb : ¬ (IsPlain o ∧ IsPlain p)) {R : Except Err ℝ}
    (hR : handle (registry u) [o.cf, p.cf] [o, p] = R.map (fun m => some ⟨some m, some a⟩)) :
    (ufunc u (num2 fn) [o, p]).map (fun z => z.val.length) = R.bind (fun _ => len2 o.vals.length p.vals.length) ∧
    ∀ z, ufunc u (num2 fn) [o, p] = .ok z → ∃ m, R = .ok m ∧ Conv a m z ∧ (z.comoving = some false ↔ ∀ c ∈ flags [o, p], c = some false) := by
  have hmix : ∀ q ∈ [o, p], Mix a q := by
    intro q hq
    simp only [List.mem_cons, List.not_mem_nil, or_false] at hq
    rcases hq with rfl | rfl
    · exact ho
    · exact hp
  have hne : flags [o, p] ≠ [] := by
    intro h
    obtain ⟨w, v, rfl, rfl⟩ := not_flags_nil h
    exact hb ⟨⟨w, rfl⟩, v, rfl⟩
  obtain ⟨r, b, e, hc, hvt, hcfs, hf, hbf⟩ := prepare_mix hmix hne
  obtain ⟨o', p', hargs, h1, h2⟩ := forall2_two hf
  have l1 := same_len ho h1
  have l2 := same_len hp h2
  have hlen := bcast2_len fn o'.vals p'.vals
  rw [l1, l2] at hlen
  unfold ufunc
  simp only [e, hcfs, List.map_cons, List.map_nil, hR, hargs, num2]
  cases R with
  | error q => exact ⟨rfl, by rintro z hz; cases hz⟩
  | ok m =>
    simp only [Except.map, Except.bind]
    rw [← hlen]
    cases bcast2 fn o'.vals p'.vals with
    | error q => exact ⟨rfl, by rintro z hz; cases hz⟩
    | ok v =>
      refine ⟨rfl, ?_⟩
      rintro z hz
      cases hz
      refine ⟨m, rfl, ⟨ha, rfl, hvt, by simp [hc]⟩, ?_⟩
      simp only [hc, Option.some.injEq]
      exact hbf

private theorem shape1 {a k : ℝ} (f : Un) {x : Arr} (hx : Conv a k x) :
    ∃ m, ∀ y, Conv a k y → ∃ z, ufunc f.ufunc (num1 f.fn) [.cosmo y] = .ok z ∧ Conv a m z ∧ z.val.length = y.val.length ∧
      z.comoving = y.comoving := by
  obtain ⟨m, hm⟩ := handle1 f hx
  refine ⟨m, fun y hy => ?_⟩
  have hmix : ∀ q ∈ [Opd.cosmo y], Mix a q := by
    intro q hq
    rw [List.mem_singleton.mp hq]
    exact ⟨k, hy⟩
  obtain ⟨r, b, e, hc, hvt, hcfs, hf, hbf⟩ := prepare_mix hmix (by simp [flags])
  obtain ⟨o', hargs, h1⟩ := forall2_one hf
  have l1 := same_len (hmix _ (List.mem_singleton.2 rfl)) h1
  rw [hx.cf] at hm
  unfold ufunc
  simp only [e, hcfs, List.map_cons, List.map_nil, Opd.cf, hy.cf, hm, hargs, num1]
  refine ⟨_, rfl, ⟨hx.pos, rfl, hvt, by simp [hc]⟩, by simpa [Opd.vals] using l1, ?_⟩
  simp only [hc]
  rcases hy.framed_cases with hyc | hyc
  · rw [hyc]
    cases b with
    | true => rfl
    | false =>
      have := hbf.1 rfl y.comoving (by simp [flags])
      rw [hyc] at this
      cases this
  · rw [hyc]
    have : b = false := hbf.2 (by simp [flags, hyc])
    rw [this]

private theorem shapePow {a k : ℝ} (q : ℝ) {x : Arr} (hx : Conv a k x) :
    ∃ z, ufunc .power (num2 (· ^ ·)) [.cosmo x, .plain [q]] = .ok z ∧ Conv a (k * q) z ∧ z.val.length = x.val.length ∧
      (z.comoving = some false ↔ x.comoving = some false) := by
  obtain ⟨e1, e2⟩ := shape2 (u := .power) (fn := fun u v => u ^ v) (o := .cosmo x) (p := .plain [q]) (R := .ok (k * q)) hx.pos ⟨k, hx⟩ trivial
    (fun ⟨⟨v, h⟩, _⟩ => by cases h) (by simp [handle, registry, Opd.cf, hx.cf, Opd.vals, powerCF, CF.pow, Except.map])
  cases hu : ufunc .power (num2 (fun u v => u ^ v)) [.cosmo x, .plain [q]] with
  | error e =>
    rw [hu] at e1
    simp only [Except.map, Except.bind, Opd.vals, List.length_cons, List.length_nil, len2] at e1
    split_ifs at e1
  | ok z =>
    obtain ⟨m, hm, hz, hf⟩ := e2 z hu
    cases hm
    refine ⟨z, rfl, hz, ?_, ?_⟩
    · rw [hu] at e1
      simp only [Except.map, Except.bind, Opd.vals, List.length_cons, List.length_nil, len2] at e1
      split_ifs at e1 <;> simp_all
    · rw [hf]
      simp [flags]

/-- The results of a formula for two sets of variables that only differ in their numbers and frames. -/
private def Sim (a : ℝ) (o p : Opd) : Prop :=
  (∃ v, o = .plain v ∧ p = .plain v) ∨
    ∃ k x y, o = .cosmo x ∧ p = .cosmo y ∧ Conv a k x ∧ Conv a k y ∧ x.val.length = y.val.length

private def SimE (a : ℝ) (A B : Except Err Opd) : Prop :=
  (∃ e, A = .error e ∧ B = .error e) ∨ ∃ o p, A = .ok o ∧ B = .ok p ∧ Sim a o p

private theorem simE_bind {a : ℝ} {A B : Except Err Opd} {g g' : Opd → Except Err Opd} (h : SimE a A B)
    (hg : ∀ o p, Sim a o p → SimE a (g o) (g' p)) : SimE a (A.bind g) (B.bind g') := by
  rcases h with ⟨e, rfl, rfl⟩ | ⟨o, p, rfl, rfl, h⟩
  · exact .inl ⟨e, rfl, rfl⟩
  · exact hg o p h

private theorem Sim.facts {a : ℝ} {o p : Opd} (h : Sim a o p) :
    Mix a o ∧ Mix a p ∧ (IsPlain o ↔ IsPlain p) ∧ o.cf = p.cf ∧ o.vals.length = p.vals.length := by
  rcases h with ⟨v, rfl, rfl⟩ | ⟨k, x, y, rfl, rfl, hx, hy, hl⟩
  · exact ⟨trivial, trivial, Iff.rfl, rfl, rfl⟩
  · exact ⟨⟨k, hx⟩, ⟨k, hy⟩, ⟨fun ⟨v, h⟩ => (by cases h), fun ⟨v, h⟩ => (by cases h)⟩, hx.cf.trans hy.cf.symm, hl⟩

private theorem sim2 {a : ℝ} (ha : 0 < a) (f : Bin) {o o' p p' : Opd} (ho : Sim a o o') (hp : Sim a p p') :
    SimE a (apply2 f o p) (apply2 f o' p') := by
  obtain ⟨m1, m1', b1, c1, l1⟩ := ho.facts
  obtain ⟨m2, m2', b2, c2, l2⟩ := hp.facts
  by_cases hb : IsPlain o ∧ IsPlain p
  · rcases ho with ⟨u, rfl, rfl⟩ | ⟨k, x, y, rfl, -⟩
    · rcases hp with ⟨v, rfl, rfl⟩ | ⟨k, x, y, rfl, -⟩
      · cases hn : apply2 f (.plain u) (.plain v) with
        | error e => exact .inl ⟨e, rfl, rfl⟩
        | ok r =>
          simp only [apply2] at hn
          cases hw : num2 f.fn [u, v] with
          | error e => rw [hw] at hn; cases hn
          | ok w =>
            rw [hw] at hn
            cases hn
            exact .inr ⟨_, _, rfl, rfl, .inl ⟨w, rfl, rfl⟩⟩
      · obtain ⟨-, v, h⟩ := hb
        cases h
    · obtain ⟨⟨v, h⟩, -⟩ := hb
      cases h
  · have hb' : ¬ (IsPlain o' ∧ IsPlain p') := by rwa [← b1, ← b2]
    obtain ⟨R, hR⟩ := handle2 f m1 m2 hb
    obtain ⟨e1, e2⟩ := shape2 (fn := f.fn) ha m1 m2 hb (hR _)
    obtain ⟨e1', e2'⟩ := shape2 (fn := f.fn) ha m1' m2' hb' (R := R) (by rw [← c1, ← c2]; exact hR _)
    rw [apply2_cosmo hb, apply2_cosmo hb']
    rw [← l1, ← l2, ← e1] at e1'
    cases hu : ufunc f.ufunc (num2 f.fn) [o, p] with
    | error e => cases hu' : ufunc f.ufunc (num2 f.fn) [o', p'] with
      | error e' =>
        rw [hu, hu'] at e1'
        cases e1'
        exact .inl ⟨_, rfl, rfl⟩
      | ok z' => rw [hu, hu'] at e1'; cases e1'
    | ok z => cases hu' : ufunc f.ufunc (num2 f.fn) [o', p'] with
      | error e' => rw [hu, hu'] at e1'; cases e1'
      | ok z' =>
        rw [hu, hu'] at e1'
        obtain ⟨m, hm, hz, -⟩ := e2 z hu
        obtain ⟨m', hm', hz', -⟩ := e2' z' hu'
        rw [hm] at hm'
        cases hm'
        exact .inr ⟨_, _, rfl, rfl, .inr ⟨m, z, z', rfl, rfl, hz, hz', (Except.ok.inj e1').symm⟩⟩

private theorem sim_toPhysical {a k : ℝ} {x : Arr} (b : Bool) (hx : Conv a k x) :
    ∃ y, (if b then x.toPhysical else x.toComoving) = .ok y ∧ Conv a k y ∧ y.val.length = x.val.length := by
  have hlen : ∀ z, Conv a k z → z.phys.length = z.val.length := by
    intro z hz
    rcases hz.framed_cases with hc | hc
    · simp [phys_true hz hc]
    · simp [phys_false hc]
  cases b
  · obtain ⟨y, e, hy, -, hp⟩ := convertToComoving_ok hx
    exact ⟨y, by simpa [toComoving_eq hx] using e, hy, by rw [← hlen y hy, ← hlen x hx, hp]⟩
  · obtain ⟨y, e, hy, -, hp⟩ := convertToPhysical_ok hx
    exact ⟨y, by simpa [toPhysical_eq hx] using e, hy, by rw [← hlen y hy, ← hlen x hx, hp]⟩

private theorem simTo {a : ℝ} (b : Bool) {o p : Opd} (h : Sim a o p) : SimE a (applyTo b o) (applyTo b p) := by
  rcases h with ⟨v, rfl, rfl⟩ | ⟨k, x, y, rfl, rfl, hx, hy, hl⟩
  · exact .inl ⟨_, rfl, rfl⟩
  · obtain ⟨x', e1, h1, l1⟩ := sim_toPhysical b hx
    obtain ⟨y', e2, h2, l2⟩ := sim_toPhysical b hy
    simp only [applyTo, e1, e2]
    exact .inr ⟨_, _, rfl, rfl, .inr ⟨k, x', y', rfl, rfl, h1, h2, by rw [l1, l2, hl]⟩⟩

private theorem sim {a : ℝ} (ha : 0 < a) {ks : Nat → ℝ} {env env' : Nat → Arr} (henv : ∀ i, Conv a (ks i) (env i))
    (henv' : ∀ i, Conv a (ks i) (env' i)) (hl : ∀ i, (env i).val.length = (env' i).val.length) :
    ∀ e, Regular e → SimE a (eval env e) (eval env' e)
  | .var i, _ => .inr ⟨_, _, rfl, rfl, .inr ⟨ks i, env i, env' i, rfl, rfl, henv i, henv' i, hl i⟩⟩
  | .nums v, _ => .inr ⟨_, _, rfl, rfl, .inl ⟨v, rfl, rfl⟩⟩
  | .two f s t, h => simE_bind (sim ha henv henv' hl s h.1) fun _ _ ho => simE_bind (sim ha henv henv' hl t h.2) fun _ _ hp => sim2 ha f ho hp
  | .one f s, h => simE_bind (sim ha henv henv' hl s h) fun o p ho => by
    rcases ho with ⟨v, rfl, rfl⟩ | ⟨k, x, y, rfl, rfl, hx, hy, hl⟩
    · exact .inr ⟨_, _, rfl, rfl, .inl ⟨_, rfl, rfl⟩⟩
    · obtain ⟨m, hm⟩ := shape1 f hx
      obtain ⟨z, e1, h1, l1, -⟩ := hm x hx
      obtain ⟨z', e2, h2, l2, -⟩ := hm y hy
      simp only [apply1, e1, e2]
      exact .inr ⟨_, _, rfl, rfl, .inr ⟨m, z, z', rfl, rfl, h1, h2, by rw [l1, l2, hl]⟩⟩
  | .pow s q, h => simE_bind (sim ha henv henv' hl s h) fun o p ho => by
    rcases ho with ⟨v, rfl, rfl⟩ | ⟨k, x, y, rfl, rfl, hx, hy, hl⟩
    · exact .inr ⟨_, _, rfl, rfl, .inl ⟨_, rfl, rfl⟩⟩
    · obtain ⟨z, e1, h1, l1, -⟩ := shapePow q hx
      obtain ⟨z', e2, h2, l2, -⟩ := shapePow q hy
      simp only [applyPow, e1, e2]
      exact .inr ⟨_, _, rfl, rfl, .inr ⟨k * q, z, z', rfl, rfl, h1, h2, by rw [l1, l2, hl]⟩⟩
  | .whole f s, h => simE_bind (sim ha henv henv' hl s h.2) fun o p ho => by
    rcases ho with ⟨v, rfl, rfl⟩ | ⟨k, x, y, rfl, rfl, hx, hy, hl⟩
    · exact .inr ⟨_, _, rfl, rfl, .inl ⟨_, rfl, rfl⟩⟩
    · exact .inr ⟨_, _, rfl, rfl, .inr ⟨k, _, _, rfl, rfl, ⟨hx.pos, hx.cf, hx.vt, hx.framed⟩, ⟨hy.pos, hy.cf, hy.vt, hy.framed⟩, h.1 _ _ hl⟩⟩
  | .physical s, h => simE_bind (sim ha henv henv' hl s h) fun _ _ ho => simTo true ho
  | .comoving s, h => simE_bind (sim ha henv henv' hl s h) fun _ _ ho => simTo false ho

/-- C114: whether a formula succeeds, its error and the factor and length of its result do not depend on the numbers and frames of the
variables, for all formulas, also those whose terms do not scale alike. -/
theorem c114_errors {a : ℝ} (ha : 0 < a) {ks : Nat → ℝ} {env env' : Nat → Arr} (henv : ∀ i, Conv a (ks i) (env i))
    (henv' : ∀ i, Conv a (ks i) (env' i)) (hl : ∀ i, (env i).val.length = (env' i).val.length) {e : Expr} (h : Regular e) :
    (∃ q, eval env e = .error q ∧ eval env' e = .error q) ∨
    (∃ v, eval env e = .ok (.plain v) ∧ eval env' e = .ok (.plain v)) ∨
    ∃ k x y, eval env e = .ok (.cosmo x) ∧ eval env' e = .ok (.cosmo y) ∧ Conv a k x ∧ Conv a k y ∧ x.val.length = y.val.length := by
  rcases sim ha henv henv' hl e h with h | ⟨o, p, e1, e2, ⟨v, rfl, rfl⟩ | ⟨k, x, y, rfl, rfl, h⟩⟩
  · exact .inl h
  · exact .inr (.inl ⟨v, e1, e2⟩)
  · exact .inr (.inr ⟨k, x, y, e1, e2, h⟩)

private theorem frame {a : ℝ} (ha : 0 < a) {env : Nat → Arr} (henv : ∀ i, ∃ k, Conv a k (env i)) :
    ∀ e, NoConversion e → ∀ r, eval env e = .ok r →
      Mix a r ∧ ((∀ c ∈ flags [r], c = some false) ↔ ∀ i, Uses i e → (env i).comoving = some false)
  | .var i, _, r, hr => by
    cases hr
    exact ⟨henv i, by simp [flags, Uses]⟩
  | .nums v, _, r, hr => by
    cases hr
    exact ⟨trivial, by simp [flags, Uses]⟩
  | .two f s t, h, r, hr => by
    simp only [eval] at hr
    cases hs : eval env s with
    | error e => rw [hs] at hr; cases hr
    | ok o => cases ht : eval env t with
      | error e => rw [hs, ht] at hr; cases hr
      | ok p =>
        rw [hs, ht] at hr
        obtain ⟨m1, i1⟩ := frame ha henv s h.1 o hs
        obtain ⟨m2, i2⟩ := frame ha henv t h.2 p ht
        have key : (∀ i, Uses i (.two f s t) → (env i).comoving = some false) ↔ ∀ c ∈ flags [o, p], c = some false := by
          have hfl : flags [o, p] = flags [o] ++ flags [p] := by cases o <;> cases p <;> rfl
          rw [hfl]
          simp only [List.mem_append, or_imp, forall_and, Uses, i1, i2]
        rw [key]
        by_cases hb : IsPlain o ∧ IsPlain p
        · obtain ⟨⟨u, rfl⟩, v, rfl⟩ := hb
          change (num2 f.fn [u, v]).map Opd.plain = .ok r at hr
          cases hw : num2 f.fn [u, v] with
          | error e => rw [hw] at hr; cases hr
          | ok w =>
            rw [hw] at hr
            cases hr
            exact ⟨trivial, by simp [flags]⟩
        · change apply2 f o p = .ok r at hr
          rw [apply2_cosmo hb] at hr
          obtain ⟨R, hR⟩ := handle2 f m1 m2 hb
          obtain ⟨-, e2⟩ := shape2 (fn := f.fn) ha m1 m2 hb (hR _)
          cases hu : ufunc f.ufunc (num2 f.fn) [o, p] with
          | error e => rw [hu] at hr; cases hr
          | ok z =>
            rw [hu] at hr
            cases hr
            obtain ⟨m, -, hz, hf⟩ := e2 z hu
            exact ⟨⟨m, hz⟩, by rw [← hf]; simp [flags]⟩
  | .one f s, h, r, hr => by
    simp only [eval] at hr
    cases hs : eval env s with
    | error e => rw [hs] at hr; cases hr
    | ok o =>
      rw [hs] at hr
      obtain ⟨m1, i1⟩ := frame ha henv s h o hs
      have key : (∀ i, Uses i (.one f s) → (env i).comoving = some false) ↔ ∀ c ∈ flags [o], c = some false := i1.symm
      rw [key]
      cases o with
      | plain u => cases hr; exact ⟨trivial, by simp [flags]⟩
      | cosmo x =>
        obtain ⟨k, hx⟩ := m1
        obtain ⟨m, hm⟩ := shape1 f hx
        obtain ⟨z, e1, h1, -, hc⟩ := hm x hx
        change (ufunc f.ufunc (num1 f.fn) [.cosmo x]).map Opd.cosmo = _ at hr
        rw [e1] at hr
        cases hr
        exact ⟨⟨m, h1⟩, by simp [flags, hc]⟩
  | .pow s q, h, r, hr => by
    simp only [eval] at hr
    cases hs : eval env s with
    | error e => rw [hs] at hr; cases hr
    | ok o =>
      rw [hs] at hr
      obtain ⟨m1, i1⟩ := frame ha henv s h o hs
      have key : (∀ i, Uses i (.pow s q) → (env i).comoving = some false) ↔ ∀ c ∈ flags [o], c = some false := i1.symm
      rw [key]
      cases o with
      | plain u => cases hr; exact ⟨trivial, by simp [flags]⟩
      | cosmo x =>
        obtain ⟨k, hx⟩ := m1
        obtain ⟨z, e1, h1, -, hc⟩ := shapePow q hx
        change (ufunc .power (num2 (· ^ ·)) [.cosmo x, .plain [q]]).map Opd.cosmo = _ at hr
        rw [e1] at hr
        cases hr
        exact ⟨⟨_, h1⟩, by simp [flags, hc]⟩
  | .whole f s, h, r, hr => by
    simp only [eval] at hr
    cases hs : eval env s with
    | error e => rw [hs] at hr; cases hr
    | ok o =>
      rw [hs] at hr
      obtain ⟨m1, i1⟩ := frame ha henv s h o hs
      have key : (∀ i, Uses i (.whole f s) → (env i).comoving = some false) ↔ ∀ c ∈ flags [o], c = some false := i1.symm
      rw [key]
      cases o with
      | plain u => cases hr; exact ⟨trivial, by simp [flags]⟩
      | cosmo x =>
        obtain ⟨k, hx⟩ := m1
        cases hr
        exact ⟨⟨k, ⟨hx.pos, hx.cf, hx.vt, hx.framed⟩⟩, by simp [flags, propagate]⟩
  | .physical s, h, r, hr => h.elim
  | .comoving s, h, r, hr => h.elim

/-- C114: the result of a formula without conversions is physical if all its variables are, and otherwise comoving; it always has a
factor with the scale factor of the variables. -/
theorem c114_frame_of_result {a : ℝ} (ha : 0 < a) {env : Nat → Arr} (henv : ∀ i, ∃ k, Conv a k (env i)) {e : Expr} (h : NoConversion e)
    {x : Arr} (hx : eval env e = .ok (.cosmo x)) :
    (∃ k, Conv a k x) ∧ ((∀ i, Uses i e → (env i).comoving = some false) → x.comoving = some false) ∧
      ((∃ i, Uses i e ∧ (env i).comoving = some true) → x.comoving = some true) := by
  obtain ⟨⟨k, hk⟩, hf⟩ := frame ha henv e h _ hx
  have hf' : x.comoving = some false ↔ ∀ i, Uses i e → (env i).comoving = some false := by rw [← hf]; simp [flags]
  refine ⟨⟨k, hk⟩, hf'.2, ?_⟩
  rintro ⟨i, hi, hc⟩
  rcases hk.framed_cases with h | h
  · exact h
  · have := hf'.1 h i hi
    rw [hc] at this
    cases this

/-! Examples: `0.5 * m * v ** 2 + m * phi` for masses, comoving velocities and a physical potential at `a = 1/2`, and a formula that fails. -/

private noncomputable def massE : Arr := ⟨[2, 4], some true, some ⟨some 0, some (1 / 2)⟩, true⟩
private noncomputable def velE : Arr := ⟨[6, 2], some true, some ⟨some (-1), some (1 / 2)⟩, true⟩
private noncomputable def potE : Arr := ⟨[8, 16], some false, some ⟨some (-2), some (1 / 2)⟩, true⟩
private noncomputable def envE : Nat → Arr
  | 0 => massE
  | 1 => velE
  | _ => potE
private noncomputable def ksE : Nat → ℝ
  | 0 => 0
  | 1 => -1
  | _ => -2
private theorem envE_conv : ∀ i, Conv (1 / 2) (ksE i) (envE i)
  | 0 => ⟨by norm_num, rfl, rfl, by simp [envE, massE]⟩
  | 1 => ⟨by norm_num, rfl, rfl, by simp [envE, velE]⟩
  | _ + 2 => ⟨by norm_num, rfl, rfl, by simp [envE, potE]⟩

/-- `0.5 * m * v ** 2 + m * phi`. -/
private noncomputable def energy : Expr :=
  .two .add (.two .multiply (.two .multiply (.nums [1 / 2]) (.var 0)) (.pow (.var 1) 2)) (.two .multiply (.var 0) (.var 2))

private theorem energy_scales : Dimension ksE energy (-2) := by
  have h1 : Dimension ksE (.two .multiply (.two .multiply (.nums [1 / 2]) (.var 0)) (.pow (.var 1) 2)) (0 + ksE 0 + ksE 1 * 2) :=
    .mul (.mul (.nums _) (.var 0)) (.pow (.var 1) 2)
  have h2 : Dimension ksE (.two .multiply (.var 0) (.var 2)) (ksE 0 + ksE 2) := .mul (.var 0) (.var 2)
  have e1 : 0 + ksE 0 + ksE 1 * 2 = (-2 : ℝ) := by norm_num [ksE]
  have e2 : ksE 0 + ksE 2 = (-2 : ℝ) := by norm_num [ksE]
  rw [e1] at h1
  rw [e2] at h2
  exact .sum (by simp) h1 h2

/-- The physical energies; the result is comoving and scales as `a^-2`. -/
example : (eval envE energy).map Opd.phys = .ok [160, 96] ∧
    ∃ x, eval envE energy = .ok (.cosmo x) ∧ Conv (1 / 2) (-2) x ∧ x.comoving = some true := by
  have hv := c114_value (by norm_num) envE_conv energy_scales
  have hm : meaning (fun i => (envE i).phys) energy = .ok [160, 96] := by
    have hp : ((1 / 2 : ℝ)) ^ (-1 : ℝ) = 2 := by rw [Real.rpow_neg (by norm_num), Real.rpow_one]; norm_num
    simp only [energy, meaning, envE, Arr.phys, massE, velE, potE, Except.bind, Except.map, bcast2, List.map_cons, List.map_nil, hp,
      Real.rpow_zero]
    norm_num [numbers2]
  rw [hm] at hv
  refine ⟨hv, ?_⟩
  cases he : eval envE energy with
  | error e => rw [he] at hv; cases hv
  | ok r =>
    obtain ⟨x, rfl, hx⟩ := (c114_factor (by norm_num) envE_conv energy_scales he).2 (fun h => h.1.2)
    exact ⟨x, rfl, hx, (c114_frame_of_result (e := energy) (by norm_num) (fun i => ⟨_, envE_conv i⟩)
      ⟨⟨⟨trivial, trivial⟩, trivial⟩, trivial, trivial⟩ he).2.2 ⟨0, .inr (.inl rfl), rfl⟩⟩

/-- `(m + phi) - phi` does not scale: the masses and the potential cannot be added, in whatever frames they are. -/
example : eval envE (.two .subtract (.two .add (.var 0) (.var 2)) (.var 2)) = .error .value ∧
    Regular (.two .subtract (.two .add (.var 0) (.var 2)) (.var 2)) := by
  refine ⟨?_, ⟨trivial, trivial⟩, trivial⟩
  have hb : ¬ (IsPlain (.cosmo massE) ∧ IsPlain (.cosmo potE)) := fun ⟨⟨v, h⟩, _⟩ => by cases h
  have hne : ¬ CF.same ⟨some 0, some (1 / 2 : ℝ)⟩ ⟨some (-2), some (1 / 2)⟩ := by
    have h4 : ((1 / 2 : ℝ)) ^ (-2 : ℝ) = 4 := by
      rw [Real.rpow_neg (by norm_num), show (2 : ℝ) = ((2 : ℕ) : ℝ) by norm_num, Real.rpow_natCast]
      norm_num
    simp only [CF.same, CF.aFactor, h4, Real.rpow_zero, isclose]
    norm_num
  have h := shape2 (u := .add) (fn := (· + ·)) (a := 1 / 2) (o := .cosmo massE) (p := .cosmo potE) (R := .error .value) (by norm_num)
    ⟨0, envE_conv 0⟩ ⟨-2, envE_conv 2⟩ hb
    (by
      simp only [handle, registry, reduce1, Opd.cf, massE, potE, List.foldlM_cons, List.foldlM_nil, preserve2]
      rw [if_neg hne]
      rfl)
  have e1 : eval envE (.two .add (.var 0) (.var 2)) = .error .value := by
    change (ufunc .add (num2 (· + ·)) [.cosmo massE, .cosmo potE]).map Opd.cosmo = _
    cases hu : ufunc .add (num2 (· + ·)) [.cosmo massE, .cosmo potE] with
    | ok z => rw [hu] at h; cases h.1
    | error e =>
      rw [hu] at h
      exact congrArg Except.error (Except.error.inj h.1)
  rw [eval, e1]
  rfl

/-- Two formulas with the same meaning: `(phi + v ** 2) - v ** 2` and `phi`. -/
example : Dimension ksE (.two .subtract (.two .add (.var 2) (.pow (.var 1) 2)) (.pow (.var 1) 2)) (-2) ∧ Dimension ksE (.var 2) (-2) ∧
    meaning (fun i => (envE i).phys) (.two .subtract (.two .add (.var 2) (.pow (.var 1) 2)) (.pow (.var 1) 2)) =
      meaning (fun i => (envE i).phys) (.var 2) := by
  have h2 : Dimension ksE (.var 2) (-2) := Dimension.var (ks := ksE) 2
  have h1 : Dimension ksE (.pow (.var 1) 2) (-2) := by
    have := Dimension.pow (ks := ksE) (Dimension.var 1) 2
    rwa [show ksE 1 * 2 = (-2 : ℝ) by norm_num [ksE]] at this
  refine ⟨.sum (by simp) (.sum (by simp) h2 h1) h1, h2, ?_⟩
  have hp : ((1 / 2 : ℝ)) ^ (-1 : ℝ) = 2 := by rw [Real.rpow_neg (by norm_num), Real.rpow_one]; norm_num
  simp only [meaning, envE, Arr.phys, velE, potE, Except.bind, Except.map, bcast2, List.map_cons, List.map_nil, hp]
  norm_num [numbers2]

/-- The kinetic energy is less than the total energy. -/
example : Formulas.compare .less (fun p q => p < q) envE (.pow (.var 1) 2) (.two .add (.var 2) (.pow (.var 1) 2)) =
    .ok [(144 : ℝ) < 152, (16 : ℝ) < 32] := by
  have h2 : Dimension ksE (.var 2) (-2) := Dimension.var (ks := ksE) 2
  have h1 : Dimension ksE (.pow (.var 1) 2) (-2) := by
    have := Dimension.pow (ks := ksE) (Dimension.var 1) 2
    rwa [show ksE 1 * 2 = (-2 : ℝ) by norm_num [ksE]] at this
  rw [c114_compare (by norm_num) envE_conv h1 (.sum (by simp) h2 h1) id (fun h => h.1) _ _ (List.mem_cons_self ..)]
  have hp : ((1 / 2 : ℝ)) ^ (-1 : ℝ) = 2 := by rw [Real.rpow_neg (by norm_num), Real.rpow_one]; norm_num
  simp only [meaning, envE, Arr.phys, velE, potE, Except.bind, Except.map, bcast2, List.map_cons, List.map_nil, hp]
  norm_num [numbers2]

end Verif.Props
