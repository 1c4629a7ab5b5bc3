import Verif.Spec.Cosmo

/-! Conversions keep the physical values; `prepare` brings convertible operands to one frame. -/

namespace Verif.Cosmo
open Verif

theorem Conv.framed_cases {a k : ℝ} {x : Arr} (h : Conv a k x) : x.comoving = some true ∨ x.comoving = some false := by
  rcases hc : x.comoving with _ | b
  · exact absurd hc h.framed
  · cases b <;> simp

theorem phys_true {a k : ℝ} {x : Arr} (h : Conv a k x) (hc : x.comoving = some true) :
    x.phys = x.val.map (fun v => v * a ^ k) := by
  simp [Arr.phys, hc, h.cf]

theorem phys_false {x : Arr} (hc : x.comoving = some false) : x.phys = x.val := by
  simp [Arr.phys, hc]

theorem Conv.factor {a k : ℝ} {x : Arr} (h : Conv a k x) : x.factor = .ok (a ^ k) := by
  simp [Arr.factor, h.cf, CF.aFactor]

theorem Conv.pow_ne {a k : ℝ} {x : Arr} (h : Conv a k x) (l : ℝ) : a ^ l ≠ 0 := (Real.rpow_pos_of_pos h.pos l).ne'

/-- `convert_to_comoving` on a convertible array. -/
theorem convertToComoving_ok {a k : ℝ} {x : Arr} (h : Conv a k x) :
    ∃ y, x.convertToComoving = .ok y ∧ Conv a k y ∧ y.comoving = some true ∧ y.phys = x.phys := by
  rcases h.framed_cases with hc | hc
  · exact ⟨x, by simp [Arr.convertToComoving, hc], h, hc, rfl⟩
  · refine ⟨{ x with val := x.val.map (fun v => v / a ^ k), comoving := some true }, ?_, ⟨h.pos, h.cf, h.vt, by simp⟩, rfl,
      ?_⟩
    · simp [Arr.convertToComoving, hc, h.vt, h.factor]
    · rw [phys_false hc, Arr.phys]
      simp only [h.cf, List.map_map]
      conv_rhs => rw [← List.map_id x.val]
      refine List.map_congr_left fun v _ => ?_
      simp [div_mul_cancel₀ v (h.pow_ne k)]

/-- `convert_to_physical` on a convertible array. -/
theorem convertToPhysical_ok {a k : ℝ} {x : Arr} (h : Conv a k x) :
    ∃ y, x.convertToPhysical = .ok y ∧ Conv a k y ∧ y.comoving = some false ∧ y.phys = x.phys := by
  rcases h.framed_cases with hc | hc
  · refine ⟨{ x with val := x.val.map (fun v => v * a ^ k), comoving := some false }, ?_, ⟨h.pos, h.cf, h.vt, by simp⟩,
      rfl, ?_⟩
    · simp [Arr.convertToPhysical, hc, h.factor]
    · rw [phys_true h hc, phys_false rfl]
  · exact ⟨x, by simp [Arr.convertToPhysical, hc], h, hc, rfl⟩

theorem toComoving_eq {a k : ℝ} {x : Arr} (h : Conv a k x) : x.toComoving = x.convertToComoving := by
  simp [Arr.toComoving, h.vt]

theorem toPhysical_eq {a k : ℝ} {x : Arr} (h : Conv a k x) : x.toPhysical = x.convertToPhysical := by
  simp [Arr.toPhysical, h.vt]

/-- Two arrays with the same frame, factor and physical values are equal. -/
theorem eq_of_phys {a k : ℝ} {x y : Arr} (hx : Conv a k x) (hy : Conv a k y) (hc : x.comoving = y.comoving)
    (hp : x.phys = y.phys) : x = y := by
  have hval : x.val = y.val := by
    rcases hx.framed_cases with h | h
    · rw [phys_true hx h, phys_true hy (hc ▸ h)] at hp
      refine List.map_injective_iff.mpr ?_ hp
      intro u v huv
      exact mul_right_cancel₀ (hx.pow_ne k) huv
    · rwa [phys_false h, phys_false (hc ▸ h)] at hp
  ext1
  · exact hval
  · exact hc
  · rw [hx.cf, hy.cf]
  · rw [hx.vt, hy.vt]

/-- An operand that can be mixed at scale factor `a`: a bare array, or a convertible array. -/
def Mix (a : ℝ) : Opd → Prop
  | .plain _ => True
  | .cosmo x => ∃ k, Conv a k x

/-- The operand `y` is `x` in frame `b`. -/
def Same (a : ℝ) (b : Bool) : Opd → Opd → Prop
  | .plain v, .plain w => v = w
  | .cosmo x, .cosmo y => ∃ k, Conv a k x ∧ Conv a k y ∧ y.comoving = some b ∧ y.phys = x.phys
  | _, _ => False

theorem flags_none {a : ℝ} {l : List Opd} (h : ∀ o ∈ l, Mix a o) : none ∉ flags l := by
  induction l with
  | nil => simp [flags]
  | cons o l ih =>
    have ih' := ih fun o ho => h o (List.mem_cons_of_mem _ ho)
    have ho := h o (List.mem_cons_self ..)
    cases o with
    | plain v => simpa [flags] using ih'
    | cosmo x =>
      obtain ⟨k, hk⟩ := ho
      simp only [flags, List.mem_cons, not_or]
      exact ⟨fun q => hk.framed q.symm, ih'⟩

theorem same_self {a : ℝ} {b : Bool} {l : List Opd} (h : ∀ o ∈ l, Mix a o) (hb : ∀ c ∈ flags l, c = some b) :
    List.Forall₂ (Same a b) l l := by
  induction l with
  | nil => exact .nil
  | cons o l ih =>
    have ho := h o (List.mem_cons_self ..)
    have h' : ∀ o ∈ l, Mix a o := fun o ho => h o (List.mem_cons_of_mem _ ho)
    cases o with
    | plain v => exact .cons rfl (ih h' (by simpa [flags] using hb))
    | cosmo x =>
      obtain ⟨k, hk⟩ := ho
      simp only [flags, List.mem_cons, forall_eq_or_imp] at hb
      exact .cons ⟨k, hk, hk, hb.1, rfl⟩ (ih h' hb.2)

theorem allToComoving_ok {a : ℝ} {l : List Opd} (h : ∀ o ∈ l, Mix a o) :
    ∃ m, allToComoving l = .ok m ∧ List.Forall₂ (Same a true) l m := by
  induction l with
  | nil => exact ⟨[], rfl, .nil⟩
  | cons o l ih =>
    obtain ⟨m, hm, hf⟩ := ih fun o ho => h o (List.mem_cons_of_mem _ ho)
    have ho := h o (List.mem_cons_self ..)
    cases o with
    | plain v => exact ⟨.plain v :: m, by simp [allToComoving, hm, Except.map], .cons rfl hf⟩
    | cosmo x =>
      obtain ⟨k, hk⟩ := ho
      by_cases hc : x.comoving = some true
      · exact ⟨.cosmo x :: m, by simp [allToComoving, hm, Except.map, hc], .cons ⟨k, hk, hk, hc, rfl⟩ hf⟩
      · obtain ⟨y, e, hy, hyc, hp⟩ := convertToComoving_ok hk
        rw [← toComoving_eq hk] at e
        exact ⟨.cosmo y :: m, by simp [allToComoving, hm, Except.map, hc, e], .cons ⟨k, hk, hy, hyc, hp⟩ hf⟩

theorem anyFixed_mix {a : ℝ} {l : List Opd} (h : ∀ o ∈ l, Mix a o) : anyFixed l = false := by
  induction l with
  | nil => rfl
  | cons o l ih =>
    have ih' := ih fun o ho => h o (List.mem_cons_of_mem _ ho)
    have ho := h o (List.mem_cons_self ..)
    cases o with
    | plain v => simpa [anyFixed] using ih'
    | cosmo x =>
      obtain ⟨k, hk⟩ := ho
      simp [anyFixed, hk.vt, ih']

theorem vt_mix {a : ℝ} {l : List Opd} (h : ∀ o ∈ l, Mix a o) : (l.map Opd.vt).all id = true := by
  simp only [List.all_map, List.all_eq_true, Function.comp]
  intro o ho
  cases o with
  | plain v => rfl
  | cosmo x =>
    obtain ⟨k, hk⟩ := h _ ho
    exact hk.vt

/-- `_prepare_array_func_args` on convertible arrays and bare numbers: all arrays are brought to one frame. -/
theorem prepare_mix {a : ℝ} {l : List Opd} (h : ∀ o ∈ l, Mix a o) (hne : flags l ≠ []) :
    ∃ p b, prepare true l [] = .ok p ∧ p.comoving = some b ∧ p.vt = true ∧ p.cfs = l.map Opd.cf ∧
      List.Forall₂ (Same a b) l p.args ∧ (b = false ↔ ∀ c ∈ flags l, c = some false) := by
  have hvt := vt_mix h
  have hnone := flags_none h
  unfold prepare
  simp only [flags, List.append_nil, List.map_nil, hne, if_false]
  by_cases h1 : ∀ c ∈ flags l, c = some true
  · rw [if_pos h1]
    refine ⟨_, true, rfl, rfl, hvt, rfl, same_self h h1, ?_⟩
    simp only [Bool.true_eq_false, false_iff]
    intro hf
    obtain ⟨c, hc⟩ := List.exists_mem_of_ne_nil _ hne
    have := h1 c hc
    rw [hf c hc] at this
    cases this
  · rw [if_neg h1]
    have h2 : ¬ ∀ c ∈ flags l, c = none := by
      intro q
      obtain ⟨c, hc⟩ := List.exists_mem_of_ne_nil _ hne
      rw [q c hc] at hc
      exact hnone hc
    have h3 : ¬ ∃ c ∈ flags l, c = none := by
      rintro ⟨c, hc, rfl⟩
      exact hnone hc
    rw [if_neg h2, if_neg h3]
    by_cases h4 : ∀ c ∈ flags l, c = some false
    · rw [if_pos h4]
      exact ⟨_, false, rfl, rfl, hvt, rfl, same_self h h4, by simpa using h4⟩
    · rw [if_neg h4, if_pos ⟨trivial, anyFixed_mix h⟩]
      obtain ⟨m, hm, hf⟩ := allToComoving_ok h
      rw [hm]
      simp only [allToComoving]
      exact ⟨_, true, rfl, rfl, hvt, rfl, hf, by simpa using h4⟩

/-- Broadcasting commutes with rescaling. -/
theorem bcast2_map {β γ : Type} (f : ℝ → ℝ → β) (g : ℝ → ℝ → γ) (u v : ℝ → ℝ) (w : β → γ)
    (h : ∀ x y, g (u x) (v y) = w (f x y)) (xs ys : List ℝ) :
    bcast2 g (xs.map u) (ys.map v) = (bcast2 f xs ys).map (List.map w) := by
  unfold bcast2
  simp only [List.length_map]
  split
  · simp only [Except.map, Except.ok.injEq]
    rw [List.zipWith_map, List.map_zipWith]
    simp only [h]
  · rename_i hlen
    match xs, ys with
    | [], [] => simp at hlen
    | [], [y] => simp [Except.map]
    | [], _ :: _ :: _ => simp [Except.map]
    | [x], ys => simp [Except.map, h]
    | _ :: _ :: _, [] => simp [Except.map]
    | _ :: _ :: _, [y] => simp [Except.map, h]
    | _ :: _ :: _, _ :: _ :: _ => simp [Except.map]

theorem same_refl (f : CF) : f.same f := by
  unfold CF.same
  refine ⟨rfl, ?_⟩
  rcases f.aFactor with _ | x
  · trivial
  · simp only [isclose, sub_self, abs_zero]
    positivity

end Verif.Cosmo

namespace Verif.Cosmo
open Verif

/-- The exponent of an operand: bare numbers do not scale. -/
def HasExp (a : ℝ) (o : Opd) (k : ℝ) : Prop :=
  match o with
  | .plain _ => k = 0
  | .cosmo x => Conv a k x

theorem HasExp.mix {a k : ℝ} {o : Opd} (h : HasExp a o k) : Mix a o := by
  cases o with
  | plain v => trivial
  | cosmo x => exact ⟨k, h⟩

/-- The factor between the frame `b` and the physical frame. -/
noncomputable def scale (a : ℝ) (b : Bool) (k : ℝ) : ℝ := if b then a ^ k else 1

theorem Same.phys {a k : ℝ} {b : Bool} {o p : Opd} (h : Same a b o p) (hk : HasExp a o k) :
    o.phys = p.vals.map (fun v => v * scale a b k) := by
  cases o with
  | plain v =>
    cases p with
    | plain w =>
      simp only [Same] at h
      simp only [HasExp] at hk
      subst h hk
      simp [Opd.phys, Opd.vals, scale]
    | cosmo y => exact h.elim
  | cosmo x =>
    cases p with
    | plain w => exact h.elim
    | cosmo y =>
      obtain ⟨l, h1, h2, h3, h4⟩ := h
      have hl : l = k := by
        have := h1.cf.symm.trans (Conv.cf hk)
        simpa using this
      subst hl
      simp only [Opd.phys, Opd.vals, ← h4]
      cases b
      · rw [phys_false h3]; simp [scale]
      · rw [phys_true h2 h3]; simp [scale]

/-- The physical values of a result in frame `b`. -/
theorem phys_result {a m : ℝ} {b : Bool} {z : Arr} (hb : z.comoving = some b) (hcf : z.cf = some ⟨some m, some a⟩) :
    z.phys = z.val.map (fun v => v * scale a b m) := by
  cases b <;> simp [Arr.phys, hb, hcf, scale]

theorem forall2_two {α β : Type} {R : α → β → Prop} {x y : α} {l : List β} (h : List.Forall₂ R [x, y] l) :
    ∃ p q, l = [p, q] ∧ R x p ∧ R y q := by
  cases h with
  | cons h1 h2 => cases h2 with
    | cons h3 h4 => cases h4; exact ⟨_, _, rfl, h1, h3⟩

theorem forall2_one {α β : Type} {R : α → β → Prop} {x : α} {l : List β} (h : List.Forall₂ R [x] l) :
    ∃ p, l = [p] ∧ R x p := by
  cases h with
  | cons h1 h2 => cases h2; exact ⟨_, rfl, h1⟩

theorem scale_hom {a k l m : ℝ} {f : ℝ → ℝ → ℝ} (hom : ∀ u v, f (u * a ^ k) (v * a ^ l) = f u v * a ^ m) (b : Bool) :
    ∀ u v, f (u * scale a b k) (v * scale a b l) = f u v * scale a b m := by
  cases b
  · simp [scale]
  · simpa [scale] using hom

theorem not_flags_nil {o p : Opd} (h : flags [o, p] = []) : ∃ u v, o = .plain u ∧ p = .plain v := by
  cases o <;> cases p <;> simp [flags] at h ⊢

/-- A ufunc of two operands is covariant if its factor rule matches its scaling. -/
theorem ufunc2_cov {a k l m : ℝ} {u : Ufunc} {f : ℝ → ℝ → ℝ} {o p : Opd} (ho : HasExp a o k) (hp : HasExp a p l)
    (hne : flags [o, p] ≠ []) (hh : handle (registry u) [o.cf, p.cf] [o, p] = .ok (some ⟨some m, some a⟩)) (ha : 0 < a)
    (hom : ∀ u v, f (u * a ^ k) (v * a ^ l) = f u v * a ^ m) :
    (ufunc u (num2 f) [o, p]).map Arr.phys = num2 f [o.phys, p.phys] ∧
      ∀ z, ufunc u (num2 f) [o, p] = .ok z → Conv a m z := by
  have hmix : ∀ q ∈ [o, p], Mix a q := by
    intro q hq
    rcases List.mem_pair.mp hq with rfl | rfl
    · exact ho.mix
    · exact hp.mix
  obtain ⟨r, b, e, hc, hvt, hcfs, hf, -⟩ := prepare_mix hmix hne
  obtain ⟨o', p', hargs, h1, h2⟩ := forall2_two hf
  have e1 := h1.phys ho
  have e2 := h2.phys hp
  have key := bcast2_map f f (fun v => v * scale a b k) (fun v => v * scale a b l) (fun v => v * scale a b m)
    (scale_hom hom b) o'.vals p'.vals
  unfold ufunc
  simp only [e, hcfs, List.map_cons, List.map_nil, hh, hargs, num2, e1, e2]
  rw [key]
  cases bcast2 f o'.vals p'.vals with
  | error q => simp [Except.map]
  | ok v =>
    simp only [Except.map, Except.ok.injEq]
    refine ⟨phys_result hc rfl, ?_⟩
    rintro z rfl
    exact ⟨ha, rfl, hvt, by simp [hc]⟩

/-- The same for one operand. -/
theorem ufunc1_cov {a k m : ℝ} {u : Ufunc} {f : ℝ → ℝ} {x : Arr} (hx : Conv a k x)
    (hh : handle (registry u) [x.cf] [.cosmo x] = .ok (some ⟨some m, some a⟩))
    (hom : ∀ u, f (u * a ^ k) = f u * a ^ m) :
    ∃ z, ufunc u (num1 f) [.cosmo x] = .ok z ∧ Conv a m z ∧ z.phys = x.phys.map f ∧ z.comoving = x.comoving := by
  have hmix : ∀ q ∈ [Opd.cosmo x], Mix a q := by
    intro q hq
    rw [List.mem_singleton.mp hq]
    exact ⟨k, hx⟩
  obtain ⟨r, b, e, hc, hvt, hcfs, hf, hbf⟩ := prepare_mix hmix (by simp [flags])
  obtain ⟨o', hargs, h1⟩ := forall2_one hf
  have e1 : x.phys = _ := h1.phys (o := .cosmo x) hx
  unfold ufunc
  simp only [e, hcfs, List.map_cons, List.map_nil, Opd.cf, hh, hargs, num1, e1]
  refine ⟨_, rfl, ⟨hx.pos, rfl, hvt, by simp [hc]⟩, ?_, ?_⟩
  · rw [phys_result (m := m) (a := a) hc rfl, List.map_map, List.map_map]
    refine List.map_congr_left fun v _ => ?_
    cases b
    · simp [scale]
    · simp [scale, hom]
  · simp only [hc]
    simp only [flags, List.mem_singleton, forall_eq] at hbf
    rcases hx.framed_cases with h | h
    · rw [h] at hbf ⊢
      cases b <;> simp_all
    · rw [h] at hbf ⊢
      cases b <;> simp_all

/-- A ufunc that returns booleans sees physical values if it does not depend on a common scale. -/
theorem ufuncBool_cov {β : Type} {a k : ℝ} {u : Ufunc} {f : ℝ → ℝ → β} {x y : Arr} (hx : Conv a k x) (hy : Conv a k y)
    (c : Option CF) (hh : handle (registry u) [x.cf, y.cf] [.cosmo x, .cosmo y] = .ok c)
    (hom : ∀ (s u v : ℝ), 0 < s → f (u * s) (v * s) = f u v) :
    ufuncBool u (num2 f) [.cosmo x, .cosmo y] = num2 f [x.phys, y.phys] := by
  have hmix : ∀ q ∈ [Opd.cosmo x, .cosmo y], Mix a q := by
    intro q hq
    rcases List.mem_pair.mp hq with rfl | rfl
    · exact ⟨k, hx⟩
    · exact ⟨k, hy⟩
  obtain ⟨r, b, e, hc, hvt, hcfs, hf, -⟩ := prepare_mix hmix (by simp [flags])
  obtain ⟨o', p', hargs, h1, h2⟩ := forall2_two hf
  have e1 : x.phys = _ := h1.phys (o := .cosmo x) hx
  have e2 : y.phys = _ := h2.phys (o := .cosmo y) hy
  have hs : 0 < scale a b k := by
    cases b
    · simp [scale]
    · simpa [scale] using Real.rpow_pos_of_pos hx.pos k
  have key := bcast2_map f f (fun v => v * scale a b k) (fun v => v * scale a b k) id
    (fun u v => hom _ u v hs) o'.vals p'.vals
  unfold ufuncBool
  simp only [e, hcfs, List.map_cons, List.map_nil, Opd.cf, hh, hargs, num2, e1, e2]
  rw [key]
  cases bcast2 f o'.vals p'.vals <;> simp [Except.map]

/-- Powers of scaled numbers, also negative ones. -/
theorem mul_rpow_pos {c : ℝ} (hc : 0 < c) (x p : ℝ) : (x * c) ^ p = x ^ p * c ^ p := by
  rcases le_or_gt 0 x with hx | hx
  · exact Real.mul_rpow hx hc.le
  · rw [Real.rpow_def_of_neg (mul_neg_of_neg_of_pos hx hc), Real.rpow_def_of_neg hx, Real.log_mul hx.ne hc.ne',
      Real.rpow_def_of_pos hc, add_mul, Real.exp_add]
    ring

end Verif.Cosmo

namespace Verif.Cosmo
open Verif

/-- The factors handed to the rules are those of the original arguments. -/
theorem prepare_cfs {c : Bool} {l kw : List Opd} {p : Prepared} (h : prepare c l kw = .ok p) :
    p.cfs = l.map Opd.cf := by
  unfold prepare at h
  simp only at h
  repeat' split at h
  all_goals first
    | (cases h; rfl)
    | exact absurd h (by simp)

/-- The result is convertible if all arguments are. -/
theorem prepare_vt {c : Bool} {l kw : List Opd} {p : Prepared} (h : prepare c l kw = .ok p) :
    p.vt = (l.map Opd.vt ++ kw.map Opd.vt).all id := by
  unfold prepare at h
  simp only at h
  repeat' split at h
  all_goals first
    | (cases h; rfl)
    | exact absurd h (by simp)

end Verif.Cosmo

namespace Verif.Cosmo
open Verif

/-- An array that is not convertible, in a frame that the constructor allows for it. -/
def Fixed (x : Arr) : Prop := x.vt = false ∧ x.comoving ≠ some true

theorem anyFixed_of {l : List Opd} {x : Arr} (h : Opd.cosmo x ∈ l) (hv : x.vt = false) : anyFixed l = true := by
  induction l with
  | nil => cases h
  | cons o l ih =>
    rcases List.mem_cons.mp h with rfl | h'
    · simp [anyFixed, hv]
    · cases o with
      | plain v => simpa [anyFixed] using ih h'
      | cosmo y => simp [anyFixed, ih h']

theorem toPhysical_fixed {x y : Arr} (hc : x.comoving ≠ some true) (h : x.toPhysical = .ok y) : y = x := by
  unfold Arr.toPhysical at h
  split at h
  · cases h
  · rcases e : x.comoving with _ | b
    · simp [Arr.convertToPhysical, e] at h
    · cases b
      · simpa [Arr.convertToPhysical, e, eq_comm] using h
      · exact absurd e hc

theorem allToPhysical_eq {l m : List Opd} (h : allToPhysical l = .ok m) : m = l := by
  induction l generalizing m with
  | nil => simpa [allToPhysical, eq_comm] using h
  | cons o l ih =>
    cases o with
    | plain v =>
      cases e : allToPhysical l with
      | error q => simp [allToPhysical, e, Except.map] at h
      | ok r =>
        simp only [allToPhysical, e, Except.map, Except.ok.injEq] at h
        rw [← h, ih e]
    | cosmo x =>
      unfold allToPhysical at h
      by_cases hc : x.comoving = some true
      · rw [if_pos hc] at h
        cases e : allToPhysical l with
        | error q => simp [e, Except.map] at h
        | ok r =>
          simp only [e, Except.map, Except.ok.injEq] at h
          rw [← h, ih e]
      · rw [if_neg hc] at h
        cases e1 : x.toPhysical with
        | error q => simp [e1] at h
        | ok y =>
          cases e : allToPhysical l with
          | error q => simp [e1, e, Except.map] at h
          | ok r =>
            simp only [e1, e, Except.map, Except.ok.injEq] at h
            rw [← h, ih e, toPhysical_fixed hc e1]

/-- If one argument is not convertible then no argument is rescaled, and the result is physical or without a frame. -/
theorem prepare_fixed {l : List Opd} {p : Prepared} {x : Arr} (hx : Opd.cosmo x ∈ l) (hf : Fixed x)
    (h : prepare true l [] = .ok p) : p.args = l ∧ p.vt = false ∧ p.comoving ≠ some true := by
  have hvt : p.vt = false := by
    rw [prepare_vt h]
    simp only [List.map_nil, List.append_nil, List.all_eq_false, List.mem_map]
    exact ⟨false, ⟨_, hx, hf.1⟩, by simp⟩
  have hfl : x.comoving ∈ flags l := by
    clear h
    induction l with
    | nil => cases hx
    | cons o l ih =>
      rcases List.mem_cons.mp hx with rfl | hx'
      · simp [flags]
      · cases o with
        | plain v => simpa [flags] using ih hx'
        | cosmo y => simp [flags, ih hx']
  have hany := anyFixed_of hx hf.1
  unfold prepare at h
  simp only [flags, List.append_nil] at h
  split at h
  · cases h; exact ⟨rfl, hvt, by simp⟩
  · split at h
    · rename_i ht
      exact absurd (ht _ hfl) hf.2
    · split at h
      · cases h; exact ⟨rfl, hvt, by simp⟩
      · split at h
        · cases h
        · split at h
          · cases h; exact ⟨rfl, hvt, by simp⟩
          · rw [if_neg (by simp [hany])] at h
            cases e : allToPhysical l with
            | error q => simp [e, allToPhysical] at h
            | ok m =>
              simp only [e, allToPhysical, Except.ok.injEq] at h
              subst h
              exact ⟨allToPhysical_eq e, hvt, by simp⟩

theorem reduce_preserve {f : CF} {l : List Opd} (hne : l ≠ []) (h : ∀ o ∈ l, o.cf = some f) :
    reduce1 preserve2 (l.map Opd.cf) = .ok (some f) := by
  cases l with
  | nil => exact absurd rfl hne
  | cons o l =>
    have h1 := h o (List.mem_cons_self ..)
    have h2 : ∀ o ∈ l, o.cf = some f := fun o ho => h o (List.mem_cons_of_mem _ ho)
    clear h hne
    simp only [List.map_cons, reduce1, h1]
    induction l with
    | nil => rfl
    | cons q l ih =>
      have h3 := h2 q (List.mem_cons_self ..)
      simp only [List.map_cons, List.foldlM_cons, h3, preserve2, if_pos (same_refl f), bind, Except.bind]
      exact ih fun o ho => h2 o (List.mem_cons_of_mem _ ho)

theorem same_flatten {a k : ℝ} {b : Bool} {l m : List Opd} (hk : ∀ o ∈ l, HasExp a o k)
    (h : List.Forall₂ (Same a b) l m) :
    (l.map Opd.phys).flatten = (m.map Opd.vals).flatten.map (fun v => v * scale a b k) := by
  induction h with
  | nil => rfl
  | cons h1 h2 ih =>
    simp only [List.map_cons, List.flatten_cons, List.map_append]
    rw [h1.phys (hk _ (List.mem_cons_self ..)), ih fun o ho => hk o (List.mem_cons_of_mem _ ho)]

theorem flags_cosmo (l : List Arr) : flags (l.map Opd.cosmo) = l.map (fun x => x.comoving) := by
  induction l with
  | nil => rfl
  | cons x l ih => simp [flags, ih]

end Verif.Cosmo
