import Verif.Spec.FactorRules
import Verif.Props.CosmoFactor

/-! # C121: how the result of a ufunc scales with the expansion -/

namespace Verif.Props
open Verif Verif.Cosmo Verif.Spec

private theorem kind_mix {a : ℝ} {o : Opd} {k : Option ℝ} (h : Kind a o k) : Mix a o := by
  cases o with
  | plain v => trivial
  | cosmo x => obtain ⟨e, -, hx⟩ := h; exact ⟨e, hx⟩

private theorem kind_cf {a : ℝ} {o : Opd} {k : Option ℝ} (h : Kind a o k) : o.cf = k.map fun k => ⟨some k, some a⟩ := by
  cases o with
  | plain v => simp only [Kind] at h; subst h; rfl
  | cosmo x => obtain ⟨e, rfl, hx⟩ := h; exact hx.cf

private theorem alike_same {a k l : ℝ} (ha : 0 < a) : CF.same ⟨some k, some a⟩ ⟨some l, some a⟩ ↔ Alike a k l := by
  simp [CF.same, CF.aFactor, isclose, Alike, abs_of_pos (Real.rpow_pos_of_pos ha l)]

private theorem handle_rule {a : ℝ} (ha : 0 < a) {u : Ufunc} {r : Rule} (hu : ruleOf u = some r) (k l : Option ℝ) (inputs : List Opd) :
    handle (registry u) [k.map fun k => ⟨some k, some a⟩, l.map fun k => ⟨some k, some a⟩] inputs =
      (resultKind a r k l).map fun m => m.map fun k => ⟨some k, some a⟩ := by
  have h := fun k l => alike_same (k := k) (l := l) ha
  rcases k with _ | k <;> rcases l with _ | l
  · cases u <;> simp only [ruleOf, Option.some.injEq, reduceCtorEq] at hu <;> subst hu <;> rfl
  · cases u <;> simp only [ruleOf, Option.some.injEq, reduceCtorEq] at hu <;> subst hu <;>
      simp [handle, registry, reduce1, preserve2, passthrough2, mul2, powerCF, arctan2CF, without2, resultKind, CF.pow, Except.map, pure, Except.pure, bind,
        Except.bind]
  · cases u <;> simp only [ruleOf, Option.some.injEq, reduceCtorEq] at hu <;> subst hu <;>
      simp [handle, registry, reduce1, preserve2, passthrough2, mul2, powerCF, arctan2CF, without2, resultKind, Except.map, pure, Except.pure, bind,
        Except.bind]
  · by_cases hA : Alike a k l
    · have hS := (h k l).2 hA
      cases u <;> simp only [ruleOf, Option.some.injEq, reduceCtorEq] at hu <;> subst hu <;>
        simp [handle, registry, reduce1, preserve2, passthrough2, mul2, powerCF, arctan2CF, without2, resultKind, CF.mul, CF.pow, hA, hS, Except.map,
          bind, Except.bind, pure, Except.pure, sub_eq_add_neg]
    · have hS := (h k l).not.2 hA
      cases u <;> simp only [ruleOf, Option.some.injEq, reduceCtorEq] at hu <;> subst hu <;>
        simp [handle, registry, reduce1, preserve2, passthrough2, mul2, powerCF, arctan2CF, without2, resultKind, CF.mul, CF.pow, hA, hS, Except.map,
          bind, Except.bind, pure, Except.pure, sub_eq_add_neg]

private theorem handle_power {a : ℝ} {u : Ufunc} {q : Option ℝ} (hu : scalingOf u = some q) (k : ℝ) (inputs : List Opd) :
    handle (registry u) [some ⟨some k, some a⟩] inputs = .ok (q.map fun q => ⟨some (k * q), some a⟩) := by
  cases u <;> simp only [scalingOf, Option.some.injEq, reduceCtorEq] at hu <;> subst hu <;>
    simp [handle, registry, reduce1, powerCF, CF.pow, pure, Except.pure] <;> ring

/-- The arguments of a ufunc brought to one frame. -/
private theorem prepare_kinds {a : ℝ} {l : List Opd} (h : ∀ o ∈ l, ∃ k, Kind a o k) (hc : ∃ x, .cosmo x ∈ l) :
    ∃ p b, prepare true l [] = .ok p ∧ p.comoving = some b ∧ p.vt = true ∧ p.cfs = l.map Opd.cf ∧ (b = true ↔ ∃ o ∈ l, isComoving o) := by
  have hne : flags l ≠ [] := by
    obtain ⟨x, hx⟩ := hc
    clear h
    induction l with
    | nil => cases hx
    | cons o l ih =>
      cases o with
      | cosmo y => simp [flags]
      | plain v =>
        rcases List.mem_cons.1 hx with h | h
        · cases h
        · simpa [flags] using ih h
  obtain ⟨p, b, h1, h2, h3, h4, -, h6⟩ := prepare_mix (a := a) (l := l) (fun o ho => (h o ho).elim fun k hk => kind_mix hk) hne
  refine ⟨p, b, h1, h2, h3, h4, ?_⟩
  have key : (∀ c ∈ flags l, c = some false) ↔ ¬ ∃ o ∈ l, isComoving o := by
    clear h6 h4 h3 h2 h1 hne hc
    induction l with
    | nil => simp [flags]
    | cons o l ih =>
      have ih := ih fun o ho => h o (List.mem_cons_of_mem _ ho)
      cases o with
      | plain v => simpa [flags, isComoving] using ih
      | cosmo x =>
        obtain ⟨k, e, -, hx⟩ := h (.cosmo x) List.mem_cons_self
        have := hx.framed
        simp only [flags, List.mem_cons, forall_eq_or_imp, exists_eq_or_imp, not_or, ih, isComoving]
        refine and_congr_left fun _ => ?_
        cases hx' : x.comoving with
        | none => exact absurd hx' this
        | some c => cases c <;> simp
  cases b with
  | true => simp only [true_iff]; by_contra hn; exact absurd (h6.2 (key.2 hn)) (by simp)
  | false => simp only [Bool.false_eq_true, false_iff]; exact key.1 (h6.1 rfl)

/-- C121: every ufunc of two arguments but `power` follows one of six rules. What it refuses and how its result scales depends on the
exponents of the arguments only, and the result is comoving when one of them is. -/
theorem c121_two {a : ℝ} (ha : 0 < a) {u : Ufunc} {r : Rule} (hu : ruleOf u = some r) {o p : Opd} {k l : Option ℝ} (ho : Kind a o k)
    (hp : Kind a p l) (hc : k ≠ none ∨ l ≠ none) (num : List (List ℝ) → Except Err (List ℝ)) :
    (∀ e, resultKind a r k l = .error e → ufunc u num [o, p] = .error e) ∧
    (∀ m, resultKind a r k l = .ok m →
      (∀ z, ufunc u num [o, p] = .ok z → z.cf = (m.map fun m => ⟨some m, some a⟩) ∧ z.vt = true ∧
        (z.comoving = some true ↔ isComoving o ∨ isComoving p) ∧ (z.comoving = some false ↔ ¬ (isComoving o ∨ isComoving p))) ∧
      ((∀ xs ys, ∃ v, num [xs, ys] = .ok v) → ∃ z, ufunc u num [o, p] = .ok z)) := by
  obtain ⟨P, b, h1, h2, h3, h4, h5⟩ := prepare_kinds (a := a) (l := [o, p])
    (by intro q hq; rcases List.mem_pair.1 hq with rfl | rfl; exacts [⟨_, ho⟩, ⟨_, hp⟩])
    (by
      rcases hc with hc | hc
      · cases o with
        | plain v => exact absurd ho hc
        | cosmo x => exact ⟨x, by simp⟩
      · cases p with
        | plain v => exact absurd hp hc
        | cosmo x => exact ⟨x, by simp⟩)
  have hcf : P.cfs = [k.map fun k => ⟨some k, some a⟩, l.map fun k => ⟨some k, some a⟩] := by
    rw [h4]; simp [kind_cf ho, kind_cf hp]
  have hb : b = true ↔ isComoving o ∨ isComoving p := by simpa using h5
  refine ⟨fun e he => ?_, fun m hm => ⟨fun z hz => ?_, fun hn => ?_⟩⟩
  · simp only [ufunc, h1, hcf, handle_rule ha hu, he, Except.map]
  · simp only [ufunc, h1, hcf, handle_rule ha hu, hm, Except.map] at hz
    cases hv : num (P.args.map Opd.vals) with
    | error e => rw [hv] at hz; cases hz
    | ok v =>
      rw [hv] at hz
      cases hz
      refine ⟨rfl, h3, ?_, ?_⟩
      · rw [h2, ← hb]; simp
      · rw [h2, ← hb]; simp
  · simp only [ufunc, h1, hcf, handle_rule ha hu, hm, Except.map]
    have hlen : ∃ q q', P.args = [q, q'] := by
      obtain ⟨p', b', e1, -, -, -, e5, -⟩ := prepare_mix (a := a) (l := [o, p])
        (by intro q hq; rcases List.mem_pair.1 hq with rfl | rfl; exacts [kind_mix ho, kind_mix hp])
        (by
          rcases hc with hc | hc
          · cases o with
            | plain v => exact absurd ho hc
            | cosmo x => simp [flags]
          · cases p with
            | plain v => exact absurd hp hc
            | cosmo x => cases o <;> simp [flags])
      rw [h1] at e1
      cases e1
      match hP : P.args, e5 with
      | [q, q'], _ => exact ⟨q, q', rfl⟩
    obtain ⟨q, q', hq⟩ := hlen
    obtain ⟨v, hv⟩ := hn q.vals q'.vals
    simp [hq, hv]

/-- C121: the same for ufuncs of two arguments that return truth values. -/
theorem c121_tests {a : ℝ} (ha : 0 < a) {u : Ufunc} (hu : ruleOf u = some .bare) {o p : Opd} {k l : Option ℝ} (ho : Kind a o k)
    (hp : Kind a p l) (hc : k ≠ none ∨ l ≠ none) {β : Type} (num : List (List ℝ) → Except Err (List β))
    (hn : ∀ xs ys, ∃ v, num [xs, ys] = .ok v) :
    (∃ s, ufuncBool u num [o, p] = .ok s) ∨
      (∃ k' l', k = some k' ∧ l = some l' ∧ ¬ Alike a k' l' ∧ ufuncBool u num [o, p] = .error .value) := by
  obtain ⟨P, b, h1, -, -, h4, h5, -⟩ := prepare_mix (a := a) (l := [o, p])
    (by intro q hq; rcases List.mem_pair.1 hq with rfl | rfl; exacts [kind_mix ho, kind_mix hp])
    (by
      rcases hc with hc | hc
      · cases o with
        | plain v => exact absurd ho hc
        | cosmo x => simp [flags]
      · cases p with
        | plain v => exact absurd hp hc
        | cosmo x => cases o <;> simp [flags])
  have hcf : P.cfs = [k.map fun k => ⟨some k, some a⟩, l.map fun k => ⟨some k, some a⟩] := by
    rw [h4]; simp [kind_cf ho, kind_cf hp]
  have hlen : ∃ q q', P.args = [q, q'] := by
    match hP : P.args, h5 with
    | [q, q'], _ => exact ⟨q, q', rfl⟩
  obtain ⟨q, q', hq⟩ := hlen
  obtain ⟨v, hv⟩ := hn q.vals q'.vals
  cases hk : resultKind a .bare k l with
  | ok m =>
    left
    refine ⟨v, ?_⟩
    simp only [ufuncBool, h1, hcf, handle_rule ha hu, hk, Except.map, hq]
    exact hv
  | error e =>
    right
    rcases k with _ | k <;> rcases l with _ | l <;> simp only [resultKind, reduceCtorEq] at hk
    by_cases hA : Alike a k l
    · rw [if_pos hA] at hk; cases hk
    · rw [if_neg hA] at hk
      cases hk
      refine ⟨k, l, rfl, rfl, hA, ?_⟩
      simp only [ufuncBool, h1, hcf, handle_rule ha hu, resultKind, if_neg hA, Except.map]

/-- C121: every ufunc of one argument raises the scaling to its power, or its result does not scale. -/
theorem c121_one {a k : ℝ} {u : Ufunc} {q : Option ℝ} (hu : scalingOf u = some q) {x : Arr} (hx : Conv a k x)
    (num : List (List ℝ) → Except Err (List ℝ)) :
    ufunc u num [.cosmo x] = (num [x.val]).map fun v => ⟨v, x.comoving, q.map fun q => ⟨some (k * q), some a⟩, true⟩ := by
  obtain ⟨c, hc⟩ : ∃ c, x.comoving = some c := Option.ne_none_iff_exists'.1 hx.framed
  have p : prepare true [.cosmo x] [] = .ok ⟨[.cosmo x], [], [x.cf], [], some c, true⟩ := by
    cases c <;> simp [prepare, flags, hc, Opd.cf, Opd.vt, hx.vt]
  simp only [ufunc, p, hx.cf, handle_power hu, List.map_cons, List.map_nil, Opd.vals, hc]
  cases num [x.val] <;> rfl

/-- C121: a power with a number as the exponent raises the scaling to it. An exponent with a scaling of its own is refused, unless it is
worth one. -/
theorem c121_power {a k p : ℝ} {x : Arr} (hx : Conv a k x) (num : List (List ℝ) → Except Err (List ℝ)) (z : Arr) :
    (ufunc .power num [.cosmo x, .plain [p]] = .ok z → z.cf = some ⟨some (k * p), some a⟩ ∧ z.comoving = x.comoving) ∧
    (∀ {l : ℝ} {y : Arr}, Conv a l y → y.val = [p] →
      (ufunc .power num [.cosmo x, .cosmo y] = .ok z → a ^ l = 1 ∧ z.cf = some ⟨some (k * p), some a⟩)) := by
  constructor
  · obtain ⟨c, hc⟩ : ∃ c, x.comoving = some c := Option.ne_none_iff_exists'.1 hx.framed
    have h : prepare true [.cosmo x, .plain [p]] [] = .ok ⟨[.cosmo x, .plain [p]], [], [x.cf, none], [], some c, true⟩ := by
      cases c <;> simp [prepare, flags, hc, Opd.cf, Opd.vt, hx.vt]
    intro hz
    simp only [ufunc, h, hx.cf, registry, handle, Opd.vals, powerCF, Option.bind_none, Option.map_some, CF.pow] at hz
    cases hn : num ([Opd.cosmo x, Opd.plain [p]].map Opd.vals) with
    | error e => rw [hn] at hz; cases hz
    | ok v => rw [hn] at hz; cases hz; exact ⟨rfl, hc.symm⟩
  · intro l y hy hv hz
    by_cases hl : a ^ l = 1
    · refine ⟨hl, ?_⟩
      unfold ufunc at hz
      cases hpr : prepare true [.cosmo x, .cosmo y] [] with
      | error e => rw [hpr] at hz; cases hz
      | ok P =>
        rw [hpr] at hz
        simp only [prepare_cfs hpr, List.map_cons, List.map_nil, Opd.cf, hx.cf, hy.cf, registry, handle, Opd.vals, hv, powerCF, Option.bind_some,
          CF.aFactor, hl, if_true, Option.map_some, CF.pow] at hz
        cases hn : num (P.args.map Opd.vals) with
        | error e => rw [hn] at hz; cases hz
        | ok v => rw [hn] at hz; cases hz; rfl
    · rw [c26_exponent (o := .cosmo x) ⟨k, hx⟩ hy hl hv] at hz
      cases hz

/-- C121: these are all ufuncs that arrays with frames have a rule for; none has two, and only `clip`, which takes three arguments, has none. -/
theorem c121_all (u : Ufunc) : (ruleOf u ≠ none ↔ scalingOf u = none ∧ u ≠ .power ∧ u ≠ .clip) := by
  cases u <;> simp [ruleOf, scalingOf]

/-- A length and a density: the sum is refused, the product scales as an area does in the other direction. -/
example : ufunc .add (num2 (· + ·)) [.cosmo (com (1 / 2) 1 3), .cosmo (com (1 / 2) (-3) 5)] = .error .value ∧
    (∃ z, ufunc .multiply (fun _ => .ok [15]) [.cosmo (com (1 / 2) 1 3), .cosmo (com (1 / 2) (-3) 5)] = .ok z ∧
      z.cf = some ⟨some (1 + -3), some (1 / 2)⟩) ∧
    ufunc .minimum (num2 min) [.plain [4], .cosmo (com (1 / 2) 1 3)] = .error .value := by
  have hA : ¬ Alike (1 / 2) 1 (-3) := by
    unfold Alike
    norm_num [Real.rpow_neg, Real.rpow_ofNat, abs_of_neg]
  have k1 : Kind (1 / 2) (.cosmo (com (1 / 2) 1 3)) (some 1) := ⟨1, rfl, com_conv (by norm_num) _ _⟩
  have k2 : Kind (1 / 2) (.cosmo (com (1 / 2) (-3) 5)) (some (-3)) := ⟨-3, rfl, com_conv (by norm_num) _ _⟩
  refine ⟨(c121_two (by norm_num) (r := .sum) rfl k1 k2 (by simp) _).1 .value (by simp [-one_div, resultKind, hA]), ?_,
    (c121_two (by norm_num) (r := .larger) rfl (k := none) (by simp [Kind]) k1 (by simp) _).1 .value (by simp [resultKind])⟩
  obtain ⟨h1, h2⟩ := (c121_two (by norm_num) (u := .multiply) (r := .product) rfl k1 k2 (by simp) (fun _ => .ok [15])).2 (some (1 + -3)) (by simp [resultKind])
  obtain ⟨z, hz⟩ := h2 fun _ _ => ⟨_, rfl⟩
  exact ⟨z, hz, (h1 z hz).1⟩

/-- The square root of an area, and of a length. -/
example : (ufunc .sqrt (num1 Real.sqrt) [.cosmo (com (1 / 2) 2 9)]).map Arr.cf = .ok (some ⟨some (2 * (1 / 2)), some (1 / 2)⟩) := by
  rw [c121_one (u := .sqrt) rfl (com_conv (by norm_num) _ _)]
  rfl

example : ∃ z, ufunc .power (num2 (· ^ ·)) [.cosmo (com (1 / 2) 1 3), .plain [2]] = .ok z ∧ z.cf = some ⟨some (1 * 2), some (1 / 2)⟩ := by
  have h : ufunc .power (num2 (· ^ ·)) [.cosmo (com (1 / 2) 1 3), .plain [2]] = .ok ⟨[3 ^ (2 : ℝ)], some true, some ⟨some (1 * 2), some (1 / 2)⟩, true⟩ := by
    simp [ufunc, prepare, flags, com, Opd.cf, Opd.vt, Opd.vals, handle, registry, powerCF, CF.pow, num2, bcast2]
  exact ⟨_, h, ((c121_power (com_conv (by norm_num) 1 3) _ _).1 h).1⟩

end Verif.Props
