import Verif.Props.Cosmo

/-! # C26 and C27: which factors may be combined, and how factors combine -/

namespace Verif.Props
open Verif Verif.Cosmo

/-- C26: two arrays at different scale factors are refused by every ufunc in the registry except `power`, whatever their
values, frames and exponents. -/
theorem c26_scale_factors {a b k l : ℝ} {x y : Arr} (hx : Conv a k x) (hy : Conv b l y) (hab : a ≠ b) (u : Ufunc)
    (hu : u ≠ .power) (num : List (List ℝ) → Except Err (List ℝ)) :
    ∃ e, ufunc u num [.cosmo x, .cosmo y] = .error e := by
  have hp : registry u ≠ .power := by
    intro h
    apply hu
    revert h
    cases u <;> simp [registry]
  have hns : ¬ CF.same ⟨some k, some a⟩ ⟨some l, some b⟩ := fun h => hab (by simpa using h.1)
  have hh : ∃ e, handle (registry u) [x.cf, y.cf] [.cosmo x, .cosmo y] = .error e := by
    rw [hx.cf, hy.cf]
    cases hr : registry u with
    | preserve =>
      exact ⟨.value, by simp [handle, reduce1, preserve2, hns, bind, Except.bind]⟩
    | multiply =>
      exact ⟨.invalidScaleFactor, by simp [handle, reduce1, mul2, CF.mul, hab, bind, Except.bind, Except.map]⟩
    | divide =>
      exact ⟨.invalidScaleFactor, by simp [handle, powerCF, mul2, CF.mul, CF.pow, hab, Except.map]⟩
    | passthrough => exact ⟨.value, by simp [handle, passthrough2, hns]⟩
    | power => exact absurd hr hp
    | sqrt => exact ⟨.typeErr, rfl⟩
    | square => exact ⟨.typeErr, rfl⟩
    | cbrt => exact ⟨.typeErr, rfl⟩
    | reciprocal => exact ⟨.typeErr, rfl⟩
    | without => exact ⟨.value, by simp [handle, without2, hns]⟩
    | arctan2 => exact ⟨.value, by simp [handle, arctan2CF, hns]⟩
    | comparison => exact ⟨.value, by simp [handle, without2, hns]⟩
  obtain ⟨e, he⟩ := hh
  unfold ufunc
  cases hpr : prepare true [.cosmo x, .cosmo y] [] with
  | error q => exact ⟨q, rfl⟩
  | ok p =>
    have hcfs : p.cfs = [x.cf, y.cf] := prepare_cfs hpr
    exact ⟨e, by simp [hcfs, he]⟩

/-- C26: sums, differences, extrema and angles of arrays at one scale factor whose factors differ by more than the
tolerance are refused. -/
theorem c26_factors {a k l : ℝ} {x y : Arr} (hx : Conv a k x) (hy : Conv a l y)
    (hd : 1e-8 + 1e-6 * a ^ l < |a ^ k - a ^ l|) (u : Ufunc)
    (hu : registry u ∈ [Handler.preserve, .passthrough, .arctan2, .without])
    (num : List (List ℝ) → Except Err (List ℝ)) :
    ufunc u num [.cosmo x, .cosmo y] = .error .value := by
  have hns : ¬ CF.same ⟨some k, some a⟩ ⟨some l, some a⟩ := by
    intro h
    have := h.2
    simp only [CF.aFactor, isclose, abs_of_pos (Real.rpow_pos_of_pos hx.pos l)] at this
    linarith
  have hh : handle (registry u) [x.cf, y.cf] [.cosmo x, .cosmo y] = .error .value := by
    rw [hx.cf, hy.cf]
    simp only [List.mem_cons, List.not_mem_nil, or_false] at hu
    rcases hu with h | h | h | h <;> rw [h] <;>
      simp [handle, reduce1, preserve2, passthrough2, arctan2CF, without2, hns, bind, Except.bind]
  obtain ⟨p, b, e, -, -, hcfs, -, -⟩ := prepare_mix (a := a) (l := [.cosmo x, .cosmo y]) (by
    intro q hq
    rcases List.mem_pair.mp hq with rfl | rfl
    · exact ⟨k, hx⟩
    · exact ⟨l, hy⟩) (by simp [flags])
  unfold ufunc
  simp [e, hcfs, Opd.cf, hh]

/-- C26: the same for comparisons. -/
theorem c26_comparisons {a b k l : ℝ} {x y : Arr} (hx : Conv a k x) (hy : Conv b l y)
    (hd : a ≠ b ∨ 1e-8 + 1e-6 * b ^ l < |a ^ k - b ^ l|) (u : Ufunc) (hu : registry u = .comparison) {β : Type}
    (num : List (List ℝ) → Except Err (List β)) :
    ∃ e, ufuncBool u num [.cosmo x, .cosmo y] = .error e := by
  have hns : ¬ CF.same ⟨some k, some a⟩ ⟨some l, some b⟩ := by
    intro h
    rcases hd with hd | hd
    · exact hd (by simpa using h.1)
    · have := h.2
      simp only [CF.aFactor, isclose, abs_of_pos (Real.rpow_pos_of_pos hy.pos l)] at this
      linarith
  unfold ufuncBool
  cases hpr : prepare true [.cosmo x, .cosmo y] [] with
  | error q => exact ⟨q, rfl⟩
  | ok p =>
    have hcfs : p.cfs = [x.cf, y.cf] := prepare_cfs hpr
    exact ⟨.value, by simp [hcfs, hu, hx.cf, hy.cf, handle, without2, hns]⟩

/-- An array in the comoving frame. -/
noncomputable def com (a k v : ℝ) : Arr := ⟨[v], some true, some ⟨some k, some a⟩, true⟩

theorem com_conv {a : ℝ} (h : 0 < a) (k v : ℝ) : Conv a k (com a k v) := ⟨h, rfl, rfl, by simp [com]⟩

example : Conv (1 / 2) 1 (com (1 / 2) 1 3) ∧ Conv (1 / 4) 1 (com (1 / 4) 1 3) ∧ (1 / 2 : ℝ) ≠ 1 / 4 :=
  ⟨com_conv (by norm_num) _ _, com_conv (by norm_num) _ _, by norm_num⟩
example : Conv (1 / 2) 1 (com (1 / 2) 1 3) ∧ Conv (1 / 2) (-3) (com (1 / 2) (-3) 3) ∧
    (1e-8 + 1e-6 * (1 / 2 : ℝ) ^ (-3 : ℝ) < |(1 / 2 : ℝ) ^ (1 : ℝ) - (1 / 2) ^ (-3 : ℝ)|) := by
  refine ⟨com_conv (by norm_num) _ _, com_conv (by norm_num) _ _, ?_⟩
  norm_num [Real.rpow_neg, Real.rpow_ofNat, abs_of_neg]

/-- C26: an exponent whose factor is not one is refused, whatever the base. -/
theorem c26_exponent {a l : ℝ} {o : Opd} {y : Arr} (ho : Mix a o) (hy : Conv a l y) (hl : a ^ l ≠ 1) {p : ℝ} (hp : y.val = [p])
    (num : List (List ℝ) → Except Err (List ℝ)) : ufunc .power num [o, .cosmo y] = .error .value := by
  obtain ⟨q, b, e, -, -, hc, -, -⟩ := prepare_mix (l := [o, .cosmo y]) (a := a)
    (by rintro z hz; rcases List.mem_cons.mp hz with rfl | hz; exact ho; rw [List.mem_singleton.mp hz]; exact ⟨l, hy⟩)
    (by cases o <;> simp [flags])
  unfold ufunc
  rw [e]
  simp [handle, registry, hc, Opd.cf, Opd.vals, hp, powerCF, hy.cf, CF.aFactor, hl]

example : Mix (1 / 2) (.plain [2]) ∧ Conv (1 / 2) 1 (com (1 / 2) 1 3) ∧ (1 / 2 : ℝ) ^ (1 : ℝ) ≠ 1 ∧ (com (1 / 2) 1 3).val = [3] :=
  ⟨trivial, com_conv (by norm_num) _ _, by norm_num, rfl⟩

/-- C26 fails for small factors: at `a = 1/100` a quantity in `a^4` and one in `a^5` are added as if they scaled in the
same way, because the tolerance has an absolute part. -/
theorem c26_small_factors_fails :
    ∃ z, ufunc .add (num2 (· + ·)) [.cosmo (com (1 / 100) 4 1), .cosmo (com (1 / 100) 5 1)] = .ok z ∧
      (com (1 / 100) 4 1).phys = [1 / 10 ^ 8] ∧ (com (1 / 100) 5 1).phys = [1 / 10 ^ 10] ∧ z.phys = [2 / 10 ^ 8] := by
  have hs : CF.same ⟨some 4, some (1 / 100)⟩ ⟨some 5, some (1 / 100)⟩ := by
    refine ⟨rfl, ?_⟩
    norm_num [CF.aFactor, isclose, Real.rpow_ofNat, abs_of_pos]
  have e : ufunc .add (num2 (· + ·)) [.cosmo (com (1 / 100) 4 1), .cosmo (com (1 / 100) 5 1)] =
      .ok ⟨[1 + 1], some true, some ⟨some 4, some (1 / 100)⟩, true⟩ := by
    simp [-one_div, ufunc, prepare, flags, com, Opd.cf, Opd.vt, Opd.vals, handle, registry, reduce1, preserve2, hs,
      num2, bcast2, bind, Except.bind, pure, Except.pure]
  refine ⟨_, e, ?_, ?_, ?_⟩ <;> norm_num [Arr.phys, com, Real.rpow_ofNat]

/-- C26 fails for `power`: the exponent may come from another scale factor, as long as its factor has the value one. -/
theorem c26_power_fails :
    ∃ z, ufunc .power (num2 (· ^ ·)) [.cosmo (com (1 / 2) 1 3), .cosmo (com (1 / 4) 0 2)] = .ok z :=
  ⟨_, by
    simp [ufunc, prepare, flags, com, Opd.cf, Opd.vt, Opd.vals, handle, registry, powerCF, CF.aFactor, num2, bcast2]
    rfl⟩

/-- C26 fails for `concatenate`, `stack` and similar functions: only the factor of the first element is looked at, so
that lengths at redshifts one and three are joined, and the second one changes its physical value. -/
theorem c26_concatenate_fails :
    ∃ z, oplist (fun l => .ok l.flatten) [.cosmo (com (1 / 2) 1 8), .cosmo (com (1 / 4) 1 8)] = .ok z ∧
      (com (1 / 2) 1 8).phys = [4] ∧ (com (1 / 4) 1 8).phys = [2] ∧ z.phys = [4, 4] := by
  have e : oplist (fun l => .ok l.flatten) [.cosmo (com (1 / 2) 1 8), .cosmo (com (1 / 4) 1 8)] =
      .ok ⟨[8, 8], some true, some ⟨some 1, some (1 / 2)⟩, true⟩ := by
    simp [oplist, prepare, flags, com, Opd.cf, Opd.vt, Opd.vals, reduce1, pure, Except.pure]
  refine ⟨_, e, ?_, ?_, ?_⟩ <;> norm_num [Arr.phys, com]

/-- The factor `a^k` at scale factor `a`. -/
local notation "⟪" a ", " k "⟫" => CF.create a k

/-- C27: products, quotients and powers add, subtract and scale the exponents, and the numerical factor follows. -/
theorem c27_exponents {a : ℝ} (ha : 0 < a) (k l p : ℝ) :
    CF.mul ⟪a, k⟫ ⟪a, l⟫ = .ok ⟪a, k + l⟫ ∧ CF.div ⟪a, k⟫ ⟪a, l⟫ = .ok ⟪a, k - l⟫ ∧ CF.pow ⟪a, k⟫ p = ⟪a, k * p⟫ ∧
      CF.aFactor ⟪a, k⟫ = some (a ^ k) ∧ CF.aFactor ⟪a, k + l⟫ = some (a ^ k * a ^ l) ∧
      CF.aFactor ⟪a, k - l⟫ = some (a ^ k / a ^ l) ∧ CF.aFactor ⟪a, k * p⟫ = some ((a ^ k) ^ p) := by
  simp [CF.mul, CF.div, CF.pow, CF.create, CF.aFactor, Real.rpow_add ha, Real.rpow_sub ha, Real.rpow_mul ha.le]

/-- The product as an operation on results. -/
noncomputable def times (f g : Except Err CF) : Except Err CF := f.bind fun x => g.bind fun y => x.mul y

/-- C27: multiplication is associative and commutative for arbitrary factors, mismatched ones included: either both sides
give the same factor or both raise. -/
theorem c27_assoc_comm (f g h : CF) :
    (∀ r, times (times (.ok f) (.ok g)) (.ok h) = .ok r ↔ times (.ok f) (times (.ok g) (.ok h)) = .ok r) ∧
      (∀ r, f.mul g = .ok r ↔ g.mul f = .ok r) := by
  obtain ⟨fe, fs⟩ := f
  obtain ⟨ge, gs⟩ := g
  obtain ⟨he, hs⟩ := h
  constructor
  · intro r
    by_cases h1 : fs = gs <;> by_cases h2 : gs = hs <;> cases fe <;> cases ge <;> cases he <;>
      simp [times, CF.mul, Except.bind, h1, h2, add_assoc]
    all_goals simp_all
  · intro r
    by_cases h1 : fs = gs <;> cases fe <;> cases ge <;> simp [CF.mul, h1, Ne.symm, eq_comm, add_comm]

/-- C27: identity, inverses and distribution of powers. -/
theorem c27_identity_inverse (a k l p q : ℝ) :
    CF.mul ⟪a, k⟫ ⟪a, 0⟫ = .ok ⟪a, k⟫ ∧ CF.mul ⟪a, k⟫ (CF.pow ⟪a, k⟫ (-1)) = .ok ⟪a, 0⟫ ∧
      CF.div ⟪a, k⟫ ⟪a, l⟫ = CF.mul ⟪a, k⟫ (CF.pow ⟪a, l⟫ (-1)) ∧
      (CF.mul ⟪a, k⟫ ⟪a, l⟫).map (fun f => f.pow p) = CF.mul (CF.pow ⟪a, k⟫ p) (CF.pow ⟪a, l⟫ p) ∧
      CF.pow (CF.pow ⟪a, k⟫ p) q = CF.pow ⟪a, k⟫ (p * q) ∧
      CF.mul (CF.pow ⟪a, k⟫ p) (CF.pow ⟪a, k⟫ q) = .ok (CF.pow ⟪a, k⟫ (p + q)) ∧ CF.pow ⟪a, k⟫ 1 = ⟪a, k⟫ := by
  simp [CF.mul, CF.div, CF.pow, CF.create, Except.map, sub_eq_add_neg, add_mul, mul_add, mul_assoc]

/-- C27: the redshift of a factor depends on its scale factor only, and is the number `z` with `(1 + z) a = 1`; there is none exactly
when there is no scale factor. A larger scale factor has the smaller redshift. -/
theorem c27_redshift (f g : CF) :
    (f.redshift = none ↔ f.sf = none) ∧ (f.sf = g.sf → f.redshift = g.redshift) ∧
      (∀ a z : ℝ, f.sf = some a → a ≠ 0 → (f.redshift = some z ↔ (1 + z) * a = 1)) ∧
      ∀ a b y z : ℝ, f.sf = some a → g.sf = some b → f.redshift = some y → g.redshift = some z → 0 < a → a < b → z < y := by
  refine ⟨by simp [CF.redshift], fun h => by simp [CF.redshift, h], ?_, ?_⟩
  · intro a z h ha
    simp only [CF.redshift, h, Option.map_some, Option.some.injEq]
    constructor
    · rintro rfl
      field_simp
      ring
    · intro hz
      have : 1 + z = 1 / a := by field_simp; exact hz
      linarith
  · intro a b y z hf hg hy hz ha hab
    simp only [CF.redshift, hf, hg, Option.map_some, Option.some.injEq] at hy hz
    have := one_div_lt_one_div_of_lt ha hab
    linarith

example : (CF.create (1 / 4) 2).redshift = some 3 :=
  ((c27_redshift (CF.create (1 / 4) 2) CF.null).2.2.1 (1 / 4) 3 rfl (by norm_num)).2 (by norm_num)

/-- C27: sums and differences of factors exist only between equal exponents at equal scale factors. -/
theorem c27_sum (f g r : CF) : f.add g = .ok r ↔ f = g ∧ r = f := by
  obtain ⟨fe, fs⟩ := f
  obtain ⟨ge, gs⟩ := g
  unfold CF.add
  by_cases h1 : fs = gs <;> by_cases h2 : fe = ge <;> simp [h1, h2, eq_comm]

/-- C27, what `==` does guarantee: it holds between identical factors, it never holds between different scale factors,
and at one scale factor it bounds the relative difference of the numerical factors. Full equivalence on exponents fails,
see below. -/
theorem c27_equality_partial (f : CF) (a b k l : ℝ) :
    f.same f ∧ (CF.same ⟪a, k⟫ ⟪b, l⟫ → a = b ∧ |a ^ k - b ^ l| ≤ 1e-8 + 1e-6 * |b ^ l|) ∧
      (a = b → |a ^ k - b ^ l| ≤ 1e-8 → CF.same ⟪a, k⟫ ⟪b, l⟫) := by
  refine ⟨same_refl f, ?_, ?_⟩
  · intro h
    exact ⟨by simpa [CF.create] using h.1, by simpa [CF.create, CF.aFactor, isclose] using h.2⟩
  · rintro rfl h
    refine ⟨rfl, ?_⟩
    simp only [CF.create, CF.aFactor, isclose]
    have : 0 ≤ 1e-6 * |a ^ l| := by positivity
    linarith

/-- C27 fails: `==` is true between different exponents at scale factor one. -/
theorem c27_exponents_not_compared_fails : CF.same ⟪1, 1⟫ ⟪1, 2⟫ := by
  refine ⟨rfl, ?_⟩
  simp only [CF.create, CF.aFactor, isclose, Real.one_rpow, sub_self, abs_zero]
  positivity

/-- C27 fails: `==` is not transitive. -/
theorem c27_not_transitive_fails :
    CF.same ⟪1 / 2, 26⟫ ⟪1 / 2, 27⟫ ∧ CF.same ⟪1 / 2, 27⟫ ⟪1 / 2, 28⟫ ∧ ¬ CF.same ⟪1 / 2, 26⟫ ⟪1 / 2, 28⟫ := by
  refine ⟨⟨rfl, ?_⟩, ⟨rfl, ?_⟩, fun h => absurd h.2 ?_⟩ <;>
    norm_num [CF.create, CF.aFactor, isclose, Real.rpow_ofNat, abs_of_pos]

/-- C27 fails: `==` is not symmetric. -/
theorem c27_not_symmetric_fails :
    ∃ a : ℝ, 0 < a ∧ CF.same ⟪a, 0⟫ ⟪a, 1⟫ ∧ ¬ CF.same ⟪a, 1⟫ ⟪a, 0⟫ := by
  refine ⟨(1 + 1e-8) / (1 - 1e-6), by norm_num, ⟨rfl, ?_⟩, fun h => absurd h.2 ?_⟩ <;>
    norm_num [CF.create, CF.aFactor, isclose, abs_of_pos, abs_of_neg]

end Verif.Props
