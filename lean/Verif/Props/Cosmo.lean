import Verif.Lemmas.Cosmo

/-!
# C23-C25: conversions between frames, products and powers, sums and comparisons

`Arr.phys` is the physical value of an array, `Conv a k x` says that `x` is convertible and scales as `a^k`
(`Spec/Cosmo.lean`). The numbers of a ufunc are computed by `num1 f` and `num2 f`, with broadcasting.
-/

namespace Verif.Props
open Verif Verif.Cosmo

/-- A conversion call. The copying methods are followed by assigning the copy to the variable. -/
inductive Conversion
  | convertToComoving
  | convertToPhysical
  | toComoving
  | toPhysical
  | toFrame (c : Option Bool)

/-- The result of one call. -/
noncomputable def Conversion.call (x : Arr) : Conversion → Except Err Arr
  | .convertToComoving => x.convertToComoving
  | .convertToPhysical => x.convertToPhysical
  | .toComoving => x.toComoving
  | .toPhysical => x.toPhysical
  | .toFrame c => x.toFrame c

/-- The frame that a call asks for. -/
def Conversion.target (x : Arr) : Conversion → Option Bool
  | .convertToComoving => some true
  | .convertToPhysical => some false
  | .toComoving => some true
  | .toPhysical => some false
  | .toFrame none => x.comoving
  | .toFrame c => c

/-- A sequence of calls; a call that raises leaves the variable as it was. -/
noncomputable def convertAll (x : Arr) : List Conversion → Arr
  | [] => x
  | c :: l => match c.call x with
    | .ok y => convertAll y l
    | .error _ => convertAll x l

/-- C23: every conversion of a convertible array succeeds, gives the frame that was asked for and keeps the physical
values, the factor and the convertibility. -/
theorem c23_convert {a k : ℝ} {x : Arr} (h : Conv a k x) (c : Conversion) :
    ∃ y, c.call x = .ok y ∧ Conv a k y ∧ y.comoving = c.target x ∧ y.phys = x.phys := by
  have hc := convertToComoving_ok h
  have hp := convertToPhysical_ok h
  cases c with
  | convertToComoving => exact hc
  | convertToPhysical => exact hp
  | toComoving => simpa only [Conversion.call, toComoving_eq h, Conversion.target] using hc
  | toPhysical => simpa only [Conversion.call, toPhysical_eq h, Conversion.target] using hp
  | toFrame c =>
    rcases c with _ | c
    · exact ⟨x, by simp [Conversion.call, Arr.toFrame], h, rfl, rfl⟩
    · cases c
      · simpa [Conversion.call, Arr.toFrame, h.vt, Conversion.target] using hp
      · simpa [Conversion.call, Arr.toFrame, h.vt, Conversion.target] using hc

/-- C23: no sequence of conversions changes the physical values, and one that ends in the original frame gives back the
original array exactly. -/
theorem c23_sequence {a k : ℝ} {x : Arr} (h : Conv a k x) (l : List Conversion) :
    Conv a k (convertAll x l) ∧ (convertAll x l).phys = x.phys ∧
      ((convertAll x l).comoving = x.comoving → convertAll x l = x) := by
  have main : Conv a k (convertAll x l) ∧ (convertAll x l).phys = x.phys := by
    induction l generalizing x with
    | nil => exact ⟨h, rfl⟩
    | cons c l ih =>
      obtain ⟨y, e, hy, -, hp⟩ := c23_convert h c
      simp only [convertAll, e]
      obtain ⟨h1, h2⟩ := ih hy
      exact ⟨h1, h2.trans hp⟩
  exact ⟨main.1, main.2, fun hc => eq_of_phys main.1 h hc main.2⟩

/-- C23: a call that asks for the frame that the array is already in changes nothing; so converting twice is converting
once. -/
theorem c23_idempotent {a k : ℝ} {x y : Arr} (h : Conv a k x) (c d : Conversion) (e : c.call x = .ok y)
    (hd : d.target y = y.comoving) : d.call y = .ok y := by
  obtain ⟨y', e', hy, -, -⟩ := c23_convert h c
  obtain rfl : y' = y := by simpa using e'.symm.trans e
  obtain ⟨z, ez, hz, hzc, hzp⟩ := c23_convert hy d
  rw [ez, eq_of_phys hz hy (hzc.trans hd) hzp]

/-- C23: the values in the two frames: physical values are `a^k` times the comoving ones. -/
theorem c23_values {a k : ℝ} {x : Arr} (h : Conv a k x) :
    ∃ y z, x.toComoving = .ok y ∧ x.toPhysical = .ok z ∧ z.val = y.val.map (fun v => v * a ^ k) ∧
      y.val = z.val.map (fun v => v / a ^ k) := by
  obtain ⟨y, ey, hy, hyc, hyp⟩ := convertToComoving_ok h
  obtain ⟨z, ez, hz, hzc, hzp⟩ := convertToPhysical_ok h
  have e : z.val = y.val.map (fun v => v * a ^ k) := by
    rw [← phys_true hy hyc, hyp, ← hzp, phys_false hzc]
  refine ⟨y, z, (toComoving_eq h).trans ey, (toPhysical_eq h).trans ez, e, ?_⟩
  rw [e, List.map_map]
  conv_lhs => rw [← List.map_id y.val]
  refine List.map_congr_left fun v _ => ?_
  simp [mul_div_cancel_right₀ v (h.pow_ne k)]

/-- C23: an array that is not convertible (which the constructor only allows in the physical frame or without a frame)
refuses to become comoving, and no sequence of conversions changes it. -/
theorem c23_refused {x : Arr} (hv : x.vt = false) (hf : x.comoving ≠ some true) :
    x.convertToComoving = .error .invalidConversion ∧ x.toComoving = .error .invalidConversion ∧
      x.toFrame (some true) = .error .invalidConversion ∧ ∀ l, convertAll x l = x := by
  have h1 : x.convertToComoving = .error .invalidConversion := by simp [Arr.convertToComoving, hv, hf]
  have h2 : x.toComoving = .error .invalidConversion := by
    unfold Arr.toComoving
    split
    · rfl
    · exact h1
  have h3 : x.toFrame (some true) = .error .invalidConversion := by
    simp [Arr.toFrame, hv, Ne.symm hf]
  have h4 : ∀ y, x.convertToPhysical = .ok y → y = x := by
    intro y
    rcases hc : x.comoving with _ | b
    · simp [Arr.convertToPhysical, hc]
    · cases b
      · simp [Arr.convertToPhysical, hc, eq_comm]
      · exact absurd hc hf
  refine ⟨h1, h2, h3, fun l => ?_⟩
  induction l with
  | nil => rfl
  | cons c l ih =>
    have hs : ∀ y, c.call x = .ok y → y = x := by
      intro y
      cases c with
      | convertToComoving => simp [Conversion.call, h1]
      | convertToPhysical => exact h4 y
      | toComoving => simp [Conversion.call, h2]
      | toPhysical =>
        simp only [Conversion.call, Arr.toPhysical]
        split
        · simp
        · exact h4 y
      | toFrame c =>
        rcases c with _ | c
        · simp only [Conversion.call, Arr.toFrame, ne_eq, not_true_eq_false, false_and, if_false, Except.ok.injEq]
          exact Eq.symm
        · cases c
          · simp only [Conversion.call, Arr.toFrame]
            split
            · simp
            · exact h4 y
          · simp [Conversion.call, h3]
    rw [convertAll]
    rcases e : c.call x with _ | y
    · exact ih
    · obtain rfl := hs y e
      exact ih

/-- Two comoving lengths at redshift one. -/
noncomputable def lengths : Arr := ⟨[2, 6], some true, some ⟨some 1, some (1 / 2)⟩, true⟩
/-- A physical length at redshift one. -/
noncomputable def radius : Arr := ⟨[3], some false, some ⟨some 1, some (1 / 2)⟩, true⟩
/-- A comoving density at redshift one. -/
noncomputable def density : Arr := ⟨[5], some true, some ⟨some (-3), some (1 / 2)⟩, true⟩

theorem lengths_conv : Conv (1 / 2) 1 lengths := ⟨by norm_num, rfl, rfl, by simp [lengths]⟩
theorem radius_conv : Conv (1 / 2) 1 radius := ⟨by norm_num, rfl, rfl, by simp [radius]⟩
theorem density_conv : Conv (1 / 2) (-3) density := ⟨by norm_num, rfl, rfl, by simp [density]⟩

example : lengths.phys = [1, 3] ∧ (convertAll lengths [.toPhysical, .convertToPhysical]).val = [1, 3] := by
  constructor <;> norm_num [lengths, Arr.phys, convertAll, Conversion.call, Arr.toPhysical, Arr.convertToPhysical,
    Arr.factor, CF.aFactor]
example : convertAll lengths [.toPhysical, .convertToPhysical, .toFrame none, .toComoving] = lengths :=
  (c23_sequence lengths_conv _).2.2 (by
    have h : (some false : Option Bool) ≠ none := by simp
    norm_num [lengths, convertAll, Conversion.call, Arr.toPhysical, Arr.convertToPhysical, Arr.toFrame, Arr.toComoving,
      Arr.convertToComoving, Arr.factor, CF.aFactor, h])
example : Conversion.toPhysical.call radius = .ok radius ∧ Conversion.target radius (.toFrame (some false)) =
    radius.comoving := by
  simp [radius, Conversion.call, Conversion.target, Arr.toPhysical, Arr.convertToPhysical]
example : ∃ x : Arr, x.vt = false ∧ x.comoving ≠ some true ∧ Arr.verify x = .ok x :=
  ⟨⟨[1], some false, some ⟨some 1, some (1 / 2)⟩, false⟩, rfl, by simp, by simp [Arr.verify]⟩

/-- C24, general form: whatever the mix of frames, a two-argument ufunc gives the physical result if the rule for its
factor matches the way its numbers scale. Errors are those of broadcasting. -/
theorem c24_matching {a k l m : ℝ} {u : Ufunc} {f : ℝ → ℝ → ℝ} {x y : Arr} (hx : Conv a k x) (hy : Conv a l y)
    (hh : handle (registry u) [x.cf, y.cf] [.cosmo x, .cosmo y] = .ok (some ⟨some m, some a⟩))
    (hom : ∀ u v, f (u * a ^ k) (v * a ^ l) = f u v * a ^ m) :
    (ufunc u (num2 f) [.cosmo x, .cosmo y]).map Arr.phys = num2 f [x.phys, y.phys] ∧
      ∀ z, ufunc u (num2 f) [.cosmo x, .cosmo y] = .ok z → Conv a m z :=
  ufunc2_cov (o := .cosmo x) (p := .cosmo y) hx hy (by simp [flags]) hh hx.pos hom

/-- C24: products, in any mix of frames and also with bare numbers: the physical values multiply and the exponents
add. -/
theorem c24_multiply {a k l : ℝ} {o p : Opd} (ha : 0 < a) (ho : HasExp a o k) (hp : HasExp a p l)
    (hne : (∃ x, o = .cosmo x) ∨ ∃ y, p = .cosmo y) :
    (ufunc .multiply (num2 (· * ·)) [o, p]).map Arr.phys = num2 (· * ·) [o.phys, p.phys] ∧
      ∀ z, ufunc .multiply (num2 (· * ·)) [o, p] = .ok z → Conv a (k + l) z := by
  refine ufunc2_cov ho hp ?_ ?_ ha ?_
  · rcases hne with ⟨x, rfl⟩ | ⟨y, rfl⟩
    · simp [flags]
    · cases o <;> simp [flags]
  · cases o with
    | plain v =>
      cases p with
      | plain w => simp at hne
      | cosmo y =>
        simp only [HasExp] at ho hp
        simp [handle, registry, reduce1, Opd.cf, hp.cf, mul2, ho, pure, Except.pure, bind, Except.bind]
    | cosmo x =>
      cases p with
      | plain w =>
        simp only [HasExp] at ho hp
        simp [handle, registry, reduce1, Opd.cf, ho.cf, mul2, hp, pure, Except.pure, bind, Except.bind]
      | cosmo y =>
        simp only [HasExp] at ho hp
        simp [handle, registry, reduce1, Opd.cf, hp.cf, mul2, ho.cf, CF.mul, Except.map, pure, Except.pure, bind,
          Except.bind]
  · intro u v
    rw [Real.rpow_add ha]
    ring

/-- C24: quotients, in any mix of frames and also with bare numbers. -/
theorem c24_divide {a k l : ℝ} {o p : Opd} (ha : 0 < a) (ho : HasExp a o k) (hp : HasExp a p l)
    (hne : (∃ x, o = .cosmo x) ∨ ∃ y, p = .cosmo y) :
    (ufunc .divide (num2 (· / ·)) [o, p]).map Arr.phys = num2 (· / ·) [o.phys, p.phys] ∧
      ∀ z, ufunc .divide (num2 (· / ·)) [o, p] = .ok z → Conv a (k - l) z := by
  refine ufunc2_cov ho hp ?_ ?_ ha ?_
  · rcases hne with ⟨x, rfl⟩ | ⟨y, rfl⟩
    · simp [flags]
    · cases o <;> simp [flags]
  · cases o with
    | plain v =>
      cases p with
      | plain w => simp at hne
      | cosmo y =>
        simp only [HasExp] at ho hp
        simp [handle, registry, Opd.cf, hp.cf, mul2, ho, powerCF, CF.pow]
    | cosmo x =>
      cases p with
      | plain w =>
        simp only [HasExp] at ho hp
        simp [handle, registry, Opd.cf, ho.cf, mul2, hp, powerCF]
      | cosmo y =>
        simp only [HasExp] at ho hp
        simp [handle, registry, Opd.cf, hp.cf, mul2, ho.cf, CF.mul, Except.map, powerCF, CF.pow, sub_eq_add_neg]
  · intro u v
    have := (Real.rpow_pos_of_pos ha l).ne'
    rw [Real.rpow_sub ha]
    field_simp

/-- C24: powers with a number, or with a quantity whose factor has the value one, as the exponent. -/
theorem c24_power {a k l e : ℝ} {x : Arr} {p : Opd} (hx : Conv a k x) (hp : HasExp a p l) (h1 : a ^ l = 1)
    (hv : p.vals = [e]) :
    (ufunc .power (num2 (· ^ ·)) [.cosmo x, p]).map Arr.phys = .ok (x.phys.map (fun v => v ^ e)) ∧
      ∀ z, ufunc .power (num2 (· ^ ·)) [.cosmo x, p] = .ok z → Conv a (k * e) z := by
  have hphys : p.phys = [e] := by
    cases p with
    | plain v => exact hv
    | cosmo y =>
      rcases Conv.framed_cases hp with hc | hc
      · simp only [Opd.phys, phys_true hp hc]
        simp only [Opd.vals] at hv
        simp [hv, h1]
      · simpa only [Opd.phys, phys_false hc, Opd.vals] using hv
  have hmix : ∀ q ∈ [Opd.cosmo x, p], Mix a q := by
    intro q hq
    rcases List.mem_pair.mp hq with rfl | rfl
    · exact ⟨k, hx⟩
    · exact hp.mix
  obtain ⟨r, b, er, hc, hvt, hcfs, hf, -⟩ := prepare_mix hmix (by simp [flags])
  obtain ⟨o', p', hargs, g1, g2⟩ := forall2_two hf
  have e1 : x.phys = _ := g1.phys (o := .cosmo x) hx
  have e2 : p.phys = _ := g2.phys hp
  have hs : scale a b l = 1 := by cases b <;> simp [scale, h1]
  have hv' : p'.vals = [e] := by
    rw [hphys, hs] at e2
    simpa using e2.symm
  have hh : handle .power [(Opd.cosmo x).cf, p.cf] [.cosmo x, p] = .ok (some ⟨some (k * e), some a⟩) := by
    cases p with
    | plain v =>
      simp only [Opd.vals] at hv
      simp [handle, Opd.cf, hx.cf, powerCF, Opd.vals, hv, CF.pow]
    | cosmo y =>
      simp only [Opd.vals] at hv
      simp only [HasExp] at hp
      simp [handle, Opd.cf, hx.cf, hp.cf, powerCF, Opd.vals, hv, CF.pow, CF.aFactor, h1]
  have hb : bcast2 (· ^ ·) o'.vals [e] = .ok (o'.vals.map (fun v => v ^ e)) := by
    unfold bcast2
    match o'.vals with
    | [] => simp
    | [v] => simp
    | _ :: _ :: _ => simp
  unfold ufunc
  simp only [er, hcfs, List.map_cons, List.map_nil, registry, hh, hargs, num2, hv', hb]
  simp only [Except.map, Except.ok.injEq]
  refine ⟨?_, ?_⟩
  · rw [phys_result (m := k * e) (a := a) hc rfl, e1, List.map_map, List.map_map]
    refine List.map_congr_left fun v _ => ?_
    cases b
    · simp [scale]
    · simp [scale, mul_rpow_pos (Real.rpow_pos_of_pos hx.pos k), Real.rpow_mul hx.pos.le]
  · rintro z rfl
    exact ⟨hx.pos, rfl, hvt, by simp [hc]⟩

/-- The real cube root, as computed by `numpy.cbrt`. -/
noncomputable def cbrt (x : ℝ) : ℝ := if 0 ≤ x then x ^ (1 / 3 : ℝ) else -((-x) ^ (1 / 3 : ℝ))

/-- C24: reciprocals, square roots, squares and cube roots. -/
theorem c24_unary {a k : ℝ} {x : Arr} (hx : Conv a k x) :
    (∃ z, ufunc .reciprocal (num1 (fun v => 1 / v)) [.cosmo x] = .ok z ∧ Conv a (-k) z ∧
      z.phys = x.phys.map (fun v => 1 / v) ∧ z.comoving = x.comoving) ∧
    (∃ z, ufunc .sqrt (num1 Real.sqrt) [.cosmo x] = .ok z ∧ Conv a (k / 2) z ∧ z.phys = x.phys.map Real.sqrt ∧
      z.comoving = x.comoving) ∧
    (∃ z, ufunc .square (num1 (fun v => v * v)) [.cosmo x] = .ok z ∧ Conv a (2 * k) z ∧
      z.phys = x.phys.map (fun v => v * v) ∧ z.comoving = x.comoving) ∧
    (∃ z, ufunc .cbrt (num1 cbrt) [.cosmo x] = .ok z ∧ Conv a (k / 3) z ∧ z.phys = x.phys.map cbrt ∧
      z.comoving = x.comoving) := by
  have hc := Real.rpow_pos_of_pos hx.pos k
  refine ⟨ufunc1_cov hx ?_ ?_, ufunc1_cov hx ?_ ?_, ufunc1_cov hx ?_ ?_, ufunc1_cov hx ?_ ?_⟩
  · simp [handle, registry, powerCF, hx.cf, CF.pow]
  · intro u
    rw [Real.rpow_neg hx.pos.le, one_div, one_div, mul_inv]
  · simp [handle, registry, powerCF, hx.cf, CF.pow, div_eq_mul_inv]
  · intro u
    rw [Real.sqrt_mul' _ hc.le, Real.sqrt_eq_rpow (a ^ k), ← Real.rpow_mul hx.pos.le]
    congr 2
    ring
  · simp [handle, registry, powerCF, hx.cf, CF.pow, mul_comm]
  · intro u
    rw [two_mul, Real.rpow_add hx.pos]
    ring
  · simp [handle, registry, powerCF, hx.cf, CF.pow, div_eq_mul_inv]
  · intro u
    have e : (a ^ k) ^ (1 / 3 : ℝ) = a ^ (k / 3) := by
      rw [← Real.rpow_mul hx.pos.le]
      congr 1
      ring
    unfold cbrt
    by_cases h : 0 ≤ u
    · rw [if_pos h, if_pos (mul_nonneg h hc.le), Real.mul_rpow h hc.le, e]
    · have h' : u < 0 := not_le.mp h
      rw [if_neg h, if_neg (not_le.mpr (mul_neg_of_neg_of_pos h' hc)), ← neg_mul,
        Real.mul_rpow (by linarith) hc.le, e]
      ring

example : HasExp (1 / 2) (.cosmo lengths) 1 ∧ HasExp (1 / 2) (.cosmo density) (-3) ∧ HasExp (1 / 2) (.plain [4]) 0 ∧
    num2 (· * ·) [(Opd.cosmo lengths).phys, (Opd.cosmo density).phys] = .ok [40, 120] := by
  refine ⟨lengths_conv, density_conv, rfl, ?_⟩
  norm_num [num2, Opd.phys, Arr.phys, lengths, density, bcast2, Real.rpow_neg, Real.rpow_ofNat]
example : HasExp (1 / 2) (.cosmo ⟨[2], some true, some ⟨some 0, some (1 / 2)⟩, true⟩) 0 ∧
    ((1 / 2 : ℝ) ^ (0 : ℝ) = 1) ∧ Conv (1 / 2) 1 lengths :=
  ⟨⟨by norm_num, rfl, rfl, by simp⟩, by simp, lengths_conv⟩

/-- The ufuncs of two arguments that require equal factors and keep them. -/
theorem c25_homogeneous {a k : ℝ} {u : Ufunc} {f : ℝ → ℝ → ℝ} {x y : Arr}
    (hu : registry u = .preserve ∨ registry u = .passthrough) (hx : Conv a k x) (hy : Conv a k y)
    (hom : ∀ s u v : ℝ, 0 < s → f (u * s) (v * s) = f u v * s) :
    (ufunc u (num2 f) [.cosmo x, .cosmo y]).map Arr.phys = num2 f [x.phys, y.phys] ∧
      ∀ z, ufunc u (num2 f) [.cosmo x, .cosmo y] = .ok z → Conv a k z := by
  refine c24_matching hx hy ?_ (fun u v => hom _ u v (Real.rpow_pos_of_pos hx.pos k))
  rcases hu with h | h
  · simp [h, handle, reduce1, preserve2, hx.cf, hy.cf, same_refl, pure, Except.pure, bind, Except.bind]
  · simp [h, handle, passthrough2, hx.cf, hy.cf, same_refl]

/-- C25: sums and differences, in any mix of frames. -/
theorem c25_add_subtract {a k : ℝ} {x y : Arr} (hx : Conv a k x) (hy : Conv a k y) :
    ((ufunc .add (num2 (· + ·)) [.cosmo x, .cosmo y]).map Arr.phys = num2 (· + ·) [x.phys, y.phys] ∧
      ∀ z, ufunc .add (num2 (· + ·)) [.cosmo x, .cosmo y] = .ok z → Conv a k z) ∧
    ((ufunc .subtract (num2 (· - ·)) [.cosmo x, .cosmo y]).map Arr.phys = num2 (· - ·) [x.phys, y.phys] ∧
      ∀ z, ufunc .subtract (num2 (· - ·)) [.cosmo x, .cosmo y] = .ok z → Conv a k z) :=
  ⟨c25_homogeneous (.inl rfl) hx hy (fun s u v _ => by ring), c25_homogeneous (.inl rfl) hx hy (fun s u v _ => by ring)⟩

/-- C25: largest and smallest, hypotenuse and remainder. -/
theorem c25_extrema {a k : ℝ} {x y : Arr} (hx : Conv a k x) (hy : Conv a k y) (u : Ufunc) (f : ℝ → ℝ → ℝ)
    (huf : (u, f) ∈ [(Ufunc.maximum, (max : ℝ → ℝ → ℝ)), (.minimum, min), (.fmax, max), (.fmin, min),
      (.hypot, fun x y => Real.sqrt (x * x + y * y)), (.remainder, fun x y => x - y * ⌊x / y⌋)]) :
    (ufunc u (num2 f) [.cosmo x, .cosmo y]).map Arr.phys = num2 f [x.phys, y.phys] ∧
      ∀ z, ufunc u (num2 f) [.cosmo x, .cosmo y] = .ok z → Conv a k z := by
  simp only [List.mem_cons, Prod.mk.injEq, List.not_mem_nil, or_false] at huf
  rcases huf with ⟨rfl, rfl⟩ | ⟨rfl, rfl⟩ | ⟨rfl, rfl⟩ | ⟨rfl, rfl⟩ | ⟨rfl, rfl⟩ | ⟨rfl, rfl⟩
  · exact c25_homogeneous (.inr rfl) hx hy (fun s u v hs => (max_mul_of_nonneg u v hs.le).symm)
  · exact c25_homogeneous (.inr rfl) hx hy (fun s u v hs => (min_mul_of_nonneg u v hs.le).symm)
  · exact c25_homogeneous (.inl rfl) hx hy (fun s u v hs => (max_mul_of_nonneg u v hs.le).symm)
  · exact c25_homogeneous (.inl rfl) hx hy (fun s u v hs => (min_mul_of_nonneg u v hs.le).symm)
  · refine c25_homogeneous (.inl rfl) hx hy (fun s u v hs => ?_)
    have : u * s * (u * s) + v * s * (v * s) = (u * u + v * v) * (s * s) := by ring
    rw [this, Real.sqrt_mul' _ (by positivity), Real.sqrt_mul_self hs.le]
  · refine c25_homogeneous (.inl rfl) hx hy (fun s u v hs => ?_)
    rw [mul_div_mul_right _ _ hs.ne']
    ring

/-- C25: negation and absolute value. -/
theorem c25_unary {a k : ℝ} {x : Arr} (hx : Conv a k x) :
    (∃ z, ufunc .negative (num1 (fun v => -v)) [.cosmo x] = .ok z ∧ Conv a k z ∧ z.phys = x.phys.map (fun v => -v) ∧
      z.comoving = x.comoving) ∧
    (∃ z, ufunc .absolute (num1 (fun v => |v|)) [.cosmo x] = .ok z ∧ Conv a k z ∧ z.phys = x.phys.map (fun v => |v|) ∧
      z.comoving = x.comoving) := by
  refine ⟨ufunc1_cov hx ?_ ?_, ufunc1_cov hx ?_ ?_⟩
  · simp [handle, registry, hx.cf]
  · intro u; ring
  · simp [handle, registry, hx.cf]
  · intro u
    rw [abs_mul, abs_of_pos (Real.rpow_pos_of_pos hx.pos k)]

/-- C25, general form for comparisons: a test that does not depend on a common positive scale gives its value on the
physical numbers, in any mix of frames. -/
theorem c25_scale_free {β : Type} {a k : ℝ} {u : Ufunc} {f : ℝ → ℝ → β} {x y : Arr} (hu : registry u = .comparison)
    (hx : Conv a k x) (hy : Conv a k y) (hom : ∀ s u v : ℝ, 0 < s → f (u * s) (v * s) = f u v) :
    ufuncBool u (num2 f) [.cosmo x, .cosmo y] = num2 f [x.phys, y.phys] :=
  ufuncBool_cov hx hy none (by simp [hu, handle, without2, hx.cf, hy.cf, same_refl]) hom

/-- C25: the six comparisons. -/
theorem c25_compare {a k : ℝ} {x y : Arr} (hx : Conv a k x) (hy : Conv a k y) (u : Ufunc) (r : ℝ → ℝ → Prop)
    (hur : (u, r) ∈ [(Ufunc.less, fun p q : ℝ => p < q), (.lessEqual, fun p q => p ≤ q), (.greater, fun p q => p > q),
      (.greaterEqual, fun p q => p ≥ q), (.equal, fun p q => p = q), (.notEqual, fun p q => p ≠ q)]) :
    ufuncBool u (num2 r) [.cosmo x, .cosmo y] = num2 r [x.phys, y.phys] := by
  simp only [List.mem_cons, Prod.mk.injEq, List.not_mem_nil, or_false] at hur
  rcases hur with ⟨rfl, rfl⟩ | ⟨rfl, rfl⟩ | ⟨rfl, rfl⟩ | ⟨rfl, rfl⟩ | ⟨rfl, rfl⟩ | ⟨rfl, rfl⟩ <;>
    refine c25_scale_free rfl hx hy (fun s u v hs => propext ?_)
  · exact mul_lt_mul_iff_left₀ hs
  · exact mul_le_mul_iff_left₀ hs
  · exact mul_lt_mul_iff_left₀ hs
  · exact mul_le_mul_iff_left₀ hs
  · exact mul_left_inj' hs.ne'
  · exact (mul_left_inj' hs.ne').not

/-- The example of the property: comoving lengths plus and against a physical radius. -/
example : Conv (1 / 2) 1 lengths ∧ Conv (1 / 2) 1 radius ∧
    num2 (· + ·) [lengths.phys, radius.phys] = .ok [4, 6] ∧
    num2 (fun p q : ℝ => p < q) [lengths.phys, radius.phys] = .ok [True, False] := by
  refine ⟨lengths_conv, radius_conv, ?_, ?_⟩ <;> norm_num [num2, Arr.phys, lengths, radius, bcast2]

end Verif.Props
