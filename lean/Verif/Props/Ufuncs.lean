import Verif.Spec.Ufuncs
import Verif.Props.Cosmo

/-! # C120: which ufuncs compute the physical values in every mix of frames -/

namespace Verif.Props
open Verif Verif.Cosmo Verif.Spec

/-! ## The results of the calls -/

/-- The factor does nothing. -/
private def Flat (a : ℝ) (c : Option CF) : Prop := c = none ∨ ∃ m, c = some ⟨some m, some a⟩ ∧ a ^ m = 1

private theorem flat_phys {a : ℝ} {b : Bool} {z : Arr} (hb : z.comoving = some b) (h : Flat a z.cf) : z.phys = z.val := by
  rcases h with h | ⟨m, h, h1⟩
  · cases b <;> simp [Arr.phys, hb, h]
  · rw [phys_result hb h]
    cases b <;> simp [scale, h1]

private theorem scale_one {a k : ℝ} (h : a ^ k = 1) (b : Bool) : scale a b k = 1 := by cases b <;> simp [scale, h]

private theorem times_one (l : List ℝ) : l.map (fun v => v * 1) = l := by simp

private theorem single {a k : ℝ} {x : Arr} (hx : Conv a k x) : ∃ r b o, prepare true [.cosmo x] [] = .ok r ∧ r.comoving = some b ∧
    r.cfs = [x.cf] ∧ r.args = [o] ∧ x.phys = o.vals.map (fun v => v * scale a b k) := by
  obtain ⟨r, b, e, hc, -, hcfs, hf, -⟩ := prepare_mix (a := a) (l := [.cosmo x]) (by simpa using ⟨k, hx⟩) (by simp [flags])
  obtain ⟨o, hargs, h1⟩ := forall2_one hf
  exact ⟨r, b, o, e, hc, hcfs, hargs, h1.phys (o := .cosmo x) hx⟩

private theorem double {a k : ℝ} {x y : Arr} (hx : Conv a k x) (hy : Conv a k y) : ∃ r b o p, prepare true [.cosmo x, .cosmo y] [] = .ok r ∧
    r.comoving = some b ∧ r.cfs = [x.cf, y.cf] ∧ r.args = [o, p] ∧ x.phys = o.vals.map (fun v => v * scale a b k) ∧
    y.phys = p.vals.map (fun v => v * scale a b k) := by
  have hmix : ∀ q ∈ [Opd.cosmo x, .cosmo y], Mix a q := by
    intro q hq
    rcases List.mem_pair.mp hq with rfl | rfl
    · exact ⟨k, hx⟩
    · exact ⟨k, hy⟩
  obtain ⟨r, b, e, hc, -, hcfs, hf, -⟩ := prepare_mix hmix (by simp [flags])
  obtain ⟨o, p, hargs, h1, h2⟩ := forall2_two hf
  exact ⟨r, b, o, p, e, hc, hcfs, hargs, h1.phys (o := .cosmo x) hx, h2.phys (o := .cosmo y) hy⟩

/-! ### Quantities that are the same in both frames -/

private theorem one_flat {u : Ufunc} {f : ℝ → ℝ} {a k : ℝ} {x : Arr} (h1 : a ^ k = 1) (hx : Conv a k x) {c : Option CF}
    (hh : handle (registry u) [x.cf] [.cosmo x] = .ok c) (hc : Flat a c) :
    (ufunc u (num1 f) [.cosmo x]).map Arr.phys = num1 f [x.phys] := by
  obtain ⟨r, b, o, e, e1, e2, e3, e4⟩ := single hx
  rw [scale_one h1, times_one] at e4
  unfold ufunc
  simp only [e, e2, hh, e3, List.map_cons, List.map_nil, num1, Except.map, e4]
  rw [flat_phys (a := a) (b := b) e1 hc]

private theorem two_flat {u : Ufunc} {num : List (List ℝ) → Except Err (List ℝ)} {a k : ℝ} {x y : Arr} (h1 : a ^ k = 1) (hx : Conv a k x)
    (hy : Conv a k y) {c : Option CF} (hh : handle (registry u) [x.cf, y.cf] [.cosmo x, .cosmo y] = .ok c) (hc : Flat a c) :
    (ufunc u num [.cosmo x, .cosmo y]).map Arr.phys = num [x.phys, y.phys] := by
  obtain ⟨r, b, o, p, e, e1, e2, e3, e4, e5⟩ := double hx hy
  rw [scale_one h1, times_one] at e4 e5
  unfold ufunc
  simp only [e, e2, hh, e3, List.map_cons, List.map_nil, e4, e5]
  cases num [o.vals, p.vals] with
  | error e => rfl
  | ok v =>
    simp only [Except.map]
    rw [flat_phys (a := a) (b := b) e1 hc]

private theorem pair1_flat {u : Ufunc} {num : List (List ℝ) → Except Err (List ℝ × List ℝ)} {a k : ℝ} {x : Arr} (h1 : a ^ k = 1)
    (hx : Conv a k x) {c : Option CF} (hh : handle (registry u) [x.cf] [.cosmo x] = .ok c) (hc : Flat a c) :
    (ufuncPair u num [.cosmo x]).map (fun z => (z.1.phys, z.2.phys)) = num [x.phys] := by
  obtain ⟨r, b, o, e, e1, e2, e3, e4⟩ := single hx
  rw [scale_one h1, times_one] at e4
  unfold ufuncPair
  simp only [e, e2, hh, e3, List.map_cons, List.map_nil, e4]
  cases num [o.vals] with
  | error e => rfl
  | ok v =>
    simp only [Except.map]
    rw [flat_phys (a := a) (b := b) e1 hc, flat_phys (a := a) (b := b) e1 hc]

private theorem pair2_flat {u : Ufunc} {num : List (List ℝ) → Except Err (List ℝ × List ℝ)} {a k : ℝ} {x y : Arr} (h1 : a ^ k = 1)
    (hx : Conv a k x) (hy : Conv a k y) {c : Option CF} (hh : handle (registry u) [x.cf, y.cf] [.cosmo x, .cosmo y] = .ok c)
    (hc : Flat a c) : (ufuncPair u num [.cosmo x, .cosmo y]).map (fun z => (z.1.phys, z.2.phys)) = num [x.phys, y.phys] := by
  obtain ⟨r, b, o, p, e, e1, e2, e3, e4, e5⟩ := double hx hy
  rw [scale_one h1, times_one] at e4 e5
  unfold ufuncPair
  simp only [e, e2, hh, e3, List.map_cons, List.map_nil, e4, e5]
  cases num [o.vals, p.vals] with
  | error e => rfl
  | ok v =>
    simp only [Except.map]
    rw [flat_phys (a := a) (b := b) e1 hc, flat_phys (a := a) (b := b) e1 hc]

private theorem test1_flat {u : Ufunc} {r : ℝ → Prop} {a k : ℝ} {x : Arr} (h1 : a ^ k = 1) (hx : Conv a k x) {c : Option CF}
    (hh : handle (registry u) [x.cf] [.cosmo x] = .ok c) : ufuncBool u (num1 r) [.cosmo x] = num1 r [x.phys] := by
  obtain ⟨q, b, o, e, e1, e2, e3, e4⟩ := single hx
  rw [scale_one h1, times_one] at e4
  unfold ufuncBool
  simp only [e, e2, hh, e3, List.map_cons, List.map_nil, e4]

private theorem test2_flat {u : Ufunc} {r : ℝ → ℝ → Prop} {a k : ℝ} {x y : Arr} (h1 : a ^ k = 1) (hx : Conv a k x) (hy : Conv a k y)
    {c : Option CF} (hh : handle (registry u) [x.cf, y.cf] [.cosmo x, .cosmo y] = .ok c) :
    ufuncBool u (num2 r) [.cosmo x, .cosmo y] = num2 r [x.phys, y.phys] := by
  obtain ⟨q, b, o, p, e, e1, e2, e3, e4, e5⟩ := double hx hy
  rw [scale_one h1, times_one] at e4 e5
  unfold ufuncBool
  simp only [e, e2, hh, e3, List.map_cons, List.map_nil, e4, e5]

private theorem unary_flat {u : Ufunc} {a k : ℝ} {x : Arr} (h : a ^ k = 1) (hx : Conv a k x)
    (hu : registry u ∈ [Handler.passthrough, .preserve, .sqrt, .square, .cbrt, .reciprocal, .without]) :
    ∃ c, handle (registry u) [x.cf] [.cosmo x] = .ok c ∧ Flat a c := by
  have pw : ∀ m, a ^ (k * m) = 1 := fun m => by rw [Real.rpow_mul hx.pos.le, h, Real.one_rpow]
  have one : ∀ m, Flat a (some ⟨some (k * m), some a⟩) := fun m => .inr ⟨_, rfl, pw m⟩
  have id : Flat a (some ⟨some k, some a⟩) := .inr ⟨_, rfl, h⟩
  rw [hx.cf]
  simp only [List.mem_cons, List.not_mem_nil, or_false] at hu
  rcases hu with e | e | e | e | e | e | e <;> rw [e]
  · exact ⟨_, rfl, id⟩
  · exact ⟨_, rfl, id⟩
  · exact ⟨_, rfl, one _⟩
  · exact ⟨_, rfl, one _⟩
  · exact ⟨_, rfl, one _⟩
  · exact ⟨_, rfl, one _⟩
  · exact ⟨_, rfl, .inl rfl⟩

private theorem binary_flat {u : Ufunc} {a k : ℝ} {x y : Arr} (h : a ^ k = 1) (hx : Conv a k x) (hy : Conv a k y)
    (hu : registry u ∈ [Handler.passthrough, .preserve, .multiply, .divide, .arctan2, .comparison, .without]) :
    ∃ c, handle (registry u) [x.cf, y.cf] [.cosmo x, .cosmo y] = .ok c ∧ Flat a c := by
  have id : Flat a (some ⟨some k, some a⟩) := .inr ⟨_, rfl, h⟩
  rw [hx.cf, hy.cf]
  simp only [List.mem_cons, List.not_mem_nil, or_false] at hu
  rcases hu with e | e | e | e | e | e | e <;> rw [e]
  · exact ⟨some ⟨some k, some a⟩, by simp [handle, passthrough2, same_refl], id⟩
  · exact ⟨some ⟨some k, some a⟩, by simp [handle, reduce1, preserve2, same_refl, pure, Except.pure, bind, Except.bind], id⟩
  · exact ⟨some ⟨some (k + k), some a⟩, by simp [handle, reduce1, mul2, CF.mul, Except.map, pure, Except.pure, bind, Except.bind],
      .inr ⟨_, rfl, by rw [Real.rpow_add hx.pos, h, mul_one]⟩⟩
  · exact ⟨some ⟨some 0, some a⟩, by simp [handle, mul2, CF.mul, Except.map, powerCF, CF.pow], .inr ⟨_, rfl, Real.rpow_zero a⟩⟩
  · exact ⟨some ⟨some 0, some a⟩, by simp [handle, arctan2CF, same_refl], .inr ⟨_, rfl, Real.rpow_zero a⟩⟩
  · exact ⟨none, by simp [handle, without2, same_refl], .inl rfl⟩
  · exact ⟨none, by simp [handle, without2, same_refl], .inl rfl⟩

/-! ### Quantities that differ between the frames -/

/-- One number in the comoving frame. -/
private noncomputable def number (a k v : ℝ) : Arr := ⟨[v], some true, some ⟨some k, some a⟩, true⟩

private theorem number_conv {a : ℝ} (ha : 0 < a) (k v : ℝ) : Conv a k (number a k v) := ⟨ha, rfl, rfl, by simp [number]⟩

private theorem number_phys (a k v : ℝ) : (number a k v).phys = [v * a ^ k] := by simp [number, Arr.phys]

private theorem number_prepare (a k v : ℝ) : prepare true [.cosmo (number a k v)] [] =
    .ok ⟨[.cosmo (number a k v)], [], [(number a k v).cf], [], some true, true⟩ := by
  simp [prepare, flags, number, Opd.cf, Opd.vt]

private theorem numbers_prepare (a k v w : ℝ) : prepare true [.cosmo (number a k v), .cosmo (number a k w)] [] =
    .ok ⟨[.cosmo (number a k v), .cosmo (number a k w)], [], [(number a k v).cf, (number a k w).cf], [], some true, true⟩ := by
  simp [prepare, flags, number, Opd.cf, Opd.vt]

/-- The rule of the ufunc forgets the factor. -/
private theorem one_drop {u : Ufunc} {f : ℝ → ℝ} {a k : ℝ} (ha : 0 < a) (hu : registry u = .without)
    (h : ∀ x, Conv a k x → (ufunc u (num1 f) [.cosmo x]).map Arr.phys = num1 f [x.phys]) (v : ℝ) : f (v * a ^ k) = f v := by
  have := h _ (number_conv ha k v)
  simp only [ufunc, number_prepare, hu, handle, number_phys, num1, List.map_cons, List.map_nil, Except.map, Opd.vals, Arr.phys] at this
  simpa [number] using this.symm

/-- The rule of the ufunc keeps the factor. -/
private theorem one_keep {u : Ufunc} {f : ℝ → ℝ} {a k : ℝ} (ha : 0 < a) (hu : registry u = .passthrough ∨ registry u = .preserve)
    (h : ∀ x, Conv a k x → (ufunc u (num1 f) [.cosmo x]).map Arr.phys = num1 f [x.phys]) (v : ℝ) : f (v * a ^ k) = f v * a ^ k := by
  have := h _ (number_conv ha k v)
  rcases hu with hu | hu
  · simp only [ufunc, number_prepare, hu, handle, number_phys, num1, List.map_cons, List.map_nil, Except.map, Opd.vals] at this
    simpa [number, Arr.phys] using this.symm
  · simp only [ufunc, number_prepare, hu, handle, number_phys, num1, List.map_cons, List.map_nil, Except.map, Opd.vals, reduce1,
      List.foldlM_nil, pure, Except.pure] at this
    simpa [number, Arr.phys] using this.symm

private theorem two_drop {u : Ufunc} {f : ℝ → ℝ → ℝ} {a k : ℝ} (ha : 0 < a) (hu : registry u = .without)
    (h : ∀ x y, Conv a k x → Conv a k y → (ufunc u (num2 f) [.cosmo x, .cosmo y]).map Arr.phys = num2 f [x.phys, y.phys]) (v w : ℝ) :
    f (v * a ^ k) (w * a ^ k) = f v w := by
  have := h _ _ (number_conv ha k v) (number_conv ha k w)
  have e : handle .without [(number a k v).cf, (number a k w).cf] [.cosmo (number a k v), .cosmo (number a k w)] = .ok none := by
    simp [handle, without2, number, same_refl]
  simp only [ufunc, numbers_prepare, hu, e, number_phys, num2, bcast2, List.map_cons, List.map_nil, Except.map, Opd.vals] at this
  simpa [number, Arr.phys] using this.symm

private theorem two_keep {u : Ufunc} {f : ℝ → ℝ → ℝ} {a k : ℝ} (ha : 0 < a) (hu : registry u = .preserve)
    (h : ∀ x y, Conv a k x → Conv a k y → (ufunc u (num2 f) [.cosmo x, .cosmo y]).map Arr.phys = num2 f [x.phys, y.phys]) (v w : ℝ) :
    f (v * a ^ k) (w * a ^ k) = f v w * a ^ k := by
  have := h _ _ (number_conv ha k v) (number_conv ha k w)
  have e : handle .preserve [(number a k v).cf, (number a k w).cf] [.cosmo (number a k v), .cosmo (number a k w)] =
      .ok (some ⟨some k, some a⟩) := by
    simp [handle, reduce1, preserve2, number, same_refl, pure, Except.pure, bind, Except.bind]
  simp only [ufunc, numbers_prepare, hu, e, number_phys, num2, bcast2, List.map_cons, List.map_nil, Except.map, Opd.vals] at this
  simpa [number, Arr.phys] using this.symm

private theorem pair1_keep {u : Ufunc} {f g : ℝ → ℝ} {a k : ℝ} (ha : 0 < a) (hu : registry u = .passthrough)
    (h : ∀ x, Conv a k x → (ufuncPair u (numPair1 f g) [.cosmo x]).map (fun z => (z.1.phys, z.2.phys)) = numPair1 f g [x.phys]) (v : ℝ) :
    g (v * a ^ k) = g v * a ^ k := by
  have := h _ (number_conv ha k v)
  simp only [ufuncPair, number_prepare, hu, handle, number_phys, numPair1, List.map_cons, List.map_nil, Except.map, Opd.vals,
    Except.ok.injEq, Prod.mk.injEq] at this
  simpa [number, Arr.phys] using this.2.symm

private theorem pair2_keep {u : Ufunc} {f g : ℝ → ℝ → ℝ} {a k : ℝ} (ha : 0 < a) (hu : registry u = .passthrough)
    (h : ∀ x y, Conv a k x → Conv a k y →
      (ufuncPair u (numPair2 f g) [.cosmo x, .cosmo y]).map (fun z => (z.1.phys, z.2.phys)) = numPair2 f g [x.phys, y.phys]) (v w : ℝ) :
    f (v * a ^ k) (w * a ^ k) = f v w * a ^ k := by
  have := h _ _ (number_conv ha k v) (number_conv ha k w)
  have e : handle .passthrough [(number a k v).cf, (number a k w).cf] [.cosmo (number a k v), .cosmo (number a k w)] =
      .ok (some ⟨some k, some a⟩) := by
    simp [handle, passthrough2, number, same_refl]
  simp only [ufuncPair, numbers_prepare, hu, e, number_phys, numPair2, num2, bcast2, List.map_cons, List.map_nil, Except.map, Opd.vals,
    Except.bind] at this
  simp [number, Arr.phys] at this
  exact this.1.symm

/-! ### Numbers -/

private theorem inj_one {f : ℝ → ℝ} {s : ℝ} (S : Set ℝ) (hf : Set.InjOn f S) {v : ℝ} (h0 : v ≠ 0) (h1 : v ∈ S) (h2 : v * s ∈ S)
    (h : ∀ v, f (v * s) = f v) : s = 1 := by
  have := hf h2 h1 (h v)
  exact mul_left_cancel₀ h0 (by rw [this, mul_one])

/-- Two numbers near zero with the given ratio. -/
private theorem near_zero {f : ℝ → ℝ} {s c : ℝ} (hs : 0 < s) (hc : 0 < c) (hf : Set.InjOn f (Set.Icc 0 c)) (h : ∀ v, f (v * s) = f v) : s = 1 := by
  have hm : 0 < max 1 s := lt_max_of_lt_left one_pos
  refine inj_one (Set.Icc 0 c) hf (v := c / max 1 s) (by positivity) ⟨by positivity, ?_⟩ ⟨by positivity, ?_⟩ h
  · exact div_le_self hc.le (le_max_left _ _)
  · rw [div_mul_eq_mul_div, div_le_iff₀ hm]
    exact mul_le_mul_of_nonneg_left (le_max_right _ _) hc.le

private theorem beyond_one {f : ℝ → ℝ} {s : ℝ} (hs : 0 < s) (hf : Set.InjOn f (Set.Ici 1)) (h : ∀ v, f (v * s) = f v) : s = 1 := by
  have hm : 0 < max 1 s⁻¹ := lt_max_of_lt_left one_pos
  refine inj_one (Set.Ici 1) hf (v := max 1 s⁻¹) hm.ne' (Set.mem_Ici.2 (le_max_left _ _)) ?_ h
  rw [Set.mem_Ici, max_mul_of_nonneg _ _ hs.le, inv_mul_cancel₀ hs.ne']
  exact le_max_right _ _

private theorem steps {f : ℝ → ℝ} {s : ℝ} (hs : 0 < s) (h0 : ∀ x, 0 ≤ x → x < 1 → f x = 0) (h1 : f 1 = 1) (h : ∀ v, f (v * s) = f v * s) : s = 1 := by
  rcases lt_trichotomy s 1 with g | g | g
  · have := h 1
    rw [one_mul, h0 s hs.le g, h1, one_mul] at this
    exact absurd this.symm hs.ne'
  · exact g
  · have := h s⁻¹
    rw [inv_mul_cancel₀ hs.ne', h1, h0 _ (by positivity) (inv_lt_one_of_one_lt₀ g)] at this
    norm_num at this

private theorem trunc_small {x : ℝ} (h0 : 0 ≤ x) (h1 : x < 1) : cutOff x = 0 := by
  rw [cutOff, if_pos h0, Int.floor_eq_zero_iff.2 ⟨h0, h1⟩, Int.cast_zero]

private theorem nearest_close (x : ℝ) : |toNearest x - x| ≤ 1 / 2 := by
  unfold toNearest
  have e := Int.floor_add_fract x
  split
  case isTrue h =>
    rw [h] at e
    split
    · rw [abs_le]; constructor <;> linarith
    · rw [abs_le]; constructor <;> linarith
  · rw [abs_sub_comm]
    exact abs_sub_round x

private theorem nearest_one {s : ℝ} (h : ∀ v, toNearest (v * s) = toNearest v) : s = 1 := by
  by_contra hs
  have hs : s - 1 ≠ 0 := sub_ne_zero.2 hs
  have e := h (2 / (s - 1))
  have c1 := nearest_close (2 / (s - 1) * s)
  have c2 := nearest_close (2 / (s - 1))
  have d : 2 / (s - 1) * s = 2 / (s - 1) + 2 := by field_simp; ring
  rw [e, d, abs_le] at c1
  rw [abs_le] at c2
  linarith [c1.1, c2.2]

/-- A test that does not depend on the scale. -/
private theorem test1_right {u : Ufunc} {r : ℝ → Prop} {a k : ℝ} {x : Arr} (hx : Conv a k x) (hu : registry u = .without)
    (hom : ∀ s v : ℝ, 0 < s → (r (v * s) ↔ r v)) : ufuncBool u (num1 r) [.cosmo x] = num1 r [x.phys] := by
  obtain ⟨p, b, o, e, e1, e2, e3, e4⟩ := single hx
  have hs : 0 < scale a b k := by
    cases b
    · simp [scale]
    · simpa [scale] using Real.rpow_pos_of_pos hx.pos k
  unfold ufuncBool
  simp only [e, e2, hu, handle, e3, List.map_cons, List.map_nil, num1, e4, List.map_map]
  congr 1
  exact List.map_congr_left fun v _ => propext (hom _ v hs).symm

/-- Numbers that do not depend on the scale. -/
private theorem free_right {u : Ufunc} {f : ℝ → ℝ} {a k : ℝ} {x : Arr} (hx : Conv a k x) (hu : registry u = .without)
    (hom : ∀ s v : ℝ, 0 < s → f (v * s) = f v) : (ufunc u (num1 f) [.cosmo x]).map Arr.phys = num1 f [x.phys] := by
  obtain ⟨p, b, o, e, e1, e2, e3, e4⟩ := single hx
  have hs : 0 < scale a b k := by
    cases b
    · simp [scale]
    · simpa [scale] using Real.rpow_pos_of_pos hx.pos k
  unfold ufunc
  simp only [e, e2, hu, handle, e3, List.map_cons, List.map_nil, num1, e4, List.map_map, Except.map]
  rw [flat_phys (a := a) (b := b) e1 (.inl rfl)]
  congr 1
  exact List.map_congr_left fun v _ => (hom _ v hs).symm

private theorem linear_right {u : Ufunc} {f : ℝ → ℝ} {a k : ℝ} {x : Arr} (hx : Conv a k x) (hu : registry u = .passthrough)
    (hom : ∀ s v : ℝ, 0 < s → f (v * s) = f v * s) : (ufunc u (num1 f) [.cosmo x]).map Arr.phys = num1 f [x.phys] := by
  obtain ⟨z, h1, -, h3, -⟩ := ufunc1_cov (u := u) (f := f) (m := k) hx (by simp [hu, handle, hx.cf])
    fun v => hom _ v (Real.rpow_pos_of_pos hx.pos k)
  rw [h1]
  simp [Except.map, h3, num1]

private theorem dots (c : ℝ) : ∀ xs ys : List ℝ,
    (List.zipWith (fun x y => x * y) (xs.map fun v => v * c) (ys.map fun v => v * c)).sum = (List.zipWith (fun x y => x * y) xs ys).sum * (c * c)
  | [], _ => by simp
  | _ :: _, [] => by simp
  | x :: xs, y :: ys => by
    simp only [List.map_cons, List.zipWith_cons_cons, List.sum_cons, dots c xs ys]
    ring

private theorem dot_right {u : Ufunc} {a k : ℝ} {x y : Arr} (hx : Conv a k x) (hy : Conv a k y) (hu : registry u = .multiply) :
    (ufunc u numDot [.cosmo x, .cosmo y]).map Arr.phys = numDot [x.phys, y.phys] := by
  obtain ⟨p, b, o, q, e, e1, e2, e3, e4, e5⟩ := double hx hy
  have hh : handle .multiply [x.cf, y.cf] [.cosmo x, .cosmo y] = .ok (some ⟨some (k + k), some a⟩) := by
    simp [handle, reduce1, hx.cf, hy.cf, mul2, CF.mul, Except.map, pure, Except.pure, bind, Except.bind]
  have hs : scale a b (k + k) = scale a b k * scale a b k := by cases b <;> simp [scale, Real.rpow_add hx.pos]
  unfold ufunc
  simp only [e, e2, hu, hh, e3, List.map_cons, List.map_nil, numDot, e4, e5, List.length_map, dots]
  by_cases hl : o.vals.length = q.vals.length
  · simp only [if_pos hl, Except.map]
    rw [phys_result (a := a) (b := b) (m := k + k) e1 rfl, hs, List.map_singleton]
  · simp only [if_neg hl, Except.map]

/-- C120. For quantities that scale as `a^k`, a ufunc computes the physical values in every mix of frames if and only if it is one of the
list or the quantities are the same in both frames (`a^k = 1`, as for dimensionless ones with `k = 0`). -/
theorem c120_ufuncs {u : Ufunc} (hu : inNumbers u ≠ none) {a : ℝ} (ha : 0 < a) (k : ℝ) : Right u a k ↔ u ∈ frameFree ∨ a ^ k = 1 := by
  have hs : 0 < a ^ k := Real.rpow_pos_of_pos ha k
  constructor
  · intro h
    by_cases hm : u ∈ frameFree
    · exact .inl hm
    right
    cases u <;> first
      | exact absurd (by decide) hm
      | exact absurd rfl hu
      | skip
    case logaddexp =>
      have := two_drop ha rfl h 0 0
      have := two_drop ha rfl h 1 1
      rw [one_mul, ← two_mul, ← two_mul, Real.log_mul (by norm_num) (Real.exp_ne_zero _), Real.log_mul (by norm_num) (Real.exp_ne_zero _),
        Real.log_exp, Real.log_exp] at this
      linarith
    case logaddexp2 =>
      have := two_drop ha rfl h 1 1
      rw [one_mul, ← two_mul, ← two_mul, Real.logb_mul (by norm_num) (by positivity), Real.logb_mul (by norm_num) (by positivity),
        Real.logb_rpow (by norm_num) (by norm_num), Real.logb_rpow (by norm_num) (by norm_num)] at this
      linarith
    case rint => exact nearest_one (one_drop ha rfl h)
    case exp => exact near_zero hs one_pos Real.exp_injective.injOn (one_drop ha rfl h)
    case exp2 =>
      refine near_zero (f := fun x => 2 ^ x) hs one_pos (Function.Injective.injOn fun x y e => ?_) (one_drop ha rfl h)
      have e := congrArg (Real.logb 2) e
      simpa [Real.logb_rpow] using e
    case log =>
      have := one_drop ha rfl h 1
      rw [one_mul, Real.log_one, Real.log_eq_zero] at this
      rcases this with e | e | e <;> linarith
    case log2 =>
      have := one_drop ha rfl h 1
      rw [one_mul, Real.logb_one, Real.logb, div_eq_zero_iff, Real.log_eq_zero] at this
      rcases this with (e | e | e) | e
      · linarith
      · exact e
      · linarith
      · exact absurd e (Real.log_pos (by norm_num)).ne'
    case log10 =>
      have := one_drop ha rfl h 1
      rw [one_mul, Real.logb_one, Real.logb, div_eq_zero_iff, Real.log_eq_zero] at this
      rcases this with (e | e | e) | e
      · linarith
      · exact e
      · linarith
      · exact absurd e (Real.log_pos (by norm_num)).ne'
    case expm1 =>
      exact near_zero (f := fun x => Real.exp x - 1) hs one_pos
        (Function.Injective.injOn fun x y e => Real.exp_injective (sub_left_injective e)) (one_drop ha rfl h)
    case log1p =>
      refine near_zero (f := fun x => Real.log (1 + x)) hs one_pos (fun x hx y hy e => ?_) (one_drop ha rfl h)
      have := Real.log_injOn_pos (Set.mem_Ioi.2 (by linarith [hx.1])) (Set.mem_Ioi.2 (by linarith [hy.1])) e
      linarith
    case sin =>
      exact near_zero hs (c := Real.pi / 2) (by positivity)
        (Real.injOn_sin.mono (Set.Icc_subset_Icc_left (by linarith [Real.pi_pos]))) (one_drop ha rfl h)
    case cos => exact near_zero hs Real.pi_pos Real.injOn_cos (one_drop ha rfl h)
    case tan =>
      refine near_zero hs (c := Real.pi / 4) (by positivity) (fun x hx y hy e => ?_) (one_drop ha rfl h)
      have := Real.pi_pos
      exact Real.tan_inj_of_lt_of_lt_pi_div_two (by linarith [hx.1]) (by linarith [hx.2]) (by linarith [hy.1]) (by linarith [hy.2]) e
    case sinh => exact near_zero hs one_pos Real.sinh_injective.injOn (one_drop ha rfl h)
    case cosh => exact near_zero hs one_pos (Real.cosh_injOn.mono fun x hx => hx.1) (one_drop ha rfl h)
    case tanh => exact near_zero hs one_pos Real.tanh_injective.injOn (one_drop ha rfl h)
    case arcsin =>
      exact near_zero hs one_pos (Real.injOn_arcsin.mono (Set.Icc_subset_Icc_left (by norm_num))) (one_drop ha rfl h)
    case arccos =>
      exact near_zero hs one_pos (Real.arccos_injOn.mono (Set.Icc_subset_Icc_left (by norm_num))) (one_drop ha rfl h)
    case arctan => exact near_zero hs one_pos Real.arctan_injective.injOn (one_drop ha rfl h)
    case arcsinh => exact near_zero hs one_pos Real.arsinh_injective.injOn (one_drop ha rfl h)
    case arccosh => exact beyond_one hs Real.arcosh_injOn (one_drop ha rfl h)
    case arctanh =>
      exact near_zero hs (c := 1 / 2) (by norm_num) (Real.artanh_injOn.mono (Set.Icc_subset_Ioo (by norm_num) (by norm_num)))
        (one_drop ha rfl h)
    case deg2rad =>
      exact near_zero (f := fun x => x * (Real.pi / 180)) hs one_pos
        (Function.Injective.injOn fun x y e => mul_right_cancel₀ (by positivity) e) (one_drop ha rfl h)
    case rad2deg =>
      exact near_zero (f := fun x => x * (180 / Real.pi)) hs one_pos
        (Function.Injective.injOn fun x y e => mul_right_cancel₀ (by positivity) e) (one_drop ha rfl h)
    case modf => exact steps hs (fun x => trunc_small) (by simp [cutOff]) (pair1_keep ha rfl h)
    case floor =>
      exact steps (f := fun x => (⌊x⌋ : ℝ)) hs (fun x h0 h1 => by simp [Int.floor_eq_zero_iff.2 ⟨h0, h1⟩]) (by simp) (one_keep ha (.inl rfl) h)
    case ceil =>
      have g0 := one_keep ha (.inl rfl) h
      rcases le_total (a ^ k) 1 with g | g
      · have := g0 1
        rw [one_mul, Int.ceil_one, Int.ceil_eq_iff.2 (⟨by simpa using hs, by simpa using g⟩ : ((1 : Int) : ℝ) - 1 < a ^ k ∧ a ^ k ≤ (1 : Int))] at this
        simpa using this.symm
      · have := g0 (a ^ k)⁻¹
        rw [inv_mul_cancel₀ hs.ne', Int.ceil_one, Int.ceil_eq_iff.2 (⟨by simpa using hs, by simpa using inv_le_one_of_one_le₀ g⟩ :
          ((1 : Int) : ℝ) - 1 < (a ^ k)⁻¹ ∧ (a ^ k)⁻¹ ≤ (1 : Int))] at this
        simpa using this.symm
    case trunc => exact steps hs (fun x => trunc_small) (by simp [cutOff]) (one_keep ha (.inl rfl) h)
    case divmod =>
      have := pair2_keep ha rfl h 1 1
      simp [hs.ne'] at this
      exact this.symm
    case heaviside =>
      have := two_keep ha rfl h 1 1
      have n : ¬ a ^ k < 0 := not_lt.2 hs.le
      rw [one_mul, if_neg n, if_neg hs.ne', if_neg (by norm_num), if_neg one_ne_zero, one_mul] at this
      exact this.symm
    case onesLike =>
      have := one_keep ha (.inr rfl) h 1
      simpa using this.symm
  · rintro (h | h)
    · clear hu
      cases u <;> first
        | exact absurd h (by decide)
        | skip
      case add => exact fun x y hx hy => (c25_homogeneous (.inl rfl) hx hy fun s u v _ => by ring).1
      case subtract => exact fun x y hx hy => (c25_homogeneous (.inl rfl) hx hy fun s u v _ => by ring).1
      case multiply => exact fun x y hx hy => (c24_multiply (o := .cosmo x) (p := .cosmo y) ha hx hy (.inl ⟨x, rfl⟩)).1
      case divide => exact fun x y hx hy => (c24_divide (o := .cosmo x) (p := .cosmo y) ha hx hy (.inl ⟨x, rfl⟩)).1
      case floorDivide =>
        intro x y hx hy
        refine (c24_matching (m := 0) hx hy ?_ fun u v => ?_).1
        · simp [handle, registry, hy.cf, mul2, hx.cf, CF.mul, Except.map, powerCF, CF.pow]
        · rw [mul_div_mul_right _ _ hs.ne', Real.rpow_zero, mul_one]
      case negative => exact fun x hx => linear_right hx rfl fun s v _ => by ring
      case remainder => exact fun x y hx hy => (c25_homogeneous (.inl rfl) hx hy fun s u v hs => by rw [mul_div_mul_right _ _ hs.ne']; ring).1
      case fmod => exact fun x y hx hy => (c25_homogeneous (.inl rfl) hx hy fun s u v hs => by rw [mul_div_mul_right _ _ hs.ne']; ring).1
      case absolute => exact fun x hx => linear_right hx rfl fun s v hs => by rw [abs_mul, abs_of_pos hs]
      case fabs => exact fun x hx => linear_right hx rfl fun s v hs => by rw [abs_mul, abs_of_pos hs]
      case sign =>
        exact fun x hx => free_right hx rfl fun s v hs => by
          simp only [mul_pos_iff_of_pos_right hs, ← not_le, mul_nonneg_iff_of_pos_right hs]
      case conj => exact fun x hx => linear_right hx rfl fun s v _ => rfl
      case positive => exact fun x hx => linear_right hx rfl fun s v _ => rfl
      case sqrt =>
        intro x hx
        obtain ⟨z, h1, -, h3, -⟩ := (c24_unary hx).2.1
        rw [h1]
        simp [Except.map, h3, num1]
      case square =>
        intro x hx
        obtain ⟨z, h1, -, h3, -⟩ := (c24_unary hx).2.2.1
        rw [h1]
        simp [Except.map, h3, num1]
      case cbrt =>
        intro x hx
        obtain ⟨z, h1, -, h3, -⟩ := (c24_unary hx).2.2.2
        have e : cubicRoot = cbrt := rfl
        rw [e, h1]
        simp [Except.map, h3, num1]
      case reciprocal =>
        intro x hx
        obtain ⟨z, h1, -, h3, -⟩ := (c24_unary hx).1
        rw [h1]
        simp only [Except.map, h3, num1]
      case arctan2 =>
        intro x y hx hy
        refine (c24_matching (m := 0) hx hy ?_ fun u v => ?_).1
        · simp [handle, registry, hx.cf, hy.cf, arctan2CF, same_refl]
        · rw [Real.rpow_zero, mul_one, ← Complex.arg_real_mul ⟨v, u⟩ hs]
          congr 1
          apply Complex.ext <;> simp [mul_comm]
      case hypot =>
        refine fun x y hx hy => (c25_extrema hx hy .hypot _ (by simp)).1
      case greater => exact fun x y hx hy => c25_scale_free rfl hx hy fun s u v hs => propext (mul_lt_mul_iff_left₀ hs)
      case greaterEqual => exact fun x y hx hy => c25_scale_free rfl hx hy fun s u v hs => propext (mul_le_mul_iff_left₀ hs)
      case less => exact fun x y hx hy => c25_scale_free rfl hx hy fun s u v hs => propext (mul_lt_mul_iff_left₀ hs)
      case lessEqual => exact fun x y hx hy => c25_scale_free rfl hx hy fun s u v hs => propext (mul_le_mul_iff_left₀ hs)
      case notEqual => exact fun x y hx hy => c25_scale_free rfl hx hy fun s u v hs => propext (mul_left_inj' hs.ne').not
      case equal => exact fun x y hx hy => c25_scale_free rfl hx hy fun s u v hs => propext (mul_left_inj' hs.ne')
      case logicalAnd => exact fun x y hx hy => c25_scale_free rfl hx hy fun s u v hs => by simp [hs.ne']
      case logicalOr => exact fun x y hx hy => c25_scale_free rfl hx hy fun s u v hs => by simp [hs.ne']
      case logicalXor => exact fun x y hx hy => c25_scale_free rfl hx hy fun s u v hs => by simp [hs.ne']
      case logicalNot => exact fun x hx => test1_right hx rfl fun s v hs => by simp [hs.ne']
      case maximum => exact fun x y hx hy => (c25_homogeneous (.inr rfl) hx hy fun s u v hs => (max_mul_of_nonneg u v hs.le).symm).1
      case minimum => exact fun x y hx hy => (c25_homogeneous (.inr rfl) hx hy fun s u v hs => (min_mul_of_nonneg u v hs.le).symm).1
      case fmax => exact fun x y hx hy => (c25_homogeneous (.inl rfl) hx hy fun s u v hs => (max_mul_of_nonneg u v hs.le).symm).1
      case fmin => exact fun x y hx hy => (c25_homogeneous (.inl rfl) hx hy fun s u v hs => (min_mul_of_nonneg u v hs.le).symm).1
      case isreal => exact fun x hx => test1_right hx rfl fun s v hs => Iff.rfl
      case iscomplex => exact fun x hx => test1_right hx rfl fun s v hs => Iff.rfl
      case isfinite => exact fun x hx => test1_right hx rfl fun s v hs => Iff.rfl
      case isinf => exact fun x hx => test1_right hx rfl fun s v hs => Iff.rfl
      case isnan => exact fun x hx => test1_right hx rfl fun s v hs => Iff.rfl
      case signbit =>
        exact fun x hx => test1_right hx rfl fun s v hs => by rw [← not_le, ← not_le, mul_nonneg_iff_of_pos_right hs]
      case copysign =>
        refine fun x y hx hy => (c25_homogeneous (.inr rfl) hx hy fun s u v hs => ?_).1
        simp only [← not_le, mul_nonneg_iff_of_pos_right hs, abs_mul, abs_of_pos hs]
        split <;> ring
      case matmul => exact fun x y hx hy => dot_right hx hy rfl
      case vecdot => exact fun x y hx hy => dot_right hx hy rfl
    · unfold Right
      cases e : inNumbers u with
      | none => exact absurd e hu
      | some act =>
        cases act with
        | one f =>
          intro x hx
          obtain ⟨c, h1, h2⟩ := unary_flat h hx (u := u) (by cases u <;> first | decide | exact absurd e (by simp [inNumbers]))
          exact one_flat h hx h1 h2
        | two f =>
          intro x y hx hy
          obtain ⟨c, h1, h2⟩ := binary_flat h hx hy (u := u) (by cases u <;> first | decide | exact absurd e (by simp [inNumbers]))
          exact two_flat h hx hy h1 h2
        | test1 r =>
          intro x hx
          obtain ⟨c, h1, h2⟩ := unary_flat h hx (u := u) (by cases u <;> first | decide | exact absurd e (by simp [inNumbers]))
          exact test1_flat h hx h1
        | test2 r =>
          intro x y hx hy
          obtain ⟨c, h1, h2⟩ := binary_flat h hx hy (u := u) (by cases u <;> first | decide | exact absurd e (by simp [inNumbers]))
          exact test2_flat h hx hy h1
        | pair1 f g =>
          intro x hx
          obtain ⟨c, h1, h2⟩ := unary_flat h hx (u := u) (by cases u <;> first | decide | exact absurd e (by simp [inNumbers]))
          exact pair1_flat h hx h1 h2
        | pair2 f g =>
          intro x y hx hy
          obtain ⟨c, h1, h2⟩ := binary_flat h hx hy (u := u) (by cases u <;> first | decide | exact absurd e (by simp [inNumbers]))
          exact pair2_flat h hx hy h1 h2
        | dot =>
          intro x y hx hy
          obtain ⟨c, h1, h2⟩ := binary_flat h hx hy (u := u) (by cases u <;> first | decide | exact absurd e (by simp [inNumbers]))
          exact two_flat h hx hy h1 h2

/-- Densities at redshift one are not the same in both frames. -/
private theorem densities : (1 / 2 : ℝ) ^ (-3 : ℝ) ≠ 1 := by
  rw [Real.rpow_neg (by norm_num), Real.rpow_ofNat]
  norm_num

/-- Angles, remainders and sums of densities are right, rounded densities and their logarithms are wrong, logarithms of ratios are right. -/
example : Right .arctan2 (1 / 2) (-3) ∧ Right .fmod (1 / 2) (-3) ∧ Right .sign (1 / 2) (-3) ∧ ¬Right .floor (1 / 2) (-3) ∧
    ¬Right .log10 (1 / 2) (-3) ∧ ¬Right .divmod (1 / 2) (-3) ∧ Right .log10 (1 / 2) 0 ∧ Right .divmod (1 / 2) 0 := by
  have n : ∀ u, inNumbers u ≠ none → u ∉ frameFree → ¬Right u (1 / 2) (-3) := fun u h1 h2 h =>
    ((c120_ufuncs h1 (by norm_num) _).1 h).elim h2 densities
  have y : ∀ u, inNumbers u ≠ none → u ∈ frameFree → Right u (1 / 2) (-3) := fun u h1 h2 => (c120_ufuncs h1 (by norm_num) _).2 (.inl h2)
  have z : ∀ u, inNumbers u ≠ none → Right u (1 / 2) 0 := fun u h1 => (c120_ufuncs h1 (by norm_num) _).2 (.inr (Real.rpow_zero _))
  exact ⟨y _ (by simp [inNumbers]) (by decide), y _ (by simp [inNumbers]) (by decide), y _ (by simp [inNumbers]) (by decide),
    n _ (by simp [inNumbers]) (by decide), n _ (by simp [inNumbers]) (by decide), n _ (by simp [inNumbers]) (by decide),
    z _ (by simp [inNumbers]), z _ (by simp [inNumbers])⟩

/-- C120. An angle has no dimension and no factor but `a^0`. -/
theorem c120_angles {a k : ℝ} {x y : Arr} (hx : Conv a k x) (hy : Conv a k y) (z : Arr)
    (h : ufunc .arctan2 (num2 fun y x => Complex.arg ⟨x, y⟩) [.cosmo x, .cosmo y] = .ok z) : Conv a 0 z := by
  refine (c24_matching (m := 0) hx hy ?_ fun u v => ?_).2 z h
  · simp [handle, registry, hx.cf, hy.cf, arctan2CF, same_refl]
  · rw [Real.rpow_zero, mul_one, ← Complex.arg_real_mul ⟨v, u⟩ (Real.rpow_pos_of_pos hx.pos k)]
    congr 1
    apply Complex.ext <;> simp [mul_comm]

example : ∃ z, ufunc .arctan2 (num2 fun y x => Complex.arg ⟨x, y⟩) [.cosmo lengths, .cosmo radius] = .ok z := by
  have h := (c24_matching (u := .arctan2) (f := fun y x => Complex.arg ⟨x, y⟩) (m := 0) lengths_conv radius_conv
    (by simp [handle, registry, lengths, radius, arctan2CF, same_refl]) fun u v => by
      rw [Real.rpow_zero, mul_one, ← Complex.arg_real_mul ⟨v, u⟩ (Real.rpow_pos_of_pos (by norm_num : (0 : ℝ) < 1 / 2) 1)]
      congr 1
      apply Complex.ext <;> simp [mul_comm]).1
  cases e : ufunc .arctan2 (num2 fun y x => Complex.arg ⟨x, y⟩) [.cosmo lengths, .cosmo radius] with
  | error e' => rw [e] at h; simp [Except.map, num2, bcast2, lengths, radius, Arr.phys] at h
  | ok z => exact ⟨z, rfl⟩

/-- C120. Whole quotients are right for quantities that scale in the same way and wrong for all others. -/
theorem c120_floor_divide {a : ℝ} (ha : 0 < a) (k l : ℝ) : (∀ x y, Conv a k x → Conv a l y →
    (ufunc .floorDivide (num2 fun x y => ⌊x / y⌋) [.cosmo x, .cosmo y]).map Arr.phys = num2 (fun x y => (⌊x / y⌋ : ℝ)) [x.phys, y.phys]) ↔
    a ^ k = a ^ l := by
  have hk := Real.rpow_pos_of_pos ha k
  have hl := Real.rpow_pos_of_pos ha l
  have hq : a ^ (k + -l) = a ^ k / a ^ l := by rw [← sub_eq_add_neg, Real.rpow_sub ha]
  constructor
  · intro h
    have key : ∀ v : ℝ, (⌊v * (a ^ k / a ^ l)⌋ : ℝ) = ⌊v⌋ * (a ^ k / a ^ l) := by
      intro v
      have := h _ _ (number_conv ha k v) (number_conv ha l 1)
      have e : prepare true [.cosmo (number a k v), .cosmo (number a l 1)] [] =
          .ok ⟨[.cosmo (number a k v), .cosmo (number a l 1)], [], [(number a k v).cf, (number a l 1).cf], [], some true, true⟩ := by
        simp [prepare, flags, number, Opd.cf, Opd.vt]
      have e' : handle .divide [(number a k v).cf, (number a l 1).cf] [.cosmo (number a k v), .cosmo (number a l 1)] =
          .ok (some ⟨some (k + -l), some a⟩) := by
        simp [handle, number, mul2, CF.mul, Except.map, powerCF, CF.pow]
      simp only [ufunc, e, registry, e', number_phys, num2, bcast2, List.map_cons, List.map_nil, Except.map, Opd.vals] at this
      simp only [number, Arr.phys, List.length_singleton, if_true, List.zipWith_cons_cons, List.zipWith_nil_left, List.map_cons, List.map_nil, hq,
        Except.ok.injEq, List.cons.injEq, and_true, one_mul, div_one] at this
      rw [mul_div_assoc] at this
      exact this.symm
    have := steps (f := fun x => (⌊x⌋ : ℝ)) (div_pos hk hl) (fun x h0 h1 => by simp [Int.floor_eq_zero_iff.2 ⟨h0, h1⟩]) (by simp) key
    rwa [div_eq_one_iff_eq hl.ne'] at this
  · intro h x y hx hy
    refine (c24_matching (m := k + -l) hx hy ?_ fun u v => ?_).1
    · simp [handle, registry, hy.cf, mul2, hx.cf, CF.mul, Except.map, powerCF, CF.pow]
    · rw [hq, h, mul_div_mul_right _ _ hl.ne', div_self hl.ne', mul_one]

example : ¬((1 / 2 : ℝ) ^ (-3 : ℝ) = (1 / 2) ^ (0 : ℝ)) := by
  rw [Real.rpow_zero]
  exact densities

/-- C120 fails for the angle of a length and a bare number: it depends on the frame of the length although its factor is `a^0`. -/
theorem c120_bare_angle_fails : ∃ x y u v : Arr, Conv (1 / 2) 1 x ∧ Conv (1 / 2) 1 y ∧ x.phys = y.phys ∧
    ufunc .arctan2 (num2 fun y x => Complex.arg ⟨x, y⟩) [.cosmo x, .plain [1]] = .ok u ∧
    ufunc .arctan2 (num2 fun y x => Complex.arg ⟨x, y⟩) [.cosmo y, .plain [1]] = .ok v ∧ Conv (1 / 2) 0 u ∧ Conv (1 / 2) 0 v ∧
    u.phys ≠ v.phys := by
  refine ⟨number (1 / 2) 1 2, ⟨[1], some false, some ⟨some 1, some (1 / 2)⟩, true⟩, ⟨[Complex.arg ⟨1, 2⟩], some true, some ⟨some 0, some (1 / 2)⟩, true⟩,
    ⟨[Complex.arg ⟨1, 1⟩], some false, some ⟨some 0, some (1 / 2)⟩, true⟩, number_conv (by norm_num) _ _, ⟨by norm_num, rfl, rfl, by simp⟩, ?_, ?_, ?_,
    ⟨by norm_num, rfl, rfl, by simp⟩, ⟨by norm_num, rfl, rfl, by simp⟩, ?_⟩
  · rw [number_phys]; norm_num [Arr.phys]
  · simp [ufunc, prepare, flags, number, Opd.cf, Opd.vt, handle, registry, arctan2CF, num2, bcast2, Opd.vals]
  · simp [ufunc, prepare, flags, Opd.cf, Opd.vt, handle, registry, arctan2CF, num2, bcast2, Opd.vals]
  · simp only [Arr.phys, List.map_cons, List.map_nil, Real.rpow_zero, mul_one, ne_eq, List.cons.injEq, and_true]
    intro h
    rw [Complex.arg_eq_arg_iff (by simp [Complex.ext_iff]) (by simp [Complex.ext_iff])] at h
    rw [← Complex.ofReal_div, Complex.ext_iff] at h
    simp only [Complex.mul_re, Complex.mul_im, Complex.ofReal_re, Complex.ofReal_im] at h
    linarith [h.1, h.2]

/-- C120 fails for the larger or smaller of a bare number and a quantity: the quantity must come first. Then the bare number counts as a
quantity in the frame of the other, whichever that is. -/
theorem c120_bare_first_fails {a k : ℝ} {x : Arr} (hx : Conv a k x) (v : ℝ) (u : Ufunc) (hu : u ∈ [Ufunc.maximum, .minimum, .copysign])
    (f : ℝ → ℝ → ℝ) :
    ufunc u (num2 f) [.plain [v], .cosmo x] = .error .value ∧
    ufunc u (num2 f) [.cosmo x, .plain [v]] = .ok { x with val := x.val.map fun w => f w v } := by
  have hr : registry u = .passthrough := by
    simp only [List.mem_cons, List.not_mem_nil, or_false] at hu
    rcases hu with rfl | rfl | rfl <;> rfl
  obtain ⟨c, hc⟩ : ∃ c, x.comoving = some c := Option.ne_none_iff_exists'.1 hx.framed
  have p1 : prepare true [.plain [v], .cosmo x] [] = .ok ⟨[.plain [v], .cosmo x], [], [none, x.cf], [], some c, true⟩ := by
    cases c <;> simp [prepare, flags, hc, Opd.cf, Opd.vt, hx.vt]
  have p2 : prepare true [.cosmo x, .plain [v]] [] = .ok ⟨[.cosmo x, .plain [v]], [], [x.cf, none], [], some c, true⟩ := by
    cases c <;> simp [prepare, flags, hc, Opd.cf, Opd.vt, hx.vt]
  have hb : bcast2 f x.val [v] = .ok (x.val.map fun w => f w v) := by
    unfold bcast2
    match x.val with
    | [] => simp
    | [w] => simp
    | _ :: _ :: _ => simp
  constructor
  · simp only [ufunc, p1, hr, handle, hx.cf, passthrough2]
  · simp only [ufunc, p2, hr, handle, hx.cf, passthrough2, num2, List.map_cons, List.map_nil, Opd.vals, hb]
    obtain ⟨val, cm, cf, vt⟩ := x
    have h1 := hx.cf
    have h2 := hx.vt
    simp only at h1 h2 hc
    simp [h1, h2, hc]

example : ufunc .maximum (num2 max) [.plain [4], .cosmo lengths] = .error .value ∧
    ufunc .maximum (num2 max) [.cosmo lengths, .plain [4]] = .ok { lengths with val := lengths.val.map fun w => max w 4 } :=
  c120_bare_first_fails lengths_conv 4 .maximum (by simp) max

/-- C120: a ufunc with two results gives what two ufuncs would give, one for each result: the same values, frames, factors and flags, or the same
exception. -/
theorem c120_pair (u : Ufunc) (num : List (List ℝ) → Except Err (List ℝ × List ℝ)) (args : List Opd) :
    (ufuncPair u num args).map (fun z => z.1) = ufunc u (fun l => (num l).map Prod.fst) args ∧
    (ufuncPair u num args).map (fun z => z.2) = ufunc u (fun l => (num l).map Prod.snd) args := by
  unfold ufuncPair ufunc
  cases prepare true args [] with
  | error e => exact ⟨rfl, rfl⟩
  | ok p =>
    dsimp only
    cases handle (registry u) p.cfs args with
    | error e => exact ⟨rfl, rfl⟩
    | ok c =>
      dsimp only
      cases num (p.args.map Opd.vals) with
      | error e => exact ⟨rfl, rfl⟩
      | ok v => exact ⟨rfl, rfl⟩

end Verif.Props
