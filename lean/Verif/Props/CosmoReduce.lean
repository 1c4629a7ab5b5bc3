import Mathlib.Data.List.Sort
import Mathlib.Algebra.BigOperators.Group.List.Basic
import Verif.Lemmas.CosmoFunctions
import Verif.Props.CosmoChain

/-! # C52: numpy reductions and array functions -/

namespace Verif.Props
open Verif Verif.Cosmo

/-- The numbers of some numpy functions. -/
noncomputable def mean (l : List ℝ) : ℝ := l.sum / l.length
noncomputable def sorted (l : List ℝ) : List ℝ := l.insertionSort (· ≤ ·)
noncomputable def median (l : List ℝ) : ℝ :=
  if l.length % 2 = 1 then (sorted l).getD (l.length / 2) 0
  else ((sorted l).getD (l.length / 2 - 1) 0 + (sorted l).getD (l.length / 2) 0) / 2
noncomputable def largest (l : List ℝ) : List ℝ := match l with
  | [] => []
  | x :: l => [l.foldl max x]
noncomputable def smallest (l : List ℝ) : List ℝ := match l with
  | [] => []
  | x :: l => [l.foldl min x]
noncomputable def cumsumFrom (s : ℝ) : List ℝ → List ℝ
  | [] => []
  | x :: l => (s + x) :: cumsumFrom (s + x) l
noncomputable def diff : List ℝ → List ℝ
  | x :: y :: l => (y - x) :: diff (y :: l)
  | _ => []

/-- A function that commutes with a common positive scale. -/
def Linear1 (f : List ℝ → List ℝ) : Prop := ∀ (s : ℝ) (l : List ℝ), 0 < s → f (l.map (· * s)) = (f l).map (· * s)

/-- C52, general form: functions that pass on the attributes of their argument give the physical result. -/
theorem c52_propagated {a k : ℝ} {x : Arr} {f : List ℝ → List ℝ} (hf : Linear1 f) (hx : Conv a k x) :
    Conv a k (propagate f x) ∧ (propagate f x).phys = f x.phys ∧ (propagate f x).comoving = x.comoving := by
  have h : Conv a k (propagate f x) := ⟨hx.pos, hx.cf, hx.vt, hx.framed⟩
  refine ⟨h, ?_, rfl⟩
  rcases hx.framed_cases with hc | hc
  · rw [phys_true h hc, phys_true hx hc]
    exact (hf _ _ (Real.rpow_pos_of_pos hx.pos k)).symm
  · rw [phys_false (x := propagate f x) hc, phys_false hc]
    rfl

private theorem lin_sum : Linear1 (fun l => [l.sum]) := fun s l _ => by
  simp [List.sum_map_mul_right]
private theorem lin_mean : Linear1 (fun l => [mean l]) := fun s l _ => by
  simp [mean, List.sum_map_mul_right, div_mul_eq_mul_div]
private theorem lin_sorted : Linear1 sorted := fun s l hs => by
  unfold sorted
  rw [List.map_insertionSort (r := (· ≤ ·)) (s := (· ≤ ·))]
  intro u _ v _
  exact (mul_le_mul_iff_left₀ hs).symm
private theorem lin_median : Linear1 (fun l => [median l]) := fun s l hs => by
  have hg : ∀ i, ((sorted l).map (· * s)).getD i 0 = (sorted l).getD i 0 * s := by
    intro i
    rw [List.getD_eq_getElem?_getD, List.getD_eq_getElem?_getD, List.getElem?_map]
    cases (sorted l)[i]? <;> simp
  simp only [median, List.length_map, lin_sorted s l hs, hg, List.map_cons, List.map_nil]
  split
  · rfl
  · congr 1
    ring
private theorem lin_largest : Linear1 largest := fun s l hs => by
  cases l with
  | nil => rfl
  | cons x l =>
    simp only [largest, List.map_cons, List.map_nil, List.cons.injEq, and_true]
    induction l generalizing x with
    | nil => rfl
    | cons y l ih => rw [List.map_cons, List.foldl_cons, List.foldl_cons, ← max_mul_of_nonneg x y hs.le, ih]
private theorem lin_smallest : Linear1 smallest := fun s l hs => by
  cases l with
  | nil => rfl
  | cons x l =>
    simp only [smallest, List.map_cons, List.map_nil, List.cons.injEq, and_true]
    induction l generalizing x with
    | nil => rfl
    | cons y l ih => rw [List.map_cons, List.foldl_cons, List.foldl_cons, ← min_mul_of_nonneg x y hs.le, ih]
private theorem lin_cumsum : Linear1 (cumsumFrom 0) := fun s l _ => by
  have h : ∀ t, cumsumFrom (t * s) (l.map (· * s)) = (cumsumFrom t l).map (· * s) := by
    induction l with
    | nil => intro t; rfl
    | cons x l ih =>
      intro t
      simp only [List.map_cons, cumsumFrom, List.cons.injEq]
      rw [← add_mul]
      exact ⟨rfl, ih _⟩
  simpa using h 0
private theorem lin_diff : Linear1 diff := fun s l _ => by
  induction l with
  | nil => rfl
  | cons x l ih =>
    cases l with
    | nil => rfl
    | cons y l =>
      simp only [List.map_cons, diff] at ih ⊢
      rw [ih, sub_mul]

/-- C52: `sum`, `mean`, `max`, `min`, `median`, `sort`, `cumsum` and selections. -/
theorem c52_reductions {a k : ℝ} {x : Arr} (hx : Conv a k x) (f : List ℝ → List ℝ)
    (hf : f ∈ [fun l => [l.sum], fun l => [mean l], largest, smallest, fun l => [median l], sorted, cumsumFrom 0, diff,
      List.reverse]) :
    Conv a k (propagate f x) ∧ (propagate f x).phys = f x.phys ∧ (propagate f x).comoving = x.comoving := by
  refine c52_propagated ?_ hx
  simp only [List.mem_cons, List.not_mem_nil, or_false] at hf
  rcases hf with rfl | rfl | rfl | rfl | rfl | rfl | rfl | rfl | rfl
  · exact lin_sum
  · exact lin_mean
  · exact lin_largest
  · exact lin_smallest
  · exact lin_median
  · exact lin_sorted
  · exact lin_cumsum
  · exact lin_diff
  · exact fun s l _ => by simp [List.map_reverse]

/-- C52: wrapped unary functions that keep the factor (`diff`, `ptp`, `percentile`, `trace`, `take`, ...). -/
theorem c52_keep {a k : ℝ} {x : Arr} {f : List ℝ → List ℝ} (hf : Linear1 f) (hx : Conv a k x) :
    ∃ z, wrap1 keep f x = .ok z ∧ Conv a k z ∧ z.phys = f x.phys :=
  wrap1_cov hx rfl fun b l _ => hf _ _ (scale_pos hx.pos b k)

/-- C52: the product of all elements. -/
theorem c52_prod {a k : ℝ} {x : Arr} (hx : Conv a k x) :
    ∃ z, prodAll x = .ok z ∧ Conv a (k * x.val.length) z ∧ z.phys = [x.phys.prod] := by
  refine wrap1_cov (f := fun l => [l.prod]) hx (by simp [powerCF, CF.pow]) fun b l hl => ?_
  simp only [List.map_cons, List.map_nil, List.cons.injEq, and_true]
  rw [scale_pow hx.pos, Real.rpow_natCast, ← hl, List.prod_map_mul]
  simp

/-- The scalar product of two lists of equal length. -/
noncomputable def dot (u v : List ℝ) : Except Err (List ℝ) :=
  if u.length = v.length then .ok [(List.zipWith (· * ·) u v).sum] else .error .value
/-- All products. -/
noncomputable def outer (u v : List ℝ) : Except Err (List ℝ) := .ok (u.flatMap fun x => v.map fun y => x * y)

/-- C52: `dot`, `inner`, `vdot`, `outer` and `kron` of one-dimensional arrays, in any mix of frames: exponents add. -/
theorem c52_products {a k l : ℝ} {o p : Opd} (ha : 0 < a) (ho : HasExp a o k) (hp : HasExp a p l)
    (hne : (∃ x, o = .cosmo x) ∨ ∃ y, p = .cosmo y) (f : List ℝ → List ℝ → Except Err (List ℝ)) (hf : f ∈ [dot, outer]) :
    (wrap2 mul2 f o p).map Arr.phys = f o.phys p.phys ∧ ∀ z, wrap2 mul2 f o p = .ok z → Conv a (k + l) z := by
  refine wrap2_cov ha ho hp ?_ ?_ fun b u v => ?_
  · rcases hne with ⟨x, rfl⟩ | ⟨y, rfl⟩
    · simp [flags]
    · cases o <;> simp [flags]
  · cases o with
    | plain v =>
      cases p with
      | plain w => simp at hne
      | cosmo y =>
        simp only [HasExp] at ho hp
        simp [Opd.cf, hp.cf, mul2, ho]
    | cosmo x =>
      cases p with
      | plain w =>
        simp only [HasExp] at ho hp
        simp [Opd.cf, ho.cf, mul2, hp]
      | cosmo y =>
        simp only [HasExp] at ho hp
        simp [Opd.cf, hp.cf, mul2, ho.cf, CF.mul, Except.map]
  · have hmul : ∀ x y : ℝ, x * scale a b k * (y * scale a b l) = x * y * scale a b (k + l) := by
      intro x y
      rw [scale_mul ha]
      ring
    simp only [List.mem_cons, List.not_mem_nil, or_false] at hf
    rcases hf with rfl | rfl
    · unfold dot
      simp only [List.length_map]
      split
      · simp only [Except.map, Except.ok.injEq, List.map_cons, List.map_nil, List.cons.injEq, and_true]
        rw [List.zipWith_map]
        simp only [hmul]
        rw [← List.map_zipWith (f := fun t => t * scale a b (k + l))]
        rw [List.sum_map_mul_right]
        simp
      · rfl
    · simp only [outer, Except.map, Except.ok.injEq]
      rw [List.flatMap_map, List.map_flatMap]
      simp only [List.map_map, Function.comp_def, hmul]

/-- C52: `where` with three arguments and `clip` with positional limits. -/
theorem c52_where {a k : ℝ} {x y : Arr} (hx : Conv a k x) (hy : Conv a k y) (cond : List Bool) :
    (whereThree cond (.cosmo x) (.cosmo y)).map Arr.phys =
        (if cond.length = x.phys.length ∧ x.phys.length = y.phys.length then
          .ok ((cond.zip (x.phys.zip y.phys)).map (fun q => if q.1 then q.2.1 else q.2.2)) else .error .value) ∧
      ∀ z, whereThree cond (.cosmo x) (.cosmo y) = .ok z → Conv a k z := by
  refine wrap2_cov (o := .cosmo x) (p := .cosmo y) (k := k) (l := k) hx.pos hx hy (by simp [flags])
    (by simp [Opd.cf, hx.cf, hy.cf, preserve2, same_refl]) fun b u v => ?_
  simp only [List.length_map]
  split
  · simp only [Except.map, Except.ok.injEq]
    rw [List.zip_map, List.zip_map_right, List.map_map, List.map_map]
    refine List.map_congr_left fun q _ => ?_
    obtain ⟨c, s, t⟩ := q
    cases c <;> simp
  · rfl

/-- C52: `clip` with limits given by position. -/
theorem c52_clip {a k lo hi : ℝ} {x l h : Arr} (hx : Conv a k x) (hl : Conv a k l) (hh : Conv a k h)
    (el : l.phys = [lo]) (eh : h.phys = [hi]) :
    ∃ z, Cosmo.clip x l h = .ok z ∧ Conv a k z ∧ z.phys = x.phys.map (fun v => min (max v lo) hi) := by
  obtain ⟨p, b, e, hc, hvt, -, hf, hf'⟩ := prepare_kw (a := a) (l := [.cosmo x]) (kw := [.cosmo l, .cosmo h]) (by
      intro q hq
      rw [List.mem_singleton.mp hq]
      exact ⟨k, hx⟩) (by
      intro q hq
      rcases List.mem_pair.mp hq with rfl | rfl
      · exact ⟨k, hl⟩
      · exact ⟨k, hh⟩) (by simp [flags])
  obtain ⟨o, hargs, h1⟩ := forall2_one hf
  obtain ⟨l', h', hkw, h2, h3⟩ := forall2_two hf'
  have e1 : x.phys = _ := h1.phys (o := .cosmo x) hx
  have e2 : l.phys = _ := h2.phys (o := .cosmo l) hl
  have e3 : h.phys = _ := h3.phys (o := .cosmo h) hh
  have hs := scale_pos hx.pos b k
  rw [el] at e2
  rw [eh] at e3
  obtain ⟨lv, hlv⟩ : ∃ t, l'.vals = [t] := by
    have := congrArg List.length e2
    exact List.length_eq_one_iff.mp (by simpa using this.symm)
  obtain ⟨hv, hhv⟩ : ∃ t, h'.vals = [t] := by
    have := congrArg List.length e3
    exact List.length_eq_one_iff.mp (by simpa using this.symm)
  rw [hlv] at e2
  rw [hhv] at e3
  simp only [List.map_cons, List.map_nil, List.cons.injEq, and_true] at e2 e3
  have hred : reduce1 preserve2 [x.cf, l.cf, h.cf] = .ok (some ⟨some k, some a⟩) := by
    simp [reduce1, hx.cf, hl.cf, hh.cf, preserve2, same_refl, bind, Except.bind, pure, Except.pure]
  unfold Cosmo.clip
  simp only [e, hred, hargs, hkw, hlv, hhv]
  refine ⟨_, rfl, ⟨hx.pos, rfl, hvt, by simp [hc]⟩, ?_⟩
  rw [phys_result (m := k) (a := a) hc rfl, e1, List.map_map, List.map_map]
  refine List.map_congr_left fun v _ => ?_
  simp only [Function.comp, e2, e3]
  rw [← max_mul_of_nonneg v lv hs.le, ← min_mul_of_nonneg _ hv hs.le]

/-- C52: histograms without `density`: counts are the weights' physical sums over the physical bins, and the edges keep
their physical values, in any mix of frames. -/
theorem c52_histogram {a k m : ℝ} {x e w : Arr} (hx : Conv a k x) (he : Conv a k e) (hw : Conv a m w) :
    ∃ c b, Cosmo.histogram x e w false = .ok (c, b) ∧ Conv a m c ∧ c.phys = histCounts x.phys w.phys e.phys ∧ Conv a k b ∧
      b.phys = e.phys := by
  obtain ⟨p, b, ep, hc, hvt, -, hf, hf'⟩ := prepare_kw (a := a) (l := [.cosmo x]) (kw := [.cosmo e, .cosmo w]) (by
      intro q hq
      rw [List.mem_singleton.mp hq]
      exact ⟨k, hx⟩) (by
      intro q hq
      rcases List.mem_pair.mp hq with rfl | rfl
      · exact ⟨k, he⟩
      · exact ⟨m, hw⟩) (by simp [flags])
  obtain ⟨o, hargs, h1⟩ := forall2_one hf
  obtain ⟨e', w', hkw, h2, h3⟩ := forall2_two hf'
  have e1 : x.phys = _ := h1.phys (o := .cosmo x) hx
  have e2 : e.phys = _ := h2.phys (o := .cosmo e) he
  have e3 : w.phys = _ := h3.phys (o := .cosmo w) hw
  have hr : recip x.cf = .ok (some ⟨some (-k), some a⟩) := by simp [recip, powerCF, hx.cf, CF.pow]
  unfold Cosmo.histogram
  simp only [ep, hr, hargs, hkw, Bool.false_eq_true, if_false]
  refine ⟨_, _, rfl, ⟨hx.pos, hw.cf, hvt, by simp [hc]⟩, ?_, ⟨hx.pos, hx.cf, hvt, by simp [hc]⟩, ?_⟩
  · rw [phys_result (z := ⟨histCounts o.vals w'.vals e'.vals, p.comoving, w.cf, p.vt⟩) (m := m) (a := a) hc hw.cf, e1, e2, e3]
    exact (histCounts_scale _ _ (scale_pos hx.pos b k) _ _ _).symm
  · rw [phys_result (z := ⟨e'.vals, p.comoving, x.cf, p.vt⟩) (m := k) (a := a) hc hx.cf, e2]

private theorem histDensity_scale (s : ℝ) (c e : List ℝ) :
    histDensity c (e.map (· * s)) = (histDensity c e).map (· * s⁻¹) := by
  unfold histDensity
  rw [← List.map_tail, List.zipWith_map]
  have h : List.zipWith (fun x y => x * s - y * s) e.tail e = (List.zipWith (· - ·) e.tail e).map (· * s) := by
    rw [List.map_zipWith]
    simp only [sub_mul]
  rw [h, List.zipWith_map_right, List.map_zipWith]
  congr 1
  funext u v
  rw [div_eq_mul_inv, div_eq_mul_inv, div_eq_mul_inv, div_eq_mul_inv, mul_inv]
  ring

/-- C52: a histogram with `density=True` and weights without scale dependence (exponent 0): densities have the exponent of
the reciprocal values. -/
theorem c52_density {a k : ℝ} {x e w : Arr} (hx : Conv a k x) (he : Conv a k e) (hw : Conv a 0 w) :
    ∃ c b, Cosmo.histogram x e w true = .ok (c, b) ∧ Conv a (-k) c ∧
      c.phys = histDensity (histCounts x.phys w.phys e.phys) e.phys ∧ Conv a k b ∧ b.phys = e.phys := by
  obtain ⟨p, b, ep, hc, hvt, -, hf, hf'⟩ := prepare_kw (a := a) (l := [.cosmo x]) (kw := [.cosmo e, .cosmo w]) (by
      intro q hq
      rw [List.mem_singleton.mp hq]
      exact ⟨k, hx⟩) (by
      intro q hq
      rcases List.mem_pair.mp hq with rfl | rfl
      · exact ⟨k, he⟩
      · exact ⟨0, hw⟩) (by simp [flags])
  obtain ⟨o, hargs, h1⟩ := forall2_one hf
  obtain ⟨e', w', hkw, h2, h3⟩ := forall2_two hf'
  have e1 : x.phys = _ := h1.phys (o := .cosmo x) hx
  have e2 : e.phys = _ := h2.phys (o := .cosmo e) he
  have e3 : w.phys = _ := h3.phys (o := .cosmo w) hw
  have hr : recip x.cf = .ok (some ⟨some (-k), some a⟩) := by simp [recip, powerCF, hx.cf, CF.pow]
  have hm : mul2 w.cf (some ⟨some (-k), some a⟩) = .ok (some ⟨some (-k), some a⟩) := by
    simp [mul2, hw.cf, CF.mul, Except.map]
  unfold Cosmo.histogram
  simp only [ep, hr, hargs, hkw, if_true, hm]
  refine ⟨_, _, rfl, ⟨hx.pos, rfl, hvt, by simp [hc]⟩, ?_, ⟨hx.pos, hx.cf, hvt, by simp [hc]⟩, ?_⟩
  · have h0 : scale a b 0 = 1 := by cases b <;> simp [scale]
    have hneg : scale a b (-k) = (scale a b k)⁻¹ := by
      cases b
      · simp [scale]
      · simp [scale, Real.rpow_neg hx.pos.le]
    rw [phys_result (z := ⟨_, p.comoving, some ⟨some (-k), some a⟩, p.vt⟩) (m := -k) (a := a) hc rfl, hneg, ← histDensity_scale,
      e1, e2, e3, histCounts_scale _ _ (scale_pos hx.pos b k), h0]
    simp
  · rw [phys_result (z := ⟨e'.vals, p.comoving, x.cf, p.vt⟩) (m := k) (a := a) hc hx.cf, e2]

example : Conv (1 / 2) 1 lengths ∧ Linear1 (fun l => [l.sum]) ∧ (propagate (fun l => [l.sum]) lengths).phys = [4] := by
  refine ⟨lengths_conv, lin_sum, ?_⟩
  rw [(c52_propagated lin_sum lengths_conv).2.1]
  norm_num [Arr.phys, lengths]
example : HasExp (1 / 2) (.cosmo lengths) 1 ∧ HasExp (1 / 2) (.cosmo radius) 1 ∧ radius.phys = [3] ∧
    dot (Opd.cosmo lengths).phys [1, 2] = .ok [7] := by
  refine ⟨lengths_conv, radius_conv, ?_, ?_⟩ <;> norm_num [Arr.phys, radius, lengths, Opd.phys, dot]

example : Conv (1 / 2) 1 lengths ∧ Conv (1 / 2) 1 radius ∧ Conv (1 / 2) 1 (com (1 / 2) 1 8) ∧ radius.phys = [3] ∧
    (com (1 / 2) 1 8).phys = [4] := by
  refine ⟨lengths_conv, radius_conv, ⟨by norm_num, rfl, rfl, by simp [com]⟩, ?_, ?_⟩ <;> norm_num [Arr.phys, radius, com]

/-- C52 fails for `var`: the result is labelled with the factor of the values, not with its square. -/
theorem c52_var_fails :
    ∃ z, varAll ⟨[0, 8], some true, some ⟨some 1, some (1 / 2)⟩, true⟩ = .ok z ∧ z.phys = [8] ∧
      varAll ⟨[0, 4], some false, some ⟨some 1, some (1 / 2)⟩, true⟩ =
        .ok ⟨[4], some false, some ⟨some 1, some (1 / 2)⟩, true⟩ := by
  refine ⟨⟨[16], some true, some ⟨some 1, some (1 / 2)⟩, true⟩, ?_, ?_, ?_⟩
  · simp [-one_div, varAll, wrap1, prepare, flags, keep, Opd.cf, Opd.vt, Opd.vals]
    try norm_num
  · norm_num [Arr.phys]
  · simp [-one_div, varAll, wrap1, prepare, flags, keep, Opd.cf, Opd.vt, Opd.vals]
    try norm_num

/-- C52 fails for `einsum`: products keep the common factor of the operands instead of multiplying. -/
theorem c52_einsum_fails :
    ∃ z, einsumProduct (.cosmo (com (1 / 2) 1 8)) (.cosmo (com (1 / 2) 1 8)) = .ok z ∧ (com (1 / 2) 1 8).phys = [4] ∧
      z.phys = [32] := by
  refine ⟨⟨[64], some true, some ⟨some 1, some (1 / 2)⟩, true⟩, ?_, ?_, ?_⟩
  · simp [-one_div, einsumProduct, wrap2, prepare, flags, com, Opd.cf, Opd.vt, Opd.vals, preserve2, same_refl, bcast2, Except.map]
    try norm_num
  · norm_num [Arr.phys, com]
  · norm_num [Arr.phys]

/-- C52 fails for Fourier transforms: the numbers scale with the values, the label with their reciprocal. -/
theorem c52_fft_fails :
    ∃ z, fftSingle (com (1 / 2) 1 8) = .ok z ∧ (com (1 / 2) 1 8).phys = [4] ∧ z.phys = [16] := by
  refine ⟨⟨[8], some true, some ⟨some (-1), some (1 / 2)⟩, true⟩, ?_, ?_, ?_⟩
  · simp [fftSingle, wrap1, prepare, flags, com, recip, powerCF, CF.pow, Opd.vt, Opd.vals]
  · norm_num [Arr.phys, com]
  · norm_num [Arr.phys, Real.rpow_neg]

/-- C52 fails for determinants of stacked matrices: the power is the number of matrices. -/
theorem c52_det_stack_fails :
    ∃ z, detOnes ⟨[8, 8, 8], some true, some ⟨some 1, some (1 / 2)⟩, true⟩ = .ok z ∧ z.phys = [1, 1, 1] := by
  refine ⟨⟨[8, 8, 8], some true, some ⟨some 3, some (1 / 2)⟩, true⟩, ?_, ?_⟩
  · simp [detOnes, wrap1, prepare, flags, powerCF, CF.pow, Opd.vt, Opd.vals]
  · norm_num [Arr.phys, Real.rpow_ofNat]

/-- C52 fails for `average` with weights in another frame: the numbers are the original ones but the label is that of the
common frame. -/
theorem c52_average_fails :
    ∃ z, Cosmo.average radius (com (1 / 2) 1 8) = .ok z ∧ radius.phys = [3] ∧ z.phys = [3 / 2] := by
  refine ⟨⟨[3], some true, some ⟨some 1, some (1 / 2)⟩, true⟩, ?_, ?_, ?_⟩
  · simp [Cosmo.average, prepare, flags, com, radius, Opd.vt, anyFixed, allToComoving, Arr.toComoving,
      Arr.convertToComoving, Arr.factor, CF.aFactor, Except.map]
  · norm_num [Arr.phys, radius]
  · norm_num [Arr.phys]

/-- C52 fails for `clip(x, min=..., max=...)`: the limits are ignored. -/
theorem c52_clip_keywords_fails :
    ∃ z, clipMinMax (com (1 / 2) 1 8) (com (1 / 2) 1 0) (com (1 / 2) 1 2) = .ok z ∧ z.val = [8] := by
  refine ⟨com (1 / 2) 1 8, ?_, rfl⟩
  simp [clipMinMax, wrap1, prepare, flags, com, keep, Opd.vt, Opd.vals]

/-- C52 fails for `select` (and `choose`): the result has no frame but is marked as convertible, a combination the
constructor refuses; it can be converted to neither frame. -/
theorem c52_select_fails :
    ∃ z, selectAll (com (1 / 2) 1 8) = .ok z ∧ Arr.verify z = .error .invalidConversion ∧
      z.toPhysical = .error .invalidConversion ∧ z.toComoving = .error .invalidConversion := by
  refine ⟨⟨[8], none, some ⟨some 1, some (1 / 2)⟩, true⟩, ?_, ?_, ?_, ?_⟩
  · simp [selectAll, prepare, flags, com, Opd.vals]
  · simp [Arr.verify]
  · simp [Arr.toPhysical, Arr.convertToPhysical]
  · simp [Arr.toComoving, Arr.convertToComoving]

/-- C52 fails for `where` with one argument: it raises IndexError for every array. -/
theorem c52_where_condition_fails (x : Arr) : whereOne x = .error .index := rfl

/-- C52 fails for `histogram_bin_edges` with explicit edges: it never returns. -/
theorem c52_bin_edges_fails (x e : Arr) : ∃ q, binEdgesExplicit x e = .error q := by
  unfold binEdgesExplicit
  cases prepare true [.cosmo x] [.cosmo e] with
  | error q => exact ⟨q, rfl⟩
  | ok p => exact ⟨_, rfl⟩

/-- C52 fails for `interp`: points and nodes with different exponents are compared without an error. -/
theorem c52_interp_fails :
    ∃ z, interpTwo (com (1 / 2) 1 1) ⟨[0, 2], some true, some ⟨some 3, some (1 / 2)⟩, true⟩
      ⟨[0, 8], some true, some ⟨some 0, some (1 / 2)⟩, true⟩ = .ok z ∧ z.phys = [4] ∧
      lerp (1 / 2) 0 (1 / 4) 0 8 = 16 := by
  refine ⟨⟨[4], some true, some ⟨some 0, some (1 / 2)⟩, true⟩, ?_, ?_, ?_⟩
  · simp [-one_div, interpTwo, prepare, flags, com, Opd.vals, Opd.vt, lerp]
    try norm_num
  · norm_num [Arr.phys]
  · norm_num [lerp]

/-- C52 fails for `histogram(..., weights=w, density=True)`: the weights cancel from the numbers but not from the factor. -/
theorem c52_density_weights_fails :
    ∃ c b, Cosmo.histogram (com (1 / 2) 0 1) ⟨[0, 2], some true, some ⟨some 0, some (1 / 2)⟩, true⟩ (com (1 / 2) 1 8) true
        = .ok (c, b) ∧ c.phys = [1 / 4] ∧ histDensity (histCounts [1] [4] [0, 2]) [0, 2] = [1 / 2] := by
  refine ⟨⟨[1 / 2], some true, some ⟨some 1, some (1 / 2)⟩, true⟩, ⟨[0, 2], some true, some ⟨some 0, some (1 / 2)⟩, true⟩,
    ?_, ?_, ?_⟩
  · simp [-one_div, Cosmo.histogram, prepare, flags, com, Opd.vals, Opd.vt, recip, powerCF, CF.pow, histCounts, histDensity, mul2,
      CF.mul, Except.map]
    try norm_num
  · norm_num [Arr.phys]
  · norm_num [histCounts, histDensity]

/-- C52 fails for the edges returned by `histogram2d(..., density=True)` when `x` and `y` are in different frames: the
numbers are in the common frame, the label is the frame of `x`. -/
theorem c52_histogram2d_edges_fails :
    ∃ z, histogram2dEdges radius (com (1 / 2) 1 8) ⟨[0, 4], some false, some ⟨some 1, some (1 / 2)⟩, true⟩
      ⟨[0, 9], some true, some ⟨some 1, some (1 / 2)⟩, true⟩ = .ok z ∧ z.phys = [0, 8] := by
  refine ⟨⟨[0, 8], some false, some ⟨some 1, some (1 / 2)⟩, true⟩, ?_, ?_⟩
  · simp [-one_div, histogram2dEdges, prepare, flags, com, radius, Opd.vals, Opd.vt, anyFixed, allToComoving, Arr.toComoving,
      Arr.convertToComoving, Arr.factor, CF.aFactor, Except.map]
    try norm_num
  · norm_num [Arr.phys]

end Verif.Props
