import Verif.Spec.LinearAlgebra
import Verif.Props.CosmoReduce
import Mathlib.LinearAlgebra.Matrix.Trace
import Mathlib.LinearAlgebra.Matrix.Notation
import Mathlib.LinearAlgebra.Matrix.Determinant.Basic
import Mathlib.Data.List.OfFn

/-! # C83: linear algebra on cosmology arrays -/

namespace Verif.Props
open Verif Verif.Cosmo Verif.Spec

private theorem getD_scale (s : ℝ) (l : List ℝ) (i : ℕ) : (l.map (fun v => v * s)).getD i 0 = l.getD i 0 * s := by
  rw [List.getD_eq_getElem?_getD, List.getD_eq_getElem?_getD, List.getElem?_map]
  cases l[i]? <;> simp

private theorem mat_scale (m n : ℕ) (s : ℝ) (l : List ℝ) : mat m n (l.map (fun v => v * s)) = s • mat m n l := by
  ext i j
  simp only [mat, getD_scale, Matrix.smul_apply, smul_eq_mul]
  ring

private theorem vec_scale (n : ℕ) (s : ℝ) (l : List ℝ) : vec n (l.map (fun v => v * s)) = s • vec n l := by
  ext i
  simp only [vec, getD_scale, Pi.smul_apply, smul_eq_mul]
  ring

private theorem flat_scale {m n : ℕ} (s : ℝ) (M : Matrix (Fin m) (Fin n) ℝ) :
    flat (s • M) = (flat M).map (fun v => v * s) := by
  unfold flat
  rw [List.map_flatten, List.map_ofFn]
  congr 2
  funext i
  simp only [Function.comp, List.map_ofFn]
  congr 1
  funext j
  simp [mul_comm]

private theorem flat_getElem {n : ℕ} : ∀ {m : ℕ} (M : Matrix (Fin m) (Fin n) ℝ) (i : Fin m) (j : Fin n),
    (flat M).getD (i.val * n + j.val) 0 = M i j := by
  intro m
  induction m with
  | zero => intro M i; exact i.elim0
  | succ m ih =>
    intro M i j
    have hsplit : flat M = List.ofFn (M 0) ++ flat (fun i : Fin m => M i.succ) := by
      unfold flat
      rw [List.ofFn_succ, List.flatten_cons]
    rw [hsplit, List.getD_eq_getElem?_getD]
    refine Fin.cases ?_ (fun i => ?_) i
    · rw [List.getElem?_append_left (by simp)]
      simp
    · rw [List.getElem?_append_right (by simp; nlinarith [Nat.zero_le j.val])]
      have : (i.succ.val * n + j.val) - (List.ofFn (M 0)).length = i.val * n + j.val := by
        simp only [List.length_ofFn, Fin.val_succ]
        have : (i.val + 1) * n + j.val = i.val * n + j.val + n := by ring
        omega
      rw [this, ← List.getD_eq_getElem?_getD]
      exact ih (fun i : Fin m => M i.succ) i j

private theorem mat_flat {m n : ℕ} (M : Matrix (Fin m) (Fin n) ℝ) : mat m n (flat M) = M := by
  ext i j
  exact flat_getElem M i j

private theorem vec_ofFn {n : ℕ} (f : Fin n → ℝ) : vec n (List.ofFn f) = f := by
  ext i
  simp [vec, List.getD_eq_getElem?_getD]

private theorem inv_smul_ne {n : ℕ} {s : ℝ} (hs : s ≠ 0) (M : Matrix (Fin n) (Fin n) ℝ) : (s • M)⁻¹ = s⁻¹ • M⁻¹ := by
  by_cases h : IsUnit M.det
  · exact Matrix.inv_smul' M (Units.mk0 s hs) h
  · have h0 : M.det = 0 := by simpa [isUnit_iff_ne_zero] using h
    rw [Matrix.nonsing_inv_apply_not_isUnit _ h, Matrix.nonsing_inv_apply_not_isUnit _ (by
      rw [Matrix.det_smul, h0]; simp)]
    simp

private theorem det_zero_iff {n : ℕ} {s : ℝ} (hs : s ≠ 0) (M : Matrix (Fin n) (Fin n) ℝ) :
    (s • M).det = 0 ↔ M.det = 0 := by
  rw [Matrix.det_smul]
  simp [hs]

private theorem div_rule {a k l : ℝ} {o p : Opd} (ho : HasExp a o k) (hp : HasExp a p l)
    (hne : (∃ x, o = .cosmo x) ∨ ∃ y, p = .cosmo y) : divRule o.cf p.cf = .ok (some ⟨some (l - k), some a⟩) := by
  cases o with
  | plain v =>
    cases p with
    | plain w => simp at hne
    | cosmo y =>
      simp only [HasExp] at ho hp
      simp [divRule, handle, Opd.cf, powerCF, mul2, hp.cf, ho]
  | cosmo x =>
    cases p with
    | plain w =>
      simp only [HasExp] at ho hp
      simp [divRule, handle, Opd.cf, powerCF, mul2, ho.cf, hp, CF.pow]
    | cosmo y =>
      simp only [HasExp] at ho hp
      simp [divRule, handle, Opd.cf, powerCF, mul2, ho.cf, hp.cf, CF.pow, CF.mul, Except.map, sub_eq_add_neg]

private theorem flags_ne {o p : Opd} (hne : (∃ x, o = .cosmo x) ∨ ∃ y, p = .cosmo y) : flags [o, p] ≠ [] := by
  rcases hne with ⟨x, rfl⟩ | ⟨y, rfl⟩
  · simp [flags]
  · cases o <;> simp [flags]

private theorem scale_sub {a : ℝ} (ha : 0 < a) (b : Bool) (k l : ℝ) :
    scale a b (l - k) = (scale a b k)⁻¹ * scale a b l := by
  cases b
  · simp [scale]
  · simp only [scale, if_true]
    rw [Real.rpow_sub ha]
    field_simp

/-- C83: `solve`. The physical result solves the physical equations, in any mix of frames, and the call is refused exactly
if the physical matrix is singular. -/
theorem c83_solve {a k l : ℝ} {o p : Opd} (n : ℕ) (ha : 0 < a) (ho : HasExp a o k) (hp : HasExp a p l)
    (hne : (∃ x, o = .cosmo x) ∨ ∃ y, p = .cosmo y) :
    ((mat n n o.phys).det = 0 → linalgSolve n o p = .error .value) ∧
    ((mat n n o.phys).det ≠ 0 → ∃ z, linalgSolve n o p = .ok z ∧ Conv a (l - k) z ∧
      (mat n n o.phys).mulVec (vec n z.phys) = vec n p.phys) := by
  have hc := wrap2_cov (f := solveNum n) ha ho hp (flags_ne hne) (div_rule ho hp hne) fun b u v => by
    have hs := (scale_pos ha b k).ne'
    unfold solveNum
    rw [mat_scale, vec_scale]
    by_cases h : (mat n n u).det = 0
    · rw [if_pos ((det_zero_iff hs _).2 h), if_pos h]
      rfl
    · rw [if_neg (fun e => h ((det_zero_iff hs _).1 e)), if_neg h]
      simp only [Except.map, Except.ok.injEq, List.map_ofFn]
      congr 1
      funext i
      rw [inv_smul_ne hs, Matrix.mulVec_smul, Matrix.smul_mulVec, scale_sub ha]
      simp only [Pi.smul_apply, smul_eq_mul, Function.comp]
      ring
  obtain ⟨h1, h2⟩ := hc
  constructor
  · intro h0
    unfold linalgSolve
    have : solveNum n o.phys p.phys = .error .value := by unfold solveNum; rw [if_pos h0]
    rw [this] at h1
    cases e : wrap2 divRule (solveNum n) o p with
    | error q => rw [e] at h1; simpa [Except.map] using h1
    | ok z => rw [e] at h1; simp [Except.map] at h1
  · intro h0
    unfold linalgSolve
    have hs : solveNum n o.phys p.phys = .ok (List.ofFn ((mat n n o.phys)⁻¹.mulVec (vec n p.phys))) := by
      unfold solveNum; rw [if_neg h0]
    rw [hs] at h1
    cases e : wrap2 divRule (solveNum n) o p with
    | error q => rw [e] at h1; simp [Except.map] at h1
    | ok z =>
      rw [e] at h1
      simp only [Except.map, Except.ok.injEq] at h1
      refine ⟨z, rfl, h2 z e, ?_⟩
      rw [h1, vec_ofFn, Matrix.mulVec_mulVec, Matrix.mul_nonsing_inv _ (isUnit_iff_ne_zero.2 h0), Matrix.one_mulVec]

private theorem mat_phys {a k : ℝ} {x : Arr} (hx : Conv a k x) (m n : ℕ) :
    ∃ s : ℝ, 0 < s ∧ x.phys = x.val.map (fun v => v * s) ∧ mat m n x.phys = s • mat m n x.val := by
  rcases hx.framed_cases with hc | hc
  · exact ⟨a ^ k, Real.rpow_pos_of_pos hx.pos k, phys_true hx hc, by rw [phys_true hx hc, mat_scale]⟩
  · exact ⟨1, one_pos, by rw [phys_false hc]; simp, by rw [phys_false hc]; simp⟩

/-- C83: `inv`. The physical result is the inverse of the physical matrix; a singular matrix is refused. -/
theorem c83_inv {a k : ℝ} {x : Arr} (n : ℕ) (hx : Conv a k x) :
    ((mat n n x.phys).det = 0 → linalgInv n x = .error .value) ∧
    ((mat n n x.phys).det ≠ 0 → ∃ z, linalgInv n x = .ok z ∧ Conv a (-k) z ∧
      mat n n x.phys * mat n n z.phys = 1 ∧ mat n n z.phys * mat n n x.phys = 1) := by
  obtain ⟨s, hs, -, hm⟩ := mat_phys hx n n
  have hiff : (mat n n x.phys).det = 0 ↔ (mat n n x.val).det = 0 := by rw [hm]; exact det_zero_iff hs.ne' _
  constructor
  · intro h
    unfold linalgInv
    rw [if_pos (hiff.1 h)]
  · intro h
    unfold linalgInv
    rw [if_neg (fun e => h (hiff.2 e))]
    obtain ⟨z, hz, hc, hp⟩ := wrap1_cov (m := -k) (rule := recip) (f := fun l => flat (mat n n l)⁻¹) hx
      (by simp [recip, powerCF, CF.pow]) fun b l _ => by
        have hb := (scale_pos hx.pos b k).ne'
        rw [mat_scale, inv_smul_ne hb, flat_scale]
        have : (scale a b k)⁻¹ = scale a b (-k) := by
          have := scale_sub hx.pos b k 0
          rw [zero_sub] at this
          rw [this]
          cases b <;> simp [scale]
        rw [this]
    refine ⟨z, hz, hc, ?_⟩
    rw [hp, mat_flat]
    exact ⟨Matrix.mul_nonsing_inv _ (isUnit_iff_ne_zero.2 h), Matrix.nonsing_inv_mul _ (isUnit_iff_ne_zero.2 h)⟩

/-- C83: `det` of one matrix of size `n`. -/
theorem c83_det {a k : ℝ} {x : Arr} (n : ℕ) (hx : Conv a k x) :
    ∃ z, linalgDet n x = .ok z ∧ Conv a (k * n) z ∧ z.phys = [(mat n n x.phys).det] := by
  refine wrap1_cov (f := fun l => [(mat n n l).det]) hx (by simp [powerCF, CF.pow]) fun b l _ => ?_
  simp only [List.map_cons, List.map_nil, List.cons.injEq, and_true]
  rw [mat_scale, Matrix.det_smul, scale_pow hx.pos, Real.rpow_natCast, Fintype.card_fin]
  ring

/-- C83: `trace`. -/
theorem c83_trace {a k : ℝ} {x : Arr} (n : ℕ) (hx : Conv a k x) :
    ∃ z, linalgTrace n x = .ok z ∧ Conv a k z ∧ z.phys = [(mat n n x.phys).trace] := by
  refine c52_keep (f := fun l => [(mat n n l).trace]) (fun s l _ => ?_) hx
  simp only [List.map_cons, List.map_nil, List.cons.injEq, and_true]
  rw [mat_scale, Matrix.trace_smul, smul_eq_mul, mul_comm]

/-- C83: the product of two matrices, in any mix of frames. -/
theorem c83_dot {a k l : ℝ} {o p : Opd} (m n q : ℕ) (ha : 0 < a) (ho : HasExp a o k) (hp : HasExp a p l)
    (hne : (∃ x, o = .cosmo x) ∨ ∃ y, p = .cosmo y) :
    ∃ z, linalgDot m n q o p = .ok z ∧ Conv a (k + l) z ∧ mat m q z.phys = mat m n o.phys * mat n q p.phys := by
  have hr : mul2 o.cf p.cf = .ok (some ⟨some (k + l), some a⟩) := by
    cases o with
    | plain v =>
      cases p with
      | plain w => simp at hne
      | cosmo y =>
        simp only [HasExp] at ho hp
        simp [Opd.cf, hp.cf, mul2, ho]
    | cosmo x =>
      cases p with
      | plain w =>
        simp only [HasExp] at ho hp
        simp [Opd.cf, ho.cf, mul2, hp]
      | cosmo y =>
        simp only [HasExp] at ho hp
        simp [Opd.cf, hp.cf, mul2, ho.cf, CF.mul, Except.map]
  obtain ⟨h1, h2⟩ := wrap2_cov (f := fun u v => .ok (flat (mat m n u * mat n q v))) ha ho hp (flags_ne hne) hr
    fun b u v => by
      simp only [Except.map, Except.ok.injEq]
      rw [mat_scale, mat_scale, Matrix.smul_mul, Matrix.mul_smul, smul_smul, ← scale_mul ha, flat_scale]
  unfold linalgDot
  cases e : wrap2 mul2 (fun u v => .ok (flat (mat m n u * mat n q v))) o p with
  | error _ => rw [e] at h1; simp [Except.map] at h1
  | ok z =>
    rw [e] at h1
    simp only [Except.map, Except.ok.injEq] at h1
    exact ⟨z, rfl, h2 z e, by rw [h1, mat_flat]⟩

/-- C83: the norm of order `p`, for every positive `p`. -/
theorem c83_norm {a k p : ℝ} {x : Arr} (hp : 0 < p) (hx : Conv a k x) :
    ∃ z, linalgNorm p x = .ok z ∧ Conv a k z ∧ z.phys = [((x.phys.map (fun v => |v| ^ p)).sum) ^ (1 / p)] := by
  refine c52_keep (f := fun l => [((l.map (fun v => |v| ^ p)).sum) ^ (1 / p)]) (fun s l hs => ?_) hx
  simp only [List.map_cons, List.map_nil, List.cons.injEq, and_true, List.map_map]
  have h1 : (l.map ((fun v => |v| ^ p) ∘ fun v => v * s)) = l.map (fun v => |v| ^ p * s ^ p) := by
    refine List.map_congr_left fun v _ => ?_
    simp only [Function.comp]
    rw [abs_mul, abs_of_pos hs, Real.mul_rpow (abs_nonneg v) hs.le]
  rw [h1, List.sum_map_mul_right]
  have hnn : 0 ≤ (l.map (fun v => |v| ^ p)).sum := by
    apply List.sum_nonneg
    intro w hw
    obtain ⟨v, -, rfl⟩ := List.mem_map.1 hw
    exact Real.rpow_nonneg (abs_nonneg v) p
  rw [Real.mul_rpow hnn (Real.rpow_nonneg hs.le p), ← Real.rpow_mul hs.le, mul_one_div_cancel hp.ne', Real.rpow_one]

/-- C83: the largest absolute value. -/
theorem c83_norm_max {a k : ℝ} {x : Arr} (hx : Conv a k x) :
    ∃ z, linalgNormMax x = .ok z ∧ Conv a k z ∧ z.phys = [(x.phys.map (fun v => |v|)).foldl max 0] := by
  refine c52_keep (f := fun l => [(l.map (fun v => |v|)).foldl max 0]) (fun s l hs => ?_) hx
  simp only [List.map_cons, List.map_nil, List.cons.injEq, and_true, List.map_map]
  have key : ∀ (l : List ℝ) (t : ℝ), (l.map ((fun v => |v|) ∘ fun v => v * s)).foldl max (t * s)
      = (l.map (fun v => |v|)).foldl max t * s := by
    intro l
    induction l with
    | nil => intro t; rfl
    | cons v l ih =>
      intro t
      simp only [List.map_cons, List.foldl_cons, Function.comp]
      rw [abs_mul, abs_of_pos hs, ← max_mul_of_nonneg t |v| hs.le]
      exact ih _
  simpa using key l 0

/-- C83 fails for `norm(x, ord=0)`: a number of elements is labelled as a length and converts as one. -/
theorem c83_norm_zero_fails :
    ∃ z, linalgNormZero (com (1 / 2) 1 8) = .ok z ∧ (com (1 / 2) 1 8).phys = [4] ∧ z.phys = [1 / 2] := by
  refine ⟨⟨[1], some true, some ⟨some 1, some (1 / 2)⟩, true⟩, ?_, ?_, ?_⟩
  · simp [linalgNormZero, wrap1, prepare, flags, com, keep, Opd.vt, Opd.vals]
  · norm_num [Arr.phys, com]
  · norm_num [Arr.phys]

private theorem prepare_one {a k : ℝ} {x : Arr} (hx : Conv a k x) :
    ∃ p : Prepared, prepare true [.cosmo x] [] = .ok p ∧ p.comoving = x.comoving ∧ p.vt = true ∧ p.args = [.cosmo x] := by
  rcases hx.framed_cases with hc | hc
  · exact ⟨⟨[.cosmo x], [], [x.cf], [], some true, true⟩, by simp [prepare, flags, hc, Opd.cf, Opd.vt, hx.vt], hc.symm, rfl, rfl⟩
  · exact ⟨⟨[.cosmo x], [], [x.cf], [], some false, true⟩, by simp [prepare, flags, hc, Opd.cf, Opd.vt, hx.vt], hc.symm, rfl, rfl⟩

open Classical in
/-- C83: what `norm(x, ord=0)` stores is the number of physical values that are not zero, in either frame; only its label is wrong. -/
theorem c83_norm_zero_count {a k : ℝ} {x : Arr} (hx : Conv a k x) :
    ∃ z, linalgNormZero x = .ok z ∧ Conv a k z ∧ z.val = [((x.phys.countP fun v => decide (v ≠ 0) : ℕ) : ℝ)] := by
  obtain ⟨p, e, hc, hvt, hargs⟩ := prepare_one hx
  have key : ∃ s : ℝ, s ≠ 0 ∧ x.phys = x.val.map (fun v => v * s) := by
    rcases hx.framed_cases with hc' | hc'
    · exact ⟨a ^ k, (Real.rpow_pos_of_pos hx.pos k).ne', phys_true hx hc'⟩
    · exact ⟨1, one_ne_zero, by rw [phys_false hc']; simp⟩
  obtain ⟨s, hs, h1⟩ := key
  have hn : x.phys.countP (fun v => decide (v ≠ 0)) = (x.val.filter fun v => decide (v ≠ 0)).length := by
    rw [h1, List.countP_map, List.countP_eq_length_filter]
    congr 2
    funext v
    simp [hs]
  refine ⟨⟨[((x.val.filter fun v => decide (v ≠ 0)).length : ℝ)], p.comoving, x.cf, p.vt⟩, ?_, ⟨hx.pos, hx.cf, hvt, by rw [hc]; exact hx.framed⟩, by rw [hn]⟩
  unfold linalgNormZero wrap1
  simp [e, hargs, Opd.vals, keep]

/-- C83: eigenvalues and eigenvectors. If LAPACK's are right for the numbers stored in the array, the physical ones are right
for the physical matrix. -/
theorem c83_eig {a k : ℝ} {x : Arr} (n : ℕ) (hx : Conv a k x) (vals vecs : List ℝ → List ℝ)
    (h : Eigen (mat n n x.val) (vec n (vals x.val)) (mat n n (vecs x.val))) :
    ∃ w V, linalgEig vals vecs x = .ok (w, V) ∧ Conv a k w ∧ V = vecs x.val ∧
      Eigen (mat n n x.phys) (vec n w.phys) (mat n n V) := by
  obtain ⟨p, e, hc, hvt, hargs⟩ := prepare_one hx
  unfold linalgEig
  simp only [e, hargs, Opd.vals]
  have hw : Conv a k ⟨vals x.val, p.comoving, x.cf, p.vt⟩ := ⟨hx.pos, hx.cf, hvt, by rw [hc]; exact hx.framed⟩
  refine ⟨_, _, rfl, hw, rfl, ?_⟩
  have key : ∃ s : ℝ, x.phys = x.val.map (fun v => v * s) ∧
      (⟨vals x.val, p.comoving, x.cf, p.vt⟩ : Arr).phys = (vals x.val).map (fun v => v * s) := by
    rcases hx.framed_cases with hc' | hc'
    · exact ⟨a ^ k, phys_true hx hc', phys_true hw (hc.trans hc')⟩
    · refine ⟨1, by rw [phys_false hc']; simp, ?_⟩
      rw [phys_false (x := ⟨vals x.val, p.comoving, x.cf, p.vt⟩) (hc.trans hc')]
      simp
  obtain ⟨s, h1, h2⟩ := key
  rw [h1, h2, mat_scale, vec_scale]
  intro i
  rw [Matrix.smul_mulVec, h i]
  ext j
  simp only [Pi.smul_apply, smul_eq_mul]
  ring

private theorem misfit_scale {m n : ℕ} {s t : ℝ} (hs : s ≠ 0) (M : Matrix (Fin m) (Fin n) ℝ) (b : Fin m → ℝ)
    (x : Fin n → ℝ) : misfit (s • M) (t • b) ((s⁻¹ * t) • x) = t ^ 2 * misfit M b x := by
  unfold misfit
  rw [Finset.mul_sum]
  refine Finset.sum_congr rfl fun i _ => ?_
  rw [Matrix.smul_mulVec, Matrix.mulVec_smul]
  simp only [Pi.smul_apply, smul_eq_mul]
  have : s * (s⁻¹ * t * M.mulVec x i) - t * b i = t * (M.mulVec x i - b i) := by
    field_simp
  rw [this]
  ring

/-- C83: least squares. If LAPACK's solution is a least squares solution for all numbers, the physical solution is one of the
physical problem, the physical residual is its misfit, and the singular values are those of the physical matrix. -/
theorem c83_lstsq {a k l : ℝ} {x y : Arr} (m n : ℕ) (hx : Conv a k x) (hy : Conv a l y)
    (sol resid : List ℝ → List ℝ → List ℝ) (sing : List ℝ → List ℝ)
    (hsol : ∀ u v, LeastSquares (mat m n u) (vec m v) (vec n (sol u v)))
    (hres : ∀ u v, resid u v = [misfit (mat m n u) (vec m v) (vec n (sol u v))])
    (hsing : ∀ u, Singular (mat m n u) (vec n (sing u))) :
    ∃ r, linalgLstsq sol resid sing x y = .ok r ∧ Conv a (l - k) r.x ∧ Conv a (l * 2) r.residuals ∧ Conv a k r.singular ∧
      LeastSquares (mat m n x.phys) (vec m y.phys) (vec n r.x.phys) ∧
      r.residuals.phys = [misfit (mat m n x.phys) (vec m y.phys) (vec n r.x.phys)] ∧
      Singular (mat m n x.phys) (vec n r.singular.phys) := by
  obtain ⟨p, b, e, hc, hvt, -, hf, -⟩ := prepare_kw (a := a) (l := [.cosmo x, .cosmo y]) (kw := []) (by
      intro q hq
      rcases List.mem_pair.mp hq with rfl | rfl
      · exact ⟨k, hx⟩
      · exact ⟨l, hy⟩) (by simp) (by simp [flags])
  obtain ⟨u, v, hargs, h1, h2⟩ := forall2_two hf
  have e1 : x.phys = u.vals.map (fun t => t * scale a b k) := h1.phys (o := .cosmo x) hx
  have e2 : y.phys = v.vals.map (fun t => t * scale a b l) := h2.phys (o := .cosmo y) hy
  have hr : divRule x.cf y.cf = .ok (some ⟨some (l - k), some a⟩) :=
    div_rule (o := .cosmo x) (p := .cosmo y) hx hy (Or.inl ⟨x, rfl⟩)
  have hq : powerCF y.cf none 2 = .ok (some ⟨some (l * 2), some a⟩) := by simp [powerCF, hy.cf, CF.pow]
  have hs := (scale_pos hx.pos b k)
  unfold linalgLstsq
  simp only [e, hr, hq, hargs]
  refine ⟨_, rfl, ⟨hx.pos, rfl, hvt, by simp [hc]⟩, ⟨hx.pos, rfl, hvt, by simp [hc]⟩, ⟨hx.pos, hx.cf, hvt, by simp [hc]⟩,
    ?_, ?_, ?_⟩
  · rw [e1, e2, phys_result (m := l - k) (a := a) hc rfl, mat_scale, vec_scale, vec_scale, scale_sub hx.pos]
    intro w
    have hw : w = ((scale a b k)⁻¹ * scale a b l) • (((scale a b k)⁻¹ * scale a b l)⁻¹ • w) := by
      rw [smul_smul, mul_inv_cancel₀, one_smul]
      exact mul_ne_zero (inv_ne_zero hs.ne') (scale_pos hx.pos b l).ne'
    rw [hw, misfit_scale hs.ne', misfit_scale hs.ne']
    exact mul_le_mul_of_nonneg_left (hsol _ _ _) (sq_nonneg _)
  · rw [e1, e2, phys_result (m := l * 2) (a := a) hc rfl, phys_result (m := l - k) (a := a) hc rfl, mat_scale, vec_scale,
      vec_scale, scale_sub hx.pos, misfit_scale hs.ne', hres]
    simp only [List.map_cons, List.map_nil, List.cons.injEq, and_true]
    rw [scale_pow hx.pos, Real.rpow_two, mul_comm]
  · dsimp only
    rw [e1, phys_result (z := ⟨sing u.vals, p.comoving, x.cf, p.vt⟩) (m := k) (a := a) hc hx.cf, mat_scale, vec_scale]
    intro i
    obtain ⟨h0, w, hw, hv⟩ := hsing u.vals i
    refine ⟨mul_nonneg hs.le h0, w, hw, ?_⟩
    rw [Matrix.transpose_smul, Matrix.smul_mul, Matrix.mul_smul, smul_smul, Matrix.smul_mulVec, hv]
    ext j
    simp only [Pi.smul_apply, smul_eq_mul]
    ring

/-- A comoving matrix and a physical vector at scale factor 1/2, and the solution. -/
example : Conv (1 / 2) 1 ⟨[2, 0, 0, 4], some true, some ⟨some 1, some (1 / 2)⟩, true⟩ ∧
    Conv (1 / 2) 2 ⟨[3, 8], some false, some ⟨some 2, some (1 / 2)⟩, true⟩ ∧
    (mat 2 2 (Opd.cosmo ⟨[2, 0, 0, 4], some true, some ⟨some 1, some (1 / 2)⟩, true⟩).phys).det = 2 := by
  refine ⟨⟨by norm_num, rfl, rfl, by simp⟩, ⟨by norm_num, rfl, rfl, by simp⟩, ?_⟩
  rw [Matrix.det_fin_two]
  norm_num [Opd.phys, Arr.phys, mat]

example : Eigen (mat 1 1 [3]) (vec 1 [3]) (mat 1 1 [1]) ∧ LeastSquares (mat 1 1 [2]) (vec 1 [6]) (vec 1 [3]) ∧
    Singular (mat 1 1 [2]) (vec 1 [2]) := by
  refine ⟨?_, ?_, ?_⟩
  · intro i
    ext j
    fin_cases i; fin_cases j
    simp [mat, vec, Matrix.mulVec, dotProduct]
  · intro y
    have : misfit (mat 1 1 [2]) (vec 1 [6]) (vec 1 [3]) = 0 := by
      norm_num [misfit, mat, vec, Matrix.mulVec, dotProduct]
    rw [this]
    exact Finset.sum_nonneg fun i _ => sq_nonneg _
  · intro i
    fin_cases i
    refine ⟨by norm_num [vec], fun _ => 1, by simp [funext_iff], ?_⟩
    ext j
    fin_cases j
    norm_num [mat, vec, Matrix.mulVec, dotProduct, Matrix.mul_apply]

end Verif.Props
