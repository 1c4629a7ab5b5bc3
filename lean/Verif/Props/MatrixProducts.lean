import Verif.Model.MatrixProducts
import Verif.Spec.MatrixProducts
import Verif.Props.ShapedRows

/-!
# C139: matrix products act on physical values and go through masks (`swiftsimio/objects.py`)
-/

namespace Verif.Props
open Verif Verif.Spec Verif.Cosmo Verif.Formulas Verif.Shaped

/-- The formula of a product of two matrices with sums. -/
def productFormula (e e' : Shaped.Expr) : Shaped.Expr := .reduce List.sum 1 (.two .multiply (.newaxis 2 e) e')

/-- The formula of a product of a matrix and a vector with sums. -/
def vectorFormula (e e' : Shaped.Expr) : Shaped.Expr := .reduce List.sum 1 (.two .multiply e e')

private theorem ufunc_map (num num' : List (List ℝ) → Except Err (List ℝ)) (g : List ℝ → List ℝ)
    (h : ∀ a, num a = (num' a).map g) (args : List Opd) :
    Cosmo.ufunc .matmul num args = (Cosmo.ufunc .multiply num' args).map (propagate g) := by
  unfold Cosmo.ufunc
  have hr : registry .matmul = registry .multiply := rfl
  rw [hr]
  cases prepare true args [] with
  | error e => rfl
  | ok p =>
    dsimp only
    cases handle (registry .multiply) p.cfs args with
    | error e => rfl
    | ok c =>
      dsimp only
      rw [h]
      cases num' (p.args.map Opd.vals) with
      | error e => rfl
      | ok v => rfl

private theorem join_matrix (n k l : Nat) : Shaped.join [n, k, 1] [k, l] = .ok [n, k, l] := by
  unfold Shaped.join
  simp only [List.length_cons, List.length_nil, Shaped.pad, Nat.reduceAdd, max_eq_left (show 2 ≤ 3 by norm_num), Nat.sub_self,
    List.replicate_zero, List.nil_append, Nat.reduceSub, List.replicate_one, List.cons_append, joinPadded, Except.bind]
  by_cases h1 : l = 1
  · subst h1
    by_cases h2 : n = 1 <;> simp [h2]
  · by_cases h2 : n = 1 <;> simp [h1, h2, Ne.symm h1]

private theorem join_vector (n k : Nat) : Shaped.join [n, k] [k] = .ok [n, k] := by
  unfold Shaped.join
  simp only [List.length_cons, List.length_nil, Shaped.pad, Nat.reduceAdd, max_eq_left (show 1 ≤ 2 by norm_num), Nat.sub_self,
    List.replicate_zero, List.nil_append, Nat.reduceSub, List.replicate_one, List.cons_append, joinPadded, Except.bind]
  by_cases h2 : n = 1 <;> simp [h2]

private theorem getD_map_range {N i : Nat} (F : Nat → ℝ) (h : i < N) : ((List.range N).map F).getD i 0 = F i := by
  rw [List.getD_eq_getElem?_getD, List.getElem?_map, List.getElem?_range h]
  rfl

private theorem num_matrix (n k l : Nat) (a : List (List ℝ)) :
    numMatmul [n, k] [k, l] a = (numShaped (· * ·) [n, k, 1] [k, l] a).map (reduceAxis List.sum 1 [n, k, l]) := by
  match a with
  | [] => rfl
  | [_] => rfl
  | _ :: _ :: _ :: _ => rfl
  | [x, y] =>
    unfold numMatmul numShaped
    simp only [if_true, join_matrix, Except.map]
    refine congrArg Except.ok ?_
    unfold reduceAxis
    simp only [List.eraseIdx_cons_succ, List.eraseIdx_cons_zero, Shaped.count, mul_one, List.getD_cons_succ, List.getD_cons_zero,
      List.drop_succ_cons, List.drop_zero]
    refine List.map_congr_left fun i hi => congrArg List.sum (List.map_congr_left fun j hj => ?_)
    rw [List.mem_range] at hi hj
    have hl : 0 < l := by
      rcases Nat.eq_zero_or_pos l with rfl | h
      · simp at hi
      · exact h
    have hr := Nat.mod_lt i hl
    have hq : i / l < n := Nat.div_lt_of_lt_mul (by rwa [mul_comm])
    generalize hqe : i / l = q at hq ⊢
    generalize hre : i % l = r at hr ⊢
    have hidx : onAxis k l i j = q * (k * l) + (j * l + r) := by
      unfold onAxis
      rw [hqe, hre]
      ring
    have hin : j * l + r < k * l := by
      calc j * l + r < j * l + l := by omega
        _ = (j + 1) * l := by ring
        _ ≤ k * l := Nat.mul_le_mul_right l hj
    have hlt : q * (k * l) + (j * l + r) < n * (k * l) := by
      calc q * (k * l) + (j * l + r) < q * (k * l) + k * l := by omega
        _ = (q + 1) * (k * l) := by ring
        _ ≤ n * (k * l) := Nat.mul_le_mul_right _ hq
    have e1 : (q * (k * l) + (j * l + r)) / (k * l) = q := by
      rw [mul_comm q, Nat.mul_add_div (by omega), Nat.div_eq_of_lt hin, add_zero]
    have e2 : (q * (k * l) + (j * l + r)) % (k * l) = j * l + r := by
      rw [mul_comm q, Nat.mul_add_mod, Nat.mod_eq_of_lt hin]
    have e3 : (j * l + r) / l = j := by
      rw [mul_comm j, Nat.mul_add_div hl, Nat.div_eq_of_lt hr, add_zero]
    have e4 : (j * l + r) % l = r := by
      rw [mul_comm j, Nat.mul_add_mod, Nat.mod_eq_of_lt hr]
    rw [hidx, getD_map_range _ hlt]
    simp only [Shaped.pad, List.length_cons, List.length_nil, Nat.reduceAdd, Nat.sub_self, List.replicate_zero,
      List.nil_append, Nat.reduceSub, List.replicate_one, List.cons_append, Shaped.source, Shaped.count, mul_one, if_true, e1, e2, e3, e4]
    have hq' : (if n = 1 then 0 else q) = q := by split_ifs <;> omega
    have hj' : (if k = 1 then 0 else j) = j := by split_ifs <;> omega
    have hr' : (if l = 1 then 0 else r) = r := by split_ifs <;> omega
    simp only [Nat.div_one, hq', hj', hr']
    simp

private theorem num_vector (n k : Nat) (a : List (List ℝ)) :
    numMatmul [n, k] [k] a = (numShaped (· * ·) [n, k] [k] a).map (reduceAxis List.sum 1 [n, k]) := by
  match a with
  | [] => rfl
  | [_] => rfl
  | _ :: _ :: _ :: _ => rfl
  | [x, y] =>
    unfold numMatmul numShaped
    simp only [if_true, join_vector, Except.map]
    refine congrArg Except.ok ?_
    unfold reduceAxis
    simp only [List.eraseIdx_cons_succ, List.eraseIdx_cons_zero, Shaped.count, mul_one, List.getD_cons_succ, List.getD_cons_zero,
      List.drop_succ_cons, List.drop_zero]
    refine List.map_congr_left fun i hi => congrArg List.sum (List.map_congr_left fun j hj => ?_)
    rw [List.mem_range] at hi hj
    have hidx : onAxis k 1 i j = i * k + j := by
      unfold onAxis
      simp [Nat.mod_one]
    have hlt : i * k + j < n * k := by
      calc i * k + j < i * k + k := by omega
        _ = (i + 1) * k := by ring
        _ ≤ n * k := Nat.mul_le_mul_right _ hi
    have e1 : (i * k + j) / k = i := by
      rw [mul_comm i, Nat.mul_add_div (by omega), Nat.div_eq_of_lt hj, add_zero]
    have e2 : (i * k + j) % k = j := by
      rw [mul_comm i, Nat.mul_add_mod, Nat.mod_eq_of_lt hj]
    rw [hidx, getD_map_range _ hlt]
    simp only [Shaped.pad, List.length_cons, List.length_nil, Nat.reduceAdd, Nat.sub_self, List.replicate_zero,
      List.nil_append, Nat.reduceSub, List.replicate_one, List.cons_append, Shaped.source, Shaped.count, mul_one, if_true, e1, e2]
    have hq' : (if n = 1 then 0 else i) = i := by split_ifs <;> omega
    have hj' : (if k = 1 then 0 else j) = j := by split_ifs <;> omega
    simp only [Nat.div_one, hq', hj']
    simp

private theorem operate_matmul {s t s' t' : List Nat} {g : List ℝ → List ℝ}
    (h : ∀ a, numMatmul s t a = (numShaped (· * ·) s' t' a).map g) (u v : Opd) :
    operateMatmul s t u v = (operate .multiply s' t' u v).bind (applyWhole g) := by
  have hf : Bin.fn .multiply = (fun x y : ℝ => x * y) := rfl
  cases u with
  | plain u =>
    cases v with
    | plain v =>
      unfold operateMatmul operate
      dsimp only
      rw [h, hf]
      cases numShaped (fun x y : ℝ => x * y) s' t' [u, v] <;> rfl
    | cosmo v =>
      unfold operateMatmul operate
      dsimp only
      rw [ufunc_map _ _ _ h, hf]
      show Except.map _ (Except.map _ (Cosmo.ufunc .multiply _ _)) = Except.bind (Except.map _ (Cosmo.ufunc .multiply _ _)) _
      cases Cosmo.ufunc .multiply (numShaped (fun x y : ℝ => x * y) s' t') [.plain u, .cosmo v] <;> rfl
  | cosmo u =>
    have h1 : operateMatmul s t (.cosmo u) v = (Cosmo.ufunc .matmul (numMatmul s t) [.cosmo u, v]).map .cosmo := rfl
    have h2 : operate .multiply s' t' (.cosmo u) v = (Cosmo.ufunc .multiply (numShaped (fun x y : ℝ => x * y) s' t') [.cosmo u, v]).map .cosmo := rfl
    rw [h1, h2, ufunc_map _ _ _ h]
    show Except.map _ (Except.map _ (Cosmo.ufunc .multiply _ _)) = Except.bind (Except.map _ (Cosmo.ufunc .multiply _ _)) _
    cases Cosmo.ufunc .multiply (numShaped (fun x y : ℝ => x * y) s' t') [.cosmo u, v] <;> rfl

/-- C139. The product of two matrices is the formula with sums, in every frame, with its attributes and with its errors. -/
theorem c139_matrix (shapes : Nat → List Nat) (env : Nat → Arr) (e e' : Shaped.Expr) (x y : Value)
    (hx : Shaped.eval shapes env e = .ok x) (hy : Shaped.eval shapes env e' = .ok y) (n k l : Nat) (hs : x.shape = [n, k])
    (ht : y.shape = [k, l]) : Shaped.matmul x y = Shaped.eval shapes env (productFormula e e') := by
  obtain ⟨s, u⟩ := x
  obtain ⟨t, v⟩ := y
  dsimp only at hs ht
  subst hs ht
  have hnew : Shaped.eval shapes env (.newaxis 2 e) = .ok ⟨[n, k, 1], u⟩ := by
    simp only [Shaped.eval, hx, Except.bind]
    cases u <;> rfl
  have hshape : matmulShape [n, k] [k, l] = .ok [n, l] := by simp [matmulShape]
  have hone : Shaped.eval shapes env (productFormula e e') = (Shaped.apply2 .multiply ⟨[n, k, 1], u⟩ ⟨[k, l], v⟩).bind
      (reshaped .index (fun s => 1 < s.length) (·.eraseIdx 1) (reduceAxis List.sum 1)) := by
    show ((Shaped.eval shapes env (.newaxis 2 e)).bind fun x => (Shaped.eval shapes env e').bind fun y =>
      Shaped.apply2 .multiply x y).bind _ = _
    rw [hnew, hy]
    rfl
  rw [hone]
  unfold Shaped.matmul Shaped.apply2
  dsimp only
  rw [operate_matmul (num_matrix n k l), join_matrix, hshape]
  cases operate .multiply [n, k, 1] [k, l] u v with
  | error err => rfl
  | ok r => cases r <;> rfl

/-- C139. The same for a matrix and a vector. -/
theorem c139_vector (shapes : Nat → List Nat) (env : Nat → Arr) (e e' : Shaped.Expr) (x y : Value)
    (hx : Shaped.eval shapes env e = .ok x) (hy : Shaped.eval shapes env e' = .ok y) (n k : Nat) (hs : x.shape = [n, k])
    (ht : y.shape = [k]) : Shaped.matmul x y = Shaped.eval shapes env (vectorFormula e e') := by
  obtain ⟨s, u⟩ := x
  obtain ⟨t, v⟩ := y
  dsimp only at hs ht
  subst hs ht
  have hshape : matmulShape [n, k] [k] = .ok [n] := by simp [matmulShape]
  have hone : Shaped.eval shapes env (vectorFormula e e') = (Shaped.apply2 .multiply ⟨[n, k], u⟩ ⟨[k], v⟩).bind
      (reshaped .index (fun s => 1 < s.length) (·.eraseIdx 1) (reduceAxis List.sum 1)) := by
    show ((Shaped.eval shapes env e).bind fun x => (Shaped.eval shapes env e').bind fun y =>
      Shaped.apply2 .multiply x y).bind _ = _
    rw [hx, hy]
    rfl
  rw [hone]
  unfold Shaped.matmul Shaped.apply2
  dsimp only
  rw [operate_matmul (num_vector n k), join_vector, hshape]
  cases operate .multiply [n, k] [k] u v with
  | error err => rfl
  | ok r => cases r <;> rfl

/-- C139. Matrices whose inner lengths differ are refused, also if the length could be broadcast. -/
theorem c139_refused (x y : Value) (n k : Nat) (hs : x.shape = [n, k]) (k' : Nat) (hk : k ≠ k')
    (ht : y.shape = [k'] ∨ ∃ l, y.shape = [k', l]) : ∃ err, Shaped.matmul x y = .error err := by
  have hshape : matmulShape x.shape y.shape = .error .value := by
    rcases ht with ht | ⟨l, ht⟩ <;> rw [hs, ht] <;> simp [matmulShape, hk]
  unfold Shaped.matmul
  rw [hshape]
  cases operateMatmul x.shape y.shape x.val y.val with
  | error err => exact ⟨err, rfl⟩
  | ok r => exact ⟨.value, rfl⟩

private theorem zip_at {f : ℝ → ℝ → ℝ} {x y : NumberTable} {s t : List Nat} (hs : x.shape = s) (ht : y.shape = t) (h : Fit s t) :
    x.zip f y = .ok ⟨fitted s t, fun l => f (x.entry (own s l)) (y.entry (own t l))⟩ := by
  subst hs ht
  exact if_pos h

private theorem fit_matrix (n k l : Nat) : Fit [n, k, 1] [k, l] := by
  intro i
  match i with
  | 0 => exact .inr (.inl rfl)
  | 1 => exact .inl rfl
  | 2 => exact .inr (.inr rfl)
  | i + 3 => exact .inr (.inl (by simp [lengthOf]))

private theorem fitted_matrix (n k l : Nat) : fitted [n, k, 1] [k, l] = [n, k, l] := by
  simp [fitted, lengthOf, List.range_succ]
  intro h
  exact h.symm

private theorem fit_vector (n k : Nat) : Fit [n, k] [k] := by
  intro i
  match i with
  | 0 => exact .inl rfl
  | 1 => exact .inr (.inr rfl)
  | i + 2 => exact .inr (.inl (by simp [lengthOf]))

private theorem fitted_vector (n k : Nat) : fitted [n, k] [k] = [n, k] := by
  simp [fitted, lengthOf, List.range_succ]
  intro h
  exact h.symm

private theorem sum_range_fin (k : Nat) (F : Nat → ℝ) : ((List.range k).map F).sum = ∑ j : Fin k, F j.val := by
  rw [← List.sum_ofFn]
  refine congrArg List.sum (List.ext_getElem (by simp) fun i h1 h2 => ?_)
  simp

private theorem values_two {t : NumberTable} {n k : Nat} (h : t.shape = [n, k]) {i j : Nat} (hi : i < n) (hj : j < k) :
    t.values.getD (i * k + j) 0 = t.entry [i, j] := by
  have := values_at (t := t) (l := [i, j]) (by rw [h]; exact .cons hi (.cons hj .nil))
  rw [h] at this
  simpa [Shaped.ravel, Shaped.count] using this

private theorem values_one {t : NumberTable} {n : Nat} (h : t.shape = [n]) {i : Nat} (hi : i < n) :
    t.values.getD i 0 = t.entry [i] := by
  have := values_at (t := t) (l := [i]) (by rw [h]; exact .cons hi .nil)
  rw [h] at this
  simpa [Shaped.ravel, Shaped.count] using this

private theorem meaning_of {a : ℝ} (ha : 0 < a) {ks : Nat → ℝ} {shapes : Nat → List Nat} {env : Nat → Arr} (henv : ∀ i, Conv a (ks i) (env i))
    (hlen : ∀ i, (env i).val.length = (tuples (shapes i)).length) {e : Shaped.Expr} {p : ℝ} (h : ShapedDimension ks e p) {x : Value}
    (hx : Shaped.eval shapes env e = .ok x) :
    ∃ t, shapedMeaning (fun i => tableOf (shapes i) (env i).phys) e = .ok t ∧ t.shape = x.shape ∧ t.values = x.val.phys := by
  have h1 := c130_value ha henv hlen h
  rw [hx] at h1
  cases ht : shapedMeaning (fun i => tableOf (shapes i) (env i).phys) e with
  | error err =>
    rw [ht] at h1
    cases h1
  | ok t =>
    rw [ht] at h1
    simp only [Except.map, Except.ok.injEq, Prod.mk.injEq] at h1
    exact ⟨t, rfl, h1.1.symm, h1.2.symm⟩

private theorem product_scales {ks : Nat → ℝ} {e e' : Shaped.Expr} {p q : ℝ} (h : ShapedDimension ks e p) (h' : ShapedDimension ks e' q) :
    ShapedDimension ks (productFormula e e') (p + q) := .reduce scales_sum 1 (.mul (.newaxis 2 h) h')

private theorem vector_scales {ks : Nat → ℝ} {e e' : Shaped.Expr} {p q : ℝ} (h : ShapedDimension ks e p) (h' : ShapedDimension ks e' q) :
    ShapedDimension ks (vectorFormula e e') (p + q) := .reduce scales_sum 1 (.mul h h')

/-- C139. The physical values of a product of matrices are the product of the matrices of physical values, whatever the frames of both, and
the exponents of the factors are added. -/
theorem c139_physical {a : ℝ} (ha : 0 < a) {ks : Nat → ℝ} {shapes : Nat → List Nat} {env : Nat → Arr} (henv : ∀ i, Conv a (ks i) (env i))
    (hlen : ∀ i, (env i).val.length = (tuples (shapes i)).length) {e e' : Shaped.Expr} {p q : ℝ} (h : ShapedDimension ks e p)
    (h' : ShapedDimension ks e' q) {x y : Value} (hx : Shaped.eval shapes env e = .ok x) (hy : Shaped.eval shapes env e' = .ok y) {n k l : Nat}
    (hs : x.shape = [n, k]) (ht : y.shape = [k, l]) :
    ∃ r, Shaped.matmul x y = .ok r ∧ r.shape = [n, l] ∧ (∀ z, r.val = .cosmo z → Conv a (p + q) z) ∧
      matrixOf n l r.val.phys = matrixOf n k x.val.phys * matrixOf k l y.val.phys := by
  obtain ⟨t, m1, s1, v1⟩ := meaning_of ha henv hlen h hx
  obtain ⟨t', m2, s2, v2⟩ := meaning_of ha henv hlen h' hy
  rw [hs] at s1
  rw [ht] at s2
  have hm : shapedMeaning (fun i => tableOf (shapes i) (env i).phys) (productFormula e e') =
      .ok ⟨[n, l], fun c => ((List.range k).map fun j => t.entry ((own [n, k, 1] (c.take 1 ++ j :: c.drop 1)).take 2 ++
        (own [n, k, 1] (c.take 1 ++ j :: c.drop 1)).drop 3) * t'.entry (own [k, l] (c.take 1 ++ j :: c.drop 1))).sum⟩ := by
    have hn : shapedMeaning (fun i => tableOf (shapes i) (env i).phys) (.newaxis 2 e) =
        .ok ⟨[n, k, 1], fun c => t.entry (c.take 2 ++ c.drop 3)⟩ := by
      simp only [shapedMeaning, m1, Except.bind, s1]
      rfl
    show ((shapedMeaning _ (.newaxis 2 e)).bind fun x => (shapedMeaning _ e').bind fun y => x.zip _ y).bind _ = _
    rw [hn, m2]
    simp only [Except.bind]
    rw [zip_at rfl s2 (fit_matrix n k l), fitted_matrix]
    rfl
  have hv := c130_value ha henv hlen (product_scales h h')
  rw [hm, ← c139_matrix shapes env e e' x y hx hy n k l hs ht] at hv
  cases hr : Shaped.matmul x y with
  | error err =>
    rw [hr] at hv
    cases hv
  | ok r =>
    rw [hr] at hv
    simp only [Except.map, Except.ok.injEq, Prod.mk.injEq] at hv
    refine ⟨r, rfl, hv.1, ?_, ?_⟩
    · exact (c130_factor ha henv hlen (product_scales h h') ((c139_matrix shapes env e e' x y hx hy n k l hs ht).symm.trans hr)).1
    · funext i j
      rw [Matrix.mul_apply]
      unfold matrixOf
      rw [hv.2, values_two rfl i.isLt j.isLt, ← v1, ← v2]
      dsimp only
      rw [sum_range_fin]
      refine Finset.sum_congr rfl fun c _ => ?_
      rw [values_two s1 i.isLt c.isLt, values_two s2 c.isLt j.isLt]
      have hi := i.isLt
      have hj := j.isLt
      have hc := c.isLt
      have e1 : own [n, k, 1] [i.val, c.val, j.val] = [i.val, c.val, 0] := by
        simp [own]
        omega
      have e2 : own [k, l] [i.val, c.val, j.val] = [c.val, j.val] := by
        simp [own]
        omega
      simp only [List.take_succ_cons, List.take_zero, List.drop_succ_cons, List.drop_zero, List.cons_append, List.nil_append, e1, e2, List.append_nil]

/-- C139. The same for a matrix and a vector. -/
theorem c139_physical_vector {a : ℝ} (ha : 0 < a) {ks : Nat → ℝ} {shapes : Nat → List Nat} {env : Nat → Arr} (henv : ∀ i, Conv a (ks i) (env i))
    (hlen : ∀ i, (env i).val.length = (tuples (shapes i)).length) {e e' : Shaped.Expr} {p q : ℝ} (h : ShapedDimension ks e p)
    (h' : ShapedDimension ks e' q) {x y : Value} (hx : Shaped.eval shapes env e = .ok x) (hy : Shaped.eval shapes env e' = .ok y) {n k : Nat}
    (hs : x.shape = [n, k]) (ht : y.shape = [k]) :
    ∃ r, Shaped.matmul x y = .ok r ∧ r.shape = [n] ∧ (∀ z, r.val = .cosmo z → Conv a (p + q) z) ∧
      vectorOf n r.val.phys = (matrixOf n k x.val.phys).mulVec (vectorOf k y.val.phys) := by
  obtain ⟨t, m1, s1, v1⟩ := meaning_of ha henv hlen h hx
  obtain ⟨t', m2, s2, v2⟩ := meaning_of ha henv hlen h' hy
  rw [hs] at s1
  rw [ht] at s2
  have hm : shapedMeaning (fun i => tableOf (shapes i) (env i).phys) (vectorFormula e e') =
      .ok ⟨[n], fun c => ((List.range k).map fun j => t.entry (own [n, k] (c.take 1 ++ j :: c.drop 1)) *
        t'.entry (own [k] (c.take 1 ++ j :: c.drop 1))).sum⟩ := by
    show ((shapedMeaning _ e).bind fun x => (shapedMeaning _ e').bind fun y => x.zip _ y).bind _ = _
    rw [m1, m2]
    simp only [Except.bind]
    rw [zip_at s1 s2 (fit_vector n k), fitted_vector]
    rfl
  have hv := c130_value ha henv hlen (vector_scales h h')
  rw [hm, ← c139_vector shapes env e e' x y hx hy n k hs ht] at hv
  cases hr : Shaped.matmul x y with
  | error err =>
    rw [hr] at hv
    cases hv
  | ok r =>
    rw [hr] at hv
    simp only [Except.map, Except.ok.injEq, Prod.mk.injEq] at hv
    refine ⟨r, rfl, hv.1, ?_, ?_⟩
    · exact (c130_factor ha henv hlen (vector_scales h h') ((c139_vector shapes env e e' x y hx hy n k hs ht).symm.trans hr)).1
    · funext i
      unfold Matrix.mulVec dotProduct matrixOf vectorOf
      rw [hv.2, values_one rfl i.isLt, ← v1, ← v2]
      dsimp only
      rw [sum_range_fin]
      refine Finset.sum_congr rfl fun c _ => ?_
      rw [values_two s1 i.isLt c.isLt, values_one s2 c.isLt]
      have hi := i.isLt
      have hc := c.isLt
      have e1 : own [n, k] [i.val, c.val] = [i.val, c.val] := by
        simp [own]
        omega
      have e2 : own [k] [i.val, c.val] = [c.val] := by
        simp [own]
        omega
      simp only [List.take_succ_cons, List.take_zero, List.drop_succ_cons, List.drop_zero, List.cons_append, List.nil_append, e1, e2]

/-- C139. The rows of positions read with a mask, multiplied by a matrix, are the rows of the product of all positions and the matrix. -/
theorem c139_masked {a : ℝ} (ha : 0 < a) {ks : Nat → ℝ} {shapes shapes' : Nat → List Nat} {env env' : Nat → Arr} (henv : ∀ i, Conv a (ks i) (env i))
    (henv' : ∀ i, Conv a (ks i) (env' i)) (hlen : ∀ i, (env i).val.length = (tuples (shapes i)).length)
    (hlen' : ∀ i, (env' i).val.length = (tuples (shapes' i)).length) {n : Nat} {rows : List Int} (hrows : ∀ r ∈ rows, 0 ≤ r ∧ r < n) {row : Nat → Bool}
    (hr : ∀ i, row i = true → RowsOfShaped n rows (shapes i) (env i).phys (shapes' i) (env' i).phys)
    (hf : ∀ i, row i = false → shapes' i = shapes i ∧ (env' i).phys = (env i).phys) {e e' : Shaped.Expr} {p q : ℝ} (h : ShapedDimension ks e p)
    (h' : ShapedDimension ks e' q) (he : PerRow (fun i => (shapes i).length) row e true 2) (he' : PerRow (fun i => (shapes i).length) row e' false 2)
    {x y x' y' : Value} (hx : Shaped.eval shapes env e = .ok x) (hy : Shaped.eval shapes env e' = .ok y)
    (hx' : Shaped.eval shapes' env' e = .ok x') (hy' : Shaped.eval shapes' env' e' = .ok y') {k l : Nat}
    (hs : x.shape = [n, k]) (ht : y.shape = [k, l]) :
    ∃ r r', Shaped.matmul x y = .ok r ∧ Shaped.matmul x' y' = .ok r' ∧ RowsOfShaped n rows r.shape r.val.phys r'.shape r'.val.phys := by
  have hs' : x'.shape = [rows.length, k] := by
    rcases c131_rows ha henv henv' hlen hlen' hrows hr hf h he with ⟨err, g1, -⟩ | ⟨z, z', g1, g2, u, R, R', g3, g4, -, -, -⟩
    · rw [hx] at g1
      cases g1
    · rw [hx] at g1
      rw [hx'] at g2
      cases g1
      cases g2
      rw [hs] at g3
      simp only [List.cons.injEq, true_and] at g3
      rw [g4, ← g3]
  have ht' : y'.shape = [k, l] := by
    obtain ⟨t, m1, s1, -⟩ := meaning_of ha henv hlen h' hy
    obtain ⟨t', m2, s2, -⟩ := meaning_of ha henv' hlen' h' hy'
    have hsel := table_rows (n := n) (js := rows.map Int.toNat) (by
      intro j hj
      obtain ⟨r, hr, rfl⟩ := List.mem_map.1 hj
      have := hrows r hr
      omega) (vals := fun i => tableOf (shapes i) (env i).phys) (vals' := fun i => tableOf (shapes' i) (env' i).phys) (fun i => by
      cases hi : row i with
      | true => exact table_rows_of hrows (hr i hi)
      | false => exact ⟨by rw [(hf i hi).1, (hf i hi).2], rfl⟩) he'
    rw [m1, m2] at hsel
    cases hsel with
    | ok hh => rw [← s2, hh.1, s1, ht]
  have hm := c139_matrix shapes env e e' x y hx hy n k l hs ht
  have hm' := c139_matrix shapes' env' e e' x' y' hx' hy' rows.length k l hs' ht'
  have hper : PerRow (fun i => (shapes i).length) row (productFormula e e') true 2 :=
    .reduce (r := 3) (.left (.newaxis he (by simp)) he' (by omega)) (by simp)
  rcases c131_rows ha henv henv' hlen hlen' hrows hr hf (product_scales h h') hper with ⟨err, g1, -⟩ | ⟨z, z', g1, g2, g3⟩
  · obtain ⟨r, hok, -⟩ := c139_physical ha henv hlen h h' hx hy hs ht
    rw [← hm, hok] at g1
    cases g1
  · exact ⟨z, z', hm.trans g1, hm'.trans g2, g3⟩

open Matrix in
/-- C139. Rotating positions with a matrix of bare numbers: the factor is kept, and so are the physical products of all pairs of rows, hence
their lengths and angles. -/
theorem c139_rotated {a : ℝ} (ha : 0 < a) {ks : Nat → ℝ} {shapes : Nat → List Nat} {env : Nat → Arr} (henv : ∀ i, Conv a (ks i) (env i))
    (hlen : ∀ i, (env i).val.length = (tuples (shapes i)).length) {e : Shaped.Expr} {p : ℝ} (h : ShapedDimension ks e p) {x : Value}
    (hx : Shaped.eval shapes env e = .ok x) {n k : Nat} (hs : x.shape = [n, k]) {v : List ℝ} (hv : v.length = (tuples [k, k]).length)
    (hrot : matrixOf k k v * (matrixOf k k v)ᵀ = 1) :
    ∃ r, Shaped.matmul x ⟨[k, k], .plain v⟩ = .ok r ∧ r.shape = [n, k] ∧ (∀ z, r.val = .cosmo z → Conv a p z) ∧
      matrixOf n k r.val.phys * (matrixOf n k r.val.phys)ᵀ = matrixOf n k x.val.phys * (matrixOf n k x.val.phys)ᵀ := by
  obtain ⟨r, h1, h2, h3, h4⟩ := c139_physical ha henv hlen h (.nums [k, k] v hv) hx (y := ⟨[k, k], .plain v⟩) rfl hs rfl
  refine ⟨r, h1, h2, fun z hz => by simpa using h3 z hz, ?_⟩
  have hp : matrixOf k k (Opd.plain v).phys = matrixOf k k v := rfl
  rw [h4, hp, Matrix.transpose_mul, Matrix.mul_assoc, ← Matrix.mul_assoc (matrixOf k k v), hrot, Matrix.one_mul]

/-! ### Example: two positions in a plane, comoving, are turned by a quarter. -/

private noncomputable def posM : Nat → Arr := fun _ => ⟨[1, 2, 3, 4], some true, some ⟨some 1, some (1 / 2)⟩, true⟩

private theorem posM_conv (i : Nat) : Conv (1 / 2) 1 (posM i) := by
  refine ⟨by norm_num, rfl, rfl, by simp [posM]⟩

private theorem posM_length (i : Nat) : (posM i).val.length = (tuples [2, 2]).length := by
  simp [posM, tuples]

example : ∃ r, Shaped.matmul ⟨[2, 2], .cosmo (posM 0)⟩ ⟨[2, 2], .plain [0, 1, -1, 0]⟩ = .ok r ∧ r.shape = [2, 2] ∧
    (∀ z, r.val = .cosmo z → Conv (1 / 2) 1 z) ∧
    matrixOf 2 2 r.val.phys * (matrixOf 2 2 r.val.phys).transpose =
      matrixOf 2 2 (posM 0).phys * (matrixOf 2 2 (posM 0).phys).transpose := by
  refine c139_rotated (a := 1 / 2) (by norm_num) (ks := fun _ => 1) (shapes := fun _ => [2, 2]) posM_conv posM_length (e := .var 0) (.var 0)
    (x := ⟨[2, 2], .cosmo (posM 0)⟩) rfl rfl (by simp [tuples]) ?_
  funext i j
  rw [Matrix.mul_apply, Fin.sum_univ_two]
  fin_cases i <;> fin_cases j <;> simp [matrixOf]

/-- C139: a matrix with two columns and a vector of length one are refused, although their ordinary product is broadcast. -/
example : (∃ err, Shaped.matmul ⟨[2, 2], .cosmo (posM 0)⟩ ⟨[1], .plain [3]⟩ = .error err) ∧
    (∃ r, Shaped.apply2 .multiply ⟨[2, 2], .cosmo (posM 0)⟩ ⟨[1], .plain [3]⟩ = .ok r) := by
  refine ⟨c139_refused _ _ 2 2 rfl 1 (by decide) (.inl rfl), ?_⟩
  exact ⟨_, rfl⟩

/-- The second of the two positions. -/
private noncomputable def lastM : Nat → Arr := fun _ => ⟨[3, 4], some true, some ⟨some 1, some (1 / 2)⟩, true⟩

example : ∃ r r', Shaped.matmul ⟨[2, 2], .cosmo (posM 0)⟩ ⟨[2, 2], .plain [0, 1, -1, 0]⟩ = .ok r ∧
    Shaped.matmul ⟨[1, 2], .cosmo (lastM 0)⟩ ⟨[2, 2], .plain [0, 1, -1, 0]⟩ = .ok r' ∧
    RowsOfShaped 2 [1] r.shape r.val.phys r'.shape r'.val.phys := by
  refine c139_masked (a := 1 / 2) (by norm_num) (ks := fun _ => 1) (shapes := fun _ => [2, 2]) (shapes' := fun _ => [1, 2]) (env := posM)
    (env' := lastM) posM_conv (fun i => ⟨by norm_num, rfl, rfl, by simp [lastM]⟩) posM_length (fun i => by simp [lastM, tuples]) (n := 2)
    (rows := [1]) (by simp) (row := fun _ => true) (fun i _ => ?_) (fun i h => by simp at h) (e := .var 0) (e' := .nums [2, 2] [0, 1, -1, 0])
    (.var 0) (.nums _ _ (by simp [tuples])) (.var (rank := fun _ => 2) (row := fun _ => true) 0) (.nums _ _) rfl rfl rfl rfl rfl rfl
  refine ⟨[2], [[1 / 2, 1], [3 / 2, 2]], [[3 / 2, 2]], rfl, rfl, ⟨rfl, ?_, ?_⟩, ⟨rfl, ?_, ?_⟩, ?_⟩
  · simp [tuples, List.range_succ]
  · simp [posM, Arr.phys, -one_div]
    norm_num
  · simp [tuples, List.range_succ]
  · simp [lastM, Arr.phys, -one_div]
    norm_num
  · simp [select, valueAt]

end Verif.Props
