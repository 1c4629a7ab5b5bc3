import Verif.Lemmas.Shaped
import Verif.Props.Formulas

/-!
# C130: formulas of arrays with several dimensions
-/

namespace Verif.Props
open Verif Verif.Cosmo Verif.Formulas Verif.Spec
open Verif.Shaped (numShaped reduceAxis selectAxis takeAxis transposed onAxis Value mem_tuples map_range values_at length_values length_tuples)

private theorem getD_scaled (x : List ℝ) (c : ℝ) (i : Nat) : (x.map (· * c)).getD i 0 = x.getD i 0 * c := by
  simp only [List.getD_eq_getElem?_getD, List.getElem?_map]
  cases x[i]? <;> simp

private theorem numShaped_map {f : ℝ → ℝ → ℝ} {c d e : ℝ} (h : ∀ u v, f (u * c) (v * d) = f u v * e) (s t : List Nat) (x y : List ℝ) :
    numShaped f s t [x.map (· * c), y.map (· * d)] = (numShaped f s t [x, y]).map (fun v => v.map (· * e)) := by
  simp only [numShaped]
  cases Shaped.join s t with
  | error _ => rfl
  | ok r =>
    simp only [Except.map, List.map_map]
    refine congrArg Except.ok (List.map_congr_left fun i _ => ?_)
    rw [getD_scaled, getD_scaled, h]
    rfl

private theorem shaped_cov {a k l m : ℝ} {u : Ufunc} {f : ℝ → ℝ → ℝ} {o p : Opd} (s t : List Nat) (ho : HasExp a o k) (hp : HasExp a p l)
    (hne : flags [o, p] ≠ []) (hh : handle (registry u) [o.cf, p.cf] [o, p] = .ok (some ⟨some m, some a⟩)) (ha : 0 < a)
    (hom : ∀ u v, f (u * a ^ k) (v * a ^ l) = f u v * a ^ m) :
    (ufunc u (numShaped f s t) [o, p]).map Arr.phys = numShaped f s t [o.phys, p.phys] ∧
      ∀ z, ufunc u (numShaped f s t) [o, p] = .ok z → Conv a m z := by
  have hmix : ∀ q ∈ [o, p], Mix a q := by
    intro q hq
    rcases List.mem_pair.mp hq with rfl | rfl
    · exact ho.mix
    · exact hp.mix
  obtain ⟨r, b, e, hc, hvt, hcfs, hf, -⟩ := prepare_mix hmix hne
  obtain ⟨o', p', hargs, h1, h2⟩ := forall2_two hf
  have e1 := h1.phys ho
  have e2 := h2.phys hp
  have key := numShaped_map (scale_hom hom b) s t o'.vals p'.vals
  unfold ufunc
  simp only [e, hcfs, List.map_cons, List.map_nil, hh, hargs, e1, e2]
  rw [key]
  cases numShaped f s t [o'.vals, p'.vals] with
  | error q => simp [Except.map]
  | ok v =>
    simp only [Except.map, Except.ok.injEq]
    refine ⟨phys_result hc rfl, ?_⟩
    rintro z rfl
    exact ⟨ha, rfl, hvt, by simp [hc]⟩

private theorem operate_cosmo {f : Bin} {s t : List Nat} {o p : Opd} (h : ¬ (IsPlain o ∧ IsPlain p)) :
    Shaped.operate f s t o p = (ufunc f.ufunc (numShaped f.fn s t) [o, p]).map .cosmo := by
  cases o with
  | cosmo x => rfl
  | plain u => cases p with
    | cosmo y => rfl
    | plain v => exact absurd ⟨⟨u, rfl⟩, ⟨v, rfl⟩⟩ h

private theorem operate_cov {a k l m : ℝ} (ha : 0 < a) {f : Bin} {s t : List Nat} {o p : Opd} (ho : HasExp a o k) (hp : HasExp a p l)
    (hplain : IsPlain o → IsPlain p → m = 0)
    (hh : ¬ (IsPlain o ∧ IsPlain p) → handle (registry f.ufunc) [o.cf, p.cf] [o, p] = .ok (some ⟨some m, some a⟩))
    (hom : ∀ u v, f.fn (u * a ^ k) (v * a ^ l) = f.fn u v * a ^ m) :
    (Shaped.operate f s t o p).map Opd.phys = numShaped f.fn s t [o.phys, p.phys] ∧
      ∀ r, Shaped.operate f s t o p = .ok r → HasExp a r m ∧ (IsPlain r ↔ IsPlain o ∧ IsPlain p) := by
  by_cases hb : IsPlain o ∧ IsPlain p
  · have hm := hplain hb.1 hb.2
    obtain ⟨⟨u, rfl⟩, v, rfl⟩ := hb
    simp only [Shaped.operate, Opd.phys]
    cases numShaped f.fn s t [u, v] with
    | error e => exact ⟨rfl, by rintro r hr; cases hr⟩
    | ok w =>
      refine ⟨rfl, ?_⟩
      rintro r hr
      cases hr
      exact ⟨hm, ⟨fun _ => ⟨⟨u, rfl⟩, v, rfl⟩, fun _ => ⟨w, rfl⟩⟩⟩
  · rw [operate_cosmo hb]
    have hne : flags [o, p] ≠ [] := by
      intro h
      obtain ⟨u, v, rfl, rfl⟩ := not_flags_nil h
      exact hb ⟨⟨u, rfl⟩, v, rfl⟩
    obtain ⟨e1, e2⟩ := shaped_cov s t ho hp hne (hh hb) ha hom
    rw [← e1]
    cases hu : ufunc f.ufunc (numShaped f.fn s t) [o, p] with
    | error e => exact ⟨rfl, by rintro r hr; cases hr⟩
    | ok z =>
      refine ⟨rfl, ?_⟩
      rintro r hr
      cases hr
      exact ⟨e2 z hu, ⟨fun ⟨v, h⟩ => (by cases h), fun h => absurd h hb⟩⟩

/-- The value of a formula and its meaning: both are refused in the same way, or shape and physical values are the same. -/
private inductive Meets (a k : ℝ) (B : Prop) : Except Err Value → Except Err NumberTable → Prop
  | error (e : Err) : Meets a k B (.error e) (.error e)
  | ok {x : Value} {t : NumberTable} (hs : x.shape = t.shape) (hv : x.val.phys = t.values) (he : HasExp a x.val k) (hb : IsPlain x.val ↔ B) :
      Meets a k B (.ok x) (.ok t)

private theorem Meets.bind {a k m : ℝ} {B C : Prop} {r : Except Err Value} {R : Except Err NumberTable} {g : Value → Except Err Value}
    {G : NumberTable → Except Err NumberTable} (h : Meets a k B r R)
    (hg : ∀ (x : Value) (t : NumberTable), x.shape = t.shape → x.val.phys = t.values → HasExp a x.val k → (IsPlain x.val ↔ B) →
      Meets a m C (g x) (G t)) : Meets a m C (r.bind g) (R.bind G) := by
  cases h with
  | error e => exact .error e
  | ok hs hv he hb => exact hg _ _ hs hv he hb

private theorem map_ok {α β : Type} (x : Except Err α) (f : α → β) : x.map f = x.bind (fun v => .ok (f v)) := by cases x <;> rfl

/-- Operations on one array are those of formulas without shapes. -/
private theorem step {a k m : ℝ} (ha : 0 < a) {o : Opd} (ho : HasExp a o k) {g : Opd → Except Err Opd} {φ : List ℝ → List ℝ} (F : Formulas.Expr → Formulas.Expr)
    (hF : ∀ ks s, (Bare s ↔ IsPlain o) → Dimension ks s k → Dimension ks (F s) m) (hev : ∀ env s, eval env (F s) = (eval env s).bind g)
    (hme : ∀ vals s, meaning vals (F s) = (meaning vals s).map φ) (hb : ∀ s, Bare (F s) ↔ Bare s) :
    ∃ r, g o = .ok r ∧ r.phys = φ o.phys ∧ HasExp a r m ∧ (IsPlain r ↔ IsPlain o) := by
  have main : ∀ (s : Formulas.Expr) (env : Nat → Arr), (∀ i, Conv a k (env i)) → Dimension (fun _ => k) s k → eval env s = .ok o →
      meaning (fun i => (env i).phys) s = .ok o.phys → (Bare s ↔ IsPlain o) → ∃ r, g o = .ok r ∧ r.phys = φ o.phys ∧ HasExp a r m ∧ (IsPlain r ↔ IsPlain o) := by
    intro s env henv hd e1 e2 e3
    obtain ⟨h1, h2⟩ := formula_value ha (ks := fun _ => k) henv (hF _ s e3 hd)
    rw [hev, e1, hme, e2] at h1
    rw [hev, e1] at h2
    simp only [Except.bind, Except.map] at h1 h2
    cases hg : g o with
    | error e => rw [hg] at h1; cases h1
    | ok r =>
      rw [hg] at h1
      obtain ⟨h3, h4⟩ := h2 r hg
      exact ⟨r, rfl, Except.ok.inj h1, h3, by rw [h4, hb, e3]⟩
  cases o with
  | plain v =>
    have h0 : k = 0 := ho
    subst h0
    exact main (.nums v) (fun _ => ⟨[], some false, some ⟨some 0, some a⟩, true⟩) (fun i => ⟨ha, rfl, rfl, by simp⟩) (.nums v) rfl rfl
      ⟨fun _ => ⟨v, rfl⟩, fun _ => trivial⟩
  | cosmo x =>
    exact main (.var 0) (fun _ => x) (fun _ => ho) (Dimension.var (ks := fun _ => k) 0) rfl rfl ⟨fun h => h.elim, fun ⟨v, h⟩ => by cases h⟩

private theorem meets_keep {a k m : ℝ} (ha : 0 < a) {g : Opd → Except Err Opd} {h : ℝ → ℝ} {B : Prop} {r : Except Err Value} {R : Except Err NumberTable}
    (hr : Meets a k B r R) (F : Formulas.Expr → Formulas.Expr) (hF : ∀ ks s, (Bare s ↔ B) → Dimension ks s k → Dimension ks (F s) m)
    (hev : ∀ env s, eval env (F s) = (eval env s).bind g)
    (hme : ∀ vals s, meaning vals (F s) = (meaning vals s).map (fun x => x.map h)) (hb : ∀ s, Bare (F s) ↔ Bare s) :
    Meets a m B (r.bind (Shaped.keep g)) (R.map fun t => ⟨t.shape, fun l => h (t.entry l)⟩) := by
  rw [map_ok]
  refine hr.bind (fun x t hs hv he hp => ?_)
  obtain ⟨y, e1, e2, e3, e4⟩ := step ha he F (fun ks s e => hF ks s (e.trans hp)) hev hme hb
  rw [Shaped.keep, e1]
  refine .ok hs ?_ e3 (e4.trans hp)
  simp only [e2, hv, NumberTable.values, List.map_map]
  rfl

private theorem meets_same {a k : ℝ} (ha : 0 < a) {g : Opd → Except Err Opd} {B : Prop} {r : Except Err Value} {R : Except Err NumberTable}
    (hr : Meets a k B r R) (F : Formulas.Expr → Formulas.Expr) (hF : ∀ ks s, (Bare s ↔ B) → Dimension ks s k → Dimension ks (F s) k)
    (hev : ∀ env s, eval env (F s) = (eval env s).bind g)
    (hme : ∀ vals s, meaning vals (F s) = meaning vals s) (hb : ∀ s, Bare (F s) ↔ Bare s) :
    Meets a k B (r.bind (Shaped.keep g)) R := by
  have h1 := meets_keep ha (h := fun v => v) hr F hF hev (fun vals s => by rw [hme]; cases meaning vals s <;> simp [Except.map]) hb
  have e : (R.map fun t : NumberTable => (⟨t.shape, fun l => t.entry l⟩ : NumberTable)) = R := by cases R <;> rfl
  rwa [e] at h1

private theorem meets_reshaped {a k : ℝ} (ha : 0 < a) {err : Err} {ok : List Nat → Bool} {u : List Nat → List Nat} {g : List Nat → List ℝ → List ℝ}
    {B : Prop} {r : Except Err Value} {R : Except Err NumberTable} {G : NumberTable → Except Err NumberTable} (hr : Meets a k B r R)
    (hg : ∀ s, Homogeneous (g s))
    (hG : ∀ t : NumberTable, if ok t.shape then ∃ t', G t = .ok t' ∧ t'.shape = u t.shape ∧ t'.values = g t.shape t.values else G t = .error err) :
    Meets a k B (r.bind (Shaped.reshaped err ok u g)) (R.bind G) := by
  refine hr.bind (fun x t hs hv he hp => ?_)
  have h1 := hG t
  rw [Shaped.reshaped, hs]
  by_cases hok : ok t.shape = true
  · rw [if_pos hok] at h1 ⊢
    obtain ⟨t', f1, f2, f3⟩ := h1
    obtain ⟨y, e1, e2, e3, e4⟩ := step (φ := g t.shape) (g := applyWhole (g t.shape)) (m := k) ha he (.whole (g t.shape))
      (fun ks s _ hd => .whole (hg _) hd) (fun env s => rfl) (fun vals s => rfl) (fun s => Iff.rfl)
    rw [e1, f1]
    exact .ok f2.symm (by rw [e2, hv, f3]) e3 (e4.trans hp)
  · rw [if_neg hok] at h1 ⊢
    rw [h1]
    exact .error err

private theorem hom_range {F : List ℝ → Nat → ℝ} (n : Nat) (h : ∀ (c : ℝ) (x : List ℝ) (i : Nat), 0 < c → F (x.map (· * c)) i = F x i * c) :
    Homogeneous (fun x => (List.range n).map (F x)) := by
  intro c x hc
  rw [List.map_map]
  exact List.map_congr_left fun i _ => h c x i hc

private theorem shape_get {s : List Nat} {k : Nat} (h : k < s.length) : s[k]? = some (s.getD k 0) := by simp [h]

private theorem insert_eq : ∀ {k : Nat} {s : List Nat}, k ≤ s.length → s.insertIdx k 1 = s.take k ++ 1 :: s.drop k
  | 0, _, _ => rfl
  | k + 1, [], h => by cases h
  | k + 1, n :: s, h => by
    rw [List.insertIdx_succ_cons, insert_eq (by simpa using h)]
    rfl

private theorem length_phys (x : Arr) : x.phys.length = x.val.length := by
  unfold Arr.phys
  split <;> simp

private theorem meets {a : ℝ} (ha : 0 < a) {ks : Nat → ℝ} {shapes : Nat → List Nat} {env : Nat → Arr} (henv : ∀ i, Conv a (ks i) (env i))
    (hlen : ∀ i, (env i).val.length = (tuples (shapes i)).length) {e : Shaped.Expr} {k : ℝ} (h : ShapedDimension ks e k) :
    Meets a k (ShapedBare e) (Shaped.eval shapes env e) (shapedMeaning (fun i => tableOf (shapes i) (env i).phys) e) := by
  have two : ∀ {f : Bin} {s t : Shaped.Expr} {k l m : ℝ},
      Meets a k (ShapedBare s) (Shaped.eval shapes env s) (shapedMeaning (fun i => tableOf (shapes i) (env i).phys) s) →
      Meets a l (ShapedBare t) (Shaped.eval shapes env t) (shapedMeaning (fun i => tableOf (shapes i) (env i).phys) t) →
      ((f ∈ [Bin.add, .subtract, .fmax, .fmin, .hypot, .remainder] ∧ k = l ∧ k = m) ∨
        (f ∈ [Bin.maximum, .minimum] ∧ k = l ∧ k = m ∧ (ShapedBare s → ShapedBare t)) ∨ (f = .multiply ∧ m = k + l) ∨ (f = .divide ∧ m = k - l)) →
      Meets a m (ShapedBare (.two f s t)) (Shaped.eval shapes env (.two f s t))
        (shapedMeaning (fun i => tableOf (shapes i) (env i).phys) (.two f s t)) := by
    intro f s t k l m h1 h2 h3
    simp only [Shaped.eval, shapedMeaning, fn2]
    refine h1.bind (fun x A hs hv he hp => h2.bind (fun y B hs' hv' he' hp' => ?_))
    obtain ⟨r1, r2, r3⟩ := binary_rule ha he he' (f := f) (m := m) (by
      rcases h3 with h | ⟨h, h', h'', h'''⟩ | h | h
      · exact .inl h
      · exact .inr (.inl ⟨h, h', h'', fun q => hp'.2 (h''' (hp.1 q))⟩)
      · exact .inr (.inr (.inl h))
      · exact .inr (.inr (.inr h)))
    obtain ⟨c1, c2⟩ := operate_cov ha (s := x.shape) (t := y.shape) he he' r1 r2 r3
    rw [hs, hs', hv, hv', Shaped.numShaped_values] at c1
    rw [Shaped.apply2, hs, hs']
    rw [hs, hs'] at c2
    by_cases hf : Fit A.shape B.shape
    · rw [NumberTable.zip, if_pos hf] at c1 ⊢
      rw [Shaped.join_ok hf]
      cases ho : Shaped.operate f A.shape B.shape x.val y.val with
      | error q => rw [ho] at c1; cases c1
      | ok r =>
        rw [ho] at c1
        obtain ⟨d1, d2⟩ := c2 r ho
        exact .ok rfl (Except.ok.inj c1) d1 (by rw [ShapedBare]; exact d2.trans (and_congr hp hp'))
    · rw [NumberTable.zip, if_neg hf] at c1 ⊢
      rw [Shaped.join_error hf]
      cases ho : Shaped.operate f A.shape B.shape x.val y.val with
      | error q =>
        rw [ho] at c1
        cases c1
        exact .error _
      | ok r => rw [ho] at c1; cases c1
  induction h with
  | var i =>
    refine .ok rfl ?_ (henv i) ⟨fun ⟨v, h⟩ => (by cases h), fun h => h.elim⟩
    refine (Shaped.values_tableOf ?_).symm
    rw [← length_tuples, ← hlen i]
    exact length_phys _
  | nums s v hv => exact .ok rfl (Shaped.values_tableOf (by rw [← length_tuples]; exact hv)).symm rfl ⟨fun _ => trivial, fun _ => ⟨v, rfl⟩⟩
  | sum hf hs ht ihs iht => exact two ihs iht (.inl ⟨hf, rfl, rfl⟩)
  | extremum hf hs ht hb ihs iht => exact two ihs iht (.inr (.inl ⟨hf, rfl, rfl, hb⟩))
  | mul hs ht ihs iht => exact two ihs iht (.inr (.inr (.inl ⟨rfl, rfl⟩)))
  | div hs ht ihs iht => exact two ihs iht (.inr (.inr (.inr ⟨rfl, rfl⟩)))
  | @same f s k hf hs ih =>
    exact meets_keep ha ih (.one f) (fun _ _ _ hd => .same hf hd) (fun _ _ => rfl) (fun _ _ => rfl) (fun _ => Iff.rfl)
  | @sqrt s k hs ih => exact meets_keep ha ih (.one .sqrt) (fun _ _ _ hd => .sqrt hd) (fun _ _ => rfl) (fun _ _ => rfl) (fun _ => Iff.rfl)
  | @square s k hs ih => exact meets_keep ha ih (.one .square) (fun _ _ _ hd => .square hd) (fun _ _ => rfl) (fun _ _ => rfl) (fun _ => Iff.rfl)
  | @cbrt s k hs ih => exact meets_keep ha ih (.one .cbrt) (fun _ _ _ hd => .cbrt hd) (fun _ _ => rfl) (fun _ _ => rfl) (fun _ => Iff.rfl)
  | @reciprocal s k hs ih =>
    exact meets_keep ha ih (.one .reciprocal) (fun _ _ _ hd => .reciprocal hd) (fun _ _ => rfl) (fun _ _ => rfl) (fun _ => Iff.rfl)
  | @pow s k hs q ih => exact meets_keep ha ih (.pow · q) (fun _ _ _ hd => .pow hd q) (fun _ _ => rfl) (fun _ _ => rfl) (fun _ => Iff.rfl)
  | @total s k g hg hs ih =>
    simp only [Shaped.eval, shapedMeaning]
    rw [map_ok]
    refine meets_reshaped ha ih (fun _ c x hc => ?_) (fun t => ?_)
    · simp [hg c x hc]
    · rw [if_pos rfl]
      exact ⟨_, rfl, rfl, rfl⟩
  | @reduce s k g hg d hs ih =>
    refine meets_reshaped ha ih (fun _ => hom_range _ (fun c x i hc => ?_)) (fun t => ?_)
    · rw [← hg c _ hc, List.map_map]
      refine congrArg g (List.map_congr_left fun j _ => ?_)
      exact getD_scaled x c _
    · by_cases hd : d < t.shape.length
      · rw [if_pos (by simpa using hd), shape_get hd]
        refine ⟨_, rfl, (List.eraseIdx_eq_take_drop_succ ..).symm, ?_⟩
        rw [reduceAxis, map_range, NumberTable.values, List.eraseIdx_eq_take_drop_succ]
        refine List.map_congr_left fun l hl => congrArg g (List.map_congr_left fun j hj => ?_)
        have hl' := mem_tuples.1 hl
        rw [← List.eraseIdx_eq_take_drop_succ] at hl' ⊢
        rw [← Shaped.ravel_axis hd hl', values_at (Shaped.in_axis hd (by simpa using hj) hl')]
      · rw [if_neg (by simpa using hd), List.getElem?_eq_none (not_lt.1 hd)]
  | @select s k j d hs ih =>
    refine meets_reshaped ha ih (fun _ => hom_range _ (fun c x i hc => getD_scaled x c _)) (fun t => ?_)
    by_cases hd : d < t.shape.length
    · rw [shape_get hd]
      by_cases hj : j < t.shape.getD d 0
      · rw [if_pos (by simp only [Bool.and_eq_true, decide_eq_true_eq]; exact ⟨hd, hj⟩)]
        simp only [if_pos hj]
        refine ⟨_, rfl, (List.eraseIdx_eq_take_drop_succ ..).symm, ?_⟩
        rw [selectAxis, map_range, NumberTable.values, List.eraseIdx_eq_take_drop_succ]
        refine List.map_congr_left fun l hl => ?_
        have hl' := mem_tuples.1 hl
        rw [← List.eraseIdx_eq_take_drop_succ] at hl' ⊢
        rw [← Shaped.ravel_axis hd hl', values_at (Shaped.in_axis hd hj hl')]
      · rw [if_neg (by simp only [Bool.and_eq_true, decide_eq_true_eq]; exact fun h => hj h.2)]
        simp only [if_neg hj]
    · rw [if_neg (by simp only [Bool.and_eq_true, decide_eq_true_eq]; exact fun h => hd h.1), List.getElem?_eq_none (not_lt.1 hd)]
  | @take s k js d hs ih =>
    refine meets_reshaped ha ih (fun _ => hom_range _ (fun c x i hc => getD_scaled x c _)) (fun t => ?_)
    by_cases hd : d < t.shape.length
    · rw [shape_get hd]
      by_cases hj : ∀ j ∈ js, j < t.shape.getD d 0
      · rw [if_pos (by simp only [Bool.and_eq_true, decide_eq_true_eq, List.all_eq_true]; exact ⟨hd, hj⟩)]
        simp only [if_pos hj]
        have hset : t.shape.set d js.length = t.shape.take d ++ js.length :: t.shape.drop (d + 1) := by
          rw [List.set_eq_take_append_cons_drop, if_pos hd]
        refine ⟨_, rfl, hset.symm, ?_⟩
        rw [takeAxis, map_range, NumberTable.values, ← hset]
        refine List.map_congr_left fun l hl => ?_
        have hl' := mem_tuples.1 hl
        rw [← Shaped.ravel_take hd hl', values_at (Shaped.in_take hd hj hl')]
      · rw [if_neg (by simp only [Bool.and_eq_true, decide_eq_true_eq, List.all_eq_true]; exact fun h => hj h.2)]
        simp only [if_neg hj]
    · rw [if_neg (by simp only [Bool.and_eq_true, decide_eq_true_eq]; exact fun h => hd h.1), List.getElem?_eq_none (not_lt.1 hd)]
  | @newaxis s k d hs ih =>
    refine meets_reshaped ha ih (fun _ c x hc => rfl) (fun t => ?_)
    by_cases hd : d ≤ t.shape.length
    · rw [if_pos (by simpa using hd), if_pos hd]
      refine ⟨_, rfl, ?_, ?_⟩
      · exact (insert_eq hd).symm
      · rw [NumberTable.values, NumberTable.values, ← Shaped.tuples_newaxis d t.shape hd, List.map_map]
        rfl
    · rw [if_neg (by simpa using hd), if_neg hd]
  | @reshape s k u hs ih =>
    refine meets_reshaped ha ih (fun _ c x hc => rfl) (fun t => ?_)
    rw [length_tuples, length_tuples]
    by_cases hd : Shaped.count u = Shaped.count t.shape
    · rw [if_pos (by simpa using hd), if_pos hd]
      exact ⟨_, rfl, rfl, Shaped.values_tableOf (by rw [length_values, hd])⟩
    · rw [if_neg (by simpa using hd), if_neg hd]
  | @transpose s k hs ih =>
    simp only [Shaped.eval, shapedMeaning]
    rw [map_ok]
    refine meets_reshaped ha ih (fun _ => hom_range _ (fun c x i hc => getD_scaled x c _)) (fun t => ?_)
    rw [if_pos rfl]
    refine ⟨_, rfl, rfl, ?_⟩
    rw [transposed, map_range, NumberTable.values]
    refine List.map_congr_left fun l hl => ?_
    have hl' := mem_tuples.1 hl
    have hr : Shaped.In t.shape l.reverse := by
      have := List.rel_reverse hl'
      rwa [List.reverse_reverse] at this
    rw [Shaped.unravel_ravel hl', values_at hr]
  | @physical s k hs hb ih =>
    exact meets_same ha ih .physical (fun _ _ e hd => .physical hd (fun q => hb (e.1 q))) (fun _ _ => rfl) (fun _ _ => rfl) (fun _ => Iff.rfl)
  | @comoving s k hs hb ih =>
    exact meets_same ha ih .comoving (fun _ _ e hd => .comoving hd (fun q => hb (e.1 q))) (fun _ _ => rfl) (fun _ _ => rfl) (fun _ => Iff.rfl)

/-- C130: shape and physical values of a formula of arrays with several dimensions are those of the formula of the physical values, with
broadcasting, indices and reductions along axes on tuples of indices; and it is refused exactly if that one is. -/
theorem c130_value {a : ℝ} (ha : 0 < a) {ks : Nat → ℝ} {shapes : Nat → List Nat} {env : Nat → Arr} (henv : ∀ i, Conv a (ks i) (env i))
    (hlen : ∀ i, (env i).val.length = (tuples (shapes i)).length) {e : Shaped.Expr} {k : ℝ} (h : ShapedDimension ks e k) :
    (Shaped.eval shapes env e).map (fun x => (x.shape, x.val.phys)) =
      (shapedMeaning (fun i => tableOf (shapes i) (env i).phys) e).map (fun t => (t.shape, t.values)) := by
  have := meets ha henv hlen h
  revert this
  generalize Shaped.eval shapes env e = r
  generalize shapedMeaning _ e = R
  intro h
  cases h with
  | error e => rfl
  | ok hs hv he hb => simp only [Except.map, hs, hv]

/-- C130: the result has the factor `a^k`, or is a bare array if there are only bare arrays in the formula, and it has as many values as
its shape says. -/
theorem c130_factor {a : ℝ} (ha : 0 < a) {ks : Nat → ℝ} {shapes : Nat → List Nat} {env : Nat → Arr} (henv : ∀ i, Conv a (ks i) (env i))
    (hlen : ∀ i, (env i).val.length = (tuples (shapes i)).length) {e : Shaped.Expr} {k : ℝ} (h : ShapedDimension ks e k) {x : Value}
    (hx : Shaped.eval shapes env e = .ok x) :
    (∀ z, x.val = .cosmo z → Conv a k z) ∧ ((∃ v, x.val = .plain v) ↔ ShapedBare e) ∧ x.val.vals.length = (tuples x.shape).length := by
  have := meets ha henv hlen h
  rw [hx] at this
  revert this
  generalize shapedMeaning _ e = R
  intro h
  cases h with
  | @ok _ t hs hv he hb =>
    refine ⟨fun z hz => ?_, hb, ?_⟩
    · rw [hz] at he
      exact he
    · have e1 : x.val.phys.length = x.val.vals.length := by
        cases x.val with
        | plain v => rfl
        | cosmo z => exact length_phys z
      rw [← e1, hv, length_values, hs, length_tuples]

/-- C130: arrays with the same physical values in other frames give the same. -/
theorem c130_frames {a : ℝ} (ha : 0 < a) {ks : Nat → ℝ} {shapes : Nat → List Nat} {env env' : Nat → Arr} (henv : ∀ i, Conv a (ks i) (env i))
    (henv' : ∀ i, Conv a (ks i) (env' i)) (hlen : ∀ i, (env i).val.length = (tuples (shapes i)).length) (hp : ∀ i, (env' i).phys = (env i).phys)
    {e : Shaped.Expr} {k : ℝ} (h : ShapedDimension ks e k) :
    (Shaped.eval shapes env' e).map (fun x => (x.shape, x.val.phys)) = (Shaped.eval shapes env e).map (fun x => (x.shape, x.val.phys)) := by
  rw [c130_value ha henv hlen h, c130_value ha henv' (fun i => by rw [← length_phys, hp, length_phys, hlen]) h]
  simp only [hp]

/-- C130: for arrays with one dimension the broadcasting is that of formulas without shapes. -/
theorem c130_one_dimension (f : ℝ → ℝ → ℝ) (x y : List ℝ) : numShaped f [x.length] [y.length] [x, y] = bcast2 f x y := by
  have hs : ∀ m r i : Nat, Shaped.source (Shaped.pad 1 [m]) [r] i = if m = 1 then 0 else i := by
    intro m r i
    simp [Shaped.pad, Shaped.source, Shaped.count]
  have hj : Shaped.join [x.length] [y.length] = if x.length = y.length then .ok [x.length] else if x.length = 1 then .ok [y.length] else
      if y.length = 1 then .ok [x.length] else .error .value := rfl
  unfold numShaped bcast2
  simp only [hj]
  by_cases h1 : x.length = y.length
  · rw [if_pos h1, if_pos h1]
    simp only [Except.map, Shaped.count, Nat.mul_one, List.length_singleton, hs]
    refine congrArg Except.ok (List.ext_getElem (by simp [h1]) fun i h2 h3 => ?_)
    have h4 : i < x.length := by simpa using h2
    have h5 : i < y.length := h1 ▸ h4
    simp only [List.getElem_map, List.getElem_range, List.getElem_zipWith]
    by_cases h6 : x.length = 1
    · have h7 : i = 0 := by omega
      subst h7
      simp [h4, h5]
    · rw [if_neg h6, if_neg (h1 ▸ h6)]
      simp [h4, h5]
  · rw [if_neg h1, if_neg h1]
    by_cases h2 : x.length = 1
    · obtain ⟨u, rfl⟩ := List.length_eq_one_iff.1 h2
      have h3 : y.length ≠ 1 := fun h => h1 (by simp [h])
      simp only [List.length_singleton, if_true, Except.map, Shaped.count, Nat.mul_one, hs, if_neg h3]
      refine congrArg Except.ok (List.ext_getElem (by simp) fun i h4 h5 => ?_)
      have h6 : i < y.length := by simpa using h4
      simp [h6]
    · rw [if_neg h2]
      by_cases h3 : y.length = 1
      · obtain ⟨v, rfl⟩ := List.length_eq_one_iff.1 h3
        simp only [List.length_singleton, if_true, Except.map, Shaped.count, Nat.mul_one, hs, if_neg h2]
        split
        · simp at h2
        · rename_i heq
          cases heq
          refine congrArg Except.ok (List.ext_getElem (by simp) fun i h4 h5 => ?_)
          have h6 := h4
          rw [List.length_map, List.length_range] at h6
          simp [h6]
        · rename_i h4
          exact absurd rfl (h4 v)
      · rw [if_neg h3]
        split
        · exact absurd rfl h2
        · exact absurd rfl h3
        · rfl

theorem entry_tableOf {s l : List Nat} {v : List ℝ} (hv : v.length = (tuples s).length) (hl : Shaped.In s l) :
    (tableOf s v).entry l = v.getD (Shaped.ravel s l) 0 := by
  rw [← values_at (t := tableOf s v) hl, Shaped.values_tableOf (by rw [hv, length_tuples])]
  rfl

private theorem flatMap_one {α β : Type} (l : List α) (f : α → β) : l.flatMap (fun x => [f x]) = l.map f := by
  induction l with
  | nil => rfl
  | cons x l ih => rw [List.flatMap_cons, ih]; rfl

private theorem zip_ok {f : ℝ → ℝ → ℝ} {x y : NumberTable} {s t : List Nat} (hs : x.shape = s) (ht : y.shape = t) (h : Fit s t) :
    x.zip f y = .ok ⟨fitted s t, fun l => f (x.entry (own s l)) (y.entry (own t l))⟩ := by
  subst hs ht
  exact if_pos h

private theorem fit_rows (n d : Nat) : Fit [n, d] [d] := by
  intro i
  match i with
  | 0 => exact .inl rfl
  | 1 => exact .inr (.inr rfl)
  | i + 2 => exact .inr (.inl (by simp [lengthOf]))

private theorem fitted_rows (n d : Nat) : fitted [n, d] [d] = [n, d] := by
  simp [fitted, lengthOf, List.range_succ]
  intro h
  exact h.symm

private theorem in_two {n d i j : Nat} (hi : i < n) (hj : j < d) : Shaped.In [n, d] [i, j] := .cons hi (.cons hj .nil)

/-- `np.sqrt(((coordinates - centre) ** 2).sum(axis=1))`: the distances of the rows of `0` from `1`. -/
noncomputable def radii : Shaped.Expr := .one .sqrt (.reduce List.sum 1 (.one .square (.two .subtract (.var 0) (.var 1))))

theorem scales_sum : ScalesThrough List.sum := by
  intro c l _
  exact List.sum_map_mul_right l (fun x => x) c |>.trans (by simp)

theorem radii_scale {ks : Nat → ℝ} (h : ks 0 = ks 1) : ShapedDimension ks radii (ks 0) := by
  have h1 : ShapedDimension ks (.var 1) (ks 0) := by rw [h]; exact .var 1
  have := ShapedDimension.sqrt (.reduce scales_sum 1 (.square (.sum (f := .subtract) (by simp) (.var 0) h1)))
  rwa [mul_div_cancel_left₀ _ (two_ne_zero)] at this

/-- C130: distances of rows of an array `(n, d)` from a point `(d,)`, whatever the frames of both: one number for each row, the square root
of the sum of the squares of the differences of physical values. -/
theorem c130_radii {a : ℝ} (ha : 0 < a) {ks : Nat → ℝ} {shapes : Nat → List Nat} {env : Nat → Arr} (henv : ∀ i, Conv a (ks i) (env i))
    (hlen : ∀ i, (env i).val.length = (tuples (shapes i)).length) {n d : Nat} (h0 : shapes 0 = [n, d]) (h1 : shapes 1 = [d]) (hk : ks 0 = ks 1) :
    (Shaped.eval shapes env radii).map (fun x => (x.shape, x.val.phys)) = .ok ([n], (List.range n).map fun i =>
      ((List.range d).map fun j => ((env 0).phys.getD (i * d + j) 0 - (env 1).phys.getD j 0) ^ 2).sum ^ (1 / 2 : ℝ)) := by
  rw [c130_value ha henv hlen (radii_scale hk)]
  have s0 : (tableOf (shapes 0) (env 0).phys).shape = [n, d] := h0
  have s1 : (tableOf (shapes 1) (env 1).phys).shape = [d] := h1
  simp only [radii, shapedMeaning, Except.bind, zip_ok s0 s1 (fit_rows n d), fitted_rows]
  simp only [List.getElem?_cons_succ, List.getElem?_cons_zero, Except.map, NumberTable.values, List.take_succ_cons, List.take_zero, List.drop_succ_cons,
    List.drop_zero, List.append_nil, tuples, List.map_cons, List.map_nil, List.map_flatMap, numbers1, numbers2]
  refine congrArg Except.ok (Prod.ext rfl ?_)
  rw [flatMap_one]
  refine List.map_congr_left fun i hi => ?_
  refine congrArg (fun l : List ℝ => l.sum ^ (1 / 2 : ℝ)) (List.map_congr_left fun j hj => ?_)
  have hi' : i < n := List.mem_range.1 hi
  have hj' : j < d := List.mem_range.1 hj
  have e0 : own [n, d] [i, j] = [i, j] := by
    simp [own]
    omega
  have e1 : own [d] [i, j] = [j] := by
    simp [own]
    omega
  have l0 : (env 0).phys.length = (tuples (shapes 0)).length := (length_phys _).trans (hlen 0)
  have l1 : (env 1).phys.length = (tuples (shapes 1)).length := (length_phys _).trans (hlen 1)
  simp only [List.take_succ_cons, List.take_zero, List.drop_succ_cons, List.drop_zero, List.cons_append, List.nil_append]
  rw [e0, e1, entry_tableOf l0 (by rw [h0]; exact in_two hi' hj'), entry_tableOf l1 (by rw [h1]; exact .cons hj' .nil), h0, h1]
  simp [Shaped.ravel, Shaped.count]

/-- C130: dimensions are compared from the last one: an array `(n, d)` and one number for each row, `(n,)`, are refused unless `n` is `d` or
one of them is one, although both have `n` rows. -/
theorem c130_rows_refused {a : ℝ} (ha : 0 < a) {ks : Nat → ℝ} {shapes : Nat → List Nat} {env : Nat → Arr} (henv : ∀ i, Conv a (ks i) (env i))
    (hlen : ∀ i, (env i).val.length = (tuples (shapes i)).length) {n d : Nat} (h0 : shapes 0 = [n, d]) (h1 : shapes 1 = [n]) (hn : n ≠ d)
    (hn1 : n ≠ 1) (hd : d ≠ 1) : Shaped.eval shapes env (.two .multiply (.var 0) (.var 1)) = .error .value := by
  have h := c130_value ha henv hlen (.mul (.var 0) (.var 1))
  simp only [shapedMeaning, Except.bind, NumberTable.zip] at h
  rw [if_neg (by
    rw [show (tableOf (shapes 0) (env 0).phys).shape = [n, d] from h0, show (tableOf (shapes 1) (env 1).phys).shape = [n] from h1]
    intro hf
    rcases hf 0 with q | q | q
    · exact hn q.symm
    · exact hd q
    · exact hn1 q)] at h
  cases he : Shaped.eval shapes env (.two .multiply (.var 0) (.var 1)) with
  | error e => rw [he] at h; cases h; rfl
  | ok x => rw [he] at h; cases h

/-- C130: with another axis at the end each row is multiplied by its number. -/
theorem c130_rows_weighted {a : ℝ} (ha : 0 < a) {ks : Nat → ℝ} {shapes : Nat → List Nat} {env : Nat → Arr} (henv : ∀ i, Conv a (ks i) (env i))
    (hlen : ∀ i, (env i).val.length = (tuples (shapes i)).length) {n d : Nat} (h0 : shapes 0 = [n, d]) (h1 : shapes 1 = [n]) :
    (Shaped.eval shapes env (.two .multiply (.var 0) (.newaxis 1 (.var 1)))).map (fun x => (x.shape, x.val.phys)) =
      .ok ([n, d], (List.range n).flatMap fun i => (List.range d).map fun j => (env 0).phys.getD (i * d + j) 0 * (env 1).phys.getD i 0) := by
  rw [c130_value ha henv hlen (.mul (.var 0) (.newaxis 1 (.var 1)))]
  have s0 : (tableOf (shapes 0) (env 0).phys).shape = [n, d] := h0
  have s1 : (tableOf (shapes 1) (env 1).phys).shape = [n] := h1
  have hfit : Fit [n, d] [n, 1] := by
    intro i
    match i with
    | 0 => exact .inr (.inr rfl)
    | 1 => exact .inl rfl
    | i + 2 => exact .inr (.inl (by simp [lengthOf]))
  simp only [shapedMeaning, Except.bind, s1]
  rw [if_pos (by simp)]
  simp only []
  rw [zip_ok s0 (t := [n, 1]) rfl hfit]
  have hf : fitted [n, d] [n, 1] = [n, d] := by
    simp [fitted, lengthOf, List.range_succ]
    intro h
    exact h.symm
  simp only [hf, Except.map, NumberTable.values, tuples, List.map_cons, List.map_nil, List.map_flatMap]
  refine congrArg Except.ok (Prod.ext rfl ?_)
  refine List.flatMap_congr fun i hi => ?_
  rw [flatMap_one]
  refine List.map_congr_left fun j hj => ?_
  have hi' : i < n := List.mem_range.1 hi
  have hj' : j < d := List.mem_range.1 hj
  have e0 : own [n, d] [i, j] = [i, j] := by
    simp [own]
    omega
  have e1 : own [n, 1] [i, j] = [i, 0] := by
    simp [own]
    omega
  have l0 : (env 0).phys.length = (tuples (shapes 0)).length := (length_phys _).trans (hlen 0)
  have l1 : (env 1).phys.length = (tuples (shapes 1)).length := (length_phys _).trans (hlen 1)
  simp only [e0, e1, List.take_succ_cons, List.take_zero, List.drop_succ_cons, List.drop_zero, List.cons_append, List.nil_append, numbers2,
    List.append_nil]
  rw [entry_tableOf l0 (by rw [h0]; exact in_two hi' hj'), entry_tableOf l1 (by rw [h1]; exact .cons hi' .nil), h0, h1]
  simp [Shaped.ravel, Shaped.count]

/-! ### Examples -/

/-- Two comoving positions and a physical centre, at `a = 1/2`. -/
private noncomputable def envC : Nat → Arr
  | 0 => ⟨[6, 8, 0, 0, 0, 2], some true, some ⟨some 1, some (1 / 2)⟩, true⟩
  | _ => ⟨[0, 0, 0], some false, some ⟨some 1, some (1 / 2)⟩, true⟩

private def shapesC : Nat → List Nat
  | 0 => [2, 3]
  | _ => [3]

private theorem envC_conv (i : Nat) : Conv (1 / 2) 1 (envC i) := by
  match i with
  | 0 => exact ⟨by norm_num, rfl, rfl, by simp [envC]⟩
  | i + 1 => exact ⟨by norm_num, rfl, rfl, by simp [envC]⟩

private theorem shapesC_length (i : Nat) : (envC i).val.length = (tuples (shapesC i)).length := by
  match i with
  | 0 => simp [envC, shapesC, tuples, List.range_succ]
  | i + 1 => simp [envC, shapesC, tuples, List.range_succ]

/-- Distances are physical. -/
example : (Shaped.eval shapesC envC radii).map (fun x => (x.shape, x.val.phys)) = .ok ([2], [5, 1]) := by
  rw [c130_radii (n := 2) (d := 3) (by norm_num) envC_conv shapesC_length rfl rfl rfl]
  have h5 : (25 : ℝ) ^ (1 / 2 : ℝ) = 5 := by
    rw [← Real.sqrt_eq_rpow, show (25 : ℝ) = 5 ^ 2 by norm_num, Real.sqrt_sq (by norm_num)]
  simp [List.range_succ, envC, Arr.phys, -one_div]
  norm_num [-one_div]

/-- The centre of mass of rows: `(x * m[:, None]).sum(axis=0) / m.sum()`, for any positions and masses that scale as `a` and not at all. -/
example : ShapedDimension (fun i => if i = 0 then 1 else 0)
    (.two .divide (.reduce List.sum 0 (.two .multiply (.var 0) (.newaxis 1 (.var 1)))) (.total List.sum (.var 1))) (1 + 0 - 0) :=
  .div (.reduce scales_sum 0 (.mul (.var (ks := fun i => if i = 0 then 1 else 0) 0) (.newaxis 1 (.var (ks := fun i => if i = 0 then 1 else 0) 1))))
    (.total scales_sum (.var (ks := fun i => if i = 0 then 1 else 0) 1))

/-- A column: `x[:, 1]`; rows in another order: `x[[1, 0]]`; rows and columns exchanged: `x.T`. -/
example : (Shaped.eval shapesC envC (.select 1 1 (.var 0))).map (fun x => (x.shape, x.val.phys)) = .ok ([2], [4, 0]) ∧
    (Shaped.eval shapesC envC (.take [1, 0] 0 (.var 0))).map (fun x => (x.shape, x.val.phys)) = .ok ([2, 3], [0, 0, 1, 3, 4, 0]) ∧
    (Shaped.eval shapesC envC (.transpose (.var 0))).map (fun x => (x.shape, x.val.phys)) = .ok ([3, 2], [3, 0, 4, 0, 0, 1]) := by
  have hv := fun {e : Shaped.Expr} {k : ℝ} => c130_value (a := 1 / 2) (by norm_num) (ks := fun _ => 1) envC_conv shapesC_length (e := e) (k := k)
  refine ⟨(hv (.select 1 1 (.var (ks := fun _ => 1) 0))).trans ?_, (hv (.take [1, 0] 0 (.var (ks := fun _ => 1) 0))).trans ?_,
    (hv (.transpose (.var (ks := fun _ => 1) 0))).trans ?_⟩
  all_goals
    simp [shapedMeaning, tableOf, shapesC, envC, Arr.phys, NumberTable.values, tuples, List.range_succ, Except.map, Except.bind, List.lookup]
    try norm_num

/-- Six numbers and two numbers do not fit. -/
example : ¬ Fit [2, 3] [2] := by
  intro h
  rcases h 0 with q | q | q <;> simp [lengthOf] at q

end Verif.Props
