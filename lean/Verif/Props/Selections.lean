import Verif.Spec.Selections
import Verif.Props.ShapedFormulas
import Verif.Props.CosmoReduce

/-!
# C132: scripts with conditions and selections of arrays with several dimensions
-/

namespace Verif.Props
open Verif Verif.Cosmo Verif.Formulas Verif.Spec Verif.Selections
open Verif.Programs (Cmp)
open Verif.Shaped (numShaped Value mem_tuples map_range length_values length_tuples ravel tuples_get join_ok join_error source_own own_left own_right
  length_fitted tuples_ravel)

/-! ### Numbers -/

private theorem at_tuple {α : Type} (e : List Nat → α) (d : α) {s l : List Nat} (h : Shaped.In s l) :
    ((tuples s).map e).getD (ravel s l) d = e l := by
  rw [List.getD_eq_getElem?_getD, List.getElem?_map, tuples_get h]
  rfl

private theorem at_left {α : Type} (e : List Nat → α) (d : α) {s t l : List Nat} (h : Shaped.In (fitted s t) l) :
    ((tuples s).map e).getD (Shaped.source (Shaped.pad (fitted s t).length s) (fitted s t) (ravel (fitted s t) l)) d = e (own s l) := by
  rw [source_own (by rw [length_fitted]; exact le_max_left _ _) h, at_tuple e d (own_left h)]

private theorem at_right {α : Type} (e : List Nat → α) (d : α) {s t l : List Nat} (hf : Fit s t) (h : Shaped.In (fitted s t) l) :
    ((tuples t).map e).getD (Shaped.source (Shaped.pad (fitted s t).length t) (fitted s t) (ravel (fitted s t) l)) d = e (own t l) := by
  rw [source_own (by rw [length_fitted]; exact le_max_right _ _) h, at_tuple e d (own_right hf h)]

private theorem num_tuples {β : Type} (g : ℝ → ℝ → β) {X Y : NumberTable} (h : Fit X.shape Y.shape) :
    numShaped g X.shape Y.shape [X.values, Y.values] =
      .ok ((tuples (fitted X.shape Y.shape)).map fun l => g (X.entry (own X.shape l)) (Y.entry (own Y.shape l))) := by
  unfold numShaped
  rw [join_ok h]
  simp only [Except.map, NumberTable.values, map_range]
  refine congrArg Except.ok (List.map_congr_left fun l hl => ?_)
  rw [at_left _ _ (mem_tuples.1 hl), at_right _ _ h (mem_tuples.1 hl)]

private theorem num_error {β : Type} (g : ℝ → ℝ → β) {s t : List Nat} (u v : List ℝ) (h : ¬ Fit s t) : numShaped g s t [u, v] = .error .value := by
  simp [numShaped, join_error h, Except.map]

/-! ### Operands -/

/-- The operand scales as `a^k`: it has this factor, or is bare and `k` is zero, or is bare and all its values are zero. -/
private def Loose (a k : ℝ) (o : Opd) : Prop := HasExp a o k ∨ ∃ n, o = .plain (List.replicate n 0)

private theorem Loose.mix {a k : ℝ} {o : Opd} (h : Loose a k o) : Mix a o := by
  rcases h with h | ⟨n, rfl⟩
  · exact h.mix
  · trivial

private theorem Loose.same {a k : ℝ} {b : Bool} {o p : Opd} (h : Loose a k o) (hs : Same a b o p) :
    o.phys = p.vals.map (fun v => v * scale a b k) := by
  rcases h with h | ⟨n, rfl⟩
  · exact hs.phys h
  · cases p with
    | plain w =>
      simp only [Same] at hs
      subst hs
      simp [Opd.phys, Opd.vals]
    | cosmo y => exact hs.elim

private theorem ready {a k : ℝ} {o p : Opd} (ho : Loose a k o) (hp : Loose a k p) (hb : ¬ (IsPlain o ∧ IsPlain p)) :
    ∃ (r : Prepared) (b : Bool) (o' p' : Opd), prepare true [o, p] [] = .ok r ∧ r.comoving = some b ∧ r.vt = true ∧ r.cfs = [o.cf, p.cf] ∧
      r.args = [o', p'] ∧ o.phys = o'.vals.map (fun v => v * scale a b k) ∧ p.phys = p'.vals.map (fun v => v * scale a b k) ∧
      preserve2 o.cf p.cf = .ok (some ⟨some k, some a⟩) ∧ without2 o.cf p.cf = .ok none := by
  have hmix : ∀ q ∈ [o, p], Mix a q := by
    intro q hq
    rcases List.mem_pair.mp hq with rfl | rfl
    · exact ho.mix
    · exact hp.mix
  have hne : flags [o, p] ≠ [] := by
    intro h
    obtain ⟨u, v, rfl, rfl⟩ := not_flags_nil h
    exact hb ⟨⟨u, rfl⟩, v, rfl⟩
  obtain ⟨r, b, e, hc, hvt, hcfs, hf, -⟩ := prepare_mix hmix hne
  obtain ⟨o', p', hargs, h1, h2⟩ := forall2_two hf
  have hcf : ∀ {q : Opd}, Loose a k q → (∃ v, q = .plain v) ∨ q.cf = some ⟨some k, some a⟩ := by
    rintro q (h | ⟨n, rfl⟩)
    · cases q with
      | plain v => exact .inl ⟨v, rfl⟩
      | cosmo x => exact .inr (Conv.cf h)
    · exact .inl ⟨_, rfl⟩
  have hfac : preserve2 o.cf p.cf = .ok (some ⟨some k, some a⟩) ∧ without2 o.cf p.cf = .ok none := by
    rcases hcf ho with h | h <;> rcases hcf hp with h' | h'
    · exact absurd ⟨h, h'⟩ hb
    · obtain ⟨v, rfl⟩ := h
      rw [h']
      exact ⟨rfl, rfl⟩
    · obtain ⟨v, rfl⟩ := h'
      rw [h]
      exact ⟨rfl, rfl⟩
    · rw [h, h']
      simp [preserve2, without2, same_refl]
  exact ⟨r, b, o', p', e, hc, hvt, by simpa using hcfs, hargs, ho.same h1, hp.same h2, hfac.1, hfac.2⟩

/-! ### Formulas -/

/-- The value of a formula and its meaning. -/
inductive ValueAgrees (a k : ℝ) (B : Prop) : Except Err Value → Except Err NumberTable → Prop
  | error (e : Err) : ValueAgrees a k B (.error e) (.error e)
  | ok {x : Value} {t : NumberTable} (hs : x.shape = t.shape) (hv : x.val.phys = t.values) (he : Loose a k x.val) (hb : IsPlain x.val ↔ B) :
      ValueAgrees a k B (.ok x) (.ok t)

private theorem bare_zero {ks : Nat → ℝ} {e : Shaped.Expr} {k : ℝ} (h : ShapedDimension ks e k) : ShapedBare e → k = 0 := by
  induction h with
  | var i => intro h; exact h.elim
  | nums s v h => intro _; rfl
  | sum hf hs ht ihs iht => exact fun h => ihs h.1
  | extremum hf hs ht hb ihs iht => exact fun h => ihs h.1
  | mul hs ht ihs iht => intro h; rw [ihs h.1, iht h.2, add_zero]
  | div hs ht ihs iht => intro h; rw [ihs h.1, iht h.2, sub_zero]
  | same hf hs ih => exact ih
  | sqrt hs ih => intro h; rw [ih h, zero_div]
  | square hs ih => intro h; rw [ih h, mul_zero]
  | cbrt hs ih => intro h; rw [ih h, zero_div]
  | reciprocal hs ih => intro h; rw [ih h, neg_zero]
  | pow hs q ih => intro h; rw [ih h, zero_mul]
  | total hg hs ih => exact ih
  | reduce hg d hs ih => exact ih
  | select j d hs ih => exact ih
  | take js d hs ih => exact ih
  | newaxis d hs ih => exact ih
  | reshape t hs ih => exact ih
  | transpose hs ih => exact ih
  | physical hs hb ih => exact ih
  | comoving hs hb ih => exact ih

theorem formula_agrees {a : ℝ} (ha : 0 < a) {ks : Nat → ℝ} {shapes : Nat → List Nat} {env : Nat → Arr} (henv : ∀ i, Conv a (ks i) (env i))
    (hlen : ∀ i, (env i).val.length = (tuples (shapes i)).length) {e : Shaped.Expr} {k : ℝ} (h : ScalesAs ks e k) :
    ValueAgrees a k (ShapedBare e) (Shaped.eval shapes env e) (shapedMeaning (fun i => tableOf (shapes i) (env i).phys) e) := by
  cases h with
  | formula h =>
    have h1 := c130_value ha henv hlen h
    cases e1 : Shaped.eval shapes env e with
    | error q => cases e2 : shapedMeaning (fun i => tableOf (shapes i) (env i).phys) e with
      | error q' =>
        rw [e1, e2] at h1
        cases h1
        exact .error q
      | ok t => rw [e1, e2] at h1; cases h1
    | ok x => cases e2 : shapedMeaning (fun i => tableOf (shapes i) (env i).phys) e with
      | error q => rw [e1, e2] at h1; cases h1
      | ok t =>
        rw [e1, e2] at h1
        obtain ⟨h2, h3, -⟩ := c130_factor ha henv hlen h e1
        simp only [Except.map, Except.ok.injEq, Prod.mk.injEq] at h1
        refine .ok h1.1 h1.2 (.inl ?_) h3
        rcases x with ⟨s, o | z⟩
        · exact (bare_zero h (h3.1 ⟨_, rfl⟩) : k = 0)
        · exact h2 z rfl
  | zeros s k =>
    refine .ok rfl ?_ (.inr ⟨_, rfl⟩) ⟨fun _ => trivial, fun _ => ⟨_, rfl⟩⟩
    exact (Shaped.values_tableOf (by simp [Opd.phys, length_tuples])).symm

/-! ### Conditions -/

open Classical in
/-- The value of a condition and its meaning. -/
inductive FlagsAgree : Except Err Flags → Except Err FlagTable → Prop
  | error (e : Err) : FlagsAgree (.error e) (.error e)
  | ok {b : Flags} {t : FlagTable} (hs : b.shape = t.shape) (hv : b.val = (tuples t.shape).map fun l => decide (t.holds l)) : FlagsAgree (.ok b) (.ok t)

private theorem relation_scaled (c : Cmp) (u v : ℝ) {s : ℝ} (hs : 0 < s) : relation c (u * s) (v * s) ↔ c.rel u v := by
  cases c <;> simp [relation, Cmp.rel, hs, hs.ne', not_lt]

private theorem relation_rel (c : Cmp) (u v : ℝ) : relation c u v ↔ c.rel u v := by
  have := relation_scaled c u v one_pos
  rwa [mul_one, mul_one] at this

private theorem getD_scaled' (x : List ℝ) (c : ℝ) (i : Nat) : (x.map (fun v => v * c)).getD i 0 = x.getD i 0 * c := by
  simp only [List.getD_eq_getElem?_getD, List.getElem?_map]
  cases x[i]? <;> simp

open Classical in
private theorem num_relation (c : Cmp) {s : ℝ} (hs : 0 < s) (S T : List Nat) (u v : List ℝ) :
    numShaped (fun p q => decide (relation c p q)) S T [u.map (fun w => w * s), v.map (fun w => w * s)] =
      numShaped (fun p q => decide (c.rel p q)) S T [u, v] := by
  simp only [numShaped]
  cases Shaped.join S T with
  | error q => rfl
  | ok r =>
    refine congrArg Except.ok (List.map_congr_left fun i _ => ?_)
    rw [getD_scaled', getD_scaled']
    exact decide_eq_decide.2 (relation_scaled c _ _ hs)

open Classical in
private theorem agree_compared {a k : ℝ} (ha : 0 < a) (c : Cmp) {x y : Value} {X Y : NumberTable} (h1 : x.shape = X.shape) (h2 : x.val.phys = X.values)
    (h3 : Loose a k x.val) (g1 : y.shape = Y.shape) (g2 : y.val.phys = Y.values) (g3 : Loose a k y.val) :
    FlagsAgree (compared c x y) (related X.shape Y.shape fun l m => relation c (X.entry l) (Y.entry m)) := by
  have key : compareValues c x.shape y.shape x.val y.val =
      numShaped (fun p q => decide (relation c p q)) X.shape Y.shape [X.values, Y.values] := by
    rw [h1, g1, ← h2, ← g2]
    by_cases hb : IsPlain x.val ∧ IsPlain y.val
    · obtain ⟨⟨u, e1⟩, v, e2⟩ := hb
      rw [e1, e2]
      simp only [compareValues, Opd.phys, relation_rel]
    · obtain ⟨r, b, o', p', e, hc, hvt, hcfs, hargs, e1, e2, -, hw⟩ := ready h3 g3 hb
      have hreg : registry c.ufunc = .comparison := by cases c <;> rfl
      have main : ufuncBool c.ufunc (numShaped (fun p q => decide (c.rel p q)) X.shape Y.shape) [x.val, y.val] =
          numShaped (fun p q => decide (relation c p q)) X.shape Y.shape [x.val.phys, y.val.phys] := by
        unfold ufuncBool
        simp only [e, hcfs, hreg, handle, hw, hargs, List.map_cons, List.map_nil, e1, e2]
        exact (num_relation c (scale_pos ha b k) _ _ _ _).symm
      rw [← main]
      unfold compareValues
      split
      · rename_i u v e1 e2
        exact absurd ⟨⟨u, e1⟩, v, e2⟩ hb
      · rfl
  unfold compared
  rw [key, h1, g1]
  by_cases hf : Fit X.shape Y.shape
  · rw [num_tuples _ hf, join_ok hf, related, if_pos hf]
    exact .ok rfl rfl
  · rw [num_error _ _ _ hf, related, if_neg hf]
    exact .error _

open Classical in
private theorem agree_zip {f : Bool → Bool → Bool} {F : Prop → Prop → Prop} (hF : ∀ p q : Prop, f (decide p) (decide q) = decide (F p q)) {b c : Flags}
    {B C : FlagTable} (h1 : b.shape = B.shape) (h2 : b.val = (tuples B.shape).map fun l => decide (B.holds l)) (g1 : c.shape = C.shape)
    (g2 : c.val = (tuples C.shape).map fun l => decide (C.holds l)) :
    FlagsAgree (zipFlags f b c) (related B.shape C.shape fun l m => F (B.holds l) (C.holds m)) := by
  unfold zipFlags related
  rw [h1, g1, h2, g2]
  by_cases hf : Fit B.shape C.shape
  · rw [join_ok hf, if_pos hf]
    refine .ok rfl ?_
    simp only [map_range]
    refine List.map_congr_left fun l hl => ?_
    rw [at_left _ _ (mem_tuples.1 hl), at_right _ _ hf (mem_tuples.1 hl), hF]
  · rw [join_error hf, if_neg hf]
    exact .error _

theorem cond_agrees {a : ℝ} (ha : 0 < a) {ks : Nat → ℝ} {shapes : Nat → List Nat} {env : Nat → Arr} (henv : ∀ i, Conv a (ks i) (env i))
    (hlen : ∀ i, (env i).val.length = (tuples (shapes i)).length) {c : Cond} (h : CondScales ks c) :
    FlagsAgree (evalCond shapes env c) (condMeaning (fun i => tableOf (shapes i) (env i).phys) c) := by
  have both : ∀ {c d : Cond} {f : Flags → Flags → Except Err Flags} {g : FlagTable → FlagTable → Except Err FlagTable},
      FlagsAgree (evalCond shapes env c) (condMeaning (fun i => tableOf (shapes i) (env i).phys) c) →
      FlagsAgree (evalCond shapes env d) (condMeaning (fun i => tableOf (shapes i) (env i).phys) d) →
      (∀ (b b' : Flags) (t t' : FlagTable), FlagsAgree (.ok b) (.ok t) → FlagsAgree (.ok b') (.ok t') → FlagsAgree (f b b') (g t t')) →
      FlagsAgree ((evalCond shapes env c).bind fun x => (evalCond shapes env d).bind fun y => f x y)
        ((condMeaning (fun i => tableOf (shapes i) (env i).phys) c).bind fun x =>
          (condMeaning (fun i => tableOf (shapes i) (env i).phys) d).bind fun y => g x y) := by
    intro c d f g h1 h2 h3
    generalize evalCond shapes env c = r at h1
    generalize condMeaning _ c = R at h1
    generalize evalCond shapes env d = q at h2
    generalize condMeaning _ d = Q at h2
    cases h1 with
    | error e => exact .error e
    | ok hs hv => cases h2 with
      | error e => exact .error e
      | ok hs' hv' => exact h3 _ _ _ _ (.ok hs hv) (.ok hs' hv')
  induction h with
  | @cmp c s t k hs ht =>
    have h1 := formula_agrees ha henv hlen hs
    have h2 := formula_agrees ha henv hlen ht
    simp only [evalCond, condMeaning]
    generalize Shaped.eval shapes env s = r at h1 ⊢
    generalize shapedMeaning _ s = R at h1 ⊢
    generalize Shaped.eval shapes env t = q at h2 ⊢
    generalize shapedMeaning _ t = Q at h2 ⊢
    cases h1 with
    | error e => exact .error e
    | ok hs hv he hb => cases h2 with
      | error e => exact .error e
      | ok hs' hv' he' hb' => exact agree_compared ha c hs hv he hs' hv' he'
  | @and c d hc hd ihc ihd =>
    refine both ihc ihd (fun b b' t t' h1 h2 => ?_)
    cases h1 with
    | ok hs hv => cases h2 with
      | ok hs' hv' => exact agree_zip (f := (· && ·)) (F := And) (fun p q => by by_cases hp : p <;> by_cases hq : q <;> simp [hp, hq]) hs hv hs' hv'
  | @or c d hc hd ihc ihd =>
    refine both ihc ihd (fun b b' t t' h1 h2 => ?_)
    cases h1 with
    | ok hs hv => cases h2 with
      | ok hs' hv' => exact agree_zip (f := (· || ·)) (F := Or) (fun p q => by by_cases hp : p <;> by_cases hq : q <;> simp [hp, hq]) hs hv hs' hv'
  | @not c hc ih =>
    simp only [evalCond, condMeaning]
    generalize evalCond shapes env c = r at ih ⊢
    generalize condMeaning _ c = R at ih ⊢
    cases ih with
    | error e => exact .error e
    | ok hs hv => exact .ok hs (by simp [hv])

/-! ### Selections -/

private theorem ravel_append {s l : List Nat} (h : Shaped.In s l) (t m : List Nat) :
    ravel (s ++ t) (l ++ m) = ravel s l * Shaped.count t + ravel t m := by
  induction h with
  | nil => simp [ravel]
  | @cons n i s l hi hl ih =>
    simp only [List.cons_append, ravel, ih, Shaped.count_append]
    ring

private theorem pick_hom (b : List Bool) (inner : Nat) : Homogeneous (pick b inner) := by
  intro c x _
  unfold pick
  rw [List.map_flatMap]
  refine List.flatMap_congr fun p _ => ?_
  rw [List.map_map]
  exact List.map_congr_left fun j _ => getD_scaled' x c _

private theorem flatMap_range {α β : Type} (l : List α) (d : α) (f : α → List β) : (List.range l.length).flatMap (fun i => f (l.getD i d)) = l.flatMap f := by
  have h : (List.range l.length).map (fun i => l.getD i d) = l := by
    refine List.ext_getElem (by simp) fun i h1 h2 => ?_
    simp [h2]
  conv_rhs => rw [← h, List.flatMap_map]

open Classical in
private theorem pick_values {X : NumberTable} {b : List Bool} {B : FlagTable} (hb : b = (tuples B.shape).map fun l => decide (B.holds l))
    (hp : B.shape <+: X.shape) :
    pick b (Shaped.count (X.shape.drop B.shape.length)) X.values =
      B.selected.flatMap fun l => (tuples (X.shape.drop B.shape.length)).map fun m => X.entry (l ++ m) := by
  obtain ⟨t, ht⟩ := hp
  have hd : X.shape.drop B.shape.length = t := by rw [← ht, List.drop_left]
  have hlen : b.length = Shaped.count B.shape := by rw [hb, List.length_map, length_tuples]
  rw [pick, hd, hlen, ← tuples_ravel B.shape, List.filter_map, List.flatMap_map, FlagTable.selected]
  have hfil : (tuples B.shape).filter ((fun i => b.getD i false) ∘ ravel B.shape) = (tuples B.shape).filter fun l => decide (B.holds l) := by
    refine List.filter_congr fun l hl => ?_
    simp only [Function.comp_apply]
    rw [hb, at_tuple _ _ (mem_tuples.1 hl)]
  rw [hfil]
  refine List.flatMap_congr fun l hl => ?_
  have hl' := mem_tuples.1 (List.mem_of_mem_filter hl)
  rw [map_range]
  refine List.map_congr_left fun m hm => ?_
  have hin : Shaped.In X.shape (l ++ m) := by
    rw [← ht]
    exact List.rel_append hl' (mem_tuples.1 hm)
  rw [← Shaped.values_at hin, ← ravel_append hl', ht]

open Classical in
private theorem agree_masked {a k : ℝ} {x : Value} {X : NumberTable} {b : Flags} {B : FlagTable} (h1 : x.shape = X.shape)
    (h2 : x.val.phys = X.values) (h3 : HasExp a x.val k) (g1 : b.shape = B.shape) (g2 : b.val = (tuples B.shape).map fun l => decide (B.holds l)) :
    ValueAgrees a k (IsPlain x.val) (masked b x) (X.select B) := by
  unfold masked NumberTable.select
  rw [h1, g1]
  by_cases hp : B.shape <+: X.shape
  · rw [if_pos (List.prefix_iff_eq_take.1 hp), if_pos hp]
    have hc : b.val.count true = B.selected.length := by
      rw [g2, FlagTable.selected, List.count_eq_countP, List.countP_map, List.countP_eq_length_filter]
      refine congrArg List.length (List.filter_congr fun l _ => ?_)
      simp
    have hv : pick b.val (Shaped.count (X.shape.drop B.shape.length)) X.values =
        NumberTable.values ⟨B.selected.length :: X.shape.drop B.shape.length, fun l => X.entry (B.selected.getD (l.headD 0) [] ++ l.tail)⟩ := by
      rw [pick_values g2 hp, NumberTable.values, tuples, List.map_flatMap, ← flatMap_range B.selected []]
      refine List.flatMap_congr fun i _ => ?_
      rw [List.map_map]
      rfl
    rw [hc]
    rcases x with ⟨s, v | z⟩
    · refine .ok rfl ?_ (.inl h3) ⟨fun _ => ⟨v, rfl⟩, fun _ => ⟨_, rfl⟩⟩
      rw [← hv, ← h2]
      rfl
    · obtain ⟨c1, c2, -⟩ := c52_propagated (f := pick b.val (Shaped.count (X.shape.drop B.shape.length))) (fun c l hc => pick_hom _ _ c l hc) h3
      refine .ok rfl ?_ (.inl c1) ⟨fun ⟨v, h⟩ => (by cases h), fun ⟨v, h⟩ => (by cases h)⟩
      rw [← hv, ← h2]
      exact c2
  · rw [if_neg (fun h => hp (List.prefix_iff_eq_take.2 h)), if_neg hp]
    exact .error _

/-! ### Choices -/

private theorem lengths_fitted {s t : List Nat} (hf : Fit s t) {d : Nat} :
    (d < s.length → lengthOf s d ≠ 1 → lengthOf (fitted s t) d = lengthOf s d) ∧ (d < t.length → lengthOf t d ≠ 1 → lengthOf (fitted s t) d = lengthOf t d) := by
  refine ⟨fun hd h1 => by rw [Shaped.lengthOf_fitted (lt_max_of_lt_left hd), if_neg h1], fun hd h1 => ?_⟩
  rw [Shaped.lengthOf_fitted (lt_max_of_lt_right hd)]
  split
  · rfl
  · rename_i h2
    rcases hf d with h3 | h3 | h3
    · exact h3
    · exact absurd h3 h2
    · exact absurd h3 h1

private theorem at_third {α : Type} (e : List Nat → α) (d : α) {q s t l : List Nat} (hq : q.length ≤ t.length)
    (hd : ∀ d, d < q.length → lengthOf q d ≠ 1 → lengthOf t d = lengthOf q d) (hg : Fit s t) (h : Shaped.In (fitted s t) l) :
    ((tuples q).map e).getD (Shaped.source (Shaped.pad (fitted s t).length q) (fitted s t) (ravel (fitted s t) l)) d = e (own q l) := by
  have hlen : q.length ≤ (fitted s t).length := by rw [length_fitted]; exact hq.trans (le_max_right _ _)
  rw [source_own hlen h, at_tuple]
  refine Shaped.own_in hlen h fun j hj h1 => ?_
  have h2 := hd j hj h1
  rw [← h2] at h1 ⊢
  exact (lengths_fitted hg).2 (hj.trans_le hq) h1

open Classical in
private theorem where_values {b : Flags} {B : FlagTable} {X Y : NumberTable} (g1 : b.shape = B.shape)
    (g2 : b.val = (tuples B.shape).map fun l => decide (B.holds l)) :
    numWhere b X.shape Y.shape X.values Y.values = (B.choose X Y).map NumberTable.values ∧
      Selections.join3 b.shape X.shape Y.shape = (B.choose X Y).map NumberTable.shape := by
  unfold numWhere Selections.join3 FlagTable.choose
  rw [g1, g2]
  by_cases hf : Fit X.shape Y.shape
  · rw [join_ok hf]
    simp only [Except.bind]
    by_cases hg : Fit B.shape (fitted X.shape Y.shape)
    · rw [join_ok hg, if_pos ⟨hf, hg⟩]
      refine ⟨congrArg Except.ok ?_, rfl⟩
      simp only [map_range, NumberTable.values]
      refine List.map_congr_left fun l hl => ?_
      have hl' := mem_tuples.1 hl
      rw [at_left _ _ hl', at_third _ _ (by rw [length_fitted]; exact le_max_left _ _) (fun _ => (lengths_fitted hf).1) hg hl',
        at_third _ _ (by rw [length_fitted]; exact le_max_right _ _) (fun _ => (lengths_fitted hf).2) hg hl']
      simp only [decide_eq_true_eq]
    · rw [join_error hg, if_neg (fun h => hg h.2)]
      exact ⟨rfl, rfl⟩
  · rw [join_error hf, if_neg (fun h => hf h.1)]
    exact ⟨rfl, rfl⟩

private theorem where_hom (b : Flags) (s t : List Nat) (u v : List ℝ) (c : ℝ) :
    numWhere b s t (u.map (fun w => w * c)) (v.map (fun w => w * c)) = (numWhere b s t u v).map (fun r => r.map (fun w => w * c)) := by
  unfold numWhere
  cases Selections.join3 b.shape s t with
  | error e => rfl
  | ok r =>
    simp only [Except.map, List.map_map]
    refine congrArg Except.ok (List.map_congr_left fun i _ => ?_)
    simp only [getD_scaled', Function.comp_apply]
    split <;> rfl

open Classical in
private theorem agree_chosen {a k : ℝ} {x y : Value} {X Y : NumberTable} {b : Flags} {B : FlagTable} (h1 : x.shape = X.shape)
    (h2 : x.val.phys = X.values) (h3 : Loose a k x.val) (f1 : y.shape = Y.shape) (f2 : y.val.phys = Y.values) (f3 : Loose a k y.val)
    (g1 : b.shape = B.shape) (g2 : b.val = (tuples B.shape).map fun l => decide (B.holds l)) (hb : ¬ (IsPlain x.val ∧ IsPlain y.val)) :
    ValueAgrees a k False (chosen b x y) (B.choose X Y) := by
  obtain ⟨n1, n2⟩ := where_values (X := X) (Y := Y) g1 g2
  obtain ⟨r, c, o', p', e, hc, hvt, hcfs, hargs, e1, e2, hpre, -⟩ := ready h3 f3 hb
  have hw : whereValues b X.shape Y.shape x.val y.val = (wrap2 preserve2 (numWhere b X.shape Y.shape) x.val y.val).map .cosmo := by
    unfold whereValues
    split
    · rename_i u v e1 e2
      exact absurd ⟨⟨u, e1⟩, v, e2⟩ hb
    · rfl
  have hn : (numWhere b X.shape Y.shape o'.vals p'.vals).map (fun r => r.map (fun w => w * scale a c k)) = (B.choose X Y).map NumberTable.values := by
    rw [← n1, ← h2, ← f2, e1, e2, where_hom]
  unfold chosen
  rw [h1, f1, hw, n2]
  unfold wrap2
  simp only [e, hpre, hargs]
  cases hq : numWhere b X.shape Y.shape o'.vals p'.vals with
  | error q =>
    rw [hq] at hn
    cases hB : B.choose X Y with
    | error q' =>
      rw [hB] at hn
      cases hn
      exact .error _
    | ok t => rw [hB] at hn; cases hn
  | ok v =>
    rw [hq] at hn
    cases hB : B.choose X Y with
    | error q' => rw [hB] at hn; cases hn
    | ok t =>
      rw [hB] at hn
      have hz : Conv a k { val := v, comoving := r.comoving, cf := some ⟨some k, some a⟩, vt := r.vt } := by
        have ha : 0 < a := by
          rcases h3 with h | ⟨n, h⟩
          · rcases x with ⟨s, u | z⟩
            · rcases f3 with h' | ⟨n, h'⟩
              · rcases y with ⟨s', u' | z'⟩
                · exact absurd ⟨⟨u, rfl⟩, u', rfl⟩ hb
                · exact Conv.pos h'
              · exact absurd ⟨⟨u, rfl⟩, _, h'⟩ hb
            · exact Conv.pos h
          · rcases f3 with h' | ⟨n, h'⟩
            · rcases y with ⟨s', u' | z'⟩
              · exact absurd ⟨⟨_, h⟩, u', rfl⟩ hb
              · exact Conv.pos h'
            · exact absurd ⟨⟨_, h⟩, _, h'⟩ hb
        exact ⟨ha, rfl, hvt, by simp [hc]⟩
      refine .ok rfl ?_ (.inl hz) ⟨fun ⟨v, h⟩ => (by cases h), fun h => h.elim⟩
      rw [← Except.ok.inj hn]
      exact phys_result (b := c) hc rfl

/-! ### Scripts -/

theorem step_agrees {a : ℝ} (ha : 0 < a) {ks : Nat → ℝ} {shapes : Nat → List Nat} {env : Nat → Arr} (henv : ∀ i, Conv a (ks i) (env i))
    (hlen : ∀ i, (env i).val.length = (tuples (shapes i)).length) {d : Step} {k : ℝ} (h : StepScales ks d k) :
    ValueAgrees a k False (evalStep shapes env d) (stepMeaning (fun i => tableOf (shapes i) (env i).phys) d) := by
  cases h with
  | @formula e _ h hb =>
    have h1 := formula_agrees ha henv hlen (.formula h)
    simp only [evalStep, stepMeaning]
    generalize Shaped.eval shapes env e = r at h1 ⊢
    generalize shapedMeaning _ e = R at h1 ⊢
    cases h1 with
    | error e => exact .error e
    | ok hs hv he hp => exact .ok hs hv he (hp.trans (iff_of_false hb id))
  | @select e _ c h hb hc =>
    have h1 := formula_agrees ha henv hlen (.formula h)
    have h2 := cond_agrees ha henv hlen hc
    simp only [evalStep, stepMeaning]
    generalize Shaped.eval shapes env e = r at h1 ⊢
    generalize shapedMeaning _ e = R at h1 ⊢
    generalize evalCond shapes env c = q at h2 ⊢
    generalize condMeaning _ c = Q at h2 ⊢
    cases h1 with
    | error e => exact .error e
    | @ok x t hs hv he hp => cases h2 with
      | error e => exact .error e
      | @ok b B hs' hv' =>
        have hnp : ¬ IsPlain x.val := fun h => hb (hp.1 h)
        have he' : HasExp a x.val k := by
          rcases he with h | ⟨n, h⟩
          · exact h
          · exact absurd ⟨_, h⟩ hnp
        have h3 := agree_masked hs hv he' hs' hv'
        simp only [Except.bind]
        generalize masked b x = w at h3 ⊢
        generalize t.select B = W at h3 ⊢
        cases h3 with
        | error e => exact .error e
        | ok u1 u2 u3 u4 => exact .ok u1 u2 u3 (u4.trans (iff_of_false hnp id))
  | @choose e e' _ c hc h h' hb =>
    have h1 := formula_agrees ha henv hlen h
    have h1' := formula_agrees ha henv hlen h'
    have h2 := cond_agrees ha henv hlen hc
    simp only [evalStep, stepMeaning]
    generalize Shaped.eval shapes env e = r at h1 ⊢
    generalize shapedMeaning _ e = R at h1 ⊢
    generalize Shaped.eval shapes env e' = r' at h1' ⊢
    generalize shapedMeaning _ e' = R' at h1' ⊢
    generalize evalCond shapes env c = q at h2 ⊢
    generalize condMeaning _ c = Q at h2 ⊢
    cases h2 with
    | error e => exact .error e
    | ok hs' hv' => cases h1 with
      | error e => exact .error e
      | ok hs hv he hp => cases h1' with
        | error e => exact .error e
        | ok gs gv ge gp => exact agree_chosen hs hv he gs gv ge hs' hv' (fun h => hb ⟨hp.1 h.1, gp.1 h.2⟩)

/-- The shapes and physical values of the variables. -/
noncomputable def physicalTables (s : Selections.State) (i : Nat) : List Nat × List ℝ := (s.shapes i, (s.env i).phys)

private theorem length_phys' (x : Arr) : x.phys.length = x.val.length := by
  unfold Arr.phys
  split <;> simp

/-- The variables scale as `a^ks i` and have as many values as their shapes say. -/
structure ScriptState (a : ℝ) (ks : Nat → ℝ) (s : Selections.State) : Prop where
  conv : ∀ i, Conv a (ks i) (s.env i)
  length : ∀ i, (s.env i).val.length = (tuples (s.shapes i)).length

/-- C132: a script of formulas, selections with conditions and choices, in which terms of sums and sides of comparisons scale alike, gives all
variables the shapes and physical values that the same script gives for the physical values, and raises exactly if that one does, with the same
exception. -/
theorem c132_script {a : ℝ} (ha : 0 < a) {ks ls : Nat → ℝ} {l : List (Nat × Step)} (h : ScriptScales ks l ls) {s : Selections.State}
    (hs : ScriptState a ks s) :
    (run l s).map physicalTables = scriptMeaning l (physicalTables s) ∧ ∀ s', run l s = .ok s' → ScriptState a ls s' := by
  induction h generalizing s with
  | nil ks =>
    refine ⟨rfl, ?_⟩
    rintro s' h
    cases h
    exact hs
  | @cons ks ls i d k l hd hl ih =>
    have h1 := step_agrees ha hs.conv hs.length hd
    simp only [run, scriptMeaning, physicalTables]
    generalize evalStep s.shapes s.env d = r at h1 ⊢
    generalize stepMeaning _ d = R at h1 ⊢
    cases h1 with
    | error e => exact ⟨rfl, by rintro s' h; cases h⟩
    | @ok x t u1 u2 u3 u4 =>
      rcases x with ⟨S, v | z⟩
      · exact (u4.1 ⟨v, rfl⟩).elim
      · have hz : Conv a k z := by
          rcases u3 with h | ⟨n, h⟩
          · exact h
          · cases h
        have hst : ScriptState a (Function.update ks i k) ⟨Function.update s.shapes i S, Function.update s.env i z⟩ := by
          refine ⟨fun j => ?_, fun j => ?_⟩
          · by_cases hj : j = i
            · subst hj
              simpa using hz
            · simpa [hj] using hs.conv j
          · by_cases hj : j = i
            · subst hj
              simp only [Function.update_self]
              have e1 : z.phys = t.values := u2
              have e2 : S = t.shape := u1
              rw [← length_phys', e1, length_values, e2, length_tuples]
            · simpa [hj] using hs.length j
        obtain ⟨h2, h3⟩ := ih hst
        refine ⟨?_, h3⟩
        have e : physicalTables ⟨Function.update s.shapes i S, Function.update s.env i z⟩ =
            Function.update (physicalTables s) i (t.shape, t.values) := by
          funext j
          by_cases hj : j = i
          · subst hj
            have e1 : z.phys = t.values := u2
            have e2 : S = t.shape := u1
            simp [physicalTables, e1, e2]
          · simp [physicalTables, hj]
        change (run l ⟨Function.update s.shapes i S, Function.update s.env i z⟩).map physicalTables = scriptMeaning l (Function.update (physicalTables s) i (t.shape, t.values))
        rw [← e]
        exact h2

/-- C132: the frames of the variables do not matter for the physical values at the end, nor for exceptions. -/
theorem c132_frames {a : ℝ} (ha : 0 < a) {ks ls : Nat → ℝ} {l : List (Nat × Step)} (h : ScriptScales ks l ls) {s s' : Selections.State}
    (hs : ScriptState a ks s) (hs' : ScriptState a ks s') (he : physicalTables s = physicalTables s') :
    (run l s).map physicalTables = (run l s').map physicalTables := by
  rw [(c132_script ha h hs).1, (c132_script ha h hs').1, he]

open Classical in
/-- C132: a condition is true exactly where it is true for the physical values. -/
theorem c132_condition {a : ℝ} (ha : 0 < a) {ks : Nat → ℝ} {s : Selections.State} (hs : ScriptState a ks s) {c : Cond} (h : CondScales ks c) :
    (evalCond s.shapes s.env c).map (fun b => (b.shape, b.val)) =
      (condMeaning (fun i => tableOf (s.shapes i) (s.env i).phys) c).map fun t => (t.shape, (tuples t.shape).map fun l => decide (t.holds l)) := by
  have h1 := cond_agrees ha hs.conv hs.length h
  generalize evalCond s.shapes s.env c = r at h1 ⊢
  generalize condMeaning _ c = R at h1 ⊢
  cases h1 with
  | error e => rfl
  | ok hs hv => simp only [Except.map, hs, hv]

private theorem tuples_append (s t : List Nat) : tuples (s ++ t) = (tuples s).flatMap fun l => (tuples t).map fun m => l ++ m := by
  induction s with
  | nil => simp [tuples]
  | cons n s ih =>
    simp only [List.cons_append, tuples, ih, List.flatMap_assoc, List.map_flatMap, List.flatMap_map, List.map_map]
    rfl

open Classical in
theorem select_values {X T : NumberTable} {B : FlagTable} (h : X.select B = .ok T) :
    B.shape <+: X.shape ∧ T.values = B.selected.flatMap fun l => (tuples (X.shape.drop B.shape.length)).map fun m => X.entry (l ++ m) := by
  unfold NumberTable.select at h
  split at h
  · rename_i hp
    refine ⟨hp, ?_⟩
    cases h
    rw [NumberTable.values, tuples, List.map_flatMap, ← flatMap_range B.selected []]
    refine List.flatMap_congr fun i _ => ?_
    rw [List.map_map]
    rfl
  · cases h

open Classical in
private theorem parts {X T U : NumberTable} {B : FlagTable} (h : X.select B = .ok T) (h' : X.select ⟨B.shape, fun l => ¬ B.holds l⟩ = .ok U) :
    (T.values ++ U.values).Perm X.values := by
  obtain ⟨⟨t, ht⟩, h1⟩ := select_values h
  obtain ⟨-, h2⟩ := select_values h'
  have hd : X.shape.drop B.shape.length = t := by rw [← ht, List.drop_left]
  rw [h1, h2, hd, ← List.flatMap_append, NumberTable.values, ← ht, tuples_append, List.map_flatMap]
  have : (fun l => (tuples t).map fun m => X.entry (l ++ m)) = fun l => ((tuples t).map fun m => l ++ m).map X.entry := by
    funext l
    rw [List.map_map]
    rfl
  rw [this]
  refine List.Perm.flatMap_right _ ?_
  have e : FlagTable.selected ⟨B.shape, fun l => ¬ B.holds l⟩ = (tuples B.shape).filter (fun l => !decide (B.holds l)) := by
    unfold FlagTable.selected
    refine List.filter_congr fun l _ => ?_
    simp
  rw [e]
  exact List.filter_append_perm _ _

/-- C132: `e[c]` and `e[~c]` together have each physical value of `e` once, so that sums, counts and extrema of the parts are those of the whole,
whatever the frames of the arrays. -/
theorem c132_parts {a : ℝ} (ha : 0 < a) {ks : Nat → ℝ} {s : Selections.State} (hs : ScriptState a ks s) {e : Shaped.Expr} {k : ℝ} {c : Cond}
    (h : ShapedDimension ks e k) (hb : ¬ ShapedBare e) (hc : CondScales ks c) {x y z : Value} (hx : Shaped.eval s.shapes s.env e = .ok x)
    (hy : evalStep s.shapes s.env (.select e c) = .ok y) (hz : evalStep s.shapes s.env (.select e (.not c)) = .ok z) :
    (y.val.phys ++ z.val.phys).Perm x.val.phys ∧ y.val.phys.sum + z.val.phys.sum = x.val.phys.sum := by
  have h1 := formula_agrees ha hs.conv hs.length (.formula h)
  have h2 := step_agrees ha hs.conv hs.length (.select h hb hc)
  have h3 := step_agrees ha hs.conv hs.length (.select h hb (.not hc))
  rw [hx] at h1
  rw [hy] at h2
  rw [hz] at h3
  simp only [stepMeaning, condMeaning] at h2 h3
  generalize shapedMeaning _ e = R at h1 h2 h3
  generalize condMeaning _ c = Q at h2 h3
  cases h1 with
  | @ok _ X u1 u2 u3 u4 =>
    simp only [Except.bind] at h2 h3
    cases Q with
    | error q => cases h2
    | ok B =>
      simp only [Except.map] at h2 h3
      generalize hT : X.select B = T at h2
      generalize hU : X.select _ = U at h3
      cases h2 with
      | ok v1 v2 v3 v4 => cases h3 with
        | ok w1 w2 w3 w4 =>
          have := parts hT hU
          rw [← v2, ← w2, ← u2] at this
          exact ⟨this, by rw [← List.sum_append]; exact this.sum_eq⟩

/-- C132: a condition that compares arrays with different factors (by more than about six digits) is refused, with any values, shapes and
frames. -/
theorem c132_unlike_refused {a k l : ℝ} (hkl : ¬ isclose (a ^ k) (a ^ l)) {s : Selections.State} {e e' : Shaped.Expr} {x y : Value} {u v : Arr}
    (hx : Shaped.eval s.shapes s.env e = .ok x)
    (hy : Shaped.eval s.shapes s.env e' = .ok y) (hu : x.val = .cosmo u) (hv : y.val = .cosmo v) (hcu : Conv a k u) (hcv : Conv a l v) (c : Cmp) :
    evalCond s.shapes s.env (.cmp c e e') = .error .value := by
  have hmix : ∀ q ∈ [Opd.cosmo u, Opd.cosmo v], Mix a q := by
    intro q hq
    rcases List.mem_pair.mp hq with rfl | rfl
    · exact ⟨k, hcu⟩
    · exact ⟨l, hcv⟩
  obtain ⟨r, b, e1, -, -, hcfs, -, -⟩ := prepare_mix hmix (by simp [flags])
  have hreg : registry c.ufunc = .comparison := by cases c <;> rfl
  have hns : ¬ CF.same ⟨some k, some a⟩ ⟨some l, some a⟩ := by
    intro h
    exact hkl (by simpa [CF.aFactor] using h.2)
  have hw : without2 u.cf v.cf = .error .value := by
    rw [hcu.cf, hcv.cf, without2, if_neg hns]
  simp only [evalCond, hx, hy, Except.bind, compared, hu, hv, compareValues, ufuncBool, e1, hcfs, List.map_cons, List.map_nil, Opd.cf, hreg, handle, hw]

/-- One length: 4 in the comoving frame, 2 in the physical frame. -/
noncomputable def oneLength (comoving : Bool) : Selections.State :=
  ⟨fun _ => [1], fun _ => ⟨[if comoving then 4 else 2], some comoving, some ⟨some 1, some (1 / 2)⟩, true⟩⟩

private theorem oneLength_state (b : Bool) : ScriptState (1 / 2) (fun _ => 1) (oneLength b) := by
  refine ⟨fun i => ⟨by norm_num, rfl, rfl, by simp [oneLength]⟩, fun i => ?_⟩
  simp [oneLength, tuples]

private theorem oneLength_tables (b : Bool) : physicalTables (oneLength b) = fun _ => ([1], [2]) := by
  funext i
  cases b
  · simp [physicalTables, oneLength, Arr.phys, -one_div]
  · simp [physicalTables, oneLength, Arr.phys, -one_div]
    norm_num

/-- `np.where(x < 0, x, 1.)` -/
noncomputable def replaced : List (Nat × Step) := [(1, .choose (.cmp .less (.var 0) (.nums [] [0])) (.var 0) (.nums [] [1]))]

private theorem replaced_value (b : Bool) : ∃ t, run replaced (oneLength b) = .ok t ∧ physicalTables t 1 = ([1], [if b then 1 / 2 else 1]) := by
  cases b <;> simp [replaced, run, evalStep, evalCond, Shaped.eval, compared, compareValues, chosen, whereValues, numWhere, Selections.join3, oneLength,
    Except.bind, Except.map, ufuncBool, prepare, flags, wrap2, preserve2, Opd.cf, Opd.vals, Shaped.numShaped, Shaped.join, Shaped.pad,
    Shaped.joinPadded, Cmp.rel, Shaped.count, registry, Cmp.ufunc, handle, without2, State.put, physicalTables, Shaped.source, Arr.phys, -one_div]

/-- C132 fails for `np.where` with a bare number other than zero, which is accepted: the number is taken in the frame of the array, and arrays
with the same physical values in other frames give other physical values. -/
theorem c132_bare_choice_fails :
    ∃ (l : List (Nat × Step)) (s s' t t' : Selections.State), ScriptState (1 / 2) (fun _ => 1) s ∧ ScriptState (1 / 2) (fun _ => 1) s' ∧
      physicalTables s = physicalTables s' ∧ run l s = .ok t ∧ run l s' = .ok t' ∧ physicalTables t ≠ physicalTables t' := by
  obtain ⟨t, h1, h2⟩ := replaced_value true
  obtain ⟨t', h3, h4⟩ := replaced_value false
  refine ⟨replaced, oneLength true, oneLength false, t, t', oneLength_state _, oneLength_state _, ?_, h1, h3, fun h => ?_⟩
  · rw [oneLength_tables, oneLength_tables]
  · rw [h, h4] at h2
    simp at h2

/-- The masses (variable 2) within a radius (variable 3) of a centre (variable 1), and the same for the rows of the positions (variable 0):
`r = sqrt(((x - c)**2).sum(axis=1))`, `inner = m[r < R]`, `rows = x[(r < R) & (m > 0)]`, `bright = np.where(r < R, m, 0.)`,
`total = inner.sum()`. -/
noncomputable def aperture : List (Nat × Step) :=
  [(4, .formula radii), (5, .select (.var 2) (.cmp .less (.var 4) (.var 3))),
    (6, .select (.var 0) (.and (.cmp .less (.var 4) (.var 3)) (.cmp .greater (.var 2) (.nums [] [0])))),
    (7, .choose (.cmp .less (.var 4) (.var 3)) (.var 2) (.nums [] [0])), (8, .formula (.total List.sum (.var 5)))]

/-- Exponents: lengths scale as `a`, masses do not scale. -/
private noncomputable def apertureExponents : Nat → ℝ := fun i => if i = 2 then 0 else 1

private theorem aperture_scales : ∃ ls, ScriptScales apertureExponents aperture ls ∧ ls 8 = 0 ∧ ls 6 = 1 := by
  have v : ∀ (ks : Nat → ℝ) (i : Nat) (k : ℝ), ks i = k → ShapedDimension ks (.var i) k := by
    rintro ks i k rfl
    exact .var i
  have z : ∀ (ks : Nat → ℝ) (k : ℝ), ScalesAs ks (.nums [] [0]) k := fun ks k => by
    have := ScalesAs.zeros (ks := ks) [] k
    simpa [tuples] using this
  refine ⟨_, .cons (k := 1) (.formula ?_ (fun h => h.1)) (.cons (k := 0) (.select (v _ _ _ ?_) id (.cmp _ (k := 1) (.formula (v _ _ _ ?_)) (.formula (v _ _ _ ?_))))
    (.cons (k := 1) (.select (v _ _ _ ?_) id (.and (.cmp _ (k := 1) (.formula (v _ _ _ ?_)) (.formula (v _ _ _ ?_)))
      (.cmp _ (k := 0) (.formula (v _ _ _ ?_)) (z _ _)))) (.cons (k := 0) (.choose (.cmp _ (k := 1) (.formula (v _ _ _ ?_)) (.formula (v _ _ _ ?_)))
        (.formula (v _ _ _ ?_)) (z _ _) (fun h => h.1)) (.cons (k := 0) (.formula (.total scales_sum (v _ _ _ ?_)) id) (.nil _))))), ?_, ?_⟩
  · have := radii_scale (ks := apertureExponents) (by simp [apertureExponents])
    simpa [apertureExponents] using this
  all_goals simp [Function.update, apertureExponents]

/-- Three positions with two coordinates (comoving), a centre and a radius (physical), and masses. -/
private noncomputable def cluster : Selections.State :=
  ⟨fun i => if i = 0 then [3, 2] else if i = 1 then [2] else if i = 3 then [] else [3],
    fun i => if i = 0 then ⟨[2, 0, 0, 4, 8, 8], some true, some ⟨some 1, some (1 / 2)⟩, true⟩
      else if i = 1 then ⟨[0, 1], some false, some ⟨some 1, some (1 / 2)⟩, true⟩
      else if i = 3 then ⟨[2], some false, some ⟨some 1, some (1 / 2)⟩, true⟩
      else if i = 2 then ⟨[1, 2, 3], some true, some ⟨some 0, some (1 / 2)⟩, true⟩
      else ⟨[0, 0, 0], some true, some ⟨some 1, some (1 / 2)⟩, true⟩⟩

private theorem cluster_state : ScriptState (1 / 2) apertureExponents cluster := by
  refine ⟨fun i => ?_, fun i => ?_⟩
  · refine ⟨by norm_num, ?_, ?_, ?_⟩ <;> simp only [cluster, apertureExponents] <;> split_ifs <;> first | rfl | simp_all
  · simp only [cluster]
    split_ifs <;> first | rfl | simp_all

example : ∃ ls, (run aperture cluster).map physicalTables = scriptMeaning aperture (physicalTables cluster) ∧
    ∀ s', run aperture cluster = .ok s' → ScriptState (1 / 2) ls s' := by
  obtain ⟨ls, h, -⟩ := aperture_scales
  exact ⟨ls, c132_script (by norm_num) h cluster_state⟩

/-- `x[x < y]` of a single length. -/
example : ∃ t, run [(1, .select (.var 0) (.cmp .lessEqual (.var 0) (.var 2)))] (oneLength true) = .ok t ∧ physicalTables t 1 = ([1], [2]) := by
  simp [run, evalStep, evalCond, Shaped.eval, compared, compareValues, masked, pick, applyWhole, propagate, oneLength, Except.bind, Except.map, ufuncBool,
    prepare, flags, Opd.cf, Opd.vals, Shaped.numShaped, Shaped.join, Shaped.pad, Shaped.joinPadded, Cmp.rel, Shaped.count, registry, Cmp.ufunc, handle,
    without2, same_refl, State.put, physicalTables, Shaped.source, Arr.phys, -one_div]
  norm_num

/-- The selected and the other values of a single length. -/
example : ∃ y z, evalStep (oneLength true).shapes (oneLength true).env (.select (.var 0) (.cmp .lessEqual (.var 0) (.var 2))) = .ok y ∧
    evalStep (oneLength true).shapes (oneLength true).env (.select (.var 0) (.not (.cmp .lessEqual (.var 0) (.var 2)))) = .ok z ∧
    y.val.phys = [2] ∧ z.val.phys = [] := by
  simp [evalStep, evalCond, Shaped.eval, compared, compareValues, masked, pick, applyWhole, propagate, oneLength, Except.bind, Except.map, ufuncBool,
    prepare, flags, Opd.cf, Opd.vals, Opd.phys, Shaped.numShaped, Shaped.join, Shaped.pad, Shaped.joinPadded, Cmp.rel, Shaped.count, registry, Cmp.ufunc, handle,
    without2, same_refl, Shaped.source, Arr.phys, -one_div]
  norm_num

/-- Lengths are not compared with masses. -/
example : evalCond cluster.shapes cluster.env (.cmp .less (.var 0) (.var 2)) = .error .value :=
  c132_unlike_refused (a := 1 / 2) (k := 1) (l := 0) (by norm_num [isclose, abs_le]) rfl rfl rfl rfl
    (by simpa [apertureExponents] using cluster_state.conv 0) (by simpa [apertureExponents] using cluster_state.conv 2) _

end Verif.Props
