import Verif.Props.CosmoFactor
import Verif.Spec.FactorOps

/-!
# C96: the operators of factors with any object on either side
-/

namespace Verif.Props
open Verif Verif.Cosmo Verif.Spec Verif.FactorOps

/-- **C96**: two factors: the result has the scale factor of both, and the number that the operator makes of the two numbers; a sum
or a difference, which needs equal factors, is again this factor. -/
theorem c96_factors (op : Arith) (f g r : CF) (a x y : ℝ) (ha : 0 < a) (hs : f.sf = some a) (hx : f.aFactor = some x)
    (hy : g.aFactor = some y) (h : arith op (.factor f) (.factor g) = .ok r) :
    r.sf = some a ∧ g.sf = some a ∧ r.aFactor = some (onNumbers op x y) := by
  obtain ⟨fe, fs⟩ := f
  obtain ⟨ge, gs⟩ := g
  obtain rfl : fs = some a := hs
  cases fe with
  | none => cases hx
  | some k =>
    cases ge with
    | none => cases hy
    | some l =>
      cases gs with
      | none => cases hy
      | some b =>
        obtain rfl : a ^ k = x := Option.some.inj hx
        obtain rfl : b ^ l = y := Option.some.inj hy
        by_cases hab : a = b
        · subst hab
          cases op with
          | add =>
            obtain ⟨h1, rfl⟩ := (c27_sum _ _ r).1 h
            exact ⟨rfl, rfl, rfl⟩
          | sub =>
            obtain ⟨h1, rfl⟩ := (c27_sum _ _ r).1 h
            exact ⟨rfl, rfl, rfl⟩
          | mul =>
            have h' : Except.ok (CF.mk (some (k + l)) (some a)) = (.ok r : Except Err CF) := by
              rw [← h]
              simp [arith, method, CF.mul]
            obtain rfl := Except.ok.inj h'
            exact ⟨rfl, rfl, by simp [CF.aFactor, onNumbers, Real.rpow_add ha]⟩
          | div =>
            have h' : Except.ok (CF.mk (some (k - l)) (some a)) = (.ok r : Except Err CF) := by
              rw [← h]
              simp [arith, method, CF.div]
            obtain rfl := Except.ok.inj h'
            exact ⟨rfl, rfl, by simp [CF.aFactor, onNumbers, Real.rpow_sub ha]⟩
        · exfalso
          cases op <;> simp [arith, method, CF.add, CF.mul, CF.div, hab] at h

/-- **C96**: the reflected methods are the operators with the operands exchanged, when both are factors: the same result or the
same exception. -/
theorem c96_reflected (op : Arith) (f g : CF) : reflected op f (.factor g) = (arith op (.factor g) (.factor f)).map some := by
  obtain ⟨fe, fs⟩ := f
  obtain ⟨ge, gs⟩ := g
  by_cases h1 : fs = gs
  · subst h1
    by_cases h2 : fe = ge
    · subst h2
      cases op <;> cases fe <;> simp [reflected, arith, method, CF.add, CF.mul, CF.div, Except.map]
    · have h3 : ¬ ge = fe := fun h => h2 h.symm
      cases op <;> cases fe <;> cases ge <;>
        simp_all [reflected, arith, method, CF.add, CF.mul, CF.div, Except.map, add_comm]
  · have h3 : ¬ gs = fs := fun h => h1 h.symm
    cases op <;> simp [reflected, arith, method, CF.add, CF.mul, CF.div, Except.map, h1, h3]

/-- **C96**: anything else than a factor on the right is a ValueError, for every operator. On the left it is a ValueError too, except
for the division. -/
theorem c96_alien (f : CF) (x : Obj) (hx : Alien x) :
    (∀ op, arith op (.factor f) x = .error .value) ∧ (∀ op, op ≠ .div → arith op x (.factor f) = .error .value) ∧
      (∀ r, rel r (.factor f) x = .error .value) ∧ ∀ r, rel r x (.factor f) = .error .value := by
  cases x with
  | factor g => exact absurd rfl (hx g)
  | number =>
    refine ⟨fun op => rfl, fun op h => ?_, fun r => rfl, fun r => rfl⟩
    cases op <;> first | rfl | exact absurd rfl h
  | thing =>
    refine ⟨fun op => rfl, fun op h => ?_, fun r => rfl, fun r => rfl⟩
    cases op <;> first | rfl | exact absurd rfl h

/-- **C96** fails for a division by a factor, documented to raise ValueError: a number gives a TypeError, and other objects an
AttributeError, because their own method is called. -/
theorem c96_divided_fails (f : CF) :
    arith .div .number (.factor f) = .error .typeErr ∧ arith .div .thing (.factor f) = .error .attribute := ⟨rfl, rfl⟩

/-- **C96**: factors are ordered as their values: `a^k` of one and `b^l` of the other. -/
theorem c96_order (a b k l : ℝ) :
    rel .lt (.factor ⟨some k, some a⟩) (.factor ⟨some l, some b⟩) = .ok (a ^ k < b ^ l) ∧
    rel .gt (.factor ⟨some k, some a⟩) (.factor ⟨some l, some b⟩) = .ok (b ^ l < a ^ k) ∧
    rel .le (.factor ⟨some k, some a⟩) (.factor ⟨some l, some b⟩) = .ok (a ^ k ≤ b ^ l) ∧
    rel .ge (.factor ⟨some k, some a⟩) (.factor ⟨some l, some b⟩) = .ok (b ^ l ≤ a ^ k) :=
  ⟨rfl, rfl, rfl, rfl⟩

/-- **C96**: a factor without a value cannot be ordered with any other one. -/
theorem c96_order_none (f g : CF) (h : f.expr = none ∨ f.sf = none ∨ g.expr = none ∨ g.sf = none) :
    ∀ r ∈ [Rel.lt, .gt, .le, .ge], rel r (.factor f) (.factor g) = .error .typeErr := by
  obtain ⟨k, a⟩ := f
  obtain ⟨l, b⟩ := g
  intro r hr
  simp only [List.mem_cons, List.not_mem_nil, or_false] at hr
  rcases hr with rfl | rfl | rfl | rfl <;> cases k <;> cases a <;> cases l <;> cases b <;> simp_all [rel, relMethod, CF.compare, CF.aFactor]

example : rel .ge (.factor ⟨some 1, some (1 / 2)⟩) (.factor ⟨some 1, some (1 / 2)⟩) = .ok ((1 / 2 : ℝ) ^ (1 : ℝ) ≤ (1 / 2) ^ (1 : ℝ)) := (c96_order _ _ _ _).2.2.2

/-- **C96**: `!=` is the opposite of `==`: of any two factors exactly one of the two holds, and one that can be added to another is
equal to it. -/
theorem c96_unequal (f g : CF) :
    ∃ p q : Prop, rel .eq (.factor f) (.factor g) = .ok p ∧ rel .ne (.factor f) (.factor g) = .ok q ∧ (q ↔ ¬ p) ∧
      ∀ r, arith .add (.factor f) (.factor g) = .ok r → p := by
  refine ⟨_, _, rfl, rfl, Iff.rfl, fun r h => ?_⟩
  obtain ⟨rfl, -⟩ := (c27_sum f g r).1 h
  exact (c27_equality_partial f 0 0 0 0).1

/-- **C96** fails: two factors that are equal can not always be added. In the early universe this holds for any two powers of at
least four. -/
theorem c96_equal_not_addable_fails (a k l : ℝ) (h0 : 0 < a) (ha : a ≤ 1 / 100) (hk : 4 ≤ k) (hl : 4 ≤ l) (hkl : k ≠ l) :
    ∃ p, rel .eq (.factor (CF.create a k)) (.factor (CF.create a l)) = .ok p ∧ p ∧
      arith .add (.factor (CF.create a k)) (.factor (CF.create a l)) = .error .invalidScaleFactor := by
  refine ⟨_, rfl, ?_, ?_⟩
  · refine (c27_equality_partial CF.null a a k l).2.2 rfl ?_
    have hb : ∀ m : ℝ, 4 ≤ m → 0 < a ^ m ∧ a ^ m ≤ 1e-8 := by
      intro m hm
      refine ⟨Real.rpow_pos_of_pos h0 m, ?_⟩
      calc a ^ m ≤ a ^ (4 : ℝ) := Real.rpow_le_rpow_of_exponent_ge h0 (by linarith) hm
        _ ≤ (1 / 100 : ℝ) ^ (4 : ℝ) := Real.rpow_le_rpow h0.le ha (by norm_num)
        _ = 1e-8 := by norm_num [Real.rpow_ofNat]
    have h1 := hb k hk
    have h2 := hb l hl
    rw [abs_le]
    exact ⟨by linarith, by linarith⟩
  · simp [arith, method, CF.add, CF.create, hkl]

/-- **C96** fails for `sum` and `math.prod` of Python, which start with a number: for no factors they are the number, for any other
list they raise, even if it has equal factors only. -/
theorem c96_total_fails (op : Arith) (hop : op ≠ .div) (f : CF) (l : List CF) :
    total op [] = .ok .number ∧ total op (f :: l) = .error .value := by
  refine ⟨rfl, ?_⟩
  show (do let acc ← (arith op .number (.factor f)).map Obj.factor; _) = _
  rw [(c96_alien f .number (fun g h => by cases h)).2.1 op hop]
  rfl

private theorem compare_ok (q : ℝ → ℝ → Prop) (f g : CF) (x y : ℝ) (hx : f.aFactor = some x) (hy : g.aFactor = some y) :
    CF.compare q f g = .ok (q x y) := by
  unfold CF.compare
  rw [hx, hy]

private theorem extreme_ok (r : Rel) (q : ℝ → ℝ → Prop) (hr : ∀ f g, rel r (.factor f) (.factor g) = CF.compare q f g)
    (has : ∀ x y, q y x → ¬ q x y) (htr2 : ∀ x y z, ¬ q x y → ¬ q y z → ¬ q x z) (best : CF) (l : List CF) (x : ℝ) (hx : best.aFactor = some x) (hl : ∀ f ∈ l, ∃ y, f.aFactor = some y) :
    ∃ m y, extremeFrom r best l = .ok m ∧ m ∈ best :: l ∧ m.aFactor = some y ∧ ¬ q x y ∧
      ∀ f ∈ l, ∀ z, f.aFactor = some z → ¬ q z y := by
  induction l generalizing best x with
  | nil => exact ⟨best, x, rfl, by simp, hx, fun h => has x x h h, fun f hf => by cases hf⟩
  | cons f fs ih =>
    obtain ⟨y, hy⟩ := hl f (by simp)
    unfold extremeFrom
    rw [hr, compare_ok q f best y x hy hx]
    dsimp only
    by_cases h : q y x
    · rw [if_pos h]
      obtain ⟨m, z, h1, h2, h3, h4, h5⟩ := ih f y hy (fun g hg => hl g (by simp [hg]))
      refine ⟨m, z, h1, ?_, h3, ?_, ?_⟩
      · rcases List.mem_cons.1 h2 with rfl | h2
        · simp
        · simp [h2]
      · exact htr2 _ _ _ (has _ _ h) h4
      · intro g hg w hw
        rcases List.mem_cons.1 hg with rfl | hg
        · obtain rfl : y = w := Option.some.inj (hy.symm.trans hw)
          exact h4
        · exact h5 g hg w hw
    · rw [if_neg h]
      obtain ⟨m, z, h1, h2, h3, h4, h5⟩ := ih best x hx (fun g hg => hl g (by simp [hg]))
      refine ⟨m, z, h1, ?_, h3, h4, ?_⟩
      · rcases List.mem_cons.1 h2 with rfl | h2
        · simp
        · simp [h2]
      · intro g hg w hw
        rcases List.mem_cons.1 hg with rfl | hg
        · obtain rfl : y = w := Option.some.inj (hy.symm.trans hw)
          exact htr2 _ _ _ h h4
        · exact h5 g hg w hw

private theorem extreme_mem (r : Rel) (q : ℝ → ℝ → Prop) (hr : ∀ f g, rel r (.factor f) (.factor g) = CF.compare q f g)
    (has : ∀ x y, q y x → ¬ q x y) (htr2 : ∀ x y z, ¬ q x y → ¬ q y z → ¬ q x z) (l : List CF) (h0 : l ≠ [])
    (hl : ∀ f ∈ l, ∃ y, f.aFactor = some y) :
    ∃ m y, extreme r l = .ok m ∧ m ∈ l ∧ m.aFactor = some y ∧ ∀ f ∈ l, ∀ z, f.aFactor = some z → ¬ q z y := by
  cases l with
  | nil => exact absurd rfl h0
  | cons f fs =>
    obtain ⟨x, hx⟩ := hl f (by simp)
    obtain ⟨m, y, h1, h2, h3, h4, h5⟩ := extreme_ok r q hr has htr2 f fs x hx (fun g hg => hl g (by simp [hg]))
    refine ⟨m, y, h1, h2, h3, fun g hg z hz => ?_⟩
    rcases List.mem_cons.1 hg with rfl | hg
    · obtain rfl : x = z := Option.some.inj (hx.symm.trans hz)
      exact h4
    · exact h5 g hg z hz

/-- **C96**: `max` and `min` of Python give the factors with the largest and the smallest number, if all of them have one, also at
different scale factors. -/
theorem c96_extremes (l : List CF) (h0 : l ≠ []) (hl : ∀ f ∈ l, ∃ y, f.aFactor = some y) :
    (∃ m y, extreme .gt l = .ok m ∧ m ∈ l ∧ m.aFactor = some y ∧ ∀ f ∈ l, ∀ z, f.aFactor = some z → z ≤ y) ∧
      ∃ m y, extreme .lt l = .ok m ∧ m ∈ l ∧ m.aFactor = some y ∧ ∀ f ∈ l, ∀ z, f.aFactor = some z → y ≤ z := by
  constructor
  · obtain ⟨m, y, h1, h2, h3, h4⟩ := extreme_mem .gt (· > ·) (fun f g => rfl) (fun x y h => not_lt_of_gt h)
      (fun x y z h1 h2 => not_lt.2 ((not_lt.1 h1).trans (not_lt.1 h2))) l h0 hl
    exact ⟨m, y, h1, h2, h3, fun f hf z hz => not_lt.1 (h4 f hf z hz)⟩
  · obtain ⟨m, y, h1, h2, h3, h4⟩ := extreme_mem .lt (· < ·) (fun f g => rfl) (fun x y h => not_lt_of_gt h)
      (fun x y z h1 h2 => not_lt.2 ((not_lt.1 h2).trans (not_lt.1 h1))) l h0 hl
    exact ⟨m, y, h1, h2, h3, fun f hf z hz => not_lt.1 (h4 f hf z hz)⟩

private theorem extreme_none (r : Rel) (q : ℝ → ℝ → Prop) (hr : ∀ f g, rel r (.factor f) (.factor g) = CF.compare q f g) (best : CF)
    (l : List CF) (h : (∃ f ∈ l, f.aFactor = none) ∨ (best.aFactor = none ∧ l ≠ [])) : extremeFrom r best l = .error .typeErr := by
  induction l generalizing best with
  | nil =>
    rcases h with ⟨f, hf, -⟩ | ⟨-, h⟩
    · cases hf
    · exact absurd rfl h
  | cons f fs ih =>
    unfold extremeFrom
    rw [hr]
    by_cases hb : best.aFactor = none
    · have : CF.compare q f best = .error .typeErr := by
        unfold CF.compare
        rw [hb]
        cases f.aFactor <;> rfl
      rw [this]
    · by_cases hf : f.aFactor = none
      · have : CF.compare q f best = .error .typeErr := by
          unfold CF.compare
          rw [hf]
        rw [this]
      · have hfs : ∃ g ∈ fs, g.aFactor = none := by
          rcases h with ⟨g, hg, hn⟩ | ⟨h, -⟩
          · rcases List.mem_cons.1 hg with rfl | hg
            · exact absurd hn hf
            · exact ⟨g, hg, hn⟩
          · exact absurd h hb
        obtain ⟨x, hx⟩ := Option.ne_none_iff_exists'.1 hf
        obtain ⟨y, hy⟩ := Option.ne_none_iff_exists'.1 hb
        rw [compare_ok q f best x y hx hy]
        dsimp only
        split
        · exact ih f (Or.inl hfs)
        · exact ih best (Or.inl hfs)

/-- **C96**: there is no largest and no smallest of no factors; of one factor it is that one, also without a number. -/
theorem c96_extremes_few (r : Rel) (f : CF) : extreme r [] = .error .value ∧ extreme r [f] = .ok f := ⟨rfl, rfl⟩

/-- **C96**: if one of two or more factors has no number, then `max` and `min` raise a TypeError, wherever it is in the list. -/
theorem c96_extremes_none (l : List CF) (h2 : 2 ≤ l.length) (h : ∃ f ∈ l, f.aFactor = none) :
    extreme .gt l = .error .typeErr ∧ extreme .lt l = .error .typeErr := by
  cases l with
  | nil => simp at h2
  | cons f fs =>
    have h' : (∃ g ∈ fs, g.aFactor = none) ∨ (f.aFactor = none ∧ fs ≠ []) := by
      obtain ⟨g, hg, hn⟩ := h
      rcases List.mem_cons.1 hg with rfl | hg
      · refine Or.inr ⟨hn, ?_⟩
        rintro rfl
        simp at h2
      · exact Or.inl ⟨g, hg, hn⟩
    exact ⟨extreme_none .gt (· > ·) (fun f g => rfl) f fs h', extreme_none .lt (· < ·) (fun f g => rfl) f fs h'⟩

/-- **C96**: a factor is found in a list of factors if, and only if, one of them is equal to it. -/
theorem c96_contains (f : CF) (l : List CF) :
    ∃ b, contains f (l.map .factor) = .ok b ∧ (b = true ↔ ∃ g ∈ l, g.same f) := by
  induction l with
  | nil => exact ⟨false, rfl, by simp⟩
  | cons g l ih =>
    by_cases h : g.same f
    · refine ⟨true, ?_, by simp [h]⟩
      show (if g.same f then _ else _) = _
      rw [if_pos h]
    · obtain ⟨b, h1, h2⟩ := ih
      refine ⟨b, ?_, ?_⟩
      · show (if g.same f then _ else _) = _
        rw [if_neg h]
        exact h1
      · rw [h2]
        simp [h]

/-- **C96** fails for lists that hold other objects, `None` for example: the search raises a ValueError when it comes to such an
object, although the factor may follow. -/
theorem c96_contains_fails (f : CF) (l : List CF) (hl : ∀ g ∈ l, ¬ g.same f) (x : Obj) (hx : Alien x) (rest : List Obj) :
    contains f (l.map .factor ++ x :: rest) = .error .value := by
  induction l with
  | nil =>
    show contains f (x :: rest) = _
    unfold contains
    rw [(c96_alien f x hx).2.2.2 .eq]
  | cons g l ih =>
    show (if g.same f then _ else _) = _
    rw [if_neg (hl g (by simp))]
    exact ih (fun k hk => hl k (by simp [hk]))

/-! ## Examples -/

/-- A length at redshift one. -/
private noncomputable def side : CF := CF.create (1 / 2) 1

private theorem side_number (k : ℝ) : (CF.create (1 / 2) k).aFactor = some ((1 / 2) ^ k) := rfl

/-- An area times a length. -/
example : ∃ r, arith .mul (.factor (CF.create (1 / 2) 2)) (.factor side) = .ok r ∧
    r.aFactor = some (((1 / 2 : ℝ) ^ (2 : ℝ)) * (1 / 2) ^ (1 : ℝ)) := by
  have h : arith .mul (.factor (CF.create (1 / 2) 2)) (.factor side) = .ok ⟨some (2 + 1), some (1 / 2)⟩ := by
    simp [arith, method, CF.mul, CF.create, side]
  exact ⟨_, h, (c96_factors .mul _ _ _ (1 / 2) _ _ (by norm_num) rfl rfl rfl h).2.2⟩

/-- A factor minus another one at a different scale factor, with the method of the right operand. -/
example : reflected .sub side (.factor (CF.create (1 / 4) 1)) = .error .invalidScaleFactor := by
  rw [c96_reflected]
  norm_num [arith, method, CF.add, side, CF.create, Except.map]

/-- `None == factor` and `2 + factor`. -/
example : rel .eq .thing (.factor side) = .error .value ∧ arith .add .number (.factor side) = .error .value :=
  ⟨(c96_alien side .thing (by rintro f h; cases h)).2.2.2 .eq, (c96_alien side .number (by rintro f h; cases h)).2.1 .add (by decide)⟩

/-- At redshift 99 the factors `a^4` and `a^6` are equal. -/
example : ∃ p, rel .eq (.factor (CF.create (1 / 100) 4)) (.factor (CF.create (1 / 100) 6)) = .ok p ∧ p ∧
    arith .add (.factor (CF.create (1 / 100) 4)) (.factor (CF.create (1 / 100) 6)) = .error .invalidScaleFactor :=
  c96_equal_not_addable_fails (1 / 100) 4 6 (by norm_num) (by norm_num) (by norm_num) (by norm_num) (by norm_num)

example : total .add [side, side] = .error .value := (c96_total_fails .add (by decide) side [side]).2

/-- The larger of two factors. -/
example : ∃ m y, extreme .gt [CF.create (1 / 2) 2, side] = .ok m ∧ m ∈ [CF.create (1 / 2) 2, side] ∧ m.aFactor = some y ∧
    ∀ f ∈ [CF.create (1 / 2) 2, side], ∀ z, f.aFactor = some z → z ≤ y :=
  (c96_extremes [CF.create (1 / 2) 2, side] (by simp) (by
    intro f hf
    simp only [List.mem_cons, List.not_mem_nil, or_false] at hf
    rcases hf with rfl | rfl
    · exact ⟨_, side_number 2⟩
    · exact ⟨_, side_number 1⟩)).1

example : extreme .gt [side, CF.null] = .error .typeErr := (c96_extremes_none [side, CF.null] (by simp) ⟨CF.null, by simp, rfl⟩).1

example : contains side [.thing, .factor side] = .error .value :=
  c96_contains_fails side [] (by simp) .thing (by rintro f h; cases h) [.factor side]

example : ∃ b, contains side ([CF.null, side].map .factor) = .ok b ∧ (b = true ↔ ∃ g ∈ [CF.null, side], g.same side) :=
  c96_contains side [CF.null, side]

end Verif.Props
