import Verif.Spec.Constructors
import Verif.Lemmas.Cosmo

/-!
# C71: making arrays

`Consistent x` says that frame and convertibility of an array agree, `Describes` which factor the arguments describe
(`Spec/Constructors.lean`).
-/

namespace Verif.Props
open Verif Verif.Cosmo

/-- C71: the arguments for the factor are accepted exactly when they describe one without contradiction, and then this factor
is used. -/
theorem c71_factor (cf : Option CF) (sf expo : Option ℝ) (c : Option CF) :
    parse cf sf expo = .ok c ↔ Describes cf sf expo c := by
  constructor
  · intro h
    rcases cf with _ | f <;> rcases sf with _ | a <;> rcases expo with _ | k <;> simp only [parse] at h
    · cases h; exact .nothing
    · cases h
    · cases h
    · cases h; exact .numbers a k
    · cases h; exact .factor f
    · split at h
      · cases h; rename_i hs; exact .both f none k hs
      · cases h
    · cases h
    · split at h
      · cases h; rename_i hs; exact .both f (some a) k hs
      · cases h
  · intro h
    cases h with
    | nothing => rfl
    | factor f => rfl
    | numbers a k => rfl
    | both f sf k hs => rcases sf with _ | a <;> simp only [parse, if_pos hs]

private theorem verify_ok {x y : Arr} : x.verify = .ok y ↔ y = x ∧ Consistent x := by
  obtain ⟨v, cm, cf, vt⟩ := x
  rcases cm with _ | ⟨_ | _⟩ <;> cases vt <;> simp [Arr.verify, Consistent, eq_comm]

/-- C71: an array of bare numbers is made exactly when the factor is described without contradiction and a comoving array is
not said to be inconvertible. It holds the numbers, the frame and the factor that were given. -/
theorem c71_numbers (v : List ℝ) (w : Kw) (x : Arr) :
    newPlain v w = .ok x ↔ ∃ c, Describes w.cf w.sf w.expo c ∧ (w.comoving = some true → w.vt = true) ∧
      x.val = v ∧ x.comoving = w.comoving ∧ x.cf = some (c.getD ⟨none, none⟩) ∧ x.vt = (w.comoving.isSome && w.vt) := by
  unfold newPlain
  cases e : parse w.cf w.sf w.expo with
  | error q =>
    simp only [reduceCtorEq, false_iff, not_exists]
    intro c hc
    rw [← c71_factor, e] at hc
    simp at hc
  | ok c =>
    have hd := (c71_factor _ _ _ _).1 e
    simp only [verify_ok]
    constructor
    · rintro ⟨rfl, h1, h2⟩
      refine ⟨c, hd, fun h3 => ?_, rfl, rfl, rfl, ?_⟩
      · simpa [h3] using h2 h3
      · cases w.comoving <;> simp
    · rintro ⟨c', hc', h1, h2, h3, h4, h5⟩
      rw [← c71_factor, e] at hc'
      obtain rfl := Except.ok.inj hc'
      refine ⟨Arr.ext h2 h3 h4 (by rw [h5]; cases w.comoving <;> simp), ?_, ?_⟩
      · intro h6
        simp only at h6
        simp [h6]
      · intro h6
        simp only at h6
        simp [h6, h1 h6]

/-- C71: every array that a constructor with validation makes is consistent. -/
theorem c71_consistent (v : List ℝ) (x : Arr) (o : Opd) (l : List Opd) (w : Kw) (cm : Option Bool) (cf : Option CF)
    (vt : Bool) :
    (∀ y, newPlain v w = .ok y → Consistent y) ∧ (∀ y, newFrom x w = .ok y → Consistent y) ∧
      (∀ y, newQuantity o w = .ok y → Consistent y) ∧ ∀ y, newFromList l cm cf vt = .ok y → Consistent y := by
  have h1 : ∀ v w y, newPlain v w = .ok y → Consistent y := by
    intro v w y h
    unfold newPlain at h
    split at h
    · cases h
    · obtain ⟨rfl, h'⟩ := verify_ok.1 h
      exact h'
  refine ⟨h1 v w, fun y h => ?_, fun y h => ?_, fun y h => ?_⟩
  · unfold newFrom at h
    split at h
    · cases h
    · split at h
      · cases h
      · dsimp only at h
        split at h
        · cases h
        · obtain ⟨rfl, h'⟩ := verify_ok.1 h
          exact h'
  · unfold newQuantity at h
    split at h
    · cases h
    · split at h
      · cases h
      · rename_i z e _
        obtain rfl := Except.ok.inj h
        exact h1 _ _ _ e
  · unfold newFromList at h
    split at h
    · cases h
    · dsimp only at h
      split at h
      · cases h
      · obtain ⟨rfl, h'⟩ := verify_ok.1 h
        exact h'

/-- C71: a convertible array given to the constructor of `cosmo_array` keeps its physical values and its factor; the frame is
the one that is asked for. -/
theorem c71_array {a k : ℝ} {x : Arr} (h : Conv a k x) (c : Option Bool) :
    ∃ y, newFrom x { comoving := c } = .ok y ∧ Conv a k y ∧ y.phys = x.phys ∧ y.comoving = c.or x.comoving := by
  have hcf := h.cf
  have hn : ¬ CF.same ⟨some k, some a⟩ CF.null := by
    intro hs
    have := hs.1
    simp [CF.null] at this
  have key : ∀ z, Conv a k z → Arr.verify { z with vt := true } = .ok z := by
    intro z hz
    rw [verify_ok]
    refine ⟨Arr.ext rfl rfl rfl hz.vt, fun h1 => ?_, fun _ => rfl⟩
    exact absurd h1 hz.framed
  have hx : ({ x with cf := (some (⟨some k, some a⟩ : CF)).or x.cf } : Arr) = x :=
    Arr.ext rfl rfl (by simp [hcf]) rfl
  unfold newFrom
  simp only [hcf, if_neg hn, parse]
  rw [← hcf] at hx ⊢
  rw [hcf] at hx
  simp only [hcf, hx]
  rcases c with _ | ⟨_ | _⟩
  · exact ⟨x, key x h, h, rfl, rfl⟩
  · obtain ⟨y, e, hy, h1, h2⟩ := convertToPhysical_ok h
    refine ⟨y, ?_, hy, h2, h1⟩
    simp only [e]
    exact key y hy
  · obtain ⟨y, e, hy, h1, h2⟩ := convertToComoving_ok h
    refine ⟨y, ?_, hy, h2, h1⟩
    simp only [e]
    exact key y hy

/-- C71: an array without a factor is refused by the constructor of `cosmo_array`, whatever the other arguments are. -/
theorem c71_without_factor_refused {x : Arr} (h : x.cf = none) (w : Kw) (c : Option Bool) (vt : Bool) :
    newFrom x w = .error .value ∧ newFromArr x c vt = .error .value := by
  simp [newFrom, newFromArr, h]

example : newFrom ⟨[1, 2], some true, none, true⟩ { comoving := some false } = .error .value :=
  (c71_without_factor_refused rfl _ none true).1

/-- C71: without arguments for the factor the constructor copies the array, converts it to the frame that is asked for and sets
the flag. -/
theorem c71_copied (x : Arr) (c : Option Bool) (vt : Bool) :
    newFrom x { comoving := c, vt := vt } = newFromArr x c vt := by
  obtain ⟨v, cm, cf, t⟩ := x
  cases cf with
  | none => simp [newFrom, newFromArr]
  | some f =>
    by_cases hs : CF.same f CF.null
    · rcases c with _ | ⟨_ | _⟩ <;> simp [newFrom, newFromArr, hs, parse] <;> rfl
    · rcases c with _ | ⟨_ | _⟩ <;> simp [newFrom, newFromArr, hs, parse] <;> rfl

/-- C71: a convertible quantity given to the constructor of `cosmo_quantity` without a frame, or with its own frame, is kept as
it is. -/
theorem c71_quantity {a k : ℝ} {x : Arr} (h : Conv a k x) (hl : x.val.length ≤ 1) (c : Option Bool)
    (hc : c = none ∨ c = x.comoving) : newQuantity (.cosmo x) { comoving := c } = .ok x := by
  have hcm : c.or x.comoving = x.comoving := by
    rcases hc with rfl | rfl
    · rfl
    · cases x.comoving <;> rfl
  have hs : x.comoving.isSome := Option.isSome_iff_ne_none.2 h.framed
  have e : newPlain x.val (Kw.fill { comoving := c } (.cosmo x)) = .ok x := by
    rw [c71_numbers]
    refine ⟨x.cf, ?_, ?_, rfl, ?_, ?_, ?_⟩
    · simp only [Kw.fill, Opd.cf, Option.none_or, h.cf]
      exact .factor _
    · simp [Kw.fill, hcm, hs]
    · simp [Kw.fill, hcm]
    · simp [h.cf]
    · simp [Kw.fill, hcm, hs, h.vt]
  unfold newQuantity
  simp only [Opd.vals, e]
  rw [if_neg (by omega)]

/-- C71. A factor that is given with a quantity is the factor of the result, whatever the argument has; the numbers and the
frame are those of the argument. -/
theorem c71_quantity_factor {a k : ℝ} {x : Arr} (h : Conv a k x) (hl : x.val.length ≤ 1) (f : CF) :
    newQuantity (.cosmo x) { cf := some f } = .ok { x with cf := some f } := by
  have hs : x.comoving.isSome := Option.isSome_iff_ne_none.2 h.framed
  have e : newPlain x.val (Kw.fill { cf := some f } (.cosmo x)) = .ok { x with cf := some f } := by
    rw [c71_numbers]
    refine ⟨some f, ?_, ?_, rfl, ?_, ?_, ?_⟩
    · simp only [Kw.fill, Option.some_or]
      exact .factor _
    · simp [Kw.fill, hs]
    · simp [Kw.fill]
    · simp
    · simp [Kw.fill, hs, h.vt]
  unfold newQuantity
  simp only [Opd.vals, e]
  rw [if_neg (by omega)]

/-- C71, negation: `cosmo_quantity(q, comoving=c)` for a quantity in the other frame keeps the number and changes the label: its
physical value is divided or multiplied by `a^k`, while `cosmo_array` converts. -/
theorem c71_quantity_fails {a k v : ℝ} {x : Arr} (h : Conv a k x) (hv : x.val = [v]) {c : Bool}
    (hc : x.comoving = some (!c)) :
    ∃ y, newQuantity (.cosmo x) { comoving := some c } = .ok y ∧ y.comoving = some c ∧
      y.phys = x.phys.map (fun r => if c then r * a ^ k else r / a ^ k) := by
  refine ⟨{ x with comoving := some c }, ?_, rfl, ?_⟩
  · have e : newPlain x.val (Kw.fill { comoving := some c } (.cosmo x)) = .ok { x with comoving := some c } := by
      rw [c71_numbers]
      refine ⟨x.cf, ?_, ?_, rfl, ?_, ?_, ?_⟩
      · simp only [Kw.fill, Opd.cf, Option.none_or, h.cf]
        exact .factor _
      · simp [Kw.fill]
      · simp [Kw.fill]
      · simp [h.cf]
      · simp [Kw.fill, h.vt]
    unfold newQuantity
    simp only [Opd.vals, e]
    rw [if_neg (by simp [hv])]
  · have hk : a ^ k ≠ 0 := (Real.rpow_pos_of_pos h.pos k).ne'
    cases c
    · simp [Arr.phys, h.cf, hc, hv, hk]
    · simp [Arr.phys, h.cf, hc, hv]

/-- C71: without validation, an array is made like with validation if the frame is known, a factor is given and the
arguments are right. -/
theorem c71_bypass (v : List ℝ) (c : Bool) (f : CF) (vt : Bool) (h : c = true → vt = true) :
    newBypass v { comoving := some c, cf := some f, vt := vt } = newPlain v { comoving := some c, cf := some f, vt := vt } := by
  symm
  rw [newBypass, c71_numbers]
  exact ⟨some f, .factor f, by simpa using h, rfl, rfl, rfl, rfl⟩

/-- C71, negation: without validation, the constructor raises AttributeError whenever a scale factor and an exponent are
given instead of a factor; with validation they are accepted. -/
theorem c71_bypass_fails (v : List ℝ) (a k : ℝ) (cm : Option Bool) :
    newBypass v { comoving := cm, sf := some a, expo := some k } = .error .attribute ∧
      ∃ y, newPlain v { comoving := cm, sf := some a, expo := some k } = .ok y ∧ y.cf = some ⟨some k, some a⟩ := by
  refine ⟨rfl, ⟨v, cm, some ⟨some k, some a⟩, cm.isSome && true⟩, ?_, rfl⟩
  rw [c71_numbers]
  exact ⟨_, .numbers _ _, fun _ => rfl, rfl, rfl, rfl, rfl⟩

/-- C71, negation: `from_astropy` and `from_pint` ignore `valid_transform`. Without further arguments the result is not
consistent, and an array that is said to be inconvertible is converted. -/
theorem c71_import_fails :
    (∀ v w b, fromOther v { w with vt := b } = fromOther v w) ∧ (∀ v, ¬ Consistent (fromOther v {})) ∧
      ∃ y, (fromOther [8] { comoving := some false, cf := some ⟨some 1, some (1 / 2)⟩, vt := false }).toComoving = .ok y ∧
        y.val = [16] := by
  refine ⟨fun v w b => rfl, fun v h => ?_, ⟨[8 / (1 / 2) ^ (1 : ℝ)], some true, some ⟨some 1, some (1 / 2)⟩, true⟩, ?_, ?_⟩
  · have := h.1 rfl
    simp [fromOther] at this
  · simp [fromOther, Arr.toComoving, Arr.convertToComoving, Arr.factor, CF.aFactor]
  · norm_num

/-- C71, negation: `from_astropy` and `from_pint` with a frame and without a factor make an array with an empty factor, which cannot be
converted to the other frame. -/
theorem c71_import_factor_fails (v : List ℝ) :
    (fromOther v { comoving := some true }).toPhysical = .error .typeErr ∧ (fromOther v { comoving := some false }).toComoving = .error .typeErr := by
  constructor <;> simp [fromOther, Arr.toPhysical, Arr.toComoving, Arr.convertToPhysical, Arr.convertToComoving, Arr.factor, CF.aFactor, CF.null]

/-- C71, negation: a factor that is given together with a `cosmo_array` is ignored, even if the array has none; given with bare
numbers it is used. -/
theorem c71_ignored_fails (v : List ℝ) (f : CF) :
    (∃ y, newFrom ⟨v, none, some ⟨none, none⟩, false⟩ { cf := some f, vt := false } = .ok y ∧ y.cf = some ⟨none, none⟩) ∧
      ∃ y, newPlain v { cf := some f, vt := false } = .ok y ∧ y.cf = some f := by
  have hs : CF.same ⟨none, none⟩ CF.null := ⟨rfl, by simp [CF.null, CF.aFactor]⟩
  refine ⟨⟨⟨v, none, some ⟨none, none⟩, false⟩, ?_, rfl⟩, ⟨v, none, some f, false⟩, ?_, rfl⟩
  · simp [newFrom, hs, parse, Arr.verify]
  · rw [c71_numbers]
    exact ⟨_, .factor f, by simp, rfl, rfl, rfl, rfl⟩

example : newPlain [1, 2] { comoving := some true, sf := some (1 / 2), expo := some 1 } =
    .ok ⟨[1, 2], some true, some ⟨some 1, some (1 / 2)⟩, true⟩ := by
  rw [c71_numbers]
  exact ⟨_, .numbers _ _, fun _ => rfl, rfl, rfl, rfl, rfl⟩

private theorem conv8 : Conv (1 / 2) 1 ⟨[8], some false, some ⟨some 1, some (1 / 2)⟩, true⟩ :=
  ⟨by norm_num, rfl, rfl, by simp⟩

example : ∃ y, newQuantity (.cosmo ⟨[8], some false, some ⟨some 1, some (1 / 2)⟩, true⟩) { comoving := some true } = .ok y ∧
    y.phys = [8 * (1 / 2) ^ (1 : ℝ)] := by
  obtain ⟨y, h1, -, h3⟩ := c71_quantity_fails conv8 rfl (c := true) rfl
  exact ⟨y, h1, by simpa [Arr.phys] using h3⟩

example : ∃ y, newFrom ⟨[8], some false, some ⟨some 1, some (1 / 2)⟩, true⟩ { comoving := some true } = .ok y ∧
    y.phys = [8] := by
  obtain ⟨y, h1, -, h3, -⟩ := c71_array conv8 (some true)
  exact ⟨y, h1, by simpa [Arr.phys] using h3⟩

example : newQuantity (.cosmo ⟨[8], some false, some ⟨some 1, some (1 / 2)⟩, true⟩) {} =
    .ok ⟨[8], some false, some ⟨some 1, some (1 / 2)⟩, true⟩ := c71_quantity conv8 (by simp) none (.inl rfl)

end Verif.Props
