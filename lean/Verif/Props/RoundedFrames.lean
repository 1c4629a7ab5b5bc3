import Verif.Model.RoundedFrames
import Verif.Props.RoundedBounds

/-!
# C150: conversions between frames in double precision (`swiftsimio/objects.py`)
-/

namespace Verif.Props
open Verif Verif.Spec Verif.RoundedFrames

variable {K : Type} [Field K] [LinearOrder K]

omit [LinearOrder K] in
private theorem physical_ok {fl : K → K} {x y : Stored K} (h : toPhysical fl x = .ok y) :
    (x.comoving = some false ∧ y = x) ∨
      (x.comoving = some true ∧ x.valid = true ∧ y = { x with numbers := x.numbers.map fun v => fl (v * x.factor), comoving := some false }) := by
  unfold toPhysical convertToPhysical ofCopy at h
  split_ifs at h with hg
  rcases hc : x.comoving with _ | _ | _
  · simp [hc] at h
  · simp only [hc, Except.ok.injEq] at h
    exact .inl ⟨rfl, h.symm⟩
  · simp only [hc, Except.ok.injEq] at h
    exact .inr ⟨rfl, by simpa [hc] using hg, h.symm⟩

omit [LinearOrder K] in
private theorem comoving_ok {fl : K → K} {x y : Stored K} (h : toComoving fl x = .ok y) :
    x.valid = true ∧ ((x.comoving = some true ∧ y = x) ∨
      (x.comoving = some false ∧ y = { x with numbers := x.numbers.map fun v => fl (v / x.factor), comoving := some true })) := by
  unfold toComoving convertToComoving ofCopy at h
  split_ifs at h with hg h1 h2
  · simp only [Except.ok.injEq] at h
    exact ⟨by simpa [h1] using hg, .inl ⟨h1, h.symm⟩⟩
  · rw [not_or] at h2
    simp only [Except.ok.injEq] at h
    refine ⟨by simpa using h2.1, .inr ⟨?_, h.symm⟩⟩
    rcases hc : x.comoving with _ | _ | _
    · exact absurd hc h2.2
    · rfl
    · exact absurd hc h1

omit [LinearOrder K] in
/-- C150. A copy that is converted has bit by bit the numbers of the array that is converted in place, and one conversion succeeds when the other does,
but for arrays that cannot be converted. -/
theorem c150_copy (fl : K → K) (x y : Stored K) (hv : x.valid = true) :
    (toPhysical fl x = .ok y ↔ convertToPhysical fl x = (y, none)) ∧ (toComoving fl x = .ok y ↔ convertToComoving fl x = (y, none)) := by
  unfold toPhysical toComoving ofCopy
  simp only [hv, Bool.true_eq_false, false_and, if_false]
  constructor
  · rcases convertToPhysical fl x with ⟨z, _ | e⟩ <;> simp
  · rcases convertToComoving fl x with ⟨z, _ | e⟩ <;> simp

omit [LinearOrder K] in
/-- C150. Converting again to the same frame changes no digit. -/
theorem c150_again (fl fl' : K → K) (x y : Stored K) :
    (toPhysical fl x = .ok y → toPhysical fl' y = .ok y) ∧ (toComoving fl x = .ok y → toComoving fl' y = .ok y) := by
  constructor
  · intro h
    rcases physical_ok h with ⟨h1, rfl⟩ | ⟨-, -, rfl⟩
    · simp [toPhysical, convertToPhysical, ofCopy, h1]
    · simp [toPhysical, convertToPhysical, ofCopy]
  · intro h
    obtain ⟨hv, ⟨h1, rfl⟩ | ⟨-, rfl⟩⟩ := comoving_ok h
    · simp [toComoving, convertToComoving, ofCopy, h1, hv]
    · simp [toComoving, convertToComoving, ofCopy, hv]

/-- The second array is the first one in a frame. -/
def Converted (fl : K → K) (x y : Stored K) : Prop := toPhysical fl x = .ok y ∨ toComoving fl x = .ok y

omit [LinearOrder K] in
private theorem converted_numbers {fl : K → K} {x y : Stored K} (h : Converted fl x y) :
    y = x ∨ (y.numbers = x.numbers.map fun v => fl (v * x.factor)) ∨ y.numbers = x.numbers.map fun v => fl (v / x.factor) := by
  rcases h with h | h
  · rcases physical_ok h with ⟨-, rfl⟩ | ⟨-, -, rfl⟩
    · exact .inl rfl
    · exact .inr (.inl rfl)
  · obtain ⟨-, ⟨-, rfl⟩ | ⟨-, rfl⟩⟩ := comoving_ok h
    · exact .inl rfl
    · exact .inr (.inr rfl)

/-- C150. The order of the numbers is kept: what is not larger before is not larger after the conversion. So an array that is sorted stays sorted, and the
places of a maximum and of a minimum stay right. -/
theorem c150_order [IsStrictOrderedRing K] (fl : K → K) (hfl : ∀ u w, u ≤ w → fl u ≤ fl w) (x y : Stored K) (hp : 0 < x.factor) (h : Converted fl x y)
    (i j : Nat) (v w v' w' : K) (hv : x.numbers[i]? = some v) (hw : x.numbers[j]? = some w) (hv' : y.numbers[i]? = some v')
    (hw' : y.numbers[j]? = some w') (hvw : v ≤ w) : v' ≤ w' := by
  rcases converted_numbers h with rfl | e | e
  · rw [hv] at hv'
    rw [hw] at hw'
    obtain rfl := Option.some.inj hv'
    obtain rfl := Option.some.inj hw'
    exact hvw
  · rw [e, List.getElem?_map, hv, Option.map_some] at hv'
    rw [e, List.getElem?_map, hw, Option.map_some] at hw'
    obtain rfl := Option.some.inj hv'
    obtain rfl := Option.some.inj hw'
    exact hfl _ _ (mul_le_mul_of_nonneg_right hvw hp.le)
  · rw [e, List.getElem?_map, hv, Option.map_some] at hv'
    rw [e, List.getElem?_map, hw, Option.map_some] at hw'
    obtain rfl := Option.some.inj hv'
    obtain rfl := Option.some.inj hw'
    exact hfl _ _ (div_le_div_of_nonneg_right hvw hp.le)

/-- C150. No number is lost or added, zeros stay zeros and no number changes its sign. -/
theorem c150_sign [IsStrictOrderedRing K] (fl : K → K) (hfl : OrderKeeping fl) (x y : Stored K) (hp : 0 < x.factor) (h : Converted fl x y) :
    y.numbers.length = x.numbers.length ∧ ∀ (i : Nat) (v v' : K), x.numbers[i]? = some v → y.numbers[i]? = some v' →
      (0 ≤ v → 0 ≤ v') ∧ (v ≤ 0 → v' ≤ 0) := by
  have key : ∀ u : K, (0 ≤ u → 0 ≤ fl u) ∧ (u ≤ 0 → fl u ≤ 0) := fun u =>
    ⟨fun hu => hfl.zero ▸ hfl.mono 0 u hu, fun hu => hfl.zero ▸ hfl.mono u 0 hu⟩
  rcases converted_numbers h with rfl | e | e
  · refine ⟨rfl, fun i v v' hv hv' => ?_⟩
    rw [hv] at hv'
    obtain rfl := Option.some.inj hv'
    exact ⟨id, id⟩
  · refine ⟨by rw [e, List.length_map], fun i v v' hv hv' => ?_⟩
    rw [e, List.getElem?_map, hv, Option.map_some] at hv'
    obtain rfl := Option.some.inj hv'
    exact ⟨fun hv => (key _).1 (mul_nonneg hv hp.le), fun hv => (key _).2 (mul_nonpos_of_nonpos_of_nonneg hv hp.le)⟩
  · refine ⟨by rw [e, List.length_map], fun i v v' hv hv' => ?_⟩
    rw [e, List.getElem?_map, hv, Option.map_some] at hv'
    obtain rfl := Option.some.inj hv'
    exact ⟨fun hv => (key _).1 (div_nonneg hv hp.le), fun hv => (key _).2 (div_nonpos_of_nonpos_of_nonneg hv hp.le)⟩

/-- C150. One conversion: a physical number is the comoving one times the factor, up to one relative error of the format, and the other way round. An array
that is in the frame already keeps its numbers. -/
theorem c150_error (fl : K → K) (ε : K) (x y : Stored K) (i : Nat) (v w : K) (hv : x.numbers[i]? = some v) (hw : y.numbers[i]? = some w) :
    (x.comoving = some true → toPhysical fl x = .ok y → RelErr fl ε (v * x.factor) →
      y.comoving = some false ∧ |w - v * x.factor| ≤ ε * |v * x.factor|) ∧
    (x.comoving = some false → toComoving fl x = .ok y → RelErr fl ε (v / x.factor) →
      y.comoving = some true ∧ |w - v / x.factor| ≤ ε * |v / x.factor|) ∧
    (x.comoving = some false → toPhysical fl x = .ok y → y.comoving = some false ∧ w = v) ∧
    (x.comoving = some true → toComoving fl x = .ok y → y.comoving = some true ∧ w = v) := by
  refine ⟨fun hc h hr => ?_, fun hc h hr => ?_, fun hc h => ?_, fun hc h => ?_⟩
  · rcases physical_ok h with ⟨h', -⟩ | ⟨-, -, rfl⟩
    · rw [hc] at h'
      cases h'
    · simp only [List.getElem?_map, hv, Option.map_some, Option.some.injEq] at hw
      subst hw
      exact ⟨rfl, hr⟩
  · obtain ⟨-, ⟨h', -⟩ | ⟨-, rfl⟩⟩ := comoving_ok h
    · rw [hc] at h'
      cases h'
    · simp only [List.getElem?_map, hv, Option.map_some, Option.some.injEq] at hw
      subst hw
      exact ⟨rfl, hr⟩
  · rcases physical_ok h with ⟨-, rfl⟩ | ⟨h', -, -⟩
    · exact ⟨hc, Option.some.inj (hw.symm.trans hv)⟩
    · rw [hc] at h'
      cases h'
  · obtain ⟨-, ⟨-, rfl⟩ | ⟨h', -⟩⟩ := comoving_ok h
    · exact ⟨hc, Option.some.inj (hw.symm.trans hv)⟩
    · rw [hc] at h'
      cases h'

/-- C150. Which arrays can be converted: those of a known frame that can be transformed; physical arrays that cannot be transformed are physical already. -/
theorem c150_accepted (fl : K → K) (x : Stored K) :
    ((∃ y, toPhysical fl x = .ok y) ↔ x.comoving = some false ∨ (x.comoving = some true ∧ x.valid = true)) ∧
    ((∃ y, toComoving fl x = .ok y) ↔ x.comoving ≠ none ∧ x.valid = true) ∧
    ((convertToComoving fl x).2 ≠ none → (convertToComoving fl x).1 = x) ∧ ((convertToPhysical fl x).2 ≠ none → (convertToPhysical fl x).1 = x) := by
  refine ⟨⟨fun ⟨y, h⟩ => ?_, fun h => ?_⟩, ⟨fun ⟨y, h⟩ => ?_, fun ⟨h1, h2⟩ => ?_⟩, fun h => ?_, fun h => ?_⟩
  · rcases physical_ok h with ⟨h', -⟩ | ⟨h', h'', -⟩
    · exact .inl h'
    · exact .inr ⟨h', h''⟩
  · rcases h with h | ⟨h, h'⟩
    · exact ⟨x, by simp [toPhysical, convertToPhysical, ofCopy, h]⟩
    · exact ⟨_, by simp [toPhysical, convertToPhysical, ofCopy, h, h']; rfl⟩
  · obtain ⟨hv, ⟨h', -⟩ | ⟨h', -⟩⟩ := comoving_ok h <;> exact ⟨by simp [h'], hv⟩
  · rcases hc : x.comoving with _ | _ | _
    · exact absurd hc h1
    · exact ⟨_, by simp [toComoving, convertToComoving, ofCopy, hc, h2]; rfl⟩
    · exact ⟨x, by simp [toComoving, convertToComoving, ofCopy, hc, h2]⟩
  · unfold convertToComoving at h ⊢
    split_ifs at h ⊢ <;> first | rfl | exact absurd rfl h
  · unfold convertToPhysical at h ⊢
    rcases hc : x.comoving with _ | _ | _
    · rfl
    · rfl
    · rw [hc] at h
      exact absurd rfl h

omit [LinearOrder K] in
/-- C150. Which arrays are converted in place: to comoving those that are comoving or can be transformed from physical, to physical those of a known frame. -/
theorem c150_in_place (fl : K → K) (x : Stored K) :
    ((convertToComoving fl x).2 = none ↔ x.comoving = some true ∨ (x.comoving = some false ∧ x.valid = true)) ∧
    ((convertToPhysical fl x).2 = none ↔ x.comoving ≠ none) ∧
    ((convertToComoving fl x).2 = none → (convertToComoving fl x).1.comoving = some true) ∧
    ((convertToPhysical fl x).2 = none → (convertToPhysical fl x).1.comoving = some false) ∧
    (x.comoving = some true → (convertToComoving fl x).1 = x) ∧ (x.comoving = some false → (convertToPhysical fl x).1 = x) := by
  obtain ⟨l, c, a, b⟩ := x
  rcases c with _ | _ | _ <;> cases b <;> simp [convertToComoving, convertToPhysical]

/-- C150. There and back: a number of a comoving array that was made physical and comoving again differs from what it was by at most two relative errors
of the format and their product. -/
theorem c150_back [IsStrictOrderedRing K] (fl : K → K) (ε : K) (he : 0 ≤ ε) (x y z : Stored K) (hf : 0 < x.factor) (hc : x.comoving = some true)
    (h1 : toPhysical fl x = .ok y) (h2 : toComoving fl y = .ok z) (i : Nat) (v w : K) (hv : x.numbers[i]? = some v) (hw : z.numbers[i]? = some w)
    (r1 : RelErr fl ε (v * x.factor)) (r2 : RelErr fl ε (fl (v * x.factor) / x.factor)) : |w - v| ≤ (2 * ε + ε * ε) * |v| := by
  rcases physical_ok h1 with ⟨h, -⟩ | ⟨-, -, rfl⟩
  · rw [hc] at h
    cases h
  obtain ⟨-, ⟨h, -⟩ | ⟨-, rfl⟩⟩ := comoving_ok h2
  · cases h
  simp only [List.map_map, List.getElem?_map, hv, Option.map_some, Option.some.injEq, Function.comp] at hw
  subst hw
  unfold RelErr at r1 r2
  have hv0 : |v * x.factor| = |v| * x.factor := by rw [abs_mul, abs_of_pos hf]
  have e1 : |fl (v * x.factor) / x.factor - v| ≤ ε * |v| := by
    have : fl (v * x.factor) / x.factor - v = (fl (v * x.factor) - v * x.factor) / x.factor := by field_simp
    rw [this, abs_div, abs_of_pos hf, div_le_iff₀ hf]
    calc _ ≤ ε * |v * x.factor| := r1
      _ = ε * |v| * x.factor := by rw [hv0]; ring
  have e2 : |fl (v * x.factor) / x.factor| ≤ (1 + ε) * |v| := by
    have h3 := abs_add_le (fl (v * x.factor) / x.factor - v) v
    rw [sub_add_cancel] at h3
    linarith
  have h4 := abs_sub_le (fl (fl (v * x.factor) / x.factor)) (fl (v * x.factor) / x.factor) v
  have h5 := mul_le_mul_of_nonneg_left e2 he
  nlinarith

omit [LinearOrder K] in
private theorem units_ok (fl : K → K) (s : K) (x : Stored K) :
    toPhysicalIn fl s x = toPhysical fl (inUnits fl s x) ∧ toComovingIn fl s x = toComoving fl (inUnits fl s x) := ⟨rfl, rfl⟩

private theorem two_errors [IsStrictOrderedRing K] {fl : K → K} {ε t u : K} (he : 0 ≤ ε) (h1 : RelErr fl ε u) (h2 : RelErr fl ε (fl u * t)) :
    |fl (fl u * t) - u * t| ≤ (2 * ε + ε * ε) * |u * t| := by
  unfold RelErr at h1 h2
  have e1 : |fl u * t - u * t| ≤ ε * |u * t| := by
    rw [← sub_mul, abs_mul, abs_mul, ← mul_assoc]
    exact mul_le_mul_of_nonneg_right h1 (abs_nonneg t)
  have e2 : |fl u * t| ≤ (1 + ε) * |u * t| := by
    have h3 := abs_add_le (fl u * t - u * t) (u * t)
    rw [sub_add_cancel] at h3
    linarith
  have h4 := abs_sub_le (fl (fl u * t)) (fl u * t) (u * t)
  have h5 := mul_le_mul_of_nonneg_left e2 he
  nlinarith

/-- C150. With units: the physical number in the new unit is the comoving one times the factor and the units, up to two relative errors and their product,
and the other way round. An array that is in the frame already has one rounding. -/
theorem c150_units [IsStrictOrderedRing K] (fl : K → K) (ε s : K) (he : 0 ≤ ε) (x y : Stored K) (i : Nat) (v w : K) (hv : x.numbers[i]? = some v)
    (hw : y.numbers[i]? = some w) (r : RelErr fl ε (v * s)) :
    (x.comoving = some true → toPhysicalIn fl s x = .ok y → RelErr fl ε (fl (v * s) * x.factor) →
      y.comoving = some false ∧ |w - v * s * x.factor| ≤ (2 * ε + ε * ε) * |v * s * x.factor|) ∧
    (x.comoving = some false → toComovingIn fl s x = .ok y → RelErr fl ε (fl (v * s) / x.factor) →
      y.comoving = some true ∧ |w - v * s / x.factor| ≤ (2 * ε + ε * ε) * |v * s / x.factor|) ∧
    (x.comoving = some false → toPhysicalIn fl s x = .ok y → y.comoving = some false ∧ |w - v * s| ≤ ε * |v * s|) ∧
    (x.comoving = some true → toComovingIn fl s x = .ok y → y.comoving = some true ∧ |w - v * s| ≤ ε * |v * s|) := by
  have hv' : (inUnits fl s x).numbers[i]? = some (fl (v * s)) := by
    unfold inUnits
    rw [List.getElem?_map, hv, Option.map_some]
  rw [(units_ok fl s x).1, (units_ok fl s x).2]
  have key := c150_error fl ε (inUnits fl s x) y i (fl (v * s)) w hv' hw
  refine ⟨fun hc h hr => ?_, fun hc h hr => ?_, fun hc h => ?_, fun hc h => ?_⟩
  · have h1 := (key.1 hc h hr).1
    rcases physical_ok h with ⟨h', -⟩ | ⟨-, -, rfl⟩
    · rw [show (inUnits fl s x).comoving = x.comoving from rfl, hc] at h'
      cases h'
    · simp only [List.getElem?_map, hv', Option.map_some, Option.some.injEq] at hw
      subst hw
      exact ⟨h1, two_errors he r hr⟩
  · have h1 := (key.2.1 hc h hr).1
    obtain ⟨-, ⟨h', -⟩ | ⟨-, rfl⟩⟩ := comoving_ok h
    · rw [show (inUnits fl s x).comoving = x.comoving from rfl, hc] at h'
      cases h'
    · simp only [List.getElem?_map, hv', Option.map_some, Option.some.injEq] at hw
      subst hw
      rw [div_eq_mul_inv] at hr
      have := two_errors he r hr
      rw [← div_eq_mul_inv, ← div_eq_mul_inv] at this
      exact ⟨h1, this⟩
  · obtain ⟨h1, rfl⟩ := key.2.2.1 hc h
    exact ⟨h1, r⟩
  · obtain ⟨h1, rfl⟩ := key.2.2.2 hc h
    exact ⟨h1, r⟩

omit [LinearOrder K] in
/-- C150. There and back is exact if the products are numbers of the format, for example if the factor is a power of two and nothing overflows. -/
theorem c150_exact (fl : K → K) (x : Stored K) (hf : x.factor ≠ 0) (hc : x.comoving = some true) (hv : x.valid = true)
    (he : ∀ v ∈ x.numbers, fl v = v ∧ fl (v * x.factor) = v * x.factor) : ∃ y, toPhysical fl x = .ok y ∧ toComoving fl y = .ok x := by
  obtain ⟨l, c, a, b⟩ := x
  obtain rfl : c = some true := hc
  obtain rfl : b = true := hv
  refine ⟨⟨l.map fun v => fl (v * a), some false, a, true⟩, rfl, ?_⟩
  have hm : (l.map fun v => fl (v * a)).map (fun v => fl (v / a)) = l := by
    rw [List.map_map]
    refine (List.map_congr_left fun v hv => ?_).trans (List.map_id l)
    obtain ⟨h1, h2⟩ := he v hv
    simp only [Function.comp]
    rw [h2, mul_div_assoc, div_self hf, mul_one, h1]
    rfl
  show Except.ok (⟨_, some true, a, true⟩ : Stored K) = _
  rw [hm]

/-- The amount that a number of an array stands for. -/
def physicalNumber (x : Stored K) (v : K) : K := if x.comoving = some true then v * x.factor else v

/-- C150. Comparisons of arrays with one factor in any frames: if one amount is not larger than the other, then neither is the number that is compared.
So a strict comparison that gives true is right, and amounts that are equal compare as equal; only amounts that differ can compare as equal. -/
theorem c150_compare [IsStrictOrderedRing K] (fl : K → K) (hfl : ∀ u w, u ≤ w → fl u ≤ fl w) (x y : Stored K) (hp : 0 < x.factor) (hs : x.factor = y.factor)
    (l l' : List K) (h : compared fl x y = .ok (l, l')) (hc : x.comoving ≠ none) (i : Nat) (v w v' w' : K) (hv : x.numbers[i]? = some v)
    (hw : y.numbers[i]? = some w) (hv' : l[i]? = some v') (hw' : l'[i]? = some w') (fv : fl v = v) (fw : fl w = w) :
    (physicalNumber x v ≤ physicalNumber y w → v' ≤ w') ∧ (physicalNumber y w ≤ physicalNumber x v → w' ≤ v') := by
  have hp' : 0 < y.factor := hs ▸ hp
  unfold compared at h
  unfold physicalNumber
  rcases hx : x.comoving with _ | _ | _
  · exact absurd hx hc
  · rcases hy : y.comoving with _ | _ | _
    · simp [hx, hy] at h
    · simp only [hx, hy, Except.ok.injEq, Prod.mk.injEq] at h
      obtain ⟨rfl, rfl⟩ := h
      obtain rfl := Option.some.inj (hv.symm.trans hv')
      obtain rfl := Option.some.inj (hw.symm.trans hw')
      simp
    · simp only [hx, hy] at h
      cases hx' : toComoving fl x with
      | error e => simp [hx', Except.map] at h
      | ok z =>
        simp only [hx', Except.map, Except.ok.injEq, Prod.mk.injEq] at h
        obtain ⟨rfl, rfl⟩ := h
        obtain rfl := Option.some.inj (hw.symm.trans hw')
        obtain ⟨-, ⟨h', -⟩ | ⟨-, rfl⟩⟩ := comoving_ok hx'
        · rw [hx] at h'
          cases h'
        simp only [List.getElem?_map, hv, Option.map_some, Option.some.injEq] at hv'
        subst hv'
        simp only [Option.some.injEq, Bool.false_eq_true, if_false, if_true, ← hs]
        constructor
        · intro hle
          have := hfl _ _ ((div_le_iff₀ hp).2 hle)
          rwa [fw] at this
        · intro hle
          have := hfl _ _ ((le_div_iff₀ hp).2 hle)
          rwa [fw] at this
  · rcases hy : y.comoving with _ | _ | _
    · simp [hx, hy] at h
    · simp only [hx, hy] at h
      cases hy' : toComoving fl y with
      | error e => simp [hy', Except.map] at h
      | ok z =>
        simp only [hy', Except.map, Except.ok.injEq, Prod.mk.injEq] at h
        obtain ⟨rfl, rfl⟩ := h
        obtain rfl := Option.some.inj (hv.symm.trans hv')
        obtain ⟨-, ⟨h', -⟩ | ⟨-, rfl⟩⟩ := comoving_ok hy'
        · rw [hy] at h'
          cases h'
        simp only [List.getElem?_map, hw, Option.map_some, Option.some.injEq] at hw'
        subst hw'
        simp only [Option.some.injEq, Bool.false_eq_true, if_false, if_true]
        constructor
        · intro hle
          have := hfl _ _ ((le_div_iff₀ hp').2 (hs ▸ hle))
          rwa [fv] at this
        · intro hle
          have := hfl _ _ ((div_le_iff₀ hp').2 (hs ▸ hle))
          rwa [fv] at this
    · simp only [hx, hy, Except.ok.injEq, Prod.mk.injEq] at h
      obtain ⟨rfl, rfl⟩ := h
      obtain rfl := Option.some.inj (hv.symm.trans hv')
      obtain rfl := Option.some.inj (hw.symm.trans hw')
      simp only [if_true, ← hs]
      exact ⟨fun hle => le_of_mul_le_mul_right hle hp, fun hle => le_of_mul_le_mul_right hle hp⟩

omit [LinearOrder K] in
/-- C150. Arrays that can be transformed are compared unless the frame of exactly one of them is unknown, whatever the order of the two. -/
theorem c150_comparable (fl : K → K) (x y : Stored K) (hx : x.valid = true) (hy : y.valid = true) :
    ((∃ r, compared fl x y = .ok r) ↔ (x.comoving = none ↔ y.comoving = none)) ∧
      (x.comoving = none → y.comoving = none → compared fl x y = .ok (x.numbers, y.numbers)) := by
  obtain ⟨l, c, a, b⟩ := x
  obtain ⟨l', c', a', b'⟩ := y
  obtain rfl : b = true := hx
  obtain rfl : b' = true := hy
  rcases c with _ | _ | _ <;> rcases c' with _ | _ | _ <;> simp [compared, toComoving, convertToComoving, ofCopy, Except.map]

/-- A comoving array and one of unknown frame are not compared, in either order. -/
example : (¬ ∃ r, compared (nearest 53 (-1074) toEven) (⟨[3], some true, 1 / 2, true⟩ : Stored ℚ) ⟨[3], none, 1, true⟩ = .ok r) ∧
    ¬ ∃ r, compared (nearest 53 (-1074) toEven) (⟨[3], none, 1, true⟩ : Stored ℚ) ⟨[3], some true, 1 / 2, true⟩ = .ok r := by
  constructor
  · rw [(c150_comparable _ _ _ rfl rfl).1]; simp
  · rw [(c150_comparable _ _ _ rfl rfl).1]; simp

/-- C150 fails for an array and its own copy: with the scale factor 0.7 the comoving length 3 compares as larger than what `to_physical` makes of it. -/
theorem c150_own_copy_fails : ∃ (y : Stored ℚ) (l l' : List ℚ),
    toPhysical (nearest 53 (-1074) toEven) ⟨[3], some true, 3152519739159347 / 4503599627370496, true⟩ = .ok y ∧
      compared (nearest 53 (-1074) toEven) ⟨[3], some true, 3152519739159347 / 4503599627370496, true⟩ y = .ok (l, l') ∧ l = [3] ∧
      ∃ w, l'[0]? = some w ∧ w < 3 :=
  ⟨_, _, _, rfl, rfl, rfl, _, rfl, by decide +kernel⟩

/-- C150 fails for equality: with the scale factor 0.7 the comoving length 3 is not 3 after it was made physical and comoving again. -/
theorem c150_back_fails : ∃ y z : Stored ℚ,
    toPhysical (nearest 53 (-1074) toEven) ⟨[3], some true, 3152519739159347 / 4503599627370496, true⟩ = .ok y ∧
      toComoving (nearest 53 (-1074) toEven) y = .ok z ∧ z.numbers ≠ [3] :=
  ⟨_, _, rfl, rfl, by decide +kernel⟩

/-- C150 fails for strict order: two lengths that are different before can be equal after the conversion. -/
theorem c150_strict_fails : ∃ (v w : ℚ) (y : Stored ℚ), v < w ∧ nearest 53 (-1074) toEven v = v ∧ nearest 53 (-1074) toEven w = w ∧
    toPhysical (nearest 53 (-1074) toEven) ⟨[v, w], some true, 3152519739159347 / 4503599627370496, true⟩ = .ok y ∧ y.numbers[0]? = y.numbers[1]? :=
  ⟨6755399441055747 / 4503599627370496, 1688849860263937 / 1125899906842624, _, by norm_num, by decide +kernel, by decide +kernel, rfl, by decide +kernel⟩

-- The hypotheses can be met in double precision, with the scale factor 0.7 for the errors and the factor 1/2 for exact conversions.
example :
    let fl := nearest 53 (-1074) toEven
    let a : ℚ := 3152519739159347 / 4503599627370496
    OrderKeeping fl ∧ RelErr fl (1 / 2 ^ 53) (3 * a) ∧ RelErr fl (1 / 2 ^ 53) (fl (3 * a) / a) ∧
      (∀ v ∈ [3, 5 / 4, 0], fl v = v ∧ fl (v * (1 / 2)) = v * (1 / 2)) ∧ Converted fl ⟨[2, 3], some false, a, true⟩ ⟨[2, 3], some false, a, true⟩ := by
  refine ⟨c140_nearest 53 (by norm_num) _ toEven c138_toEven, by unfold RelErr; decide +kernel, by unfold RelErr; decide +kernel, by decide +kernel, .inl rfl⟩

-- The hypotheses of `c150_units` can be met: lengths of 3 in a unit of 1000 new units, made physical.
example :
    let fl := nearest 53 (-1074) toEven
    let a : ℚ := 3152519739159347 / 4503599627370496
    RelErr fl (1 / 2 ^ 53) (3 * 1000) ∧ RelErr fl (1 / 2 ^ 53) (fl (3 * 1000) * a) ∧
      toPhysicalIn fl 1000 ⟨[3], some true, a, true⟩ = .ok ⟨[2100], some false, a, true⟩ := by
  refine ⟨by unfold RelErr; decide +kernel, by unfold RelErr; decide +kernel, ?_⟩
  show Except.ok (⟨[_], some false, _, true⟩ : Stored ℚ) = _
  congr 3
  decide +kernel

-- The hypotheses of `c150_compare` can be met: the comoving length 3 and the physical length 2 with the factor 0.7. The second is not larger in the frame of
-- the file if it is not larger as an amount.
example :
    let fl := nearest 53 (-1074) toEven
    let a : ℚ := 3152519739159347 / 4503599627370496
    let x : Stored ℚ := ⟨[3], some true, a, true⟩
    let y : Stored ℚ := ⟨[2], some false, a, true⟩
    ∃ l l', compared fl x y = .ok (l, l') ∧ x.factor = y.factor ∧ 0 < x.factor ∧ fl 3 = 3 ∧ fl 2 = 2 ∧
      physicalNumber y 2 ≤ physicalNumber x 3 ∧ ∃ w, l'[0]? = some w ∧ w < 3 :=
  ⟨_, _, rfl, rfl, by decide +kernel, by decide +kernel, by decide +kernel, by decide +kernel, _, rfl, by decide +kernel⟩

end Verif.Props
