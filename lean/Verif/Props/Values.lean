import Verif.Spec.Values
import Verif.Lemmas.Cosmo
import Verif.Props.CosmoFactor
import Mathlib.Tactic.FieldSimp
import Mathlib.Tactic.Ring
import Mathlib.Tactic.NormNum

/-! C75: bare values, pickles, products with units, comparisons of factors. -/

namespace Verif.Props
open Verif Verif.Cosmo

private theorem inUnits_conv {a k u : ℝ} {x : Full} (hx : Conv a k x.arr) : Conv a k (x.inUnits u).arr :=
  ⟨hx.pos, hx.cf, hx.vt, hx.framed⟩

private theorem inUnits_phys {a k u : ℝ} {x : Full} (hx : Conv a k x.arr) (hu : u ≠ 0) : (x.inUnits u).phys = x.phys := by
  have hc := inUnits_conv (u := u) hx
  unfold Full.phys
  rcases hx.framed_cases with h | h
  · rw [phys_true hx h, phys_true hc h]
    simp only [Full.inUnits, List.map_map]
    refine List.map_congr_left fun v _ => ?_
    simp only [Function.comp]
    field_simp
  · rw [phys_false h, phys_false (x := (x.inUnits u).arr) h]
    simp only [Full.inUnits, List.map_map]
    refine List.map_congr_left fun v _ => ?_
    simp only [Function.comp]
    field_simp

/-- C75: `to`. The copy has the unit and the frame asked for (its own if none is asked for), the same factor, and the same
physical values. -/
theorem c75_to {a k : ℝ} {x : Full} (hx : Conv a k x.arr) (u : Option ℝ) (hu : ∀ v ∈ u, v ≠ 0) (c : Option Bool) :
    ∃ y, x.to u c = .ok y ∧ Conv a k y.arr ∧ y.phys = x.phys ∧ y.unit = u.getD x.unit ∧
      y.arr.comoving = (c <|> x.arr.comoving) ∧ y.compression = x.compression := by
  obtain ⟨y, hy, e1, e2, e3, e4, e5⟩ : ∃ y : Full, y = x.maybeUnits u ∧ Conv a k y.arr ∧ y.phys = x.phys ∧ y.unit = u.getD x.unit ∧
      y.arr.comoving = x.arr.comoving ∧ y.compression = x.compression := by
    cases u with
    | none => exact ⟨x, rfl, hx, rfl, rfl, rfl, rfl⟩
    | some u => exact ⟨_, rfl, inUnits_conv hx, inUnits_phys hx (hu u rfl), rfl, rfl, rfl⟩
  unfold Full.to
  rw [if_neg (by simp [hx.vt])]
  dsimp only
  rw [← hy]
  rcases c with _ | _ | _
  · exact ⟨y, rfl, e1, e2, e3, by rw [e4]; rfl, e5⟩
  · obtain ⟨z, h1, h2, h3, h4⟩ := convertToPhysical_ok e1
    refine ⟨{ y with arr := z }, by simp [h1, Except.map], h2, ?_, e3, by simp [h3], e5⟩
    rw [← e2]
    simp [Full.phys, h4]
  · obtain ⟨z, h1, h2, h3, h4⟩ := convertToComoving_ok e1
    refine ⟨{ y with arr := z }, by simp [h1, Except.map], h2, ?_, e3, by simp [h3], e5⟩
    rw [← e2]
    simp [Full.phys, h4]

/-- C75: bare values. In physical units they are the physical values divided by the unit, in comoving units also divided by
the factor. -/
theorem c75_values {a k u : ℝ} {x : Full} (hx : Conv a k x.arr) (hu : u ≠ 0) :
    x.toPhysicalValue u = .ok (x.phys.map (fun v => v / u)) ∧
      x.toComovingValue u = .ok (x.phys.map (fun v => v / u / a ^ k)) := by
  constructor
  · obtain ⟨y, e, h1, h2, h3, h4, -⟩ := c75_to hx (some u) (by simp [hu]) (some false)
    simp only [Full.toPhysicalValue, Full.toValue, e, Except.map, Except.ok.injEq]
    rw [← h2, Full.phys, phys_false (by simpa using h4), List.map_map, h3]
    refine Eq.symm ((List.map_congr_left fun v _ => ?_).trans (List.map_id _))
    simp [hu]
  · obtain ⟨y, e, h1, h2, h3, h4, -⟩ := c75_to hx (some u) (by simp [hu]) (some true)
    simp only [Full.toComovingValue, Full.toValue, e, Except.map, Except.ok.injEq]
    rw [← h2, Full.phys, phys_true h1 (by simpa using h4), List.map_map, List.map_map, h3]
    refine Eq.symm ((List.map_congr_left fun v _ => ?_).trans (List.map_id _))
    have := hx.pow_ne k
    simp only [Function.comp, Option.getD_some, id]
    field_simp

/-- C75: an array that cannot be converted gives no value in the other frame, and one without a frame none in any. -/
theorem c75_refused {x : Full} (u : Option ℝ) (c : Bool) (h : (x.arr.vt = false ∧ x.arr.comoving ≠ some c) ∨ x.arr.comoving = none) :
    x.toValue u (some c) = .error .invalidConversion := by
  unfold Full.toValue Full.to
  rcases h with ⟨h1, h2⟩ | h
  · rw [if_pos ⟨by simp, h1, Ne.symm h2⟩]
    rfl
  · split
    · rfl
    · dsimp only
      cases c <;> cases u <;> simp [Arr.convertToPhysical, Arr.convertToComoving, h, Full.maybeUnits, Full.inUnits, Except.map]

/-- C75: `compatible_with_physical` and `compatible_with_comoving` say whether the numbers are those of the frame. -/
theorem c75_compatible {a k : ℝ} {x : Arr} (hx : Conv a k x) :
    ∃ p c, x.compatibleWithPhysical = .ok p ∧ x.compatibleWithComoving = .ok c ∧
      (p = true ↔ x.comoving = some false ∨ a ^ k = 1) ∧ (c = true ↔ x.comoving = some true ∨ a ^ k = 1) ∧
      (p = true → ∃ y, x.toPhysical = .ok y ∧ y.val = x.val) ∧ (c = true → ∃ y, x.toComoving = .ok y ∧ y.val = x.val) := by
  rcases hx.framed_cases with h | h
  · refine ⟨decide (a ^ k = 1), true, by simp [Arr.compatibleWithPhysical, h, Arr.factorIsOne, hx.cf, CF.aFactor],
      by simp [Arr.compatibleWithComoving, h], by simp [h], by simp [h], ?_, ?_⟩
    · intro e
      have e : a ^ k = 1 := by simpa using e
      rw [toPhysical_eq hx]
      exact ⟨{ x with val := x.val.map (fun v => v * a ^ k), comoving := some false },
        by simp [Arr.convertToPhysical, h, hx.factor], by simp [e]⟩
    · intro _
      rw [toComoving_eq hx]
      exact ⟨x, by simp [Arr.convertToComoving, h], rfl⟩
  · refine ⟨true, decide (a ^ k = 1), by simp [Arr.compatibleWithPhysical, h],
      by simp [Arr.compatibleWithComoving, h, Arr.factorIsOne, hx.cf, CF.aFactor], by simp [h], by simp [h], ?_, ?_⟩
    · intro _
      rw [toPhysical_eq hx]
      exact ⟨x, by simp [Arr.convertToPhysical, h], rfl⟩
    · intro e
      have e : a ^ k = 1 := by simpa using e
      rw [toComoving_eq hx]
      exact ⟨{ x with val := x.val.map (fun v => v / a ^ k), comoving := some true },
        by simp [Arr.convertToComoving, h, hx.factor, hx.vt], by simp [e]⟩

/-- C75 fails for arrays without a frame: they are said to be compatible with physical units, but have no physical value. -/
theorem c75_compatible_fails {x : Arr} (h : x.comoving = none) :
    x.compatibleWithPhysical = .ok true ∧ x.toPhysical = .error .invalidConversion := by
  simp [Arr.compatibleWithPhysical, Arr.toPhysical, Arr.convertToPhysical, h]

/-- C75: a pickle read back is the array, whatever the new object held before. -/
theorem c75_pickle (x blank : Full) : blank.setstate x.reduce = .ok x := rfl

/-- C75: a pickle of a plain unyt array is refused. -/
theorem c75_unyt_pickle (x blank : Full) : ∃ e, blank.setstate x.unytState = .error e := ⟨.typeErr, rfl⟩

/-- C75: multiplication by a unit multiplies the physical values and keeps frame and factor. -/
theorem c75_times_unit (x : Full) (u : ℝ) :
    (x.timesUnit u).arr = x.arr ∧ (x.timesUnit u).phys = x.phys.map (fun v => v * u) := by
  refine ⟨rfl, ?_⟩
  simp [Full.phys, Full.timesUnit, Function.comp_def, mul_assoc]

/-- C75: factors are ordered by their values; at a scale factor below one the larger exponent is the smaller factor. -/
theorem c75_order {a : ℝ} (ha : 0 < a) (k l : ℝ) :
    ∃ lt gt le ge : Prop,
      CF.compare (· < ·) (CF.create a k) (CF.create a l) = .ok lt ∧ CF.compare (· > ·) (CF.create a k) (CF.create a l) = .ok gt ∧
      CF.compare (· ≤ ·) (CF.create a k) (CF.create a l) = .ok le ∧ CF.compare (· ≥ ·) (CF.create a k) (CF.create a l) = .ok ge ∧
      (le ↔ ¬ gt) ∧ (ge ↔ ¬ lt) ∧ ¬ (lt ∧ gt) ∧ (a < 1 → (lt ↔ l < k)) ∧ (1 < a → (lt ↔ k < l)) := by
  refine ⟨a ^ k < a ^ l, a ^ k > a ^ l, a ^ k ≤ a ^ l, a ^ k ≥ a ^ l, rfl, rfl, rfl, rfl, by simp, by simp,
    fun h => lt_asymm h.1 h.2, fun h => Real.rpow_lt_rpow_left_iff_of_base_lt_one ha h,
    fun h => Real.rpow_lt_rpow_left_iff h⟩

/-- C75 fails for comparisons: a factor can be smaller than one it is equal to, and factors at different scale factors are
compared. -/
theorem c75_order_fails :
    (CF.compare (· < ·) (CF.create (1 / 2) 28) (CF.create (1 / 2) 27) = .ok True ∧
      CF.same (CF.create (1 / 2) 28) (CF.create (1 / 2) 27)) ∧
    CF.compare (· < ·) (CF.create (1 / 4) 1) (CF.create (1 / 2) 1) = .ok True := by
  refine ⟨⟨?_, rfl, ?_⟩, ?_⟩
  · norm_num [CF.compare, CF.create, CF.aFactor, Real.rpow_ofNat]
  · norm_num [CF.create, CF.aFactor, isclose, Real.rpow_ofNat, abs_of_neg]
  · norm_num [CF.compare, CF.create, CF.aFactor]

/-- Three comoving lengths in units of 1000 at redshift one, as physical values in units of 10. -/
example : Full.toPhysicalValue 10 ⟨⟨[2, 4, 6], some true, some ⟨some 1, some (1 / 2)⟩, true⟩, 1000, none⟩ = .ok [100, 200, 300] := by
  have hx : Conv (1 / 2) 1 ⟨[2, 4, 6], some true, some ⟨some 1, some (1 / 2)⟩, true⟩ := ⟨by norm_num, rfl, rfl, by simp⟩
  rw [(c75_values (x := ⟨_, 1000, none⟩) (u := 10) hx (by norm_num)).1]
  norm_num [Full.phys, Arr.phys]

/-- A physical length at redshift one is not compatible with comoving units. -/
example : ∃ c, (Arr.mk [3] (some false) (some ⟨some 1, some (1 / 2)⟩) true).compatibleWithComoving = .ok c ∧ c ≠ true := by
  have hx : Conv (1 / 2) 1 ⟨[3], some false, some ⟨some 1, some (1 / 2)⟩, true⟩ := ⟨by norm_num, rfl, rfl, by simp⟩
  obtain ⟨p, c, -, h2, -, h3, -⟩ := c75_compatible hx
  refine ⟨c, h2, fun h => ?_⟩
  have := h3.1 h
  norm_num at this

/-- An array that cannot be converted gives its physical values but no comoving ones. -/
example : Full.toComovingValue 2 ⟨⟨[3], some false, some ⟨some 0, some (1 / 2)⟩, false⟩, 1, none⟩ = .error .invalidConversion :=
  c75_refused (some 2) true (.inl ⟨rfl, by simp⟩)

/-- A compressed array without a scale factor survives a pickle. -/
example : Full.setstate ⟨⟨[], none, none, true⟩, 1, none⟩
    (Full.reduce ⟨⟨[3, 5], some true, some ⟨some 2, none⟩, false⟩, 1000, some ['l', '4']⟩) =
      .ok ⟨⟨[3, 5], some true, some ⟨some 2, none⟩, false⟩, 1000, some ['l', '4']⟩ := c75_pickle _ _

/-- The area of a unit square has the smaller factor than its side at redshift one. -/
example : ∃ p : Prop, CF.compare (· < ·) (CF.create (1 / 2) 2) (CF.create (1 / 2) 1) = .ok p ∧ p := by
  obtain ⟨lt, _, _, _, h, -, -, -, -, -, -, h1, -⟩ := c75_order (a := 1 / 2) (by norm_num) 2 1
  exact ⟨lt, h, (h1 (by norm_num)).2 (by norm_num)⟩

end Verif.Props
