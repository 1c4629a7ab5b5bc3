import Verif.Model.Attributes
import Verif.Lemmas.Cosmo

/-!
# Units and cosmology of a field through a file (C32)
-/

namespace Verif.Props
open Verif Verif.Cosmo Verif.Attributes

/-- The physical values of a field in cgs. -/
noncomputable def cgs (x : Field) : List ℝ := x.arr.phys.map (fun v => v * x.size)

/-- All base units have a positive size. -/
structure BasePos (b : Base) : Prop where
  I : 0 < b.I
  L : 0 < b.L
  M : 0 < b.M
  T : 0 < b.T
  t : 0 < b.t

theorem Base_unit_pos {b : Base} (h : BasePos b) (e : Exps) : 0 < b.unit e := by
  unfold Base.unit
  have := Real.rpow_pos_of_pos h.I e.I
  have := Real.rpow_pos_of_pos h.L e.L
  have := Real.rpow_pos_of_pos h.M e.M
  have := Real.rpow_pos_of_pos h.T e.T
  have := Real.rpow_pos_of_pos h.t e.t
  positivity

theorem ite_rpow (x e : ℝ) : (if e = 0 then 1 else x ^ e) = x ^ e := by
  split
  · rename_i h; rw [h, Real.rpow_zero]
  · rfl

private theorem phys_scale (x : Arr) (c : ℝ) : ({ x with val := x.val.map (fun v => v * c) } : Arr).phys = x.phys.map (fun v => v * c) := by
  unfold Arr.phys
  rcases hc : x.comoving with _ | _ | _ <;> rcases hf : x.cf with _ | ⟨_ | k, _ | a⟩ <;> simp
  exact fun v _ => .inl (mul_comm _ _)

theorem setField_ok {b : Base} {a k : ℝ} {need : Exps} {x : Field} (hb : BasePos b) (h : Conv a k x.arr) (hd : x.dims = need) :
    ∃ y : Field, setField b a need x = .ok y ∧ Conv a k y.arr ∧ y.arr.comoving = some true ∧ y.dims = need ∧
      y.size = b.unit need ∧ cgs y = cgs x := by
  have h' : Conv a k (x.toBase b).arr := ⟨h.pos, h.cf, h.vt, h.framed⟩
  obtain ⟨y, e1, e2, e3, e4⟩ := convertToComoving_ok h'
  refine ⟨⟨y, x.dims, b.unit x.dims⟩, ?_, e2, e3, hd, by rw [hd], ?_⟩
  · unfold setField
    rw [h.cf]
    simp only [ne_eq, not_true_eq_false, if_false, hd, e1]
  · unfold cgs
    rw [e4]
    unfold Field.toBase
    rw [phys_scale, List.map_map]
    apply List.map_congr_left
    intro v _
    have := (Base_unit_pos hb x.dims).ne'
    simp only [Function.comp_apply]
    field_simp

/-- C32: a convertible field whose scale-factor exponent is not zero comes back with the same dimensions, exponent and
convertible flag, as comoving values with the same physical meaning. -/
theorem c32_round_trip_partial (b : Base) (a k : ℝ) (need : Exps) (x : Field) (hb : BasePos b) (h : Conv a k x.arr)
    (hd : x.dims = need) (hk : k ≠ 0) :
    ∃ y : Field, roundTrip b a need x = .ok y ∧ y.dims = x.dims ∧ y.arr.cf = x.arr.cf ∧ y.arr.vt = x.arr.vt ∧
      y.arr.comoving = some true ∧ cgs y = cgs x := by
  obtain ⟨y, e1, e2, e3, e4, e5, e6⟩ := setField_ok hb h hd
  have hx : exponentOf k = k := by
    unfold exponentOf
    split
    · rename_i hc
      rcases hc with hc | hc
      · exact absurd hc hk
      · exact hc.symm
    · rfl
  refine ⟨readField b a (⟨y.dims, some (exponentOf k), none, none⟩, y.arr.val), ?_, ?_, ?_, ?_, ?_, ?_⟩
  · unfold roundTrip
    rw [e1]
    simp only [writeField, e2.cf]
  · rw [hd, ← e4]; rfl
  · rw [h.cf]; simp [readField, CF.create, hx]
  · rw [h.vt]; simp [readField]
  · simp [readField]
  · rw [← e6]
    unfold cgs
    have hs : (readField b a (⟨y.dims, some (exponentOf k), none, none⟩, y.arr.val)).size = y.size := by
      simp only [readField, ite_rpow, e5, e4, Base.unit]
    rw [hs]
    congr 1
    unfold Arr.phys
    simp [readField, CF.create, hx, e2.cf, e3]

/-- C32: a field with scale-factor exponent zero (masses, for example) comes back with the exponent one: its physical values are
multiplied by the scale factor. -/
theorem c32_exponent_zero_fails (b : Base) (a : ℝ) (need : Exps) (x : Field) (hb : BasePos b) (h : Conv a 0 x.arr)
    (hd : x.dims = need) :
    ∃ y : Field, roundTrip b a need x = .ok y ∧ y.arr.cf = some (CF.create a 1) ∧ cgs y = (cgs x).map (fun v => v * a) := by
  obtain ⟨y, e1, e2, e3, e4, e5, e6⟩ := setField_ok hb h hd
  have hx : exponentOf 0 = 1 := by simp [exponentOf]
  refine ⟨readField b a (⟨y.dims, some (exponentOf 0), none, none⟩, y.arr.val), ?_, ?_, ?_⟩
  · unfold roundTrip
    rw [e1]
    simp only [writeField, e2.cf]
  · simp [readField, hx]
  · rw [← e6]
    unfold cgs
    have hs : (readField b a (⟨y.dims, some (exponentOf 0), none, none⟩, y.arr.val)).size = y.size := by
      simp only [readField, ite_rpow, e5, e4, Base.unit]
    rw [hs]
    unfold Arr.phys
    simp only [readField, CF.create, hx, e2.cf, e3, List.map_map, Option.getD_some, Option.getD_none]
    simp
    intro v _
    ring

/-- C32: a physical field comes back as comoving. -/
theorem c32_physical_fails (b : Base) (a k : ℝ) (need : Exps) (x : Field) (hb : BasePos b) (h : Conv a k x.arr)
    (hd : x.dims = need) (hk : k ≠ 0) (hp : x.arr.comoving = some false) :
    ∃ y : Field, roundTrip b a need x = .ok y ∧ y.arr.comoving ≠ x.arr.comoving := by
  obtain ⟨y, e, -, -, -, e1, -⟩ := c32_round_trip_partial b a k need x hb h hd hk
  exact ⟨y, e, by rw [e1, hp]; simp⟩

/-- C32: physical values that may not be converted cannot be written: the conversion is refused. -/
theorem c32_not_convertible (b : Base) (sf : ℝ) (need : Exps) (x : Field) (hv : x.arr.vt = false)
    (hc : x.arr.comoving = some false) : ∃ e : Err, roundTrip b sf need x = .error e := by
  unfold roundTrip setField
  cases hf : x.arr.cf with
  | none => exact ⟨_, rfl⟩
  | some f =>
    simp only
    split
    · rename_i e he; exact ⟨_, rfl⟩
    · rename_i y hy
      split at hy
      · cases hy
      split at hy
      · cases hy
      have : (x.toBase b).arr.convertToComoving = .error .invalidConversion := by
        simp [Arr.convertToComoving, Field.toBase, hv, hc]
      rw [this] at hy
      cases hy

/-- C32: a field with another scale factor than the file, or with other dimensions than the field needs, is refused. -/
theorem c32_mismatch (b : Base) (sf a k : ℝ) (need : Exps) (x : Field) (h : Conv a k x.arr) (hm : a ≠ sf ∨ x.dims ≠ need) :
    ∃ e : Err, roundTrip b sf need x = .error e := by
  unfold roundTrip setField
  rw [h.cf]
  simp only
  split
  · exact ⟨_, rfl⟩
  · rename_i y hy
    split at hy
    · cases hy
    rename_i h1
    split at hy
    · cases hy
    rename_i h2
    rcases hm with hm | hm
    · exact absurd (by simpa using h1) hm
    · exact absurd hm h2

/-- Lengths in the box: physical values at `a = 1/2` with exponent one. -/
example : ∃ y : Field, roundTrip ⟨1, 1, 1, 1, 1⟩ (1 / 2) ⟨0, 1, 0, 0, 0⟩
    ⟨⟨[2, 4], some false, some (CF.create (1 / 2) 1), true⟩, ⟨0, 1, 0, 0, 0⟩, 100⟩ = .ok y ∧ cgs y = [200, 400] := by
  obtain ⟨y, e, -, -, -, -, e2⟩ := c32_round_trip_partial ⟨1, 1, 1, 1, 1⟩ (1 / 2) 1 ⟨0, 1, 0, 0, 0⟩
    ⟨⟨[2, 4], some false, some (CF.create (1 / 2) 1), true⟩, ⟨0, 1, 0, 0, 0⟩, 100⟩ ⟨by norm_num, by norm_num, by norm_num, by norm_num,
      by norm_num⟩ ⟨by norm_num, rfl, rfl, by simp⟩ rfl (by norm_num)
  refine ⟨y, e, ?_⟩
  rw [e2]
  simp [cgs, Arr.phys]
  norm_num

/-- C32: comoving values whose power of the scale factor is not known are accepted by the setter, and writing the file raises a
TypeError. -/
theorem c32_no_exponent (b : Base) (sf : ℝ) (need : Exps) (x : Field) (hf : x.arr.cf = some ⟨none, some sf⟩) (hd : x.dims = need)
    (hc : x.arr.comoving = some true) : (∃ y : Field, setField b sf need x = .ok y ∧ y.arr.comoving = some true) ∧
    roundTrip b sf need x = .error .typeErr := by
  have e : setField b sf need x = .ok ⟨(x.toBase b).arr, x.dims, b.unit x.dims⟩ := by
    unfold setField
    rw [hf]
    have : (x.toBase b).arr.convertToComoving = .ok (x.toBase b).arr := by simp [Arr.convertToComoving, Field.toBase, hc]
    simp [hd, this]
  refine ⟨⟨_, e, hc⟩, ?_⟩
  unfold roundTrip
  rw [e]
  simp [writeField, Field.toBase, hf]

/-- Comoving lengths without an exponent. -/
example : roundTrip ⟨1, 1, 1, 1, 1⟩ (1 / 2) ⟨0, 1, 0, 0, 0⟩ ⟨⟨[2, 4], some true, some ⟨none, some (1 / 2)⟩, true⟩, ⟨0, 1, 0, 0, 0⟩, 100⟩ =
    .error .typeErr :=
  (c32_no_exponent _ _ ⟨0, 1, 0, 0, 0⟩ ⟨⟨[2, 4], some true, some ⟨none, some (1 / 2)⟩, true⟩, ⟨0, 1, 0, 0, 0⟩, 100⟩ rfl rfl rfl).2

end Verif.Props
