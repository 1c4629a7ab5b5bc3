import Verif.Lemmas.Binary
import Verif.Spec.StoredNumbers
import Mathlib.Tactic.Linarith
import Mathlib.Tactic.Positivity
import Mathlib.Tactic.FieldSimp
import Mathlib.Tactic.NormNum

/-!
# C105: the numbers of an array in the other frame (`swiftsimio/objects.py`)
-/

namespace Verif.Props
open Verif Verif.Spec Verif.Binary Verif.Spec.Binary Verif.Stored

private theorem digits_pos (w : Bool) : 0 < digits w := by cases w <;> simp [digits]

private theorem rnd_held {w : Bool} {v : ℚ} (h : Holdable (.float w) v) : rnd (digits w) v = v := by
  cases w
  · exact rnd_rep (by norm_num [digits]) h
  · exact rnd_rep (by norm_num [digits]) h

private theorem unit_le (w : Bool) : (1 : ℚ) / 2 ^ digits w ≤ 1 / 4 := by
  cases w <;> norm_num [digits]

/-- Two relative errors of at most `u` in a row. -/
private theorem twice {u v y z : ℚ} (h0 : 0 ≤ u) (hu : u ≤ 1 / 4) (h1 : |y - v| ≤ u * |v|) (h2 : |z - y| ≤ u * |y|) :
    |z - v| ≤ 3 * u * |v| := by
  have hy : |y| ≤ |v| + u * |v| := by
    have := abs_add_le v (y - v)
    rw [add_sub_cancel] at this
    linarith
  have ht : |z - v| ≤ |z - y| + |y - v| := abs_sub_le z y v
  have hv : 0 ≤ |v| := abs_nonneg v
  have : u * |y| ≤ u * (|v| + u * |v|) := mul_le_mul_of_nonneg_left hy h0
  nlinarith [mul_nonneg h0 hv, mul_nonneg (mul_nonneg h0 hv) (sub_nonneg.2 hu)]

private theorem rnd_near (p : ℕ) (q : ℚ) : |rnd p q - q| ≤ 1 / 2 ^ p * |q| := by
  have := rnd_error p q
  rw [div_eq_mul_inv] at this
  rw [one_div, mul_comm]
  exact this

private theorem times_near {w : Bool} (v q : ℚ) :
    |rnd (digits w) (v * rnd (digits w) q) - v * q| ≤ 3 / 2 ^ digits w * |v * q| := by
  have h := twice (u := 1 / 2 ^ digits w) (v := v * q) (y := v * rnd (digits w) q) (z := rnd (digits w) (v * rnd (digits w) q))
    (by positivity) (unit_le w) ?_ (rnd_near _ _)
  · rw [show (3 : ℚ) / 2 ^ digits w = 3 * (1 / 2 ^ digits w) by ring]
    exact h
  · rw [← mul_sub, abs_mul, abs_mul]
    have := mul_le_mul_of_nonneg_left (rnd_near (digits w) q) (abs_nonneg v)
    linarith

private theorem over_near {w : Bool} (v : ℚ) {q : ℚ} (hq : 0 < q) :
    |rnd (digits w) (v / rnd (digits w) q) - v / q| ≤ 3 / 2 ^ digits w * |v / q| := by
  set r := rnd (digits w) q with hr
  have hr0 : 0 < r := rnd_pos (digits_pos w) hq
  set u : ℚ := 1 / 2 ^ digits w with hu
  have hu0 : 0 ≤ u := by positivity
  have hu1 : u ≤ 1 / 4 := unit_le w
  have hq1 : |r - q| ≤ u * q := by
    have := rnd_near (digits w) q
    rwa [abs_of_pos hq] at this
  have hqr := abs_le.1 hq1
  have e1 : v / r - v / q = (v / q) * ((q - r) / r) := by field_simp
  have hb : |(q - r) / r| ≤ 4 / 3 * u := by
    rw [abs_div, abs_of_pos hr0, div_le_iff₀ hr0, abs_sub_comm]
    nlinarith
  have h1 : |v / r - v / q| ≤ 4 / 3 * u * |v / q| := by
    rw [e1, abs_mul, mul_comm]
    exact mul_le_mul_of_nonneg_right hb (abs_nonneg _)
  have h2 := rnd_near (digits w) (v / r)
  have h3 : |v / r| ≤ |v / q| + 4 / 3 * u * |v / q| := by
    have := abs_add_le (v / q) (v / r - v / q)
    rw [add_sub_cancel] at this
    linarith
  have h4 := abs_sub_le (rnd (digits w) (v / r)) (v / r) (v / q)
  have hv : 0 ≤ |v / q| := abs_nonneg _
  have h5 : u * |v / r| ≤ u * (|v / q| + 4 / 3 * u * |v / q|) := mul_le_mul_of_nonneg_left h3 hu0
  rw [show (3 : ℚ) / 2 ^ digits w = 3 * u by rw [hu]; ring]
  nlinarith [mul_nonneg hu0 hv, mul_nonneg (mul_nonneg hu0 hv) (sub_nonneg.2 hu1)]

private theorem near_map {ε : ℚ} {f g : ℚ → ℚ} (h : ∀ v, |g v - f v| ≤ ε * |f v|) (l : List ℚ) : NearAll ε (l.map f) (l.map g) := by
  unfold NearAll
  rw [List.forall₂_map_left_iff, List.forall₂_map_right_iff]
  exact List.forall₂_same.2 fun v _ => h v

/-- C105, full statement for arrays of floating point numbers: `to_physical()`, `to(comoving=False)` and `convert_to_physical()` have
the same result or raise the same exception, and so have their comoving counterparts. For arrays of integers they do not, see
`c105_integers_fails`. -/
theorem c105_agree_partial {x : Stored.Arr} (hx : Existing x) {w : Bool} (hw : x.dtype = .float w) :
    toPhysical x = convertToPhysical x ∧ toFrame x (some false) = convertToPhysical x ∧
      toComoving x = convertToComoving x ∧ toFrame x (some true) = convertToComoving x := by
  obtain ⟨t, vals, q, c, vt⟩ := x
  obtain ⟨-, h1, h2⟩ := hx
  dsimp only at hw h1 h2
  subst hw
  rcases c with _ | _ | _ <;> cases vt <;> simp_all [toPhysical, convertToPhysical, toFrame, toComoving, convertToComoving, inUnits]

/-- C105: an array that can be converted and is given a positive factor has its numbers multiplied by the factor in the physical frame
and divided by it in the comoving one, up to three units of rounding; the type, the factor and the number of values stay. -/
theorem c105_values {x : Stored.Arr} {w : Bool} (hw : x.dtype = .float w) (hv : x.vt = true) {q : ℚ} (hq : 0 < q) (hf : x.factor = some q) :
    (x.comoving = some true → ∃ y, toPhysical x = .ok y ∧ y.comoving = some false ∧ y.dtype = x.dtype ∧ y.factor = x.factor ∧ y.vt = x.vt ∧
      NearAll (3 / 2 ^ digits w) (x.vals.map (· * q)) y.vals) ∧
    (x.comoving = some false → ∃ y, toComoving x = .ok y ∧ y.comoving = some true ∧ y.dtype = x.dtype ∧ y.factor = x.factor ∧ y.vt = x.vt ∧
      NearAll (3 / 2 ^ digits w) (x.vals.map (· / q)) y.vals) := by
  obtain ⟨t, vals, f, c, vt⟩ := x
  dsimp only at hw hv hf
  subst hw hv hf
  constructor
  · rintro rfl
    exact ⟨_, rfl, rfl, rfl, rfl, rfl, near_map (fun v => times_near v q) vals⟩
  · rintro rfl
    exact ⟨_, rfl, rfl, rfl, rfl, rfl, near_map (fun v => over_near v hq) vals⟩

/-- C105: into the physical frame and back: the numbers differ by at most three units of rounding, and not at all if the factor is
one. -/
theorem c105_roundtrip {x : Stored.Arr} (hx : Existing x) {w : Bool} (hw : x.dtype = .float w) (hc : x.comoving = some true) {q : ℚ}
    (hq : 0 < q) (hf : x.factor = some q) :
    ∃ y z, toPhysical x = .ok y ∧ toComoving y = .ok z ∧ NearAll (3 / 2 ^ digits w) x.vals z.vals ∧
      (q = 1 → y.vals = x.vals ∧ z = x) := by
  obtain ⟨t, vals, f, c, vt⟩ := x
  obtain ⟨h0, h1, -⟩ := hx
  dsimp only at hw hc hf h1 h0
  subst hw hc hf
  have hvt : vt = true := h1 rfl
  subst hvt
  have hr0 : 0 < rnd (digits w) q := rnd_pos (digits_pos w) hq
  refine ⟨_, _, rfl, rfl, ?_, ?_⟩
  · show NearAll _ vals (List.map _ (List.map _ vals))
    rw [List.map_map]
    have := near_map (ε := 3 / 2 ^ digits w) (f := id)
      (g := (fun v => rnd (digits w) (v / rnd (digits w) q)) ∘ fun v => rnd (digits w) (v * rnd (digits w) q)) ?_ vals
    · rwa [List.map_id] at this
    · intro v
      have h := twice (u := 1 / 2 ^ digits w) (v := v) (y := rnd (digits w) (v * rnd (digits w) q) / rnd (digits w) q)
        (z := rnd (digits w) (rnd (digits w) (v * rnd (digits w) q) / rnd (digits w) q)) (by positivity) (unit_le w) ?_ (rnd_near _ _)
      · rw [show (3 : ℚ) / 2 ^ digits w = 3 * (1 / 2 ^ digits w) by ring]
        exact h
      · have := rnd_near (digits w) (v * rnd (digits w) q)
        have e : rnd (digits w) (v * rnd (digits w) q) / rnd (digits w) q - v =
            (rnd (digits w) (v * rnd (digits w) q) - v * rnd (digits w) q) / rnd (digits w) q := by
          field_simp
        rw [e, abs_div, abs_of_pos hr0, div_le_iff₀ hr0]
        rw [abs_mul, abs_of_pos hr0] at this
        linarith
  · rintro rfl
    have hone : rnd (digits w) 1 = 1 := by
      have := rnd_rep (digits_pos w) (rep_two (digits w) 0)
      simpa using this
    have e1 : (vals.map fun v => rnd (digits w) (v * rnd (digits w) 1)) = vals := by
      rw [hone]
      refine (List.map_congr_left fun v hv => ?_).trans (List.map_id vals)
      rw [mul_one, rnd_held (h0 v hv), id]
    have e2 : (vals.map fun v => rnd (digits w) (v / rnd (digits w) 1)) = vals := by
      rw [hone]
      refine (List.map_congr_left fun v hv => ?_).trans (List.map_id vals)
      rw [div_one, rnd_held (h0 v hv), id]
    refine ⟨e1, ?_⟩
    dsimp only
    congr 1
    show List.map _ (List.map _ vals) = vals
    rw [e1, e2]

/-- C105: an array of integers becomes one of floating point numbers by `to_physical()` and `to_comoving()`; integers up to
`2 ^ 53` (`2 ^ 24` for those of four bytes) are not changed by a factor of one. -/
theorem c105_identifiers {x : Stored.Arr} (hx : Existing x) {w : Bool} (hw : x.dtype = .int w) (hv : x.vt = true)
    (hf : x.factor = some 1) (hs : ∀ v ∈ x.vals, |v| ≤ 2 ^ digits w) {c : Bool} (hc : x.comoving = some c) :
    toPhysical x = .ok { x with dtype := .float w, comoving := some false } ∧
      toComoving x = .ok { x with dtype := .float w, comoving := some true } := by
  obtain ⟨t, vals, f, c', vt⟩ := x
  obtain ⟨h0, -, -⟩ := hx
  dsimp only at hw hc hf hv h0 hs
  subst hw hc hf hv
  have hone : rnd (digits w) 1 = 1 := by
    have := rnd_rep (digits_pos w) (rep_two (digits w) 0)
    simpa using this
  have key : ∀ v ∈ vals, rnd (digits w) v = v := by
    intro v hv
    obtain ⟨n, rfl⟩ := h0 v hv
    refine rnd_rep (digits_pos w) (rep_int ?_)
    have := hs _ hv
    exact_mod_cast this
  have e0 : vals.map (rnd (digits w)) = vals := (List.map_congr_left fun v hv => key v hv).trans (List.map_id vals)
  have e1 : vals.map (fun v => rnd (digits w) (v * 1)) = vals := by simpa using e0
  have e2 : vals.map (fun v => rnd (digits w) (v / 1)) = vals := by simpa using e0
  cases c
  · simp only [toPhysical, toComoving, inUnits, convertToPhysical, convertToComoving, inPlace, Except.map, hone, e0, e2]
    simp
  · simp only [toPhysical, toComoving, inUnits, convertToPhysical, convertToComoving, inPlace, Except.map, hone, e0, e1]
    simp

/-- C105: which arrays are refused, of any type: those without a frame, by every conversion; physical ones that are not said to be
convertible, by the conversions to comoving; and those without a factor in the other frame. In the frame that it has already an array is returned
as it is by `convert_to_physical`, `convert_to_comoving` and `to`. -/
theorem c105_refused {x : Stored.Arr} (hx : Existing x) :
    (x.comoving = none → toPhysical x = .error .invalidConversion ∧ toComoving x = .error .invalidConversion ∧
      convertToPhysical x = .error .invalidConversion ∧ convertToComoving x = .error .invalidConversion ∧
      ∀ c, toFrame x (some c) = .error .invalidConversion) ∧
    (x.comoving = some false → x.vt = false → toComoving x = .error .invalidConversion ∧
      convertToComoving x = .error .invalidConversion ∧ toFrame x (some true) = .error .invalidConversion) ∧
    (x.comoving = some true → x.factor = none → toPhysical x = .error .typeErr ∧ convertToPhysical x = .error .typeErr) ∧
    (x.comoving = some false → x.vt = true → x.factor = none → toComoving x = .error .typeErr ∧ convertToComoving x = .error .typeErr) ∧
    (x.comoving = some false → convertToPhysical x = .ok x) ∧ (x.comoving = some true → convertToComoving x = .ok x) ∧
    (∀ c, x.comoving = some c → toFrame x (some c) = .ok x) ∧ toFrame x none = .ok x := by
  obtain ⟨t, vals, f, c, vt⟩ := x
  obtain ⟨-, h1, h2⟩ := hx
  dsimp only at h1 h2
  refine ⟨?_, ?_, ?_, ?_, ?_, ?_, ?_, rfl⟩
  · rintro rfl
    have := h2 rfl
    subst this
    cases t <;> simp [toPhysical, toComoving, convertToPhysical, convertToComoving, toFrame, inUnits]
  · rintro rfl rfl
    cases t <;> simp [toComoving, convertToComoving, toFrame, inUnits]
  · rintro rfl rfl
    have := h1 rfl
    subst this
    cases t <;> simp [toPhysical, convertToPhysical, inUnits, inPlace, Except.map]
  · rintro rfl rfl rfl
    cases t <;> simp [toComoving, convertToComoving, inUnits, inPlace, Except.map]
  · rintro rfl; rfl
  · rintro rfl; rfl
  · rintro (_ | _) rfl
    · simp [toFrame, convertToPhysical]
    · simp [toFrame, convertToComoving]

/-- C105, negation: an array of comoving integers, such as the identifiers of the particles of a snapshot, cannot be converted by
`convert_to_physical()` and `to(comoving=False)`, whatever its factor, while `to_physical()` accepts it. Likewise for physical ones and
the comoving frame. -/
theorem c105_integers_fails {x : Stored.Arr} {w : Bool} (hw : x.dtype = .int w) (hv : x.vt = true) :
    (x.comoving = some true → convertToPhysical x = .error .typeErr ∧ toFrame x (some false) = .error .typeErr ∧
      ∀ q, x.factor = some q → ∃ y, toPhysical x = .ok y ∧ y.comoving = some false) ∧
    (x.comoving = some false → convertToComoving x = .error .typeErr ∧ toFrame x (some true) = .error .typeErr ∧
      ∀ q, x.factor = some q → ∃ y, toComoving x = .ok y ∧ y.comoving = some true) := by
  obtain ⟨t, vals, f, c, vt⟩ := x
  dsimp only at hw hv
  subst hw hv
  constructor
  · rintro rfl
    refine ⟨by cases f <;> rfl, by cases f <;> rfl, ?_⟩
    rintro q rfl
    exact ⟨_, rfl, rfl⟩
  · rintro rfl
    refine ⟨by cases f <;> rfl, by cases f <;> rfl, ?_⟩
    rintro q rfl
    exact ⟨_, rfl, rfl⟩

/-- C105, negation: large identifiers are changed by `to_physical()` although their factor is one, so that two of them are equal
afterwards; this is so even if the array is physical already. -/
theorem c105_large_fails (b : Bool) :
    ∃ x y : Stored.Arr, Existing x ∧ x.factor = some 1 ∧ x.comoving = some b ∧ x.dtype = .int true ∧ toPhysical x = .ok y ∧
      x.vals = [2 ^ 53, 2 ^ 53 + 1] ∧ y.vals = [2 ^ 53, 2 ^ 53] := by
  have e1 : rnd 53 (2 ^ 53 : ℚ) = 2 ^ 53 := by
    have := rnd_rep (p := 53) (by norm_num) (rep_two 53 53)
    exact_mod_cast this
  have e2 : rnd 53 (2 ^ 53 + 1 : ℚ) = 2 ^ 53 := by
    rw [rnd_pos_eq (by norm_num), rndPos_of (e := 53) (by norm_num) (by norm_num)]
    norm_num [nearEven]
  have e3 : rnd 53 (1 : ℚ) = 1 := by
    have := rnd_rep (p := 53) (by norm_num) (rep_two 53 0)
    simpa using this
  refine ⟨⟨.int true, [2 ^ 53, 2 ^ 53 + 1], some 1, some b, true⟩, ⟨.float true, [2 ^ 53, 2 ^ 53], some 1, some false, true⟩,
    ⟨?_, fun _ => rfl, fun h => by simp at h⟩, rfl, rfl, rfl, ?_, rfl, rfl⟩
  · intro v hv
    simp only [List.mem_cons, List.not_mem_nil, or_false] at hv
    rcases hv with rfl | rfl
    · exact ⟨2 ^ 53, by norm_num⟩
    · exact ⟨2 ^ 53 + 1, by norm_num⟩
  · cases b
    · simp [toPhysical, inUnits, convertToPhysical, digits, e1, e2]
    · simp [toPhysical, inUnits, convertToPhysical, inPlace, Except.map, digits, e1, e2, e3]

/-- Two comoving lengths in double precision at scale factor one half. -/
private def twoLengths : Stored.Arr := ⟨.float true, [3, 5], some (1 / 2), some true, true⟩

private theorem twoLengths_existing : Existing twoLengths := by
  refine ⟨?_, fun _ => rfl, fun h => by simp [twoLengths] at h⟩
  intro v hv
  simp only [twoLengths, List.mem_cons, List.not_mem_nil, or_false] at hv
  rcases hv with rfl | rfl
  · exact ⟨3, 0, by norm_num, by norm_num⟩
  · exact ⟨5, 0, by norm_num, by norm_num⟩

example : toPhysical twoLengths = convertToPhysical twoLengths := (c105_agree_partial twoLengths_existing rfl).1

example : ∃ y, toPhysical twoLengths = .ok y ∧ NearAll (3 / 2 ^ 53) [3 * (1 / 2), 5 * (1 / 2)] y.vals := by
  obtain ⟨y, h1, -, -, -, -, h2⟩ := (c105_values (x := twoLengths) (w := true) rfl rfl (q := 1 / 2) (by norm_num) rfl).1 rfl
  exact ⟨y, h1, h2⟩

example : ∃ y z, toPhysical twoLengths = .ok y ∧ toComoving y = .ok z ∧ NearAll (3 / 2 ^ 53) [3, 5] z.vals := by
  obtain ⟨y, z, h1, h2, h3, -⟩ := c105_roundtrip twoLengths_existing (w := true) rfl rfl (q := 1 / 2) (by norm_num) rfl
  exact ⟨y, z, h1, h2, h3⟩

/-- Identifiers of two particles as they are read from a snapshot. -/
private def twoNames : Stored.Arr := ⟨.int true, [7, 12], some 1, some true, true⟩

private theorem twoNames_existing : Existing twoNames := by
  refine ⟨?_, fun _ => rfl, fun h => by simp [twoNames] at h⟩
  intro v hv
  simp only [twoNames, List.mem_cons, List.not_mem_nil, or_false] at hv
  rcases hv with rfl | rfl
  · exact ⟨7, by norm_num⟩
  · exact ⟨12, by norm_num⟩

example : toPhysical twoNames = .ok ⟨.float true, [7, 12], some 1, some false, true⟩ :=
  (c105_identifiers twoNames_existing (w := true) rfl rfl rfl (by
    intro v hv
    simp only [twoNames, List.mem_cons, List.not_mem_nil, or_false] at hv
    rcases hv with rfl | rfl <;> norm_num [digits]) rfl).1

example : convertToPhysical twoNames = .error .typeErr := ((c105_integers_fails (x := twoNames) (w := true) rfl rfl).1 rfl).1

example : toFrame twoNames (some true) = .ok twoNames := (c105_refused twoNames_existing).2.2.2.2.2.2.1 true rfl

end Verif.Props
