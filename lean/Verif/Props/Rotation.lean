import Mathlib.LinearAlgebra.Matrix.Notation
import Mathlib.LinearAlgebra.Matrix.Determinant.Basic
import Verif.Model.Rotation

/-!
# C44: rotation matrices
-/

namespace Verif.Props
open Verif Verif.Rotation Matrix

/-- A rotation: orthogonal and not a mirror image. -/
def IsRotation (m : Mat) : Prop := m * mᵀ = 1 ∧ mᵀ * m = 1 ∧ m.det = 1

/-- The angle between the vector and the axis is so small, or so close to two right angles, that its sine is at most `1e-6`:
squared length of the part of the vector across the axis, relative to the vector. -/
def NearlyAlong (v : Fin 3 → ℝ) (i : Fin 3) : Prop :=
  v 0 ^ 2 + v 1 ^ 2 + v 2 ^ 2 - v i ^ 2 ≤ (1 / 10 ^ 6) ^ 2 * (v 0 ^ 2 + v 1 ^ 2 + v 2 ^ 2)

private noncomputable def rodrigues (k : Fin 3 → ℝ) (c s : ℝ) : Mat := 1 + s • skew k + (1 - c) • (skew k * skew k)

private theorem skew_cube {k : Fin 3 → ℝ} (hk : k 0 ^ 2 + k 1 ^ 2 + k 2 ^ 2 = 1) : skew k * skew k * skew k = -skew k := by
  ext i j
  fin_cases i <;> fin_cases j <;> simp [skew, Matrix.mul_apply, Fin.sum_univ_three] <;>
    first
      | ring1
      | linear_combination (k 0) * hk
      | linear_combination (k 1) * hk
      | linear_combination (k 2) * hk
      | linear_combination (-k 0) * hk
      | linear_combination (-k 1) * hk
      | linear_combination (-k 2) * hk

private theorem skew_transpose (k : Fin 3 → ℝ) : (skew k)ᵀ = -skew k := by
  ext i j
  fin_cases i <;> fin_cases j <;> simp [skew]

private theorem rodrigues_transpose (k : Fin 3 → ℝ) (c s : ℝ) : (rodrigues k c s)ᵀ = rodrigues k c (-s) := by
  unfold rodrigues
  simp [Matrix.transpose_add, Matrix.transpose_smul, Matrix.transpose_mul, skew_transpose]

private theorem rodrigues_mul {k : Fin 3 → ℝ} (hk : k 0 ^ 2 + k 1 ^ 2 + k 2 ^ 2 = 1) {c s : ℝ} (h : c ^ 2 + s ^ 2 = 1) :
    rodrigues k c s * rodrigues k c (-s) = 1 := by
  have h3 := skew_cube hk
  unfold rodrigues
  set A := skew k
  have h4 : A * A * (A * A) = -(A * A) := by rw [← mul_assoc, h3]; simp
  have h3' : A * (A * A) = -A := by rw [← mul_assoc]; exact h3
  have : (1 + s • A + (1 - c) • (A * A)) * (1 + -s • A + (1 - c) • (A * A)) =
      1 + (2 * (1 - c) - s ^ 2) • (A * A) + (1 - c) ^ 2 • (A * A * (A * A)) + (s * (1 - c)) • (A * (A * A)) -
        (s * (1 - c)) • (A * A * A) := by
    simp only [mul_add, add_mul, mul_one, one_mul, smul_mul_assoc, mul_smul_comm, neg_smul, mul_neg]
    module
  rw [this, h4, h3', h3]
  have e : (2 * (1 - c) - s ^ 2) - (1 - c) ^ 2 = 0 := by linear_combination -h
  have : (1 : Mat) + (2 * (1 - c) - s ^ 2) • (A * A) + (1 - c) ^ 2 • -(A * A) + (s * (1 - c)) • -A - (s * (1 - c)) • -A =
      1 + ((2 * (1 - c) - s ^ 2) - (1 - c) ^ 2) • (A * A) := by module
  rw [this, e, zero_smul, add_zero]

private theorem rodrigues_det {k : Fin 3 → ℝ} (hk : k 0 ^ 2 + k 1 ^ 2 + k 2 ^ 2 = 1) {c s : ℝ} (h : c ^ 2 + s ^ 2 = 1) :
    (rodrigues k c s).det = 1 := by
  have e : (rodrigues k c s).det = (1 - (1 - c) * (k 0 ^ 2 + k 1 ^ 2 + k 2 ^ 2)) ^ 2 + s ^ 2 * (k 0 ^ 2 + k 1 ^ 2 + k 2 ^ 2) := by
    rw [Matrix.det_fin_three]
    simp [rodrigues, skew]
    ring
  rw [e, hk]
  linear_combination h

/-- The names of the axes. -/
def axisName : Fin 3 → String := !["x", "y", "z"]

private theorem axisIndex_name (i : Fin 3) : axisIndex (axisName i) = some i := by
  fin_cases i <;> simp [axisIndex, axisName]

/-- Length of a vector. -/
noncomputable def length3 (v : Fin 3 → ℝ) : ℝ := √(∑ i, v i ^ 2)

private theorem norm3_eq (v : Fin 3 → ℝ) : norm3 v = length3 v := by
  unfold norm3 length3
  rw [Fin.sum_univ_three]

private theorem cross_norm (n : Fin 3 → ℝ) (i : Fin 3) :
    cross (unit i) n 0 ^ 2 + cross (unit i) n 1 ^ 2 + cross (unit i) n 2 ^ 2 = n 0 ^ 2 + n 1 ^ 2 + n 2 ^ 2 - n i ^ 2 := by
  fin_cases i <;> simp [cross, unit] <;> ring

private theorem dot_unit (n : Fin 3 → ℝ) (i : Fin 3) : dot3 (unit i) n = n i := by
  fin_cases i <;> simp [dot3, unit]

private theorem rodrigues_unit {n : Fin 3 → ℝ} (hn : n 0 ^ 2 + n 1 ^ 2 + n 2 ^ 2 = 1) (i : Fin 3) {s : ℝ} (hs : s ≠ 0)
    (h : n i ^ 2 + s ^ 2 = 1) : rodrigues (fun j => cross (unit i) n j / s) (n i) s *ᵥ unit i = n := by
  have key : ∀ m : Fin 3 → ℝ, (∀ j, s ^ 2 * m j = s ^ 2 * n j) → m = n := by
    intro m hm
    funext j
    exact mul_left_cancel₀ (pow_ne_zero 2 hs) (hm j)
  apply key
  intro j
  fin_cases i <;> fin_cases j <;>
    simp [rodrigues, skew, cross, unit, Matrix.mulVec, dotProduct, Matrix.one_apply] at h ⊢ <;>
    field_simp
  all_goals
    first
      | exact Or.inl trivial
      | exact Or.inl (by linear_combination (1 - n 0) * (h - hn))
      | exact Or.inl (by linear_combination (1 - n 1) * (h - hn))
      | exact Or.inl (by linear_combination (1 - n 2) * (h - hn))

private theorem length_pos {v : Fin 3 → ℝ} (hv : v ≠ 0) : 0 < v 0 ^ 2 + v 1 ^ 2 + v 2 ^ 2 := by
  by_contra h
  apply hv
  have h0 := sq_nonneg (v 0)
  have h1 := sq_nonneg (v 1)
  have h2 := sq_nonneg (v 2)
  funext i
  have : v i ^ 2 = 0 := by fin_cases i <;> simp <;> nlinarith
  simpa using this

private theorem normed_vector {v : Fin 3 → ℝ} (hv : v ≠ 0) (i : Fin 3) :
    norm3 v ≠ 0 ∧ (v 0 / norm3 v) ^ 2 + (v 1 / norm3 v) ^ 2 + (v 2 / norm3 v) ^ 2 = 1 ∧
      (norm3 (cross (unit i) fun j => v j / norm3 v) ≤ 1 / 10 ^ 6 ↔ NearlyAlong v i) ∧
      (v i / norm3 v) ^ 2 + norm3 (cross (unit i) fun j => v j / norm3 v) ^ 2 = 1 := by
  have hp := length_pos hv
  have h0 : norm3 v ≠ 0 := (Real.sqrt_pos.2 hp).ne'
  have hsq : norm3 v ^ 2 = v 0 ^ 2 + v 1 ^ 2 + v 2 ^ 2 := Real.sq_sqrt hp.le
  have h1 : (v 0 / norm3 v) ^ 2 + (v 1 / norm3 v) ^ 2 + (v 2 / norm3 v) ^ 2 = 1 := by
    rw [div_pow, div_pow, div_pow, ← add_div, ← add_div, hsq, div_self hp.ne']
  have hc := cross_norm (fun j => v j / norm3 v) i
  have hn2 : norm3 (cross (unit i) fun j => v j / norm3 v) ^ 2 = 1 - (v i / norm3 v) ^ 2 := by
    rw [← h1]
    rw [← hc]
    exact Real.sq_sqrt (by positivity)
  refine ⟨h0, h1, ?_, by rw [hn2]; ring⟩
  have hnn : 0 ≤ norm3 (cross (unit i) fun j => v j / norm3 v) := Real.sqrt_nonneg _
  rw [← abs_of_nonneg hnn, ← abs_of_pos (show (0 : ℝ) < 1 / 10 ^ 6 by positivity), ← sq_le_sq, hn2, div_pow, hsq]
  unfold NearlyAlong
  rw [one_sub_div hp.ne', div_le_iff₀ hp]

/-- C44, main part: for every axis and every vector that is not very nearly along the axis the matrix is a rotation and takes
the vector to the axis, keeping its length. What is missing are the vectors in `NearlyAlong`, see
`c44_parallel_fails` and `c44_opposite_fails`. -/
theorem c44_rotation_partial (v : Fin 3 → ℝ) (i : Fin 3) (h : ¬NearlyAlong v i) :
    ∃ m, rotationMatrix v (axisName i) = .ok m ∧ IsRotation m ∧ m *ᵥ v = length3 v • unit i := by
  have hv : v ≠ 0 := by
    rintro rfl
    apply h
    simp [NearlyAlong]
  obtain ⟨h0, h1, h2, h3⟩ := normed_vector hv i
  set n : Fin 3 → ℝ := fun j => v j / norm3 v with hn
  set s := norm3 (cross (unit i) n) with hs
  have hsm : ¬s ≤ 1 / 10 ^ 6 := fun hle => h (h2.1 hle)
  have hs0 : 0 < s := lt_trans (by positivity) (not_le.1 hsm)
  have h3 : n i ^ 2 + s ^ 2 = 1 := h3
  have hk : (cross (unit i) n 0 / s) ^ 2 + (cross (unit i) n 1 / s) ^ 2 + (cross (unit i) n 2 / s) ^ 2 = 1 := by
    have hc := cross_norm n i
    have : n 0 ^ 2 + n 1 ^ 2 + n 2 ^ 2 = 1 := h1
    rw [div_pow, div_pow, div_pow, ← add_div, ← add_div, hc, this, div_eq_one_iff_eq (by positivity)]
    linarith
  have hsin : Real.sin (Real.arccos (dot3 (unit i) n)) = s := by
    rw [Real.sin_arccos, dot_unit, show 1 - n i ^ 2 = s ^ 2 by linarith, Real.sqrt_sq hs0.le]
  have hm : rotationMatrix v (axisName i) = linalgInv (rodrigues (fun j => cross (unit i) n j / s) (n i) s) := by
    unfold rotationMatrix
    rw [if_neg h0, axisIndex_name]
    dsimp only
    rw [← hn, ← hs, if_neg hsm, hsin, dot_unit]
    rfl
  set R := rodrigues (fun j => cross (unit i) n j / s) (n i) s with hR
  have hdet : R.det = 1 := rodrigues_det hk h3
  have hmul : R * Rᵀ = 1 := by rw [hR, rodrigues_transpose]; exact rodrigues_mul hk h3
  have hmul' : Rᵀ * R = 1 := by
    have := rodrigues_mul (k := fun j => cross (unit i) n j / s) hk (c := n i) (s := -s) (by rw [← h3]; ring)
    rw [neg_neg] at this
    rw [hR, rodrigues_transpose]; exact this
  have hinv : R⁻¹ = Rᵀ := Matrix.inv_eq_right_inv hmul
  refine ⟨Rᵀ, ?_, ⟨?_, ?_, ?_⟩, ?_⟩
  · rw [hm]; unfold linalgInv; rw [hdet, if_neg one_ne_zero, hinv]
  · rw [Matrix.transpose_transpose]; exact hmul'
  · rw [Matrix.transpose_transpose]; exact hmul
  · rw [Matrix.det_transpose]; exact hdet
  · have e1 : R *ᵥ unit i = n := rodrigues_unit h1 i hs0.ne' h3
    have e2 : v = norm3 v • (R *ᵥ unit i) := by
      rw [e1]; funext j; simp only [hn, Pi.smul_apply, smul_eq_mul]; field_simp
    have e3 : Rᵀ *ᵥ v = Rᵀ *ᵥ (norm3 v • (R *ᵥ unit i)) := congrArg (fun w => Rᵀ *ᵥ w) e2
    rw [e3, Matrix.mulVec_smul, Matrix.mulVec_mulVec, hmul', Matrix.one_mulVec, norm3_eq]

private theorem flip_facts (i : Fin 3) : (mirrored i) * (mirrored i)ᵀ = 1 ∧ (mirrored i).det = -1 ∧ ∀ v j, (mirrored i *ᵥ v) j =
    if j = i then -v j else v j := by
  refine ⟨?_, ?_, ?_⟩
  · ext a b
    fin_cases i <;> fin_cases a <;> fin_cases b <;>
      simp [mirrored, Matrix.mul_apply]
  · fin_cases i <;> simp [mirrored, Matrix.det_fin_three]
  · intro v j
    fin_cases i <;> fin_cases j <;> simp [mirrored, Matrix.mulVec, dotProduct]

/-- What the code does instead for vectors very nearly along the axis, in either direction: it returns a mirror image that
changes the sign of the component along the axis. -/
theorem c44_nearly_along {v : Fin 3 → ℝ} (hv : v ≠ 0) (i : Fin 3) (h : NearlyAlong v i) :
    ∃ m, rotationMatrix v (axisName i) = .ok m ∧ m.det = -1 ∧ ¬IsRotation m ∧
      ∀ w j, (m *ᵥ w) j = if j = i then -w j else w j := by
  obtain ⟨h0, _, h2, _⟩ := normed_vector hv i
  obtain ⟨f1, f2, f3⟩ := flip_facts i
  refine ⟨mirrored i, ?_, f2, ?_, f3⟩
  · unfold rotationMatrix
    rw [if_neg h0, axisIndex_name]
    dsimp only
    rw [if_pos (h2.2 h)]
  · rintro ⟨_, _, h⟩
    rw [f2] at h
    norm_num at h

private theorem along_nearly (i : Fin 3) (t : ℝ) : NearlyAlong (t • unit i) i := by
  unfold NearlyAlong
  fin_cases i <;> simp [unit] <;> positivity

/-- C44 fails for a vector along the axis, for which the identity would do: it is taken to the opposite direction. -/
theorem c44_parallel_fails (i : Fin 3) {t : ℝ} (ht : 0 < t) : ∃ m, rotationMatrix (t • unit i) (axisName i) = .ok m ∧
    m *ᵥ (t • unit i) = -(t • unit i) ∧ ¬IsRotation m := by
  have hv : t • unit i ≠ 0 := by
    intro h
    have := congrFun h i
    simp [unit, ht.ne'] at this
  obtain ⟨m, h1, _, h3, h4⟩ := c44_nearly_along hv i (along_nearly i t)
  refine ⟨m, h1, ?_, h3⟩
  funext j
  rw [h4]
  split
  · simp
  · rename_i hj
    simp [unit, hj]

/-- C44 fails for a vector opposite to the axis: it is taken to the axis, but by a mirror image, so that the picture is not
the one seen from the other side. -/
theorem c44_opposite_fails (i : Fin 3) {t : ℝ} (ht : t < 0) : ∃ m, rotationMatrix (t • unit i) (axisName i) = .ok m ∧
    m *ᵥ (t • unit i) = (-t) • unit i ∧ m.det = -1 := by
  have hv : t • unit i ≠ 0 := by
    intro h
    have := congrFun h i
    simp [unit, ht.ne] at this
  obtain ⟨m, h1, h2, _, h4⟩ := c44_nearly_along hv i (along_nearly i t)
  refine ⟨m, h1, ?_, h2⟩
  funext j
  rw [h4]
  split
  · simp
  · rename_i hj
    simp [unit, hj]

/-- C44: other names of axes are refused. -/
theorem c44_axis (v : Fin 3 → ℝ) (axis : String) (h : ∀ i, axis ≠ axisName i) : rotationMatrix v axis = .error .value := by
  have : axisIndex axis = none := by
    have h0 : axis ≠ "x" := h 0
    have h1 : axis ≠ "y" := h 1
    have h2 : axis ≠ "z" := h 2
    simp [axisIndex, h0, h1, h2]
  unfold rotationMatrix
  rw [this]
  split <;> rfl

/-- A vector that meets the hypotheses. -/
example : ¬NearlyAlong ![1, 2, 3] 2 := by
  unfold NearlyAlong
  simp
  norm_num

end Verif.Props
