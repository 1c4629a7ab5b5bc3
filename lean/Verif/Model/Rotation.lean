import Mathlib.Analysis.SpecialFunctions.Trigonometric.Inverse
import Mathlib.LinearAlgebra.Matrix.NonsingularInverse
import Verif.Model.Basic

/-!
# Rotation matrices (`swiftsimio/visualisation/rotation.py`)

Real numbers instead of double precision.
-/

namespace Verif.Rotation
open Verif

/-- A matrix of shape (3, 3). -/
abbrev Mat := Matrix (Fin 3) (Fin 3) ℝ

/-- `np.linalg.norm`. -/
noncomputable def norm3 (v : Fin 3 → ℝ) : ℝ := √(v 0 ^ 2 + v 1 ^ 2 + v 2 ^ 2)

/-- `np.cross`. -/
def cross (u v : Fin 3 → ℝ) : Fin 3 → ℝ :=
  ![u 1 * v 2 - u 2 * v 1, u 2 * v 0 - u 0 * v 2, u 0 * v 1 - u 1 * v 0]

/-- `np.dot` of two vectors. -/
def dot3 (u v : Fin 3 → ℝ) : ℝ := u 0 * v 0 + u 1 * v 1 + u 2 * v 2

/-- The dictionary `switch` (`rotation.py` 37). -/
def axisIndex (axis : String) : Option (Fin 3) :=
  if axis = "x" then some 0 else if axis = "y" then some 1 else if axis = "z" then some 2 else none

/-- `np.zeros(3)` with one entry set to one (`rotation.py` 36-40). -/
def unit (i : Fin 3) : Fin 3 → ℝ := fun j => if j = i then 1 else 0

/-- The matrix of the cross product with `k` (`rotation.py` 63-69). -/
def skew (k : Fin 3 → ℝ) : Mat := !![0, -k 2, k 1; k 2, 0, -k 0; -k 1, k 0, 0]

/-- `np.linalg.inv`: singular matrices raise. -/
noncomputable def linalgInv (m : Mat) : Except Err Mat := if m.det = 0 then .error .value else .ok m⁻¹

/-- The identity with one entry negated (`rotation.py` 53-54). -/
def mirrored (i : Fin 3) : Mat := fun r c => if r = c then (if r = i then -1 else 1) else 0

/-- `rotation_matrix_from_vector` (`rotation.py` 7-73). For the vector zero the code computes with NaN; that is an error
here. A unit of the vector cancels and is not modelled. -/
noncomputable def rotationMatrix (vector : Fin 3 → ℝ) (axis : String) : Except Err Mat :=
  if norm3 vector = 0 then .error .value
  else
    let n : Fin 3 → ℝ := fun i => vector i / norm3 vector
    match axisIndex axis with
    | none => .error .value
    | some i =>
      let e := unit i
      let c := cross e n
      let m := norm3 c
      let k : Fin 3 → ℝ := fun j => c j / m
      if m ≤ 1 / 10 ^ 6 then .ok (mirrored i)
      else
        let cosTheta := dot3 e n
        let sinTheta := Real.sin (Real.arccos cosTheta)
        linalgInv (1 + sinTheta • skew k + (1 - cosTheta) • (skew k * skew k))

end Verif.Rotation
