import Verif.Spec.Mask
import Verif.Spec.Subset
import Mathlib.Data.Real.Basic

/-! Datasets of several particle types that fit the cells of their file. -/

namespace Verif.Spec
open Verif Verif.Accel Verif.Mask

variable {K : Type} [Field K] [LinearOrder K] {m : Nat} {α : Type}

/-- The datasets belong to the file: they have different numbers and the lengths of the header. -/
structure RowsFit (f : File K m) (fields : List (Nat × Fin m)) (D : Nat → List α) : Prop where
  wf : WF f
  cells : ∀ k, f.cells k ≠ []
  names : (fields.map Prod.fst).Nodup
  len : ∀ x ∈ fields, (D x.1).length = f.rows x.2

/-- Every particle of the type lies in a cell that holds its row; `pos` is the place that a row of coordinates means. -/
def InCells (f : File K m) (p : Fin m) (R : List α) (pos : α → Fin 3 → K) : Prop :=
  ∀ (i : Nat) (r : α), R[i]? = some r → ∃ c ∈ f.cells p, Holds c i ∧ ∀ d, c.lo d ≤ pos r d ∧ pos r d ≤ c.hi d

/-- The argument of `constrain_spatial` is a region that contains the cube around the sphere. -/
def ContainsCube (ι : K → ℝ) (box : Fin 3 → K) (rows : List (Option (List K))) (ctr : Fin 3 → ℝ) (rad : ℝ) : Prop :=
  ∃ reg, RegionIs box rows reg ∧ InWindow box reg ∧ ∀ d, ι (reg d).1 ≤ ctr d - rad ∧ ctr d + rad ≤ ι (reg d).2

/-- No constraint, or a region that contains the cube around the sphere. -/
def KeepsCube (ι : K → ℝ) (box : Fin 3 → K) (ctr : Fin 3 → ℝ) (rad : ℝ) (ops : List (Op K)) : Prop :=
  ops = [] ∨ ∃ rows union, ops = [.spatial rows union] ∧ ContainsCube ι box rows ctr rad

end Verif.Spec
