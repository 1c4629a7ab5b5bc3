import Verif.Spec.Cosmo
import Mathlib.Data.List.GetD

/-! Functions that only move numbers, and linear equations on flat lists. -/

namespace Verif.Cosmo
open Verif

/-- The function puts numbers of the source into the destination without looking at them. -/
def Moves (w : List ℝ → List ℝ → Except Err (List ℝ)) : Prop :=
  ∀ (f : ℝ → ℝ) (d s : List ℝ), w (d.map f) (s.map f) = (w d s).map (List.map f)

/-- A matrix with `n` columns, given row by row, times a vector. -/
noncomputable def matVec (n : Nat) (m x : List ℝ) : List ℝ :=
  (List.range (m.length / n)).map (fun i => ((List.range n).map (fun j => m.getD (i * n + j) 0 * x.getD j 0)).sum)

/-- The sum of the squares of the differences of two lists. -/
noncomputable def squareError (u v : List ℝ) : ℝ := ((List.zipWith (· - ·) u v).map (fun t => t ^ 2)).sum

end Verif.Cosmo
