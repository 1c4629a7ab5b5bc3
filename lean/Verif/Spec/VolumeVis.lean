import Verif.Model.VolumeVis
import Mathlib.Algebra.BigOperators.Group.Finset.Basic

/-!
# What the colouring of a volume render has to show
-/

namespace Verif.VolumeVis.Spec
open Verif Verif.VolumeVis

/-- The normal density with mean `c` and standard deviation `w`. -/
noncomputable def density (c w v : ℝ) : ℝ := Real.exp (-((v - c) / w) ^ 2 / 2) / (w * Real.sqrt (2 * Real.pi))

/-- What one rendering function adds up to along the line of sight through `(i, j)`. -/
noncomputable def sight (r : Cube) (c w : ℝ) (i j : Nat) : ℝ := ∑ k ∈ Finset.range r.n2, density c w (r.val i j k)

/-- The width of rendering function `m`. -/
def widthAt : Widths → Nat → Option ℝ
  | .one w, _ => some w
  | .list ws, m => ws[m]?

/-- On a square of side `n`, `g` is `f` stretched so that its least value becomes 0 and its greatest value 1 (all are 0 if they are
equal). -/
def Stretched (n : Nat) (f g : Nat → Nat → ℝ) : Prop :=
  ∃ lo hi, (∃ a < n, ∃ b < n, f a b = lo) ∧ (∃ a < n, ∃ b < n, f a b = hi) ∧
    ∀ a < n, ∀ b < n, lo ≤ f a b ∧ f a b ≤ hi ∧ (lo = hi → g a b = 0) ∧ g a b * (hi - lo) = f a b - lo

end Verif.VolumeVis.Spec
