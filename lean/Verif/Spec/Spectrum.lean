import Mathlib.Analysis.SpecialFunctions.Complex.Circle
import Mathlib.Data.Int.Interval
import Mathlib.Data.Finset.Prod

/-!
# Fourier modes of a periodic grid

A grid has `n` cells along each side. Its waves are labelled by three whole numbers of periods per side, each between
`-n / 2` and `n / 2`.
-/

noncomputable section

namespace Verif.Spec

/-- The cells of a grid. -/
def gridCells (n : Nat) : Finset (ℤ × ℤ × ℤ) := Finset.Ico 0 (n : ℤ) ×ˢ Finset.Ico 0 (n : ℤ) ×ˢ Finset.Ico 0 (n : ℤ)

/-- The numbers of periods along one side that a grid can tell apart. -/
def waves1 (n : Nat) : Finset ℤ := (Finset.Icc (-(n : ℤ)) n).filter fun k => -(n : ℤ) ≤ 2 * k ∧ 2 * k < n

/-- The waves of a grid. -/
def waves (n : Nat) : Finset (ℤ × ℤ × ℤ) := waves1 n ×ˢ waves1 n ×ˢ waves1 n

/-- Value of the wave `k` in the cell `c`. -/
def wave (n : Nat) (k c : ℤ × ℤ × ℤ) : ℂ :=
  Complex.exp (-(2 * Real.pi * Complex.I * ((k.1 * c.1 + k.2.1 * c.2.1 + k.2.2 * c.2.2 : ℤ) : ℂ) / n))

/-- Amplitude of the wave `k` in `f`. -/
def mode (n : Nat) (f : ℤ × ℤ × ℤ → ℂ) (k : ℤ × ℤ × ℤ) : ℂ := (∑ c ∈ gridCells n, f c * wave n k c) / (n : ℂ) ^ 3

/-- Mean over the cells. -/
def gridMean (n : Nat) (d : ℤ × ℤ × ℤ → ℝ) : ℝ := (∑ c ∈ gridCells n, d c) / (n : ℝ) ^ 3

/-- Density relative to the mean. -/
def contrast (n : Nat) (d : ℤ × ℤ × ℤ → ℝ) (c : ℤ × ℤ × ℤ) : ℝ := d c / gridMean n d - 1

/-- Product of the amplitudes of the wave `k` in two density contrasts. -/
def crossPower (n : Nat) (d e : ℤ × ℤ × ℤ → ℝ) (k : ℤ × ℤ × ℤ) : ℝ :=
  (mode n (fun c => (contrast n d c : ℂ)) k * (starRingEnd ℂ) (mode n (fun c => (contrast n e c : ℂ)) k)).re

/-- Square of the amplitude of the wave `k` in the density contrast. -/
def autoPower (n : Nat) (d : ℤ × ℤ × ℤ → ℝ) (k : ℤ × ℤ × ℤ) : ℝ :=
  ‖mode n (fun c => (contrast n d c : ℂ)) k‖ ^ 2

/-- Length of the wave vector of the wave `k` in a cube of side `l`. -/
def waveNumber (l : ℝ) (k : ℤ × ℤ × ℤ) : ℝ :=
  Real.sqrt ((2 * Real.pi * k.1 / l) ^ 2 + (2 * Real.pi * k.2.1 / l) ^ 2 + (2 * Real.pi * k.2.2 / l) ^ 2)

/-- `v` is in bin `i`; the last bin is closed. -/
def InBin (edges : List ℝ) (i : Nat) (v : ℝ) : Prop :=
  ∃ a b, edges[i]? = some a ∧ edges[i + 1]? = some b ∧ a ≤ v ∧ (v < b ∨ (edges.length = i + 2 ∧ v = b))

open Classical in
/-- The waves in a bin. -/
def wavesIn (n : Nat) (l : ℝ) (edges : List ℝ) (i : Nat) : Finset (ℤ × ℤ × ℤ) :=
  (waves n).filter fun k => InBin edges i (waveNumber l k)

end Verif.Spec
