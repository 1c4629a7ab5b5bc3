import Verif.Model.Scatter
import Verif.Spec.Spectrum

/-!
# Fourier modes of particles

A grid with cells of width `w` goes on for ever; the cell of a coordinate `X` is the whole part of `X / w`.
-/

noncomputable section

namespace Verif.Spec

/-- The cell of width `w` that a particle is in. -/
def cellOf (w : ℝ) (p : Scatter.Part ℝ) : ℤ × ℤ × ℤ := (⌊p.x / w⌋, ⌊p.y / w⌋, ⌊p.z / w⌋)

/-- The mass of particles. -/
def massOf (ps : List (Scatter.Part ℝ)) : ℝ := (ps.map fun p => p.m).sum

/-- Amplitude of the wave `k` in particles: the mean of the wave at their cells, weighted with their masses. -/
def massMode (n : Nat) (w : ℝ) (ps : List (Scatter.Part ℝ)) (k : ℤ × ℤ × ℤ) : ℂ :=
  (ps.map fun p => (p.m : ℂ) * wave n k (cellOf w p)).sum / massOf ps

/-- Product of the amplitudes of the wave `k` in two lists of particles, without the constant wave. -/
def pairPower (n : Nat) (w : ℝ) (ps qs : List (Scatter.Part ℝ)) (k : ℤ × ℤ × ℤ) : ℝ :=
  if k = (0, 0, 0) then 0 else (massMode n w ps k * (starRingEnd ℂ) (massMode n w qs k)).re

end Verif.Spec
