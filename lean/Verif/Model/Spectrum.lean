import Mathlib.Analysis.SpecialFunctions.Complex.Circle
import Mathlib.Data.Int.Interval
import Verif.Model.Basic

/-!
# Power spectra (`swiftsimio/visualisation/power_spectrum.py`)

Exact arithmetic in the real and complex numbers. Arrays are functions of integer indices and are only looked at inside
their shape; lengths are numbers in one unit. A mean deposition of zero gives undefined numbers in the code, and a quotient
of zero here. Frames and units of the result are in `Verif.Model.Folds`.
-/

noncomputable section

namespace Verif.Spectrum
open Verif Classical

/-- `range(n)`. -/
def axis (n : Nat) : Finset ℤ := Finset.Ico 0 (n : ℤ)

/-- `scipy.fft.fft` along one axis: `sum(f[x] * exp(-2j * pi * k * x / n))`. -/
def fft1 (n : Nat) (f : ℤ → ℂ) (k : ℤ) : ℂ :=
  ∑ x ∈ axis n, f x * Complex.exp (-2 * Real.pi * Complex.I * k * x / n)

/-- `scipy.fft.fftn` of a cube: one transform along each axis. -/
def fftn (n : Nat) (f : ℤ × ℤ × ℤ → ℂ) (q : ℤ × ℤ × ℤ) : ℂ :=
  fft1 n (fun z => fft1 n (fun y => fft1 n (fun x => f (x, y, z)) q.1) q.2.1) q.2.2

/-- Sum over a cube. -/
def total {α : Type} [AddCommMonoid α] (n : Nat) (f : ℤ × ℤ × ℤ → α) : α :=
  ∑ x ∈ axis n, ∑ y ∈ axis n, ∑ z ∈ axis n, f (x, y, z)

/-- `np.mean(deposition)` (`power_spectrum.py` 579). -/
def mean (n : Nat) (d : ℤ × ℤ × ℤ → ℝ) : ℝ := total n d / ((n : ℝ) * n * n)

/-- `(deposition - mean_deposition) / mean_deposition` (580). -/
def overdensity (n : Nat) (d : ℤ × ℤ × ℤ → ℝ) (q : ℤ × ℤ × ℤ) : ℝ := (d q - mean n d) / mean n d

/-- `scipy.fft.fftn(overdensity / np.prod(deposition.shape))` (582, 590-592). -/
def transform (n : Nat) (d : ℤ × ℤ × ℤ → ℝ) : ℤ × ℤ × ℤ → ℂ :=
  fftn n fun q => ((overdensity n d q / ((n : ℝ) * n * n) : ℝ) : ℂ)

/-- `(fft * conj_fft).real * boxsize_folded**3` (584-596); without a second deposition it is the first one. -/
def amplitudes (n : Nat) (d : ℤ × ℤ × ℤ → ℝ) (cross : Option (ℤ × ℤ × ℤ → ℝ)) (boxFolded : ℝ) (q : ℤ × ℤ × ℤ) : ℝ :=
  (transform n d q * (starRingEnd ℂ) (transform n (cross.getD d) q)).re * boxFolded ^ 3

/-- `np.fft.fftfreq(npix, d=1 / dk) * npix` (602): numpy fills `0 … (n - 1) // 2` and then `-(n // 2) … -1`, times
`1 / (n * d)`. -/
def kfreq (n : Nat) (dk : ℝ) (i : ℤ) : ℝ :=
  (((if i < (((n : ℤ) - 1) / 2 + 1) then i else i - n : ℤ) : ℝ) * (1 / ((n : ℝ) * (1 / dk)))) * n

/-- `knrm` (603-604): `np.meshgrid` with its default indexing exchanges the first two axes. -/
def knrm (n : Nat) (dk : ℝ) (q : ℤ × ℤ × ℤ) : ℝ :=
  Real.sqrt (kfreq n dk q.2.1 ^ 2 + kfreq n dk q.1 ^ 2 + kfreq n dk q.2.2 ^ 2)

/-- `np.arange(0.5, npix // 2 + 1, 1.0) * dk` (610). -/
def defaultBins (n : Nat) (dk : ℝ) : List ℝ := (List.range (n / 2 + 1)).map fun i : Nat => ((1 / 2 : ℝ) + i) * dk

/-- Bin `i` of `np.histogram` contains `v`: bins are open above, apart from the last one. -/
def inBin (bins : List ℝ) (i : Nat) (v : ℝ) : Prop :=
  bins.getD i 0 ≤ v ∧ (v < bins.getD (i + 1) 0 ∨ (i + 2 = bins.length ∧ v = bins.getD (i + 1) 0))

/-- `np.histogram(knrm, bins=kbins, weights=w)[0]` (614-617). -/
def histogram {α : Type} [AddCommMonoid α] (n : Nat) (dk : ℝ) (bins : List ℝ) (w : ℤ × ℤ × ℤ → α) (i : Nat) : α :=
  total n fun q => if inBin bins i (knrm n dk q) then w q else 0

/-- The arrays returned by `deposition_to_power_spectrum`; entry `i` is meaningful for `i < bins`. -/
structure Result where
  bins : Nat
  wavenumbers : Nat → ℝ
  power : Nat → ℝ
  counts : Nat → Nat

/-- `deposition_to_power_spectrum` (506-643). Each deposition comes with its shape. `np.histogram` refuses edges that
decrease. -/
def toSpectrum (d : List Nat × (ℤ × ℤ × ℤ → ℝ)) (cross : Option (List Nat × (ℤ × ℤ × ℤ → ℝ))) (box : ℝ × ℝ × ℝ)
    (folding : ℤ) (wavenumberBins : Option (List ℝ)) (shotNoiseNorm : Option ℝ) : Except Err Result := do
  match d.1 with
  | [n0, n1, n2] =>
    if !(decide (n0 = n1) && decide (n1 = n2)) then throw .value
    if let some c := cross then if c.1 ≠ d.1 then throw .assertion
    let fold : ℝ := (2 : ℝ) ^ folding
    let dk := 2 * Real.pi / (box.1 / fold)
    let kbins := wavenumberBins.getD (defaultBins n0 dk)
    if ¬kbins.Pairwise (· ≤ ·) then throw .value
    let counts := histogram n0 dk kbins fun _ => (1 : ℕ)
    let divisor := fun i => if counts i = 0 then 1 else counts i
    let binned := fun i => if counts i = 0 then 0 else
      histogram n0 dk kbins (amplitudes n0 d.2 (cross.map Prod.snd) (box.1 / fold)) i
    let shot := match shotNoiseNorm with
      | some s => box.1 * box.2.1 * box.2.2 / s
      | none => box.1 * box.2.1 * box.2.2 * 0
    return {
      bins := kbins.length - 1
      wavenumbers := fun i => histogram n0 dk kbins (knrm n0 dk) i / divisor i
      power := fun i => binned i * fold ^ 3 / divisor i - shot
      counts := counts }
  | _ => throw .value

end Verif.Spectrum
