import Mathlib.Analysis.SpecialFunctions.Pow.Real
import Mathlib.Data.List.Sort
import Verif.Model.Spectrum

/-!
# Spectra of several foldings (`swiftsimio/visualisation/power_spectrum.py`)

Wave numbers are in the inverse of the unit of the box. Floating-point rounding is left out, so a mean wave number is never
moved across an edge. Logarithmic bins are modelled for a range above zero.
-/

noncomputable section

namespace Verif.Folds
open Verif Verif.Spectrum Classical

/-- A deposition: its shape and its numbers. -/
abbrev Grid := List Nat × (ℤ × ℤ × ℤ → ℝ)

/-- `np.linspace(lo, hi, n + 1)` (`power_spectrum.py` 375-379). -/
def linEdges (lo hi : ℝ) (n : Nat) : List ℝ := (List.range (n + 1)).map fun i : Nat => lo + i * ((hi - lo) / n)

/-- `np.geomspace(lo, hi, n + 1)` (368-372). -/
def logEdges (lo hi : ℝ) (n : Nat) : List ℝ := (List.range (n + 1)).map fun i : Nat => lo * (hi / lo) ^ ((i : ℝ) / n)

/-- `wavenumber_bins` (367-379): `np.min` and `np.max` of the range. -/
def edges (log : Bool) (range : ℝ × ℝ) (n : Nat) : List ℝ :=
  (if log then logEdges else linEdges) (min range.1 range.2) (max range.1 range.2) n

/-- `wavenumber_centers` (382). -/
def centre (e : List ℝ) (i : Nat) : ℝ := (1 / 2) * (e.getD (i + 1) 0 + e.getD i 0)

/-- The arrays of the loop (385-394): centres, powers, tracker, counts. -/
structure State where
  centres : Nat → ℝ
  power : Nat → ℝ
  tracker : Nat → ℝ
  counts : Nat → Nat

/-- `np.max(folded_wavenumber_centers[use_bins])` (434-436). -/
def maxOver (n : Nat) (use : Nat → Bool) (w : Nat → ℝ) : Except Err ℝ :=
  match ((List.range n).filter use).map w with
  | [] => throw .value
  | x :: xs => pure (xs.foldl max x)

/-- The options of `folded_depositions_to_power_spectrum` that the loop looks at. -/
structure Options where
  minimalModes : Option ℤ
  cutoffFraction : Option ℝ
  transition : String
  shotNoise : Option ℝ

/-- The deposition and its spectrum for the folding `f` (404-418). -/
def spectrum (deps : List (ℤ × Grid)) (cross : Option (List (ℤ × Grid))) (box : ℝ × ℝ × ℝ) (e : List ℝ) (o : Options) (f : ℤ) :
    Except Err (Grid × Result) := do
  let some d := deps.lookup f | throw .key
  match cross with
  | none => return (d, ← toSpectrum d none box f (some e) o.shotNoise)
  | some cs =>
    let some c := cs.lookup f | throw .key
    return (d, ← toSpectrum d (some c) box f (some e) o.shotNoise)

/-- `minimal_sample_modes if folding != first_folding else 0` (420-422): nothing compares with `None`. -/
def threshold (o : Options) (first f : ℤ) : Except Err ℤ :=
  if f ≠ first then
    match o.minimalModes with
    | none => throw .typeErr
    | some m => pure m
  else pure 0

/-- `cutoff_wavenumber` (429-442). -/
def cutoff (d : Grid) (box : ℝ × ℝ × ℝ) (o : Options) (r : Result) (use : Nat → Bool) (f : ℤ) : Except Err ℝ :=
  let c := (2 : ℝ) ^ f * (d.1.foldl min (d.1.headD 0) : ℕ) / min box.1 (min box.2.1 box.2.2)
  match o.cutoffFraction with
  | none => pure c
  | some a => do
    let m ← maxOver r.bins use r.wavenumbers
    pure (min (a * m) (a * c))

/-- `use_bins` (420-446). -/
def useBins (d : Grid) (box : ℝ × ℝ × ℝ) (o : Options) (first final : ℤ) (r : Result) (f : ℤ) : Except Err (Nat → Bool) := do
  let minimal ← threshold o first f
  let use := fun i => decide (minimal < (r.counts i : ℤ))
  if f ≠ final then
    let c ← cutoff d box o r use f
    return fun i => use i && decide (r.wavenumbers i < c)
  else return use

/-- The "simple" transition (448-459). -/
def update (s : State) (r : Result) (use : Nat → Bool) (f : ℤ) : State :=
  let prefer := fun i => decide (s.counts i < r.counts i) && use i
  { centres := fun i => if prefer i then r.wavenumbers i else s.centres i
    power := fun i => if prefer i then r.power i else s.power i
    tracker := fun i => if prefer i then (2 : ℝ) ^ f else s.tracker i
    counts := fun i => if prefer i then r.counts i else s.counts i }

/-- One round of the loop (403-496) for the folding `f`. -/
def step (deps : List (ℤ × Grid)) (cross : Option (List (ℤ × Grid))) (box : ℝ × ℝ × ℝ) (e : List ℝ) (o : Options)
    (first final : ℤ) (s : State) (f : ℤ) : Except Err State := do
  let (d, r) ← spectrum deps cross box e o f
  let use ← useBins d box o first final r f
  if o.transition = "simple" then return update s r use f else throw .value

/-- What `folded_depositions_to_power_spectrum` returns; `label` is the exponent of the scale factor on the powers. -/
structure Merged where
  edges : List ℝ
  centres : Nat → ℝ
  power : Nat → ℝ
  tracker : Nat → ℝ
  label : ℤ

/-- `folded_depositions_to_power_spectrum` (278-503). The dictionaries are lists of their items. The powers are labelled with
the inverse of the cosmology factor of the volume of the box (384-391), whose exponent is `3 * boxExponent`. -/
def merge (deps : List (ℤ × Grid)) (box : ℝ × ℝ × ℝ) (boxExponent : ℤ) (n : Nat) (cross : Option (List (ℤ × Grid)))
    (range : Option (ℝ × ℝ)) (log : Bool) (o : Options) : Except Err Merged := do
  if let some cs := cross then
    if ¬∀ f, f ∈ deps.map Prod.fst ↔ f ∈ cs.map Prod.fst then throw .value
  let some range := range | throw .notImpl
  let e := edges log range n
  match (deps.map Prod.fst).insertionSort (· ≤ ·) with
  | [] => throw .value
  | first :: rest =>
    let final := (first :: rest).getLast (by simp)
    let s ← (first :: rest).foldlM (step deps cross box e o first final)
      { centres := centre e, power := fun _ => 0, tracker := fun _ => 1, counts := fun _ => 0 }
    return { edges := e, centres := s.centres, power := s.power, tracker := s.tracker, label := -(3 * boxExponent) }

end Verif.Folds
