import Verif.Model.Scatter

/-!
# Subsampled projections (`visualisation/projection_backends/subsampled.py` and `subsampled_extreme.py`)

Both files have the same statements with other constants: `E` is `MIN_KERNEL_EVALUATIONS` (16 in `subsampled.py` 100, 32
in `subsampled_extreme.py` 101) and `D` is `DITHER_EVALUATIONS` (32 and 64, 104 and 105). Line numbers below are those of
`subsampled.py`. As in `Verif.Model.Scatter` the kernel gets the square of the distance, arithmetic is exact, and a
quotient by zero is zero (the sum of the dithered kernel is positive for the kernel of the code).
-/

namespace Verif.Scatter
open Verif

variable {K : Type} [Field K] [LinearOrder K] [FloorRing K]

/-- `(np.float64(dither_cell) + 0.5 - float_DITHER_EVALUATIONS) ** 2` (116-118). -/
def ditherDist2 (D : Nat) (a : Int) : K := ((a : K) + 1 / 2 - (D : K)) * ((a : K) + 1 / 2 - (D : K))

/-- `dithered_kernel` before it is normalised (115-127). -/
def ditherRaw (W : K → K → K) (D : Nat) (a b : Int) : K := W (ditherDist2 D a + ditherDist2 D b) (D : K)

/-- `dithered_kernel.sum()` (130). -/
def ditherSum (W : K → K → K) (D : Nat) : K :=
  ((irange 0 (2 * (D : Int))).flatMap fun a => (irange 0 (2 * (D : Int))).map fun b => ditherRaw W D a b).sum

/-- `dithered_kernel` (130). -/
def dithered (W : K → K → K) (D res : Nat) (a b : Int) : K :=
  ditherRaw W D a b * ((res : K) * (res : K) / ditherSum W D)

/-- `np.int32(np.floor(float_res * (x_pos + (dither_cell * float_DITHER_EVALUATIONS_inv - 1.0) * kernel_width)))`
(206-236). -/
def ditherPixel (D res : Nat) (x H : K) (a : Int) : Int :=
  ⌊(res : K) * (x + ((a : K) * (1 / (D : K)) - 1) * H)⌋

/-- A small kernel laid down with the dithered kernel (203-248). -/
def ditherDeps (W : K → K → K) (D res : Nat) (H : K) (p : Part K) : List ((Int × Int) × K) :=
  (irange 0 (2 * (D : Int))).flatMap fun a => (irange 0 (2 * (D : Int))).flatMap fun b =>
    if onGrid res (ditherPixel D res p.x H a) && onGrid res (ditherPixel D res p.y H b) then
      [((ditherPixel D res p.x H a, ditherPixel D res p.y H b), p.m * dithered W D res a b)]
    else []

/-- `overlaps_left or overlaps_right` along one axis (181-189). The distance to the upper border is taken from `1` and not
from the width of a pixel. -/
def overlaps (res : Nat) (x H : K) : Bool :=
  decide (x - (cell res x : K) / (res : K) < H) || decide (1 - (x - (cell res x : K) / (res : K)) < H)

/-- `subsample_factor` (252-258). -/
def subsampleFactor (E : Nat) (H : K) (res : Nat) : Int := max 1 (2 * ⌈(E : K) / (1 + H * (res : K))⌉)

/-- `distance_x ** 2` of one sample of a pixel (290-310). -/
def sampleDist2 (res : Nat) (S : Int) (x : K) (i s : Int) : K :=
  (((i : K) + ((s : K) + 1 / 2) * (1 / (S : K))) * (1 / (res : K)) - x) *
    (((i : K) + ((s : K) + 1 / 2) * (1 / (S : K))) * (1 / (res : K)) - x)

/-- `kernel_eval` of one pixel (288-313). -/
def kernelEval (W : K → K → K) (res : Nat) (S : Int) (H : K) (p : Part K) (i j : Int) : K :=
  ((irange 0 S).flatMap fun s => (irange 0 S).map fun t =>
    W (sampleDist2 res S p.x i s + sampleDist2 res S p.y j t) H).sum

/-- One copy in `scatter` (152-319). -/
def subsampledDeps (W : K → K → K) (E D : Nat) (g : K) (res : Nat) (p : Part K) : List ((Int × Int) × K) :=
  let H := g * p.h
  let cs := spanned H res
  if misses res (cell res p.x) cs || misses res (cell res p.y) cs then []
  else if H ≤ 1 / 4 * (1 / (res : K)) then
    if !(overlaps res p.x H || overlaps res p.y H) && (onGrid res (cell res p.x) && onGrid res (cell res p.y)) then
      [((cell res p.x, cell res p.y), p.m * ((res : K) * (res : K)))]
    else ditherDeps W D res H p
  else
    let S := subsampleFactor E H res
    over2 (span res (cell res p.x) cs) (span res (cell res p.y) cs) fun i j =>
      p.m * kernelEval W res S H p i j * (1 / (S : K) * (1 / (S : K)))

/-- `scatter` (29-321). -/
def subsampled (W : K → K → K) (E D : Nat) (g : K) (res : Nat) (bx by_ : K) (ps : List (Part K)) :
    Except Err (Int × Int → K) :=
  paint (inside2 res res) (over (subsampledDeps W E D g res) bx by_ ps)

end Verif.Scatter
