import Verif.Model.Subsampled

/-!
# The compiled loops with an arithmetic that is not known (`swiftsimio/visualisation`)

The loops of `Verif.Model.Scatter` and `Verif.Model.Subsampled` once more, but every operation on floating-point numbers is
an unknown function of an `Arith`: single and double precision with any rounding, the reordering that `fastmath=True`
permits, infinities, NaN, and any result of `np.int32(v)` for a `v` that does not fit are all instances. Values carry their
type, so one set of operations stands for both precisions. Integers are exact: numba computes with 64 bits, and sums of
two numbers of 32 bits fit. As in `Verif.Model.Scatter` a write outside the array is the error `Err.index`, which the
compiled code does not detect.
-/

namespace Verif.Floating
open Verif Verif.Scatter

/-- Operations on floating-point numbers, about which nothing is known. -/
structure Arith (F : Type) where
  add : F → F → F
  sub : F → F → F
  mul : F → F → F
  div : F → F → F
  mod : F → F → F
  lt : F → F → Bool
  le : F → F → Bool
  isZero : F → Bool
  floor : F → F
  ceil : F → F
  sqrt : F → F
  single : F → F
  ofInt : Int → F
  toInt : F → Int
  half : F
  quarter : F
  kernel : F → F → F
  gamma : F
  zero : F
  acc : F → F → F

variable {F : Type} (A : Arith F)

/-- One statement `image[index] += weight` (`projection_backends/fast.py` 138-140 and 175). -/
def write {ι : Type} [DecidableEq ι] (inside : ι → Bool) (img : ι → F) (d : ι × F) : Except Err (ι → F) :=
  if inside d.1 then .ok (fun q => if q = d.1 then A.acc (img q) d.2 else img q) else .error .index

/-- The statements of a loop executed in order on `np.zeros` (`fast.py` 76 and 138-175). -/
def paint {ι : Type} [DecidableEq ι] (inside : ι → Bool) (ds : List (ι × F)) : Except Err (ι → F) :=
  ds.foldlM (write A inside) (fun _ => A.zero)

/-- `range(shift_min, shift_max)` along one axis (`fast.py` 90-101 and the copies named in `Scatter.shifts`). -/
def shifts (box : F) : List Int :=
  if A.isZero box then irange 0 1 else irange (-1) (A.toInt (A.add (A.ceil (A.div (A.ofInt 1) box)) (A.ofInt 1)))

/-- The shifts of `scatter_limited_z` (`volume_render_backends/scatter.py` 326-343). -/
def shiftsLimited (box : F) : List Int := if A.isZero box then irange 0 1 else irange (-1) 2

/-- The number of threads of the GPU along an axis of copies (`projection_backends/gpu.py` 264-271). -/
def shiftsGpu (box : F) : Nat :=
  if A.isZero box then 1 else (A.toInt (A.add (A.ceil (A.div (A.ofInt 1) box)) (A.ofInt 2))).toNat

/-- `x_pos_original + xshift * box_x` (`fast.py` 107). -/
def moved (x box : F) (i : Int) : F := A.add x (A.mul (A.ofInt i) box)

/-- The periodic copies of a particle in a projection (`fast.py` 103-108). -/
def copies2 (bx by_ : F) (p : Part F) : List (Part F) :=
  (shifts A bx).flatMap fun i : Int => (shifts A by_).map fun j : Int => { p with x := moved A p.x bx i, y := moved A p.y by_ j }

/-- The periodic copies of a particle in a slice or a render (`slice_backends/sph.py` 157-166,
`volume_render_backends/scatter.py` 123-132 and 345-354). -/
def copies3 (sh : F → List Int) (bx by_ bz : F) (p : Part F) : List (Part F) :=
  (sh bx).flatMap fun i : Int => (sh by_).flatMap fun j : Int => (sh bz).map fun k : Int =>
    { p with x := moved A p.x bx i, y := moved A p.y by_ j, z := moved A p.z bz k }

/-- `np.int32(np.floor(float_res_64 * x_pos))` (`fast.py` 112-113). -/
def cell (res : Nat) (x : F) : Int := A.toInt (A.floor (A.mul (A.ofInt res) x))

/-- `np.int32(1.0 + kernel_width * float_res)` (`fast.py` 119); `fr` is `float_res`. -/
def spanned (H fr : F) : Int := A.toInt (A.add (A.ofInt 1) (A.mul H fr))

/-- `float_res = np.float32(res)` (`fast.py` 81). -/
def res32 (res : Nat) : F := A.single (A.ofInt res)

/-- The square of a distance in single precision (`fast.py` 155-158). -/
def dist32 (res : Nat) (x : F) (i : Int) : F :=
  let d := A.sub (A.mul (A.add (A.single (A.ofInt i)) A.half) (A.div (A.ofInt 1) (res32 A res))) (A.single x)
  A.mul d d

/-- The square of a distance in double precision (`reference.py` 149-152). -/
def dist64 (res : Nat) (x : F) (i : Int) : F :=
  let d := A.sub (A.mul (A.add (A.ofInt i) A.half) (A.div (A.ofInt 1) (A.ofInt res))) x
  A.mul d d

/-- All statements of the loops over a rectangle of cells. -/
def over2 (xs ys : List Int) (w : Int → Int → F) : List ((Int × Int) × F) :=
  xs.flatMap fun i => ys.map fun j : Int => ((i, j), w i j)

/-- All statements of the loops over a box of cells. -/
def over3 (xs ys zs : List Int) (w : Int → Int → Int → F) : List ((Int × Int × Int) × F) :=
  xs.flatMap fun i => ys.flatMap fun j => zs.map fun k : Int => ((i, j, k), w i j k)

/-- Everything in the particle's own cell (`fast.py` 130-140, `histogram.py` 105-113); `w` is the weight. -/
def ownCell2 (res : Nat) (p : Part F) (w : F) : List ((Int × Int) × F) :=
  if onGrid res (cell A res p.x) && onGrid res (cell A res p.y) then [((cell A res p.x, cell A res p.y), w)] else []

/-- One copy in `histogram.scatter` (`histogram.py` 102-113). -/
def histogramDeps (res : Nat) (p : Part F) : List ((Int × Int) × F) :=
  ownCell2 A res p (A.mul p.m (A.mul (A.ofInt res) (A.ofInt res)))

/-- One copy in `fast.scatter` (`fast.py` 110-175) and in the GPU kernel (`gpu.py` 137-195). -/
def fastDeps (res : Nat) (p : Part F) : List ((Int × Int) × F) :=
  let H := A.mul A.gamma p.h
  let cs := spanned A H (res32 A res)
  if misses res (cell A res p.x) cs || misses res (cell A res p.y) cs then []
  else if cs ≤ 1 then ownCell2 A res p (A.mul p.m (A.ofInt ((res : Int) * res)))
  else over2 (span res (cell A res p.x) cs) (span res (cell A res p.y) cs) fun i j =>
    A.mul p.m (A.kernel (A.sqrt (A.add (dist32 A res p.x i) (dist32 A res p.y j))) H)

/-- The sum used for the normalisation (`renormalised.py` 151-175). -/
def kernelSum (H : F) (res : Nat) (cs : Int) (p : Part F) : F :=
  ((irange (cell A res p.x - cs + 1) (cell A res p.x + cs)).flatMap fun i =>
    (irange (cell A res p.y - cs + 1) (cell A res p.y + cs)).map fun j =>
      A.kernel (A.sqrt (A.add (dist32 A res p.x i) (dist32 A res p.y j))) H).foldl A.acc A.zero

/-- One copy in `renormalised.scatter` (`renormalised.py` 115-214). -/
def renormalisedDeps (res : Nat) (p : Part F) : List ((Int × Int) × F) :=
  let H := A.mul A.gamma p.h
  let cs := spanned A H (res32 A res)
  if misses res (cell A res p.x) cs || misses res (cell A res p.y) cs then []
  else if cs ≤ 1 then ownCell2 A res p (A.mul p.m (A.ofInt ((res : Int) * res)))
  else over2 (span res (cell A res p.x) cs) (span res (cell A res p.y) cs) fun i j =>
    A.mul p.m (A.mul (A.div (A.ofInt ((res : Int) * res)) (kernelSum A H res cs p))
      (A.kernel (A.sqrt (A.add (dist32 A res p.x i) (dist32 A res p.y j))) H))

/-- The statements of a projection over all particles and copies. -/
def over (dep : Part F → List ((Int × Int) × F)) (bx by_ : F) (ps : List (Part F)) : List ((Int × Int) × F) :=
  ps.flatMap fun p => (copies2 A bx by_ p).flatMap dep

/-- `histogram.scatter` (`histogram.py` 12-115). -/
def histogram (res : Nat) (bx by_ : F) (ps : List (Part F)) : Except Err (Int × Int → F) :=
  paint A (inside2 res res) (over A (histogramDeps A res) bx by_ ps)

/-- `fast.scatter` (`fast.py` 18-177). -/
def fast (res : Nat) (bx by_ : F) (ps : List (Part F)) : Except Err (Int × Int → F) :=
  paint A (inside2 res res) (over A (fastDeps A res) bx by_ ps)

/-- `renormalised.scatter` (`renormalised.py` 22-216). -/
def renormalised (res : Nat) (bx by_ : F) (ps : List (Part F)) : Except Err (Int × Int → F) :=
  paint A (inside2 res res) (over A (renormalisedDeps A res) bx by_ ps)

/-- The work of one GPU thread (`gpu.py` 129-195): thread `(i, dx, dy)` has the copy `dx - 1.0`, `dy - 1.0`. -/
def gpuThread (res : Nat) (bx by_ : F) (t : Part F × Nat × Nat) : List ((Int × Int) × F) :=
  fastDeps A res { t.1 with
    x := A.add t.1.x (A.mul (A.sub (A.ofInt t.2.1) (A.ofInt 1)) bx)
    y := A.add t.1.y (A.mul (A.sub (A.ofInt t.2.2) (A.ofInt 1)) by_) }

/-- The threads of the GPU grid (`gpu.py` 256-283). -/
def gpuThreads (bx by_ : F) (ps : List (Part F)) : List (Part F × Nat × Nat) :=
  ps.flatMap fun p => (List.range (shiftsGpu A bx)).flatMap fun i : Nat => (List.range (shiftsGpu A by_)).map fun j : Nat => (p, i, j)

/-- The image drawn by the GPU when the additions, which are atomic, happen in the order `ds`. -/
def gpu (res : Nat) (ds : List ((Int × Int) × F)) : Except Err (Int × Int → F) := paint A (inside2 res res) ds

/-- The loop over the copies along `y` in `reference.scatter` (`reference.py` 110-172). -/
def referenceRow (res : Nat) : List (Part F) → List ((Int × Int) × F)
  | [] => []
  | p :: ps =>
    let H := A.mul A.gamma p.h
    let cs := spanned A H (A.ofInt res)
    if misses res (cell A res p.x) cs || misses res (cell A res p.y) cs then referenceRow res ps
    else if cs ≤ 2 then []
    else (over2 (span res (cell A res p.x) cs) (span res (cell A res p.y) cs) fun i j =>
      A.mul p.m (A.kernel (A.sqrt (A.add (dist64 A res p.x i) (dist64 A res p.y j))) H)) ++ referenceRow res ps

/-- `reference.scatter` (`reference.py` 25-174). -/
def reference (res : Nat) (bx by_ : F) (ps : List (Part F)) : Except Err (Int × Int → F) :=
  paint A (inside2 res res) (ps.flatMap fun p => (shifts A bx).flatMap fun i : Int =>
    referenceRow A res ((shifts A by_).map fun j : Int => { p with x := moved A p.x bx i, y := moved A p.y by_ j }))

/-- One axis of the distance of a cell of the dithered kernel to its centre, squared (`subsampled.py` 115-123). -/
def ditherDist2 (D : Nat) (a : Int) : F :=
  let d := A.sub (A.add (A.ofInt a) A.half) (A.ofInt D)
  A.mul d d

/-- `dithered_kernel` before it is normalised (`subsampled.py` 115-127). -/
def ditherRaw (D : Nat) (a b : Int) : F :=
  A.kernel (A.sqrt (A.add (ditherDist2 A D a) (ditherDist2 A D b))) (A.ofInt D)

/-- `dithered_kernel.sum()` (`subsampled.py` 130), in any order of summation. -/
def ditherSum (D : Nat) : F :=
  ((irange 0 (2 * (D : Int))).flatMap fun a => (irange 0 (2 * (D : Int))).map fun b => ditherRaw A D a b).foldl A.acc A.zero

/-- `dithered_kernel` (`subsampled.py` 130). -/
def dithered (D res : Nat) (a b : Int) : F :=
  A.mul (ditherRaw A D a b) (A.div (A.mul (A.ofInt res) (A.ofInt res)) (ditherSum A D))

/-- `pixel_x` of a cell of the dithered kernel (`subsampled.py` 206-236). -/
def ditherPixel (D res : Nat) (x H : F) (a : Int) : Int :=
  A.toInt (A.floor (A.mul (A.ofInt res)
    (A.add x (A.mul (A.sub (A.mul (A.ofInt a) (A.div (A.ofInt 1) (A.ofInt D))) (A.ofInt 1)) H))))

/-- A small kernel laid down with the dithered kernel (`subsampled.py` 203-248). -/
def ditherDeps (D res : Nat) (H : F) (p : Part F) : List ((Int × Int) × F) :=
  (irange 0 (2 * (D : Int))).flatMap fun a => (irange 0 (2 * (D : Int))).flatMap fun b =>
    if onGrid res (ditherPixel A D res p.x H a) && onGrid res (ditherPixel A D res p.y H b) then
      [((ditherPixel A D res p.x H a, ditherPixel A D res p.y H b), A.mul p.m (dithered A D res a b))]
    else []

/-- `overlaps_left or overlaps_right` along one axis (`subsampled.py` 181-189). -/
def overlaps (res : Nat) (x H : F) : Bool :=
  let left := A.sub x (A.div (A.ofInt (cell A res x)) (A.ofInt res))
  A.lt left H || A.lt (A.sub (A.ofInt 1) left) H

/-- `subsample_factor` (`subsampled.py` 252-258). -/
def subsampleFactor (E : Nat) (H : F) (res : Nat) : Int :=
  max 1 (2 * A.toInt (A.ceil (A.div (A.ofInt E) (A.add (A.ofInt 1) (A.mul H (A.ofInt res))))))

/-- The square of the distance of one sample along one axis (`subsampled.py` 290-310). -/
def sampleDist2 (res : Nat) (S : Int) (x : F) (i s : Int) : F :=
  let inv := A.div (A.ofInt 1) (A.ofInt S)
  let d := A.sub (A.mul (A.add (A.ofInt i) (A.mul (A.add (A.ofInt s) A.half) inv)) (A.div (A.ofInt 1) (A.ofInt res))) x
  A.mul d d

/-- `kernel_eval` of one pixel (`subsampled.py` 288-313). -/
def kernelEval (res : Nat) (S : Int) (H : F) (p : Part F) (i j : Int) : F :=
  ((irange 0 S).flatMap fun s => (irange 0 S).map fun t =>
    A.kernel (A.sqrt (A.add (sampleDist2 A res S p.x i s) (sampleDist2 A res S p.y j t))) H).foldl A.acc A.zero

/-- One copy in `subsampled.scatter` (`subsampled.py` 152-319; `subsampled_extreme.py` 153-320 has the same statements with
other constants `E` and `D`). -/
def subsampledDeps (E D res : Nat) (p : Part F) : List ((Int × Int) × F) :=
  let H := A.mul A.gamma p.h
  let cs := spanned A H (A.ofInt res)
  if misses res (cell A res p.x) cs || misses res (cell A res p.y) cs then []
  else if A.le H (A.mul A.quarter (A.div (A.ofInt 1) (A.ofInt res))) then
    if !(overlaps A res p.x H || overlaps A res p.y H) && (onGrid res (cell A res p.x) && onGrid res (cell A res p.y)) then
      [((cell A res p.x, cell A res p.y), A.mul p.m (A.mul (A.ofInt res) (A.ofInt res)))]
    else ditherDeps A D res H p
  else
    let S := subsampleFactor A E H res
    let inv := A.div (A.ofInt 1) (A.ofInt S)
    over2 (span res (cell A res p.x) cs) (span res (cell A res p.y) cs) fun i j =>
      A.mul (A.mul p.m (kernelEval A res S H p i j)) (A.mul inv inv)

/-- `subsampled.scatter` (`subsampled.py` 29-321, `subsampled_extreme.py` 28-322). -/
def subsampled (E D res : Nat) (bx by_ : F) (ps : List (Part F)) : Except Err (Int × Int → F) :=
  paint A (inside2 res res) (over A (subsampledDeps A E D res) bx by_ ps)

/-- One copy in `slice_scatter` (`slice_backends/sph.py` 168-224). -/
def sliceDeps (zs : F) (res : Nat) (p : Part F) : List ((Int × Int) × F) :=
  let H := A.mul A.gamma p.h
  let cs := spanned A H (res32 A res)
  let dz := A.mul (A.sub p.z zs) (A.sub p.z zs)
  if A.lt (A.mul H H) dz || misses res (cell A res p.x) cs || misses res (cell A res p.y) cs then []
  else over2 (spanShort res (cell A res p.x) cs) (spanShort res (cell A res p.y) cs) fun i j =>
    A.mul p.m (A.kernel (A.sqrt (A.add (A.add (dist32 A res p.x i) (dist32 A res p.y j)) dz)) H)

/-- `slice_scatter` (`slice_backends/sph.py` 56-227). -/
def slice (zs : F) (xres yres : Nat) (bx by_ bz : F) (ps : List (Part F)) : Except Err (Int × Int → F) := do
  let img ← paint A (inside2 (max xres yres) (max xres yres))
    (ps.flatMap fun p => (copies3 A (shifts A) bx by_ bz p).flatMap (sliceDeps A zs (max xres yres)))
  return fun q => if inside2 xres yres q then img q else A.zero

/-- One copy in the voxel render (`volume_render_backends/scatter.py` 134-217 and, with another number of cells along `z`,
356-443). -/
def limitedDeps (small : F → Bool) (res resz : Nat) (p : Part F) : List ((Int × Int × Int) × F) :=
  let H := A.mul A.gamma p.h
  let cs := spanned A H (res32 A res)
  let csz := spanned A H (res32 A resz)
  if misses res (cell A res p.x) cs || misses res (cell A res p.y) cs || misses resz (cell A resz p.z) csz then []
  else if small H then
    if onGrid res (cell A res p.x) && onGrid res (cell A res p.y) && onGrid resz (cell A resz p.z) then
      [((cell A res p.x, cell A res p.y, cell A resz p.z),
        A.mul p.m (A.mul (A.mul (res32 A res) (res32 A res)) (res32 A resz)))]
    else []
  else over3 (spanShort res (cell A res p.x) cs) (spanShort res (cell A res p.y) cs) (spanShort resz (cell A resz p.z) csz)
    fun i j k => A.mul p.m (A.kernel
      (A.sqrt (A.add (A.add (dist32 A res p.x i) (dist32 A res p.y j)) (dist32 A resz p.z k))) H)

/-- `kernel_width < drop_to_single_cell` (`volume_render_backends/scatter.py` 98-99 and 156). -/
def dropped (res : Nat) (H : F) : Bool := A.lt H (A.mul (A.div (A.ofInt 1) (res32 A res)) A.half)

/-- The voxel render `scatter` (`volume_render_backends/scatter.py` 13-219). -/
def volume (res : Nat) (bx by_ bz : F) (ps : List (Part F)) : Except Err (Int × Int × Int → F) :=
  paint A (inside3 res res res)
    (ps.flatMap fun p => (copies3 A (shifts A) bx by_ bz p).flatMap (limitedDeps A (dropped A res) res res))

/-- `scatter_limited_z` (`volume_render_backends/scatter.py` 223-445). -/
def limited (res ratio : Nat) (bx by_ bz : F) (ps : List (Part F)) : Except Err (Int × Int × Int → F) :=
  paint A (inside3 res res (res / ratio))
    (ps.flatMap fun p => (copies3 A (shiftsLimited A) bx by_ bz p).flatMap
      (limitedDeps A (fun H => dropped A res H || dropped A (res / ratio) H) res (res / ratio)))

/-- `np.int32((x_pos % box_over_fold) * inv_box_over_fold * float_res)` (`power_spectrum.py` 72-95); `fr` is
`np.float32(res)`. -/
def pix (fr over v : F) : Int := A.toInt (A.mul (A.mul (A.mod v over) (A.div (A.ofInt 1) over)) fr)

/-- The statement of the loop of `deposit` for one particle (`power_spectrum.py` 70-98). -/
def depositDeps (res : Nat) (fold bx by_ bz : F) (p : Part F) : (Int × Int × Int) × F :=
  let fr := res32 A res
  ((pix A fr (A.div bx fold) p.x, pix A fr (A.div by_ fold) p.y, pix A fr (A.div bz fold) p.z),
    A.mul p.m (A.mul (A.mul (A.mul fr fr) fr) (A.mul (A.mul fold fold) fold)))

/-- `deposit` (`power_spectrum.py` 13-100): the index is not tested. -/
def deposit (res : Nat) (fold bx by_ bz : F) (ps : List (Part F)) : Except Err (Int × Int × Int → F) :=
  paint A (inside3 res res res) (ps.map (depositDeps A res fold bx by_ bz))

/-- `scatter_parallel` when the threads finish in the order `order` (`fast.py` 238-267). -/
def parallel {α ι : Type} (scatter : List α → Except Err (ι → F)) (threads : Nat) (order : List Nat) (ps : List α) :
    Except Err (ι → F) :=
  order.foldlM (fun out t => do
    let img ← scatter (block threads t ps)
    return fun q => A.acc (out q) (img q)) (fun _ => A.zero)

/-- Exact arithmetic in an ordered field. The root is left out: the kernel gets the square of the distance. -/
def exact {K : Type} [Field K] [LinearOrder K] [FloorRing K] (W : K → K → K) (g : K) : Arith K where
  add := (· + ·)
  sub := (· - ·)
  mul := (· * ·)
  div := (· / ·)
  mod := fun a b => a - b * ⌊a / b⌋
  lt := fun a b => decide (a < b)
  le := fun a b => decide (a ≤ b)
  isZero := fun a => decide (a = 0)
  floor := fun a => (⌊a⌋ : K)
  ceil := fun a => (⌈a⌉ : K)
  sqrt := id
  single := id
  ofInt := fun n => (n : K)
  toInt := trunc
  half := 1 / 2
  quarter := 1 / 4
  kernel := W
  gamma := g
  zero := 0
  acc := (· + ·)

end Verif.Floating
