import Mathlib.Algebra.Order.Floor.Ring
import Mathlib.Algebra.Order.Field.Basic
import Verif.Model.Basic

/-!
# Deposition of particles on a grid (`swiftsimio/visualisation`)

The loops of the projection backends, of the SPH slice and of the voxel render, with exact arithmetic in an ordered
field instead of single and double precision. A loop is the list of its statements `image[index] += weight`, in program
order; `paint` executes them on an array of zeros. The compiled loops are not bounds-checked: a write outside the array
is the error `Err.index`.

The kernel is a parameter `W`, called with the square of the distance (the code takes the root first) and the kernel
radius; the kernels themselves are in `Verif.Model.Kernel`. The factor `kernel_gamma` is the parameter `g`.
-/

namespace Verif.Scatter
open Verif

/-- One particle: `zip(x, y, z, m, h)`; the projections do not use `z`, the histogram does not use `h`. -/
structure Part (K : Type) where
  x : K
  y : K
  z : K
  m : K
  h : K
  deriving DecidableEq

/-- `range(a, b)`. -/
def irange (a b : Int) : List Int := (List.range (b - a).toNat).map fun n : Nat => a + (n : Int)

/-- One statement `image[index] += weight` on an array whose valid indices satisfy `inside`. -/
def write {ι K : Type} [DecidableEq ι] [Add K] (inside : ι → Bool) (img : ι → K) (d : ι × K) :
    Except Err (ι → K) :=
  if inside d.1 then .ok (fun q => if q = d.1 then img q + d.2 else img q) else .error .index

/-- The statements of a loop executed in order on `np.zeros` (for instance `projection_backends/fast.py` 76 and
138-175). -/
def paint {ι K : Type} [DecidableEq ι] [Add K] [Zero K] (inside : ι → Bool) (ds : List (ι × K)) :
    Except Err (ι → K) :=
  ds.foldlM (write inside) (fun _ => 0)

/-- Valid indices of a `(nx, ny)` array. -/
def inside2 (nx ny : Nat) (q : Int × Int) : Bool :=
  decide (0 ≤ q.1) && decide (q.1 < nx) && decide (0 ≤ q.2) && decide (q.2 < ny)

/-- Valid indices of a `(nx, ny, nz)` array. -/
def inside3 (nx ny nz : Nat) (q : Int × Int × Int) : Bool :=
  decide (0 ≤ q.1) && decide (q.1 < nx) && decide (0 ≤ q.2.1) && decide (q.2.1 < ny) &&
    decide (0 ≤ q.2.2) && decide (q.2.2 < nz)

section
variable {K : Type} [Field K] [LinearOrder K] [FloorRing K]

/-- `np.int32(v)` of a float: truncation towards zero. Overflow of 32 bits is not modelled. -/
def trunc (v : K) : Int := if 0 ≤ v then ⌊v⌋ else ⌈v⌉

/-- `range(shift_min, shift_max)` along one axis (`fast.py` 90-101, the same in `histogram.py` 81-92,
`renormalised.py` 95-106, `reference.py` 95-106, `subsampled.py` 132-143, `slice_backends/sph.py` 138-155 and
`volume_render_backends/scatter.py` 104-121). -/
def shifts (box : K) : List Int := if box = 0 then irange 0 1 else irange (-1) (⌈1 / box⌉ + 1)

/-- The shifts of `scatter_limited_z` (`volume_render_backends/scatter.py` 326-343). -/
def shiftsLimited (box : K) : List Int := if box = 0 then irange 0 1 else irange (-1) 2

/-- The shifts of the GPU kernel: `cuda.grid` runs over `0 … n - 1` and the copy is `dx - 1`
(`projection_backends/gpu.py` 129-135 and 264-282). The grid of blocks has at least one thread for every particle; the
threads run in any order. -/
def shiftsGpu (box : K) : List Int :=
  (List.range (if box = 0 then 1 else (⌈1 / box⌉ + 2).toNat)).map fun n : Nat => (n : Int) - 1

/-- The periodic copies of a particle in a projection, in loop order (`fast.py` 103-108). -/
def copies2 (bx by_ : K) (p : Part K) : List (Part K) :=
  (shifts bx).flatMap fun i : Int => (shifts by_).map fun j : Int => { p with x := p.x + (i : K) * bx, y := p.y + (j : K) * by_ }

/-- The periodic copies of a particle in a slice or a render (`slice_backends/sph.py` 157-166,
`volume_render_backends/scatter.py` 123-132 and, with the other shifts, 345-354). -/
def copies3 (sh : K → List Int) (bx by_ bz : K) (p : Part K) : List (Part K) :=
  (sh bx).flatMap fun i : Int => (sh by_).flatMap fun j : Int => (sh bz).map fun k : Int =>
    { p with x := p.x + (i : K) * bx, y := p.y + (j : K) * by_, z := p.z + (k : K) * bz }

/-- The cell of a coordinate, `np.int32(np.floor(float_res_64 * x_pos))` (`fast.py` 112-113). -/
def cell (res : Nat) (x : K) : Int := ⌊(res : K) * x⌋

/-- `cells_spanned = np.int32(1.0 + kernel_width * float_res)` (`fast.py` 119). -/
def spanned (H : K) (res : Nat) : Int := trunc (1 + H * (res : K))

/-- `particle_cell + cells_spanned < 0 or particle_cell - cells_spanned > maximal_array_index` (`fast.py` 121-126). -/
def misses (res : Nat) (pc cs : Int) : Bool := decide (pc + cs < 0) || decide (pc - cs > (res : Int) - 1)

/-- `particle_cell >= 0 and particle_cell <= maximal_array_index` (`fast.py` 132-136). -/
def onGrid (res : Nat) (pc : Int) : Bool := decide (0 ≤ pc) && decide (pc ≤ (res : Int) - 1)

/-- The cells visited along one axis by a projection (`fast.py` 143-151). -/
def span (res : Nat) (pc cs : Int) : List Int :=
  irange (max 0 (pc - cs)) (min (pc + cs + 1) ((res : Int) - 1 + 1))

/-- The cells visited along one axis by the slice and the render: the upper limit has no `+ 1`
(`slice_backends/sph.py` 195-201, `volume_render_backends/scatter.py` 172-179). -/
def spanShort (res : Nat) (pc cs : Int) : List Int :=
  irange (max 0 (pc - cs)) (min (pc + cs) ((res : Int) - 1 + 1))

/-- `((cell + 0.5) * pixel_width - x_pos) ** 2` (`fast.py` 155-158). -/
def dist2 (res : Nat) (x : K) (i : Int) : K :=
  (((i : K) + 1 / 2) * (1 / (res : K)) - x) * (((i : K) + 1 / 2) * (1 / (res : K)) - x)

/-- All statements of the loops over a rectangle of cells. -/
def over2 (xs ys : List Int) (w : Int → Int → K) : List ((Int × Int) × K) :=
  xs.flatMap fun i => ys.map fun j : Int => ((i, j), w i j)

/-- All statements of the loops over a box of cells. -/
def over3 (xs ys zs : List Int) (w : Int → Int → Int → K) : List ((Int × Int × Int) × K) :=
  xs.flatMap fun i => ys.flatMap fun j => zs.map fun k : Int => ((i, j, k), w i j k)

/-- Everything in the particle's own cell (`fast.py` 130-140, `histogram.py` 105-113). -/
def ownCell2 (res : Nat) (p : Part K) : List ((Int × Int) × K) :=
  if onGrid res (cell res p.x) && onGrid res (cell res p.y) then
    [((cell res p.x, cell res p.y), p.m * ((res : K) * (res : K)))]
  else []

/-- One copy in `histogram.scatter` (`histogram.py` 102-113). -/
def histogramDeps (res : Nat) (p : Part K) : List ((Int × Int) × K) := ownCell2 res p

/-- One copy in `fast.scatter` (`fast.py` 110-175) and in the GPU kernel (`gpu.py` 137-195). -/
def fastDeps (W : K → K → K) (g : K) (res : Nat) (p : Part K) : List ((Int × Int) × K) :=
  let H := g * p.h
  let cs := spanned H res
  if misses res (cell res p.x) cs || misses res (cell res p.y) cs then []
  else if cs ≤ 1 then ownCell2 res p
  else over2 (span res (cell res p.x) cs) (span res (cell res p.y) cs) fun i j =>
    p.m * W (dist2 res p.x i + dist2 res p.y j) H

/-- The sum of the kernel over the square of cells used for the normalisation, which leaves out its outermost rows and
columns (`renormalised.py` 151-175). -/
def kernelSum (W : K → K → K) (H : K) (res : Nat) (cs : Int) (p : Part K) : K :=
  ((irange (cell res p.x - cs + 1) (cell res p.x + cs)).flatMap fun i =>
    (irange (cell res p.y - cs + 1) (cell res p.y + cs)).map fun j =>
      W (dist2 res p.x i + dist2 res p.y j) H).sum

/-- One copy in `renormalised.scatter` (`renormalised.py` 115-214). A zero normalisation gives an infinite or undefined
image in the code and zero here. -/
def renormalisedDeps (W : K → K → K) (g : K) (res : Nat) (p : Part K) : List ((Int × Int) × K) :=
  let H := g * p.h
  let cs := spanned H res
  if misses res (cell res p.x) cs || misses res (cell res p.y) cs then []
  else if cs ≤ 1 then ownCell2 res p
  else over2 (span res (cell res p.x) cs) (span res (cell res p.y) cs) fun i j =>
    p.m * ((res : K) * (res : K) / kernelSum W H res cs p * W (dist2 res p.x i + dist2 res p.y j) H)

/-- The statements of a projection over all particles and copies. -/
def over (dep : Part K → List ((Int × Int) × K)) (bx by_ : K) (ps : List (Part K)) : List ((Int × Int) × K) :=
  ps.flatMap fun p => (copies2 bx by_ p).flatMap dep

/-- `histogram.scatter` (`histogram.py` 12-115). -/
def histogram (res : Nat) (bx by_ : K) (ps : List (Part K)) : Except Err (Int × Int → K) :=
  paint (inside2 res res) (over (histogramDeps res) bx by_ ps)

/-- `fast.scatter` (`fast.py` 18-177). -/
def fast (W : K → K → K) (g : K) (res : Nat) (bx by_ : K) (ps : List (Part K)) : Except Err (Int × Int → K) :=
  paint (inside2 res res) (over (fastDeps W g res) bx by_ ps)

/-- `renormalised.scatter` (`renormalised.py` 22-216). -/
def renormalised (W : K → K → K) (g : K) (res : Nat) (bx by_ : K) (ps : List (Part K)) :
    Except Err (Int × Int → K) :=
  paint (inside2 res res) (over (renormalisedDeps W g res) bx by_ ps)

/-- The work of one GPU thread: one particle and one copy. -/
def gpuThread (W : K → K → K) (g : K) (res : Nat) (bx by_ : K) (t : Part K × Int × Int) : List ((Int × Int) × K) :=
  fastDeps W g res { t.1 with x := t.1.x + t.2.1 * bx, y := t.1.y + t.2.2 * by_ }

/-- The threads of the GPU grid. -/
def gpuThreads (bx by_ : K) (ps : List (Part K)) : List (Part K × Int × Int) :=
  ps.flatMap fun p => (shiftsGpu bx).flatMap fun i : Int => (shiftsGpu by_).map fun j : Int => (p, i, j)

/-- The image drawn by the GPU when the additions, which are atomic, happen in the order `ds`. -/
def gpu (res : Nat) (ds : List ((Int × Int) × K)) : Except Err (Int × Int → K) := paint (inside2 res res) ds

/-- The loop over the copies along `y` in `reference.scatter`: a kernel spanning at most two cells leaves the loop
(`reference.py` 110-172). -/
def referenceRow (W : K → K → K) (g : K) (res : Nat) : List (Part K) → List ((Int × Int) × K)
  | [] => []
  | p :: ps =>
    let H := g * p.h
    let cs := spanned H res
    if misses res (cell res p.x) cs || misses res (cell res p.y) cs then referenceRow W g res ps
    else if cs ≤ 2 then []
    else (over2 (span res (cell res p.x) cs) (span res (cell res p.y) cs) fun i j =>
      p.m * W (dist2 res p.x i + dist2 res p.y j) H) ++ referenceRow W g res ps

/-- `reference.scatter` (`reference.py` 25-174). -/
def reference (W : K → K → K) (g : K) (res : Nat) (bx by_ : K) (ps : List (Part K)) :
    Except Err (Int × Int → K) :=
  paint (inside2 res res) (ps.flatMap fun p => (shifts bx).flatMap fun i : Int =>
    referenceRow W g res ((shifts by_).map fun j : Int => { p with x := p.x + (i : K) * bx, y := p.y + (j : K) * by_ }))

/-- One copy in `slice_scatter` (`slice_backends/sph.py` 168-224). -/
def sliceDeps (W : K → K → K) (g zs : K) (res : Nat) (p : Part K) : List ((Int × Int) × K) :=
  let H := g * p.h
  let cs := spanned H res
  if decide ((p.z - zs) * (p.z - zs) > H * H) || misses res (cell res p.x) cs || misses res (cell res p.y) cs then []
  else over2 (spanShort res (cell res p.x) cs) (spanShort res (cell res p.y) cs) fun i j =>
    p.m * W (dist2 res p.x i + dist2 res p.y j + (p.z - zs) * (p.z - zs)) H

/-- `slice_scatter` (`slice_backends/sph.py` 56-227): the square image of side `max(xres, yres)` is trimmed at the
end. -/
def slice (W : K → K → K) (g zs : K) (xres yres : Nat) (bx by_ bz : K) (ps : List (Part K)) :
    Except Err (Int × Int → K) := do
  let img ← paint (inside2 (max xres yres) (max xres yres))
    (ps.flatMap fun p => (copies3 shifts bx by_ bz p).flatMap (sliceDeps W g zs (max xres yres)))
  return fun q => if inside2 xres yres q then img q else 0

/-- One copy in the voxel render `scatter` (`volume_render_backends/scatter.py` 134-217). -/
def volumeDeps (W : K → K → K) (g : K) (res : Nat) (p : Part K) : List ((Int × Int × Int) × K) :=
  let H := g * p.h
  let cs := spanned H res
  if misses res (cell res p.x) cs || misses res (cell res p.y) cs || misses res (cell res p.z) cs then []
  else if H < 1 / (res : K) * (1 / 2) then
    if onGrid res (cell res p.x) && onGrid res (cell res p.y) && onGrid res (cell res p.z) then
      [((cell res p.x, cell res p.y, cell res p.z), p.m * ((res : K) * (res : K) * (res : K)))]
    else []
  else over3 (spanShort res (cell res p.x) cs) (spanShort res (cell res p.y) cs) (spanShort res (cell res p.z) cs)
    fun i j k => p.m * W (dist2 res p.x i + dist2 res p.y j + dist2 res p.z k) H

/-- The voxel render `scatter` (`volume_render_backends/scatter.py` 13-219). -/
def volume (W : K → K → K) (g : K) (res : Nat) (bx by_ bz : K) (ps : List (Part K)) :
    Except Err (Int × Int × Int → K) :=
  paint (inside3 res res res) (ps.flatMap fun p => (copies3 shifts bx by_ bz p).flatMap (volumeDeps W g res))

/-- One copy in `scatter_limited_z` (`volume_render_backends/scatter.py` 356-443). -/
def limitedDeps (W : K → K → K) (g : K) (res resz : Nat) (p : Part K) : List ((Int × Int × Int) × K) :=
  let H := g * p.h
  let cs := spanned H res
  let csz := spanned H resz
  if misses res (cell res p.x) cs || misses res (cell res p.y) cs || misses resz (cell resz p.z) csz then []
  else if H < 1 / (res : K) * (1 / 2) || H < 1 / (resz : K) * (1 / 2) then
    if onGrid res (cell res p.x) && onGrid res (cell res p.y) && onGrid resz (cell resz p.z) then
      [((cell res p.x, cell res p.y, cell resz p.z), p.m * ((res : K) * (res : K) * (resz : K)))]
    else []
  else over3 (spanShort res (cell res p.x) cs) (spanShort res (cell res p.y) cs) (spanShort resz (cell resz p.z) csz)
    fun i j k => p.m * W (dist2 res p.x i + dist2 res p.y j + dist2 resz p.z k) H

/-- `scatter_limited_z` (`volume_render_backends/scatter.py` 223-445), `res // res_ratio_z` cells along `z`. -/
def limited (W : K → K → K) (g : K) (res ratio : Nat) (bx by_ bz : K) (ps : List (Part K)) :
    Except Err (Int × Int × Int → K) :=
  paint (inside3 res res (res / ratio))
    (ps.flatMap fun p => (copies3 shiftsLimited bx by_ bz p).flatMap (limitedDeps W g res (res / ratio)))

end

/-- The particles of one thread (`fast.py` 240-258). The same statements are in the other `scatter_parallel` functions:
`projection_backends/histogram.py` 119-207, `projection_backends/reference.py` 178-263, `projection_backends/renormalised.py` 220-309,
`projection_backends/subsampled.py` 325-413, `projection_backends/subsampled_extreme.py` 326-417, `slice_backends/sph.py` 231-344, and
in the `deposit_parallel` functions; `slice_backends/nearest_neighbours.py` 168-254 passes the number of workers on to the tree instead. -/
def block {α : Type} (threads t : Nat) (ps : List α) : List α :=
  let core := ps.length / threads
  let left := t * core
  let right := if t + 1 = threads then ps.length else (t + 1) * core
  (ps.take right).drop left

/-- `scatter_parallel` when the threads finish in the order `order` (`fast.py` 238-267): the images of the threads are
added to an array of zeros. -/
def parallel {α ι K : Type} [Add K] [Zero K] (scatter : List α → Except Err (ι → K)) (threads : Nat) (order : List Nat)
    (ps : List α) : Except Err (ι → K) :=
  order.foldlM (fun out t => do
    let img ← scatter (block threads t ps)
    return fun q => out q + img q) (fun _ => 0)

/-- `output += image` for an array of `nz` layers and an image of `mz` layers: numpy repeats a single layer and refuses
any other mismatch (`volume_render_backends/scatter.py` 546-571). -/
def addLayers {K : Type} [Add K] (nz mz : Nat) (out img : Int × Int × Int → K) : Except Err (Int × Int × Int → K) :=
  if mz = nz then .ok fun q => out q + img q
  else if mz = 1 then .ok fun q => out q + img (q.1, q.2.1, 0)
  else .error .value

/-- `scatter_parallel` of the voxel render (`volume_render_backends/scatter.py` 449-573): the output array always has
`res` layers. -/
def volumeParallel {K : Type} [Field K] [LinearOrder K] [FloorRing K] (W : K → K → K) (g : K) (res ratio : Nat)
    (bx by_ bz : K) (threads : Nat) (order : List Nat) (ps : List (Part K)) : Except Err (Int × Int × Int → K) :=
  if ratio = 1 then parallel (volume W g res bx by_ bz) threads order ps
  else order.foldlM (fun out t => do
    let img ← limited W g res ratio bx by_ bz (block threads t ps)
    addLayers res (res / ratio) out img) (fun _ => 0)

end Verif.Scatter
