import Mathlib.Algebra.Order.Group.Abs
import Mathlib.Algebra.Order.Round
import Verif.Model.Scatter

/-!
# From a region of the box to the unit square (`swiftsimio/visualisation`)

The front ends of the projection, the slice and the render. All lengths are in the frame and the unit of the coordinates
(`_vistools.py` 66-74 converts the box and the region; conversion is `Verif.Model.Cosmo`). There is no rotation: a
rotation is refused for periodic images and otherwise acts on the coordinates before everything else.
-/

namespace Verif.Frame
open Verif Verif.Scatter

section
variable {K : Type} [Field K] [LinearOrder K] [FloorRing K]

/-- `a % b` of Python and numpy for `b > 0`. -/
def pmod (a b : K) : K := a - b * ⌊a / b⌋

/-- `np.isclose(a, b)` with its default tolerances. -/
def isclose (a b : K) : Prop := |a - b| ≤ 1 / 10 ^ 8 + 1 / 10 ^ 5 * |b|

instance (a b : K) : Decidable (isclose a b) := inferInstanceAs (Decidable (_ ≤ _))

/-- The dictionary returned by `_get_region_info`. -/
structure Info (K : Type) where
  xMin : K
  yMin : K
  zMin : K
  zMax : K
  xRange : K
  yRange : K
  zRange : K
  maxRange : K
  includesZ : Bool
  boxX : K
  boxY : K
  boxZ : K

/-- `_get_region_info` after the limits have been unpacked (`_vistools.py` 90-121). -/
def infoOf (box : K × K × K) (xMin xMax yMin yMax zMin zMax : K) (includesZ requireCubic periodic : Bool) :
    Except Err (Info K) :=
  let xr := xMax - xMin
  let yr := yMax - yMin
  let zr := zMax - zMin
  let R := max xr yr
  if requireCubic && !(decide (isclose xr yr) && decide (isclose xr zr)) then .error .attribute
  else .ok { xMin := xMin, yMin := yMin, zMin := zMin, zMax := zMax, xRange := xr, yRange := yr, zRange := zr,
             maxRange := R, includesZ := includesZ,
             boxX := if periodic then box.1 / R else 0, boxY := if periodic then box.2.1 / R else 0,
             boxZ := if periodic then box.2.2 / R else 0 }

/-- `_get_region_info` (`_vistools.py` 35-121): four or six limits; fewer than four cannot be unpacked, the depth of any
other number of limits is not used. -/
def regionInfo (box : K × K × K) (region : Option (List K)) (requireCubic periodic : Bool) : Except Err (Info K) :=
  match region with
  | none => infoOf box 0 box.1 0 box.2.1 0 box.2.2 false requireCubic periodic
  | some [x0, x1, y0, y1, z0, z1] => infoOf box x0 x1 y0 y1 z0 z1 true requireCubic periodic
  | some (x0 :: x1 :: y0 :: y1 :: _) => infoOf box x0 x1 y0 y1 0 box.2.2 false requireCubic periodic
  | some _ => .error .value

/-- `_get_rotated_and_wrapped_coordinates` without rotation (`_vistools.py` 154-172). -/
def wrapped (box : K × K × K) (periodic : Bool) (p : Part K) : Part K :=
  if periodic then { p with x := pmod p.x box.1, y := pmod p.y box.2.1, z := pmod p.z box.2.2 } else p

/-- The depth selection for one particle (`projection.py` 111-131). -/
def inDepth (Lz : K) (info : Info K) (periodic : Bool) (z : K) : Bool :=
  if periodic then
    if pmod info.zMax Lz ≤ pmod info.zMin Lz then
      decide (z ≤ pmod info.zMax Lz) || decide (z ≥ pmod info.zMin Lz)
    else decide (z ≤ pmod info.zMax Lz) && decide (z ≥ pmod info.zMin Lz)
  else decide (z ≤ info.zMax) && decide (z ≥ info.zMin)

/-- The mask of `project_pixel_grid` (`projection.py` 109-132): every particle comes with the value of the mask given by
the user. -/
def select (Lz : K) (info : Info K) (periodic : Bool) (ps : List (Part K × Bool)) : Except Err (List (Part K)) :=
  if info.includesZ then
    if periodic && decide (info.zRange > Lz) then .error .value
    else .ok ((ps.filter fun p => p.2 && inDepth Lz info periodic p.1.z).map Prod.fst)
  else .ok ((ps.filter fun p => p.2).map Prod.fst)

/-- Position and size relative to the image (`projection.py` 134-148). -/
def normed (info : Info K) (periodic : Bool) (p : Part K) : Part K :=
  let x := (p.x - info.xMin) / info.maxRange
  let y := (p.y - info.yMin) / info.maxRange
  { x := if periodic then pmod x info.boxX else x
    y := if periodic then pmod y info.boxY else y
    z := p.z
    m := p.m
    h := p.h / info.maxRange }

/-- `int(np.ceil(resolution * (range / max_range)))` (`projection.py` 153-159, `slice.py` 120-121). -/
def trimmed (res : Nat) (range R : K) : Nat := ⌈(res : K) * (range / R)⌉.toNat

/-- Result of a front end: the number of pixels along the axes and the pixels. -/
structure Grid (K : Type) where
  nx : Nat
  ny : Nat
  img : Int × Int → K

/-- `project_pixel_grid` (`projection.py` 103-162) with a backend `scatter`. `framed` says that the projected field is
known to be comoving or physical; otherwise nothing is divided by the area (`_vistools.py` 247-248). Regions with a
negative extent are not meaningful here: numpy would then count the trimmed size from the other end. -/
def project (scatter : Nat → K → K → List (Part K) → Except Err (Int × Int → K)) (box : K × K × K)
    (region : Option (List K)) (periodic framed : Bool) (res : Nat) (ps : List (Part K × Bool)) : Except Err (Grid K) := do
  let info ← regionInfo box region false periodic
  let sel ← select box.2.2 info periodic (ps.map fun p => (wrapped box periodic p.1, p.2))
  let img ← scatter res info.boxX info.boxY (sel.map (normed info periodic))
  let norm := if framed then info.xRange * info.yRange else 1
  return { nx := trimmed res info.xRange info.maxRange
           ny := trimmed res info.yRange info.maxRange
           img := fun q => img q / norm }

/-- Position and size relative to the image of a slice (`slice.py` 123-150). -/
def normedSlice (info : Info K) (periodic : Bool) (p : Part K) : Part K :=
  let q := normed info periodic p
  let z := p.z / info.maxRange
  { q with z := if periodic then pmod z info.boxZ else z }

/-- `slice_pixel_grid` (`slice.py` 104-154) with a backend; `zs` is `z_slice + z_center`. -/
def sliceGrid (scatter : K → Nat → Nat → K → K → K → List (Part K) → Except Err (Int × Int → K)) (box : K × K × K)
    (region : Option (List K)) (zs : K) (periodic framed : Bool) (res : Nat) (ps : List (Part K × Bool)) :
    Except Err (Grid K) := do
  let info ← regionInfo box region false periodic
  let nx := trimmed res info.xRange info.maxRange
  let ny := trimmed res info.yRange info.maxRange
  let sel := ((ps.filter fun p => p.2).map Prod.fst).map (wrapped box periodic)
  let z := zs / info.maxRange
  let img ← scatter (if periodic then pmod z info.boxZ else z) nx ny info.boxX info.boxY info.boxZ
    (sel.map (normedSlice info periodic))
  let norm := if framed then info.maxRange ^ 3 else 1
  return { nx := nx, ny := ny, img := fun q => img q / norm }

/-- Position and size relative to the grid of a render (`volume_render.py` 111-130). -/
def normedVolume (info : Info K) (periodic : Bool) (p : Part K) : Part K :=
  let x := (p.x - info.xMin) / info.xRange
  let y := (p.y - info.yMin) / info.yRange
  let z := (p.z - info.zMin) / info.zRange
  { x := if periodic then pmod x info.boxX else x
    y := if periodic then pmod y info.boxY else y
    z := if periodic then pmod z info.boxZ else z
    m := p.m
    h := p.h / info.xRange }

/-- `render_voxel_grid` (`volume_render.py` 103-135) with a backend. -/
def renderGrid (scatter : Nat → K → K → K → List (Part K) → Except Err (Int × Int × Int → K)) (box : K × K × K)
    (region : Option (List K)) (periodic framed : Bool) (res : Nat) (ps : List (Part K × Bool)) :
    Except Err (Int × Int × Int → K) := do
  let info ← regionInfo box region true periodic
  let sel := ((ps.filter fun p => p.2).map Prod.fst).map (wrapped box periodic)
  let img ← scatter res info.boxX info.boxY info.boxZ (sel.map (normedVolume info periodic))
  let norm := if framed then info.xRange * info.yRange * info.zRange else 1
  return fun q => img q / norm

end

end Verif.Frame
