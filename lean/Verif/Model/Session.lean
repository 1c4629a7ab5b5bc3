import Verif.Model.Frame

/-!
# Images made one after the other from the same data (`swiftsimio/visualisation`)

The data are the particles that a dataset keeps after they have been read. `_get_rotated_and_wrapped_coordinates`
(`_vistools.py` 124-172) wraps them with `coords %= …`, which writes into the array of the dataset.
-/

namespace Verif.Session
open Verif Verif.Scatter Verif.Frame

section
variable {K : Type} [Field K] [LinearOrder K] [FloorRing K]

/-- The rotation of one particle around a centre, any function of the position (`_vistools.py` 158-167). -/
def turned (r : K × K × K → K × K × K) (p : Part K) : Part K :=
  { p with x := (r (p.x, p.y, p.z)).1, y := (r (p.x, p.y, p.z)).2.1, z := (r (p.x, p.y, p.z)).2.2 }

/-- `_get_rotated_and_wrapped_coordinates` (`_vistools.py` 154-172): the particles of the dataset afterwards and the particles
to be drawn. -/
def coordinates (box : K × K × K) (rotation : Option (K × K × K → K × K × K)) (periodic : Bool) (data : List (Part K)) :
    Except Err (List (Part K) × List (Part K)) :=
  match rotation with
  | some r => if periodic then .error .value else .ok (data, data.map (turned r))
  | none => if periodic then .ok (data.map (wrapped box true), data.map (wrapped box true)) else .ok (data, data)

/-- An image: its region, whether it must be a cube, whether it is periodic, the rotation, and what is done with the selected
particles. -/
structure Shot (K β : Type) where
  region : Option (List K)
  cubic : Bool
  periodic : Bool
  rotation : Option (K × K × K → K × K × K)
  draw : Info K → List (Part K) → Except Err β

/-- Making an image: the data afterwards and the image (`projection.py` 103-108, `slice.py` 106-111, `volume_render.py`
103-108). -/
def shoot {β : Type} (box : K × K × K) (data : List (Part K)) (s : Shot K β) : List (Part K) × Except Err β :=
  match regionInfo box s.region s.cubic s.periodic with
  | .error e => (data, .error e)
  | .ok info => match coordinates box s.rotation s.periodic data with
    | .error e => (data, .error e)
    | .ok (data', coords) => (data', s.draw info coords)

/-- Images made one after the other. -/
def session {β : Type} (box : K × K × K) : List (Part K) → List (Shot K β) → List (Part K) × List (Except Err β)
  | data, [] => (data, [])
  | data, s :: l =>
    let r := shoot box data s
    let rest := session box r.1 l
    (rest.1, r.2 :: rest.2)

/-- `project_pixel_grid` (`projection.py` 103-162). -/
def projectShot (scatter : Nat → K → K → List (Part K) → Except Err (Int × Int → K)) (box : K × K × K)
    (region : Option (List K)) (rotation : Option (K × K × K → K × K × K)) (periodic framed : Bool) (res : Nat) (mask : List Bool) :
    Shot K (Grid K) where
  region := region
  cubic := false
  periodic := periodic
  rotation := rotation
  draw := fun info coords => do
    let sel ← select box.2.2 info periodic (coords.zip mask)
    let img ← scatter res info.boxX info.boxY (sel.map (normed info periodic))
    let norm := if framed then info.xRange * info.yRange else 1
    return { nx := trimmed res info.xRange info.maxRange
             ny := trimmed res info.yRange info.maxRange
             img := fun q => img q / norm }

/-- `slice_pixel_grid` (`slice.py` 104-154). `zs` is `z_slice + z_center`. -/
def sliceShot (scatter : K → Nat → Nat → K → K → K → List (Part K) → Except Err (Int × Int → K)) (region : Option (List K))
    (rotation : Option (K × K × K → K × K × K)) (zs : K) (periodic framed : Bool) (res : Nat) (mask : List Bool) :
    Shot K (Grid K) where
  region := region
  cubic := false
  periodic := periodic
  rotation := rotation
  draw := fun info coords => do
    let nx := trimmed res info.xRange info.maxRange
    let ny := trimmed res info.yRange info.maxRange
    let sel := ((coords.zip mask).filter fun p => p.2).map Prod.fst
    let z := zs / info.maxRange
    let img ← scatter (if periodic then pmod z info.boxZ else z) nx ny info.boxX info.boxY info.boxZ
      (sel.map (normedSlice info periodic))
    let norm := if framed then info.maxRange ^ 3 else 1
    return { nx := nx, ny := ny, img := fun q => img q / norm }

/-- `render_voxel_grid` (`volume_render.py` 103-135). -/
def renderShot (scatter : Nat → K → K → K → List (Part K) → Except Err (Int × Int × Int → K)) (region : Option (List K))
    (rotation : Option (K × K × K → K × K × K)) (periodic framed : Bool) (res : Nat) (mask : List Bool) :
    Shot K (Int × Int × Int → K) where
  region := region
  cubic := true
  periodic := periodic
  rotation := rotation
  draw := fun info coords => do
    let sel := ((coords.zip mask).filter fun p => p.2).map Prod.fst
    let img ← scatter res info.boxX info.boxY info.boxZ (sel.map (normedVolume info periodic))
    let norm := if framed then info.xRange * info.yRange * info.zRange else 1
    return fun q => img q / norm

end

end Verif.Session
