import Verif.Model.Mask
import Verif.Model.Frame

/-!
# Images of data that were loaded through a mask

`load(filename, mask=mask)` followed by `project_gas`, `slice_gas` or `render_gas` (`swiftsimio/__init__.py` 145-165,
`visualisation/projection.py` 165-262, `visualisation/slice.py` 157-255, `visualisation/volume_render.py` 138-225). The reader
reads every field of the particles from its own dataset with the ranges of the mask; the fields meet in the image.
-/

namespace Verif.MaskedImage
open Verif Verif.Accel Verif.Mask Verif.Scatter Verif.Frame

section
variable {K : Type}

/-- The datasets an image is made of, one row for each particle: coordinates, the field that is drawn, smoothing lengths, and
the array `mask` of the image function (`projection.py` 103-149). -/
structure Fields (K : Type) where
  xs : List (K × K × K)
  ms : List K
  hs : List K
  flags : List Bool

/-- The arrays side by side (`projection.py` 131-149). -/
def assemble (F : Fields K) : List (Part K × Bool) :=
  List.zipWith (fun (x : K × K × K) (r : K × K × Bool) => ({ x := x.1, y := x.2.1, z := x.2.2, m := r.1, h := r.2.1 }, r.2.2)) F.xs
    (List.zipWith (fun (m : K) (r : K × Bool) => (m, r)) F.ms (List.zipWith (fun (h : K) (b : Bool) => (h, b)) F.hs F.flags))

variable [Field K] [LinearOrder K] [FloorRing K] {m : Nat}

/-- Reading the four datasets through a mask (`reader.py` 137-156), each with the layout it has in the file. Rows that the
reader leaves unwritten would be left out here; C07 shows that there are none. -/
def loadFields (s : State m) (lay : Fin 4 → Layout) (F : Fields K) (k : Fin m) : Except Err (Fields K) := do
  let xs ← load s (lay 0) F.xs k
  let ms ← load s (lay 1) F.ms k
  let hs ← load s (lay 2) F.hs k
  let flags ← load s (lay 3) F.flags k
  return { xs := xs.filterMap id, ms := ms.filterMap id, hs := hs.filterMap id, flags := flags.filterMap id }

/-- The box of the file as the image functions read it from the metadata (`projection.py` 103-110). -/
def boxOf (f : File K m) : K × K × K := (f.box 0, f.box 1, f.box 2)

/-- `project_gas(load(filename, mask=mask), region=region, mask=flags)` (`projection.py` 103-162 and 165-262). -/
def projectMasked (scatter : Nat → K → K → List (Part K) → Except Err (Int × Int → K)) (f : File K m) (ops : List (Op K))
    (lay : Fin 4 → Layout) (F : Fields K) (k : Fin m) (region : Option (List K)) (periodic : Bool) (res : Nat) :
    Except Err (Grid K) := do
  let G ← loadFields (run f ops) lay F k
  project scatter (boxOf f) region periodic true res (assemble G)

/-- `slice_gas` of masked data (`slice.py` 104-154 and 157-255). -/
def sliceMasked (scatter : K → Nat → Nat → K → K → K → List (Part K) → Except Err (Int × Int → K)) (f : File K m)
    (ops : List (Op K)) (lay : Fin 4 → Layout) (F : Fields K) (k : Fin m) (region : Option (List K)) (zs : K) (periodic : Bool)
    (res : Nat) : Except Err (Grid K) := do
  let G ← loadFields (run f ops) lay F k
  sliceGrid scatter (boxOf f) region zs periodic true res (assemble G)

/-- `render_gas` of masked data (`volume_render.py` 103-135 and 138-225). -/
def renderMasked (scatter : Nat → K → K → K → List (Part K) → Except Err (Int × Int × Int → K)) (f : File K m)
    (ops : List (Op K)) (lay : Fin 4 → Layout) (F : Fields K) (k : Fin m) (region : Option (List K)) (periodic : Bool)
    (res : Nat) : Except Err (Int × Int × Int → K) := do
  let G ← loadFields (run f ops) lay F k
  renderGrid scatter (boxOf f) region periodic true res (assemble G)

end

end Verif.MaskedImage
