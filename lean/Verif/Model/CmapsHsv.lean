import Verif.Model.Cmaps

/-!
# Colour maps that mix hues, colour maps from images, and kept grids (`swiftsimio/visualisation/tools/cmaps.py`)

`rgb_to_hsv` and `hsv_to_rgb` are those of matplotlib (`matplotlib/colors.py`), for one colour. Numbers are real. Reading an image is
not modelled: an image is given by its bytes.
-/

namespace Verif.Cmaps
open Verif Verif.Scatter

/-- `matplotlib.colors.rgb_to_hsv`. The hue is set once for each channel that is the largest, so the last of them counts. -/
noncomputable def rgbToHsv (r g b : ℝ) : Except Err (ℝ × ℝ × ℝ) :=
  let top := max r (max g b)
  let low := min r (min g b)
  let delta := top - low
  if 1 < top then .error .value
  else if low < 0 then .error .value
  else
    let s := if 0 < top then delta / top else 0
    let h0 := if r = top ∧ 0 < delta then (g - b) / delta else 0
    let h1 := if g = top ∧ 0 < delta then 2 + (b - r) / delta else h0
    let h2 := if b = top ∧ 0 < delta then 4 + (r - g) / delta else h1
    .ok (Int.fract (h2 / 6), s, top)

/-- `matplotlib.colors.hsv_to_rgb`. The three channels are made with `np.empty_like`: `memory` is what was there. Only the hues
whose sixth is known are written. -/
noncomputable def hsvToRgb (memory : ℝ × ℝ × ℝ) (h s v : ℝ) : ℝ × ℝ × ℝ :=
  let i := trunc (h * 6)
  let f := h * 6 - i
  let p := v * (1 - s)
  let q := v * (1 - s * f)
  let t := v * (1 - s * (1 - f))
  if s = 0 then (v, v, v)
  else if i = 5 then (v, p, q)
  else if i = 4 then (t, p, v)
  else if i = 3 then (p, q, v)
  else if i = 2 then (p, v, t)
  else if i = 1 then (q, v, p)
  else if i % 6 = 0 then (v, t, p)
  else memory

/-- The anchor of a map: hue, saturation, value and opacity (339-342). -/
noncomputable def hsvAnchor (color : List ℝ) : Except Err ((ℝ × ℝ × ℝ) × ℝ) := do
  let rgba ← ensureRgba color
  let hsv ← rgbToHsv (rgba.getD 0 0) (rgba.getD 1 0) (rgba.getD 2 0)
  return (hsv, rgba.getD 3 0)

/-- `LinearSegmentedCmap2DHSV.generate_color_map_grid` (344-381), one cell. Zero over zero gives no number; `hsv_to_rgb` then
writes nothing, as no sixth of the circle has such a hue. -/
noncomputable def hsvCell (n : Nat) (memory : Int → Int → ℝ × ℝ × ℝ) (anchors : List (((ℝ × ℝ × ℝ) × ℝ) × ℝ × ℝ)) (xInd yInd : Int) :
    Color :=
  let X := (yInd : ℝ) / ((n : ℝ) - 1)
  let Y := (xInd : ℝ) / ((n : ℝ) - 1)
  let weights := (anchors.map fun a => weight X Y a.2).sum
  let mean := fun f : ((ℝ × ℝ × ℝ) × ℝ) → ℝ => (anchors.map fun a => f a.1 * weight X Y a.2).sum / (weights * (10001 / 10000))
  if weights = 0 then
    [some (memory xInd yInd).1, some (memory xInd yInd).2.1, some (memory xInd yInd).2.2, none]
  else
    let rgb := hsvToRgb (memory xInd yInd) (mean fun a => a.1.1) (mean fun a => a.1.2.1) (mean fun a => a.1.2.2)
    [some rgb.1, some rgb.2.1, some rgb.2.2, some (mean fun a => a.2)]

/-- The grid of a `LinearSegmentedCmap2DHSV` (318-381). -/
noncomputable def hsvGrid (n : Nat) (memory : Int → Int → ℝ × ℝ × ℝ) (colors : List (List ℝ)) (coordinates : List (ℝ × ℝ)) :
    Except Err (Int → Int → Color) := do
  let values ← colors.mapM hsvAnchor
  return hsvCell n memory (values.zip coordinates)

/-- A `LinearSegmentedCmap2DHSV` applied to data. -/
noncomputable def hues (n : Nat) (memory : Int → Int → ℝ × ℝ × ℝ) (colors : List (List ℝ)) (coordinates : List (ℝ × ℝ)) (junk : Nat → ℝ)
    (horizontal vertical : Input) : Except Err (List Nat × List Color) := do
  let grid ← hsvGrid n memory colors coordinates
  call n n grid junk horizontal vertical

/-- The grid of an `ImageCmap2D` (400-426): bytes over 255. -/
noncomputable def imageGrid (pixels : List (List (List Nat))) (xInd yInd : Int) : Color :=
  ((pixels.getD xInd.toNat []).getD yInd.toNat []).map fun b : Nat => some ((b : ℝ) / 255)

/-- A map: what it is made from, and `_color_map_grid` (110-119). -/
structure Cmap (A : Type) where
  source : A
  kept : Option (Int → Int → Color) := none

/-- `color_map_grid` (133-145): what a use of a map has, and the map after it. -/
def Cmap.grid {A : Type} (generate : A → Except Err (Int → Int → Color)) (m : Cmap A) : Except Err (Int → Int → Color) × Cmap A :=
  match m.kept with
  | some g => (.ok g, m)
  | none =>
    match generate m.source with
    | .ok g => (.ok g, { m with kept := some g })
    | .error e => (.error e, m)

/-- What can be done with a map: set other colours (`colors`, `coordinates` and `filename` are attributes), or use it. -/
inductive Action (A : Type)
  | set (source : A)
  | use

/-- A history of a map: what each use has. -/
def Cmap.history {A : Type} (generate : A → Except Err (Int → Int → Color)) (m : Cmap A) :
    List (Action A) → List (Except Err (Int → Int → Color)) × Cmap A
  | [] => ([], m)
  | .set a :: rest => Cmap.history generate { m with source := a } rest
  | .use :: rest =>
    let u := m.grid generate
    let r := Cmap.history generate u.2 rest
    (u.1 :: r.1, r.2)

end Verif.Cmaps
