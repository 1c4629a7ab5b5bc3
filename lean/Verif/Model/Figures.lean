import Verif.Model.CmapsHsv
import Verif.Model.VolumeVis

/-!
# The figures of the tools (`swiftsimio/visualisation/tools/cmaps.py` 110-171, `swiftsimio/visualisation/volume_render.py` 342-390)

Axes are the list of what was drawn on them, oldest first. What matplotlib does with it is not modelled. A call that raises keeps what
was drawn before. Numbers are real; a height that is not a number is `none`. Coordinates are pairs.
-/

namespace Verif.Figures
open Verif Verif.Cmaps

/-- A call of a method of axes. -/
inductive Draw
  /-- `imshow(grid, origin="lower", extent=[0, 1, 0, 1])`: rows and columns of the grid and the grid. -/
  | image (rows columns : Nat) (grid : Int → Int → Color)
  | xlabel (text : String)
  | ylabel (text : String)
  /-- `scatter(x, y, color=color, edgecolor="white")`. -/
  | point (x y : ℝ) (color : List ℝ)
  /-- `axvline(x, color=color, linestyle="--")`. -/
  | line (x : ℝ) (color : VolumeVis.Color)
  /-- `plot(xs, ys, color=color)`. -/
  | curve (xs : List ℝ) (ys : List (Option ℝ)) (color : VolumeVis.Color)

/-- `colors` and `coordinates` of a map, `None` for maps from images (112-114). -/
structure Anchors where
  colors : Option (List (List ℝ))
  coordinates : Option (List (ℝ × ℝ))

/-- The loop over the anchors (166-169): what is drawn, and how it ends. -/
def points : List (List ℝ × ℝ × ℝ) → List Draw × Except Err Unit
  | [] => ([], .ok ())
  | (color, x, y) :: rest =>
    match ensureRgba color with
    | .error e => ([], .error e)
    | .ok rgba => (.point x y rgba :: (points rest).1, (points rest).2)

/-- The points of a map (165-169); `zip` of `None` is a TypeError. -/
def markers (a : Anchors) : List Draw × Except Err Unit :=
  match a.colors with
  | none => ([], .ok ())
  | some cs =>
    match a.coordinates with
    | none => ([], .error .typeErr)
    | some ps => points (cs.zip ps)

/-- `plot` (149-171) of a map whose grid has `rows` rows and `columns` columns: the map after it, what is drawn, and how it ends. -/
def plot (rows columns : Nat) (generate : Anchors → Except Err (Int → Int → Color)) (m : Cmap Anchors) (includePoints : Bool) :
    Cmap Anchors × List Draw × Except Err Unit :=
  match (m.grid generate).1 with
  | .error e => ((m.grid generate).2, [], .error e)
  | .ok g =>
    let first := [Draw.image rows columns g, .xlabel "Horizontal Value (first index)", .ylabel "Vertical Value (second index)"]
    let p := if includePoints then markers m.source else ([], .ok ())
    ((m.grid generate).2, first ++ p.1, p.2)

/-- `__call__` (173-208) of a map: the map after it and the colours. -/
noncomputable def apply (rows columns : Nat) (generate : Anchors → Except Err (Int → Int → Color)) (junk : Nat → ℝ) (m : Cmap Anchors)
    (horizontal vertical : Input) : Cmap Anchors × Except Err (List Nat × List Color) :=
  match verticalValues junk vertical with
  | .error e => (m, .error e)
  | .ok _ => ((m.grid generate).2, (m.grid generate).1.bind fun g => call rows columns g junk horizontal vertical)

/-- The grid of a `LinearSegmentedCmap2D` (250-286). Without colours or coordinates nothing can be looped over. -/
noncomputable def linearGrid (n : Nat) (a : Anchors) : Except Err (Int → Int → Color) :=
  match a.colors with
  | none => .error .typeErr
  | some cs => (cs.mapM ensureRgba).bind fun rgba =>
    match a.coordinates with
    | none => .error .typeErr
    | some ps => .ok (linearCell n (rgba.zip ps))

/-- The argument `widths` of `visualise_render_options`. -/
inductive WidthArg
  | float (w : ℝ)
  | int (w : Int)
  | list (ws : List ℝ)

/-- `np.linspace(center - 5.0 * width, center + 5.0 * width, 100)` (378). -/
noncomputable def abscissae (center width : ℝ) : List ℝ :=
  (List.range 100).map fun i : Nat =>
    (center - 5 * width) + (i : ℝ) * (((center + 5 * width) - (center - 5 * width)) / 99)

/-- The height of a rendering function (379-382). For a width of zero numpy divides zero by zero. -/
noncomputable def height (center width x : ℝ) : Option ℝ :=
  if width = 0 then none
  else some (Real.exp (-(1 / 2) * ((center - x) / width) ^ 2) / (width * Real.sqrt (2 * Real.pi)))

/-- One turn of the loop (377-388). -/
noncomputable def drawFunction (center width : ℝ) (color : VolumeVis.Color) : List Draw :=
  [.line center color, .curve (abscissae center width) ((abscissae center width).map (height center width)) color]

/-- The loop over centres, widths and colours (377-388): the shortest of the three ends it. -/
noncomputable def drawAll : List ℝ → List ℝ → List VolumeVis.Color → List Draw
  | c :: cs, w :: ws, k :: ks => drawFunction c w k ++ drawAll cs ws ks
  | _, _, _ => []

/-- `visualise_render_options` (342-390): what is drawn on the axes it returns. An integer cannot be zipped. -/
noncomputable def renderOptions (centers : List ℝ) (widths : WidthArg) (cmap : ℝ → VolumeVis.Color) : Except Err (List Draw) :=
  match widths with
  | .float w => .ok (drawAll centers (List.replicate centers.length w) (VolumeVis.colors cmap centers.length))
  | .list ws => .ok (drawAll centers ws (VolumeVis.colors cmap centers.length))
  | .int _ => .error .typeErr

end Verif.Figures
