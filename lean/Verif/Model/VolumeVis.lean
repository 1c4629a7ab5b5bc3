import Verif.Model.Basic
import Mathlib.Analysis.SpecialFunctions.Exp
import Mathlib.Analysis.SpecialFunctions.Sqrt
import Mathlib.Analysis.SpecialFunctions.Trigonometric.Basic

/-!
# Model of the colouring of a volume render (swiftsimio/visualisation/volume_render.py:227-339)

Numbers are real. An array is its shape and its values; the values outside the shape are not used. `numba` does not check indices:
a write outside of an array is an IndexError here, as it would be without `numba`, and damages memory in the compiled function. A
ZeroDivisionError is a RuntimeError here. `plt.get_cmap(cmap)` is a function from [0, 1] to colours. `plt.Normalize` is modelled from
its documentation, without masked values and without `clip`. In a list of `Normalize` objects no object occurs twice. `widths` is a
`float` or a list (an `int` is a TypeError).
-/

namespace Verif.VolumeVis
open Verif

/-- A voxel grid. -/
structure Cube where
  (n0 n1 n2 : Nat)
  val : Nat → Nat → Nat → ℝ

/-- An array of two dimensions. -/
structure Grid where
  (n0 n1 : Nat)
  val : Nat → Nat → ℝ

/-- `output[j, i] = v`. -/
noncomputable def Grid.write (g : Grid) (a b : Nat) (v : ℝ) : Except Err Grid :=
  if a < g.n0 ∧ b < g.n1 then .ok { g with val := fun x y => if x = a ∧ y = b then v else g.val x y } else .error .index

/-- The body of the loop over `k` (volume_render.py:254-258). -/
noncomputable def addVoxel (center width out v : ℝ) : Except Err ℝ :=
  if width = 0 then .error .runtime
  else
    let inner := (center - v) / width
    let const := 1 / (width * Real.sqrt (2 * Real.pi))
    let fac := Real.exp (-(1 / 2) * inner * inner)
    .ok (out + fac * const)

/-- The loop over `k` (252-258). -/
noncomputable def sumLine (r : Cube) (center width : ℝ) (i j : Nat) : Except Err ℝ :=
  (List.range r.n2).foldlM (fun out k => addVoxel center width out (r.val i j k)) 0

/-- One turn of the loop over `j` (252-259). -/
noncomputable def voxelStep (r : Cube) (center width : ℝ) (i : Nat) (output : Grid) (j : Nat) : Except Err Grid :=
  (sumLine r center width i j).bind fun out => output.write j i out

/-- One turn of the loop over `i` (251-259). -/
noncomputable def voxelRow (r : Cube) (center width : ℝ) (output : Grid) (i : Nat) : Except Err Grid :=
  (List.range r.n1).foldlM (voxelStep r center width i) output

/-- `render_voxels_to_array` (228-261). -/
noncomputable def renderVoxels (r : Cube) (center width : ℝ) : Except Err Grid :=
  (List.range r.n0).foldlM (voxelRow r center width) ⟨r.n0, r.n1, fun _ _ => 0⟩

/-- A `plt.Normalize` object. -/
structure Norm where
  (vmin vmax : Option ℝ)

/-- The values of an array. -/
def Grid.values (g : Grid) : List ℝ := (List.range g.n0).flatMap fun a => (List.range g.n1).map fun b => g.val a b

/-- `Normalize.autoscale_None` for an array that is not empty. -/
noncomputable def Norm.autoscale (n : Norm) (v : ℝ) (rest : List ℝ) : ℝ × ℝ :=
  (n.vmin.getD (rest.foldl min v), n.vmax.getD (rest.foldl max v))

/-- `Normalize.__call__` for limits that are set. -/
noncomputable def stretch (lo hi : ℝ) (g : Grid) : Except Err Grid :=
  if lo = hi then .ok { g with val := fun _ _ => 0 }
  else if hi < lo then .error .value
  else .ok { g with val := fun a b => (g.val a b - lo) / (hi - lo) }

/-- `n(image)` (323): the object after the call and the image. -/
noncomputable def Norm.call (n : Norm) (g : Grid) : Except Err (Norm × Grid) :=
  match g.values with
  | [] => .ok (n, g)
  | v :: rest =>
    let l := n.autoscale v rest
    (stretch l.1 l.2 g).map fun g' => (⟨some l.1, some l.2⟩, g')

/-- The argument `widths`. -/
inductive Widths
  | one (w : ℝ)
  | list (ws : List ℝ)

/-- 312-313. -/
def Widths.resolve (n : Nat) : Widths → List ℝ
  | .one w => List.replicate n w
  | .list ws => ws

/-- The argument `norm`. -/
inductive NormArg
  | absent
  | one (n : Norm)
  | list (ns : List Norm)

/-- One turn of the comprehension (323). -/
noncomputable def imageOf (r : Cube) (n : Norm) (c w : ℝ) : Except Err (Norm × Grid) :=
  (renderVoxels r c w).bind n.call

/-- 322-325 for a list of objects: the objects after the calls and the images. -/
noncomputable def imagesEach (r : Cube) : List Norm → List ℝ → List ℝ → Except Err (List Norm × List Grid)
  | n :: ns, c :: cs, w :: ws =>
    (imageOf r n c w).bind fun p => (imagesEach r ns cs ws).map fun q => (p.1 :: q.1, p.2 :: q.2)
  | ns, _, _ => .ok (ns, [])

/-- 322-325 for one object that is used by all calls. -/
noncomputable def imagesShared (r : Cube) : Norm → List ℝ → List ℝ → Except Err (Norm × List Grid)
  | n, c :: cs, w :: ws =>
    (imageOf r n c w).bind fun p => (imagesShared r p.1 cs ws).map fun q => (q.1, p.2 :: q.2)
  | n, _, _ => .ok (n, [])

/-- 315-325. -/
noncomputable def images (r : Cube) (centers widths : List ℝ) : NormArg → Except Err (List Norm × List Grid)
  | .absent => imagesEach r (List.replicate centers.length ⟨none, none⟩) centers widths
  | .list ns => imagesEach r ns centers widths
  | .one n => (imagesShared r n centers widths).map fun q => (List.replicate centers.length q.1, q.2)

/-- An image of colours of shape `(n0, n1, 3)`. -/
structure Picture where
  (n0 n1 : Nat)
  val : Nat → Nat → Fin 3 → ℝ

abbrev Color := Fin 3 → ℝ

/-- `np.linspace(0, 1, n)[i]`. -/
noncomputable def node (n i : Nat) : ℝ := (i : ℝ) / ((n : ℝ) - 1)

/-- 320. -/
noncomputable def colors (cmap : ℝ → Color) (n : Nat) : List Color := (List.range n).map fun i => cmap (node n i)

/-- `np.array([color[0] * x, color[1] * x, color[2] * x]).T` (328). -/
def paint (color : Color) (x : Grid) : Picture := ⟨x.n1, x.n0, fun a b c => color c * x.val b a⟩

/-- The argument `return_type`. -/
inductive Kind
  | all | lighten | add | other
  deriving DecidableEq

/-- What is returned beside `norm`; `zero` is the number 0, and `nothing` stands for `None` in place of the pair. -/
inductive Result
  | all (l : List Picture)
  | one (p : Picture)
  | zero
  | nothing

/-- `np.max(images, axis=0)` and `sum(images)` for pictures of one shape. -/
def pixelwise (f : ℝ → ℝ → ℝ) (p q : Picture) : Picture := ⟨p.n0, p.n1, fun a b c => f (p.val a b c) (q.val a b c)⟩

/-- 332-339. -/
noncomputable def combine : Kind → List Picture → Except Err Result
  | .all, l => .ok (.all l)
  | .lighten, [] => .error .value
  | .lighten, p :: l => .ok (.one (l.foldl (pixelwise max) p))
  | .add, [] => .ok .zero
  | .add, p :: l => .ok (.one (l.foldl (pixelwise (· + ·)) p))
  | .other, _ => .ok .nothing

/-- `visualise_render` (264-339). -/
noncomputable def visualise (r : Cube) (centers : List ℝ) (widths : Widths) (cmap : ℝ → Color) (kind : Kind) (norm : NormArg) :
    Except Err (Result × List Norm) :=
  (images r centers (widths.resolve centers.length) norm).bind fun q =>
    (combine kind (List.zipWith paint (colors cmap centers.length) q.2)).map fun p => (p, q.1)

end Verif.VolumeVis
