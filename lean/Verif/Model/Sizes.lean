import Verif.Model.Cosmo

/-!
# What images take from a dataset (`swiftsimio/visualisation/smoothing_length`, `_vistools.py`)

The attributes of a dataset are given by name. Whether an attribute is there is what `hasattr` finds.
-/

namespace Verif.Sizes
open Verif Verif.Cosmo

/-- The attributes of a particle group that are used for sizes. -/
structure Group where
  volumes : Option Arr
  masses : Option Arr
  densities : Option Arr
  smoothingLengths : Option Arr
  smoothingLength : Option Arr

/-- `np.cbrt`. -/
noncomputable def cubeRoot (x : ℝ) : ℝ := if 0 ≤ x then x ^ (1 / 3 : ℝ) else -((-x) ^ (1 / 3 : ℝ))

/-- `smoothing_length/sph.py` 7-30. -/
def hsmlSph (g : Group) : Except Err Arr :=
  match g.smoothingLengths with
  | some h => .ok h
  | none =>
    match g.smoothingLength with
    | some h => .ok h
    | none => .error .attribute

/-- `smoothing_length/nearest_neighbours.py` 9-34. -/
noncomputable def hsmlNearest (g : Group) : Except Err Arr :=
  match g.volumes with
  | some v => ufunc .cbrt (num1 cubeRoot) [.cosmo v]
  | none =>
    match g.masses, g.densities with
    | some m, some d => do
      let v ← ufunc .divide (num2 (· / ·)) [.cosmo m, .cosmo d]
      ufunc .cbrt (num1 cubeRoot) [.cosmo v]
    | _, _ => hsmlSph g

/-- `backends_get_hsml["histogram"]`, `smoothing_length/__init__.py` 14: an array like the masses, with whatever is in memory. -/
def hsmlHistogram (memory : Nat → ℝ) (g : Group) : Except Err Arr :=
  match g.masses with
  | some m => .ok { m with val := (List.range m.val.length).map memory }
  | none => .error .attribute

/-- The sizes a slice uses (slice.py 108). Other names are not in the table, or there is no slice for them (`histogram`). -/
noncomputable def sliceSizes (backend : List Char) (g : Group) : Except Err Arr :=
  if backend = "sph".toList then hsmlSph g
  else if backend = "nearest_neighbours".toList then hsmlNearest g
  else .error .key

/-- The sizes a projection uses (projection.py 105). -/
noncomputable def projectSizes (backend : List Char) (memory : Nat → ℝ) (g : Group) : Except Err Arr :=
  if backend = "histogram".toList then hsmlHistogram memory g else hsmlSph g

/-- `field_name.split(".")`. -/
def splitDots : List Char → List (List Char)
  | [] => [[]]
  | c :: s =>
    if c = '.' then [] :: splitDots s
    else
      match splitDots s with
      | [] => [[c]]
      | w :: ws => (c :: w) :: ws

/-- `_get_projection_field`, `_vistools.py` 12-34, for objects of any kind with `getattr` and `np.ones_like`. -/
def projectionField {O : Type} (getattr : O → List Char → Except Err O) (onesLike : O → O) (data : O) : Option (List Char) → Except Err O
  | none => do
    let ids ← getattr data "particle_ids".toList
    return onesLike ids
  | some name => (splitDots name).foldlM getattr data

end Verif.Sizes
