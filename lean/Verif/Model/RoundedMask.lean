import Verif.Model.Mask

/-!
# Model of the spatial part of `swiftsimio/masks.py` with rounding

The selection of cells of `Verif.Model.CellMask` once more, but the result of every arithmetic operation is rounded by a
function `fl`, as in double precision. Comparisons and `np.where` are exact, and so is `np.abs`. Overflow and NaN are not
modelled: `fl` gives a number for every number.
-/

namespace Verif.RoundedMask
open Verif Verif.Mask

variable {K : Type} [Field K] [LinearOrder K]

/-- masks.py:612-625: the bounds of a region must lie in `[-boxsize / 2, 3 * boxsize / 2]`. -/
def windowOk (fl : K → K) (L lower upper : K) : Bool :=
  !(decide (lower < fl (-L / 2)) || decide (upper < fl (-L / 2)) || decide (lower > fl (fl (3 * L) / 2)) ||
    decide (upper > fl (fl (3 * L) / 2)))

/-- masks.py:629-634: `lower -= boxsize` or `upper += boxsize` for an inverted interval. -/
def normaliseAxis (fl : K → K) (L lower upper : K) : K × K :=
  if upper < lower then
    if lower > fl (L / 2) then (fl (lower - L), upper)
    else if upper < fl (L / 2) then (lower, fl (upper + L))
    else (lower, upper)
  else (lower, upper)

/-- masks.py:642-658: `maxpositions + shift * boxsize > lower` and `minpositions + shift * boxsize < upper` for one of the
three shifts. -/
def axisKeep (fl : K → K) (L lower upper lo hi : K) : Bool :=
  [(-1 : K), 0, 1].any (fun s => decide (fl (hi + fl (s * L)) > lower) && decide (fl (lo + fl (s * L)) < upper))

/-- One pass of the loop over dimensions for one particle type, masks.py:608-659. -/
def axisStep (fl : K → K) (box : Fin 3 → K) (region : Fin 3 → K × K) (cells : List (Cell K)) (mask : List Bool)
    (d : Fin 3) : List Bool :=
  let lower := (region d).1
  let upper := (region d).2
  if |fl (upper - lower)| > box d then mask
  else
    let lu := normaliseAxis fl (box d) lower upper
    maskedAssign mask ((compress mask cells).map (fun c => axisKeep fl (box d) lu.1 lu.2 (c.lo d) (c.hi d)))

/-- The window test for all axes, masks.py:608-625. As in `Verif.Mask.regionOk` it comes before the selection; nothing is
stored before all tests have passed. -/
def regionOk (fl : K → K) (box : Fin 3 → K) (region : Fin 3 → K × K) : Bool :=
  [(0 : Fin 3), 1, 2].all (fun d => windowOk fl (box d) (region d).1 (region d).2)

/-- `_generate_cell_mask` for one particle type and a region that passed the window test, masks.py:598-661. -/
def cellMaskOf (fl : K → K) (box : Fin 3 → K) (region : Fin 3 → K × K) (cells : List (Cell K)) : List Bool :=
  [(0 : Fin 3), 1, 2].foldl (axisStep fl box region cells) (List.replicate cells.length true)

/-- `_generate_cell_mask` for one particle type, masks.py:598-661. -/
def cellMask (fl : K → K) (box : Fin 3 → K) (region : Fin 3 → K × K) (cells : List (Cell K)) :
    Except Err (List Bool) :=
  if regionOk fl box region then .ok (cellMaskOf fl box region cells) else .error .value

/-- Bounding box of a cell, masks.py:339-381, with `centers_values - 0.5 * size` and the like rounded. -/
def boundingBox (fl : K → K) (size : Fin 3 → K) (pad : K) (c : RawCell K) : Cell K :=
  match c.extent with
  | some (mn, mx) =>
    { offset := c.offset, count := c.count
      lo := fun d => if fl (c.centre d - fl (1 / 2 * size d)) < mn d then fl (c.centre d - fl (1 / 2 * size d)) else mn d
      hi := fun d => if fl (c.centre d + fl (1 / 2 * size d)) > mx d then fl (c.centre d + fl (1 / 2 * size d)) else mx d }
  | none =>
    { offset := c.offset, count := c.count
      lo := fun d => fl (c.centre d - fl (fl (pad + 1 / 2) * size d))
      hi := fun d => fl (c.centre d + fl (fl (pad + 1 / 2) * size d)) }

variable {m : Nat}

/-- `constrain_spatial` with the decorator that remembers the kind of constraint, masks.py:38-60 and 742-848. -/
def spatial (fl : K → K) (f : File K m) (s : State m) (region : List (Option (List K))) (union : Bool) :
    State m × Option Err :=
  decorate .spatial (
    match sanitizeRegion f.box region with
    | .error e => (s, some e)
    | .ok reg =>
      if s.constrained = some .spatial ∧ union = true then
        if regionOk fl f.box reg then
          (updateRangeMasks f (withCells s (fun k =>
            List.zipWith (· || ·) (s.cellMask k) (cellMaskOf fl f.box reg (f.cells k)))), none)
        else (s, some .value)
      else if s.constrained = none then
        if regionOk fl f.box reg then
          (updateRangeMasks f (withCells s (fun k => cellMaskOf fl f.box reg (f.cells k))), none)
        else (s, some .value)
      else (s, some .runtime))

/-- A fresh mask after calls of `constrain_spatial(region, union=True)`; a call that raises leaves the mask as it is. -/
def spatials (fl : K → K) (f : File K m) (calls : List (List (Option (List K)))) : State m :=
  calls.foldl (fun s region => (spatial fl f s region true).1) (init f)

end Verif.RoundedMask
