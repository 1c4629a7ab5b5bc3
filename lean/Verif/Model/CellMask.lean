import Verif.Model.Accel
import Mathlib.Algebra.Order.Field.Basic
import Mathlib.Data.Rat.Defs
import Mathlib.Algebra.Order.Ring.Rat
import Mathlib.Algebra.Field.Rat

/-!
# Model of the spatial part of `swiftsimio/masks.py`

Positions are elements of an ordered field `K` (comoving lengths in one unit; unit and frame conversion is the subject
of the cosmo_array model). A coordinate triple is a function on `Fin 3`.
-/

namespace Verif.Mask
open Verif

variable {K : Type} [Field K] [LinearOrder K]

/-- `xs[mask]` for a boolean array `mask`. -/
def compress {β : Type} : List Bool → List β → List β
  | true :: ms, x :: xs => x :: compress ms xs
  | false :: ms, _ :: xs => compress ms xs
  | _, _ => []

/-- `mask[mask] = new` for a boolean array `mask` (masks.py:553, 659). -/
def maskedAssign : List Bool → List Bool → List Bool
  | true :: ms, v :: vs => v :: maskedAssign ms vs
  | true :: ms, [] => true :: ms
  | false :: ms, vs => false :: maskedAssign ms vs
  | [], _ => []

/-- A cell as recorded in the file, for one particle type: rows `[offset, offset+count)`, centre, and the recorded
extents of its particles when the file has them (masks.py:302-337). -/
structure RawCell (K : Type) where
  offset : Int
  count : Int
  centre : Fin 3 → K
  extent : Option ((Fin 3 → K) × (Fin 3 → K))

/-- A cell with the bounding box used for masking. -/
structure Cell (K : Type) where
  offset : Int
  count : Int
  lo : Fin 3 → K
  hi : Fin 3 → K

/-- Bounding box of a cell, masks.py:339-381. With recorded extents the box is the union of the geometric cell and the
extents; otherwise the geometric cell is padded by `pad` cell sizes on both sides. -/
def boundingBox (size : Fin 3 → K) (pad : K) (c : RawCell K) : Cell K :=
  match c.extent with
  | some (mn, mx) =>
    { offset := c.offset, count := c.count
      lo := fun d => if c.centre d - 1 / 2 * size d < mn d then c.centre d - 1 / 2 * size d else mn d
      hi := fun d => if c.centre d + 1 / 2 * size d > mx d then c.centre d + 1 / 2 * size d else mx d }
  | none =>
    { offset := c.offset, count := c.count
      lo := fun d => c.centre d - (pad + 1 / 2) * size d
      hi := fun d => c.centre d + (pad + 1 / 2) * size d }

/-- The padding fraction, masks.py:118-123 and 360-364: `True` means the default 0.1, `False` none; group catalogues
are never padded. -/
inductive Padding (K : Type)
  | flag (b : Bool)
  | frac (x : K)

/-- masks.py:118-123, 360-364. -/
def padCells (groupcat : Bool) (p : Padding K) : K :=
  if groupcat then 0 else
  match p with
  | .flag true => 1 / 10
  | .flag false => 0
  | .frac x => x

/-- masks.py:612-625: the bounds of a region must lie in `[-L/2, 3L/2]`. -/
def windowOk (L lower upper : K) : Bool :=
  !(decide (lower < -L / 2) || decide (upper < -L / 2) || decide (lower > 3 * L / 2) || decide (upper > 3 * L / 2))

/-- masks.py:629-634: an inverted interval is turned into a normal one by shifting one of its ends by the box. -/
def normaliseAxis (L lower upper : K) : K × K :=
  if upper < lower then
    if lower > L / 2 then (lower - L, upper)
    else if upper < L / 2 then (lower, upper + L)
    else (lower, upper)
  else (lower, upper)

/-- masks.py:642-658: the interval intersects one of the three periodic copies of a cell. -/
def axisKeep (L lower upper lo hi : K) : Bool :=
  [(-1 : K), 0, 1].any (fun s => decide (hi + s * L > lower) && decide (lo + s * L < upper))

/-- One pass of the loop over dimensions for one particle type, masks.py:608-659. -/
def axisStep (box : Fin 3 → K) (region : Fin 3 → K × K) (cells : List (Cell K)) (mask : List Bool) (d : Fin 3) :
    List Bool :=
  let lower := (region d).1
  let upper := (region d).2
  if |upper - lower| > box d then mask
  else
    let lu := normaliseAxis (box d) lower upper
    maskedAssign mask ((compress mask cells).map (fun c => axisKeep (box d) lu.1 lu.2 (c.lo d) (c.hi d)))

/-- `_generate_cell_mask` for one particle type and a region that passed the window test, masks.py:598-661. -/
def cellMaskOf (box : Fin 3 → K) (region : Fin 3 → K × K) (cells : List (Cell K)) : List Bool :=
  [(0 : Fin 3), 1, 2].foldl (axisStep box region cells) (List.replicate cells.length true)

/-- One row of a requested region, masks.py:725-733: `None` becomes the full axis. A row is given as a list of numbers so
that a wrong length can be expressed. -/
def sanitizeRow (L : K) : Option (List K) → Except Err (K × K)
  | none => .ok (0, L)
  | some [a, b] => .ok (a, b)
  | some _ => .error .value

/-- `_sanitize_region`, masks.py:725-739: exactly three rows. -/
def sanitizeRegion (box : Fin 3 → K) (region : List (Option (List K))) : Except Err (Fin 3 → K × K) :=
  match region with
  | [rx, ry, rz] => do
    let x ← sanitizeRow (box 0) rx
    let y ← sanitizeRow (box 1) ry
    let z ← sanitizeRow (box 2) rz
    .ok (fun d => if d = 0 then x else if d = 1 then y else z)
  | _ => .error .value

/-- The window test of `_generate_cell_mask` for all axes (masks.py:608-625). In the code the test of an axis follows
the selection along earlier axes; nothing is stored before all tests have passed, so the order does not matter. -/
def regionOk (box : Fin 3 → K) (region : Fin 3 → K × K) : Bool :=
  [(0 : Fin 3), 1, 2].all (fun d => windowOk (box d) (region d).1 (region d).2)

end Verif.Mask
