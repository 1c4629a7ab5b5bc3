import Verif.Model.CellMask
import Verif.Model.OrderedSlices

/-!
# Model of `swiftsimio/masks.py`: the `SWIFTMask` object as a state machine

The mask attributes (`_gas`, `_dark_matter`, ... or the single `_shared`) are indexed by `Fin m`.
-/

namespace Verif.Mask
open Verif Verif.Accel

/-- What a mask sees of a file. `entries` are the mask keys of `update_list` (masks.py:203-224) with the number of rows
and the sorted cells; `group` is `group_mapping` (masks.py:143-170); `field` gives the rows of a quantity in the same
unit and frame as the bounds passed by the user. -/
structure File (K : Type) (m : Nat) where
  box : Fin 3 → K
  rows : Fin m → Nat
  cells : Fin m → List (Cell K)
  homogeneous : Bool
  group : String → Option (Fin m)
  field : String → String → Option (List K)

/-- The last constraint applied, as recorded by the `_constraint` decorator (masks.py:24-50). -/
inductive Kind
  | spatial | property | indices | index
  deriving DecidableEq, Repr

/-- Contents of the mask attributes: `range_mask = True` or `False` (masks.py:116). -/
inductive Rep (m : Nat)
  | ranges (r : Fin m → List Rng)
  | bools (b : Fin m → List Bool)

/-- The state of a `SWIFTMask` that constraint methods read or write. -/
structure State (m : Nat) where
  constrained : Option Kind
  cellMask : Fin m → List Bool
  rep : Rep m
  size : Fin m → Int

variable {K : Type} [Field K] [LinearOrder K] {m : Nat}

/-- The start and stop of a Python slice applied to an array of length `n`. -/
def clipIdx (n : Nat) (i : Int) : Nat :=
  if i < 0 then (i + n).toNat else min i.toNat n

/-- `arr[s:e] = v`. -/
def setSlice (bs : List Bool) (r : Rng) (v : Bool) : List Bool :=
  bs.mapIdx (fun i b => if clipIdx bs.length r.1 ≤ i ∧ i < clipIdx bs.length r.2 then v else b)

/-- `np.where(mask)[0]`. -/
def whereTrue (bs : List Bool) : List Int :=
  (compress bs (List.range bs.length)).map (fun (i : Nat) => (i : Int))

/-- masks.py:674-681: ranges of the selected cells. -/
def cellRanges (cells : List (Cell K)) (mask : List Bool) : List Rng :=
  (compress mask cells).map (fun c => (c.offset, c.count + c.offset))

/-- masks.py:681: `np.sum(counts)`. -/
def cellCount (cells : List (Cell K)) (mask : List Bool) : Int :=
  ((compress mask cells).map (fun c => c.count)).sum

/-- masks.py:684-695: in a boolean mask the rows of unselected cells are cleared. -/
def clearCells (cells : List (Cell K)) (mask : List Bool) (bs : List Bool) : List Bool :=
  (compress (mask.map (fun b => !b)) cells).foldl (fun bs c => setSlice bs (c.offset, c.count + c.offset) false) bs

/-- `_update_range_masks`, masks.py:663-697. -/
def updateRangeMasks (f : File K m) (s : State m) : State m :=
  match s.rep with
  | .ranges _ =>
    { s with rep := .ranges (fun k => cellRanges (f.cells k) (s.cellMask k))
             size := fun k => cellCount (f.cells k) (s.cellMask k) }
  | .bools b => { s with rep := .bools (fun k => clearCells (f.cells k) (s.cellMask k) (b k)) }

/-- The fresh mask, masks.py:116-139: all cells, range representation. -/
def init (f : File K m) : State m :=
  updateRangeMasks f
    { constrained := none
      cellMask := fun k => List.replicate (f.cells k).length true
      rep := .ranges (fun _ => [])
      size := fun _ => 0 }

/-- `SWIFTMask.__init__`, masks.py:95-141: files that do not support masks and partial snapshots are refused. -/
def mkMask (f : File K m) (maskingValid partialSnapshot : Bool) : Except Err (State m) :=
  if !maskingValid then .error .notImpl
  else if partialSnapshot then .error .invalidSnapshot
  else .ok (init f)

/-- `convert_masks_to_bool`, masks.py:873-894 with `_generate_empty_masks(fill_value=False)`, 257-292. -/
def toBool (f : File K m) (s : State m) : State m :=
  match s.rep with
  | .bools _ => s
  | .ranges r =>
    { s with rep := .bools (fun k => (r k).foldl (fun bs rg => setSlice bs rg true) (List.replicate (f.rows k) false))
             size := fun k => (f.rows k : Int) }

/-- `convert_masks_to_ranges`, masks.py:849-871. -/
def toRanges (s : State m) : State m :=
  match s.rep with
  | .ranges _ => s
  | .bools b =>
    { s with rep := .ranges (fun k => rangesFromArray (whereTrue (b k)))
             size := fun k => ((whereTrue (b k)).length : Int) }

/-- The calls a user can make on a mask. -/
inductive Op (K : Type)
  | spatial (region : List (Option (List K))) (union : Bool)
  | property (group quantity : String) (lower upper : K)
  | indices (l : List Int)
  | index (i : Int)
  | toBool
  | toRanges

/-- `self.cell_mask = ...` -/
def withCells (s : State m) (c : Fin m → List Bool) : State m := { s with cellMask := c }

/-- `constrain_spatial`, masks.py:741-847. -/
def spatialBody (f : File K m) (s : State m) (region : List (Option (List K))) (union : Bool) :
    State m × Option Err :=
  match sanitizeRegion f.box region with
  | .error e => (s, some e)
  | .ok reg =>
    if s.constrained = some .spatial ∧ union = true then
      if regionOk f.box reg then
        (updateRangeMasks f (withCells s (fun k =>
          List.zipWith (· || ·) (s.cellMask k) (cellMaskOf f.box reg (f.cells k)))), none)
      else (s, some .value)
    else if s.constrained = none then
      if regionOk f.box reg then
        (updateRangeMasks f (withCells s (fun k => cellMaskOf f.box reg (f.cells k))), none)
      else (s, some .value)
    else (s, some .runtime)

/-- `constrain_property`, masks.py:475-556. The values at the selected rows are taken (`np.take(..., np.where(mask))`),
compared with the bounds and written back into the selected positions. -/
def propertyBody (f : File K m) (s0 : State m) (group quantity : String) (lower upper : K) :
    State m × Option Err :=
  let s := toBool f s0
  match f.group group, f.field group quantity with
  | some k, some vals =>
    match s.rep with
    | .bools b =>
      let data := compress (b k) vals
      let new := data.map (fun v => decide (v > lower) && decide (v ≤ upper))
      ({ s with rep := .bools (fun k' => if k' = k then maskedAssign (b k) new else b k') }, none)
    | .ranges _ => (s, some .typeErr)  -- not reachable: `toBool` returns booleans
  | _, _ => (s, some .key)

/-- `comparison_array[indices] = True`, masks.py:949-950: negative indices count from the end, others out of range
raise. -/
def markIndices (n : Nat) (l : List Int) : List Bool :=
  (List.range n).map (fun (j : Nat) => l.any (fun i => decide (i = (j : Int)) || decide (i + n = (j : Int))))

/-- masks.py:935: `indices[:-1] <= indices[1:]` everywhere. -/
def isSorted : List Int → Bool
  | a :: b :: l => decide (a ≤ b) && isSorted (b :: l)
  | _ => true

/-- masks.py:935-943. -/
def sortIndices (l : List Int) : List Int := if isSorted l then l else l.insertionSort (· ≤ ·)

/-- masks.py:949-953. -/
def andMarked (bs : List Bool) (l : List Int) : List Bool :=
  List.zipWith (· && ·) bs (markIndices bs.length l)

/-- masks.py:949-950 raises for an index outside `[-n, n)`. -/
def indicesFit (n : Nat) (l : List Int) : Bool :=
  l.all (fun i => decide (-(n : Int) ≤ i) && decide (i < n))

/-- `constrain_indices`, masks.py:916-955. The loop over mask attributes stops at the first attribute whose length does
not fit; all attributes have the same length in a homogeneous file, so this is before any attribute is changed. -/
def indicesBody (f : File K m) (s : State m) (l : List Int) : State m × Option Err :=
  if s.constrained ≠ none then (s, some .runtime)
  else if !f.homogeneous then (s, some .runtime)
  else
    match s.rep with
    | .ranges _ =>
      ({ s with rep := .ranges (fun _ => rangesFromArray (sortIndices l)), size := fun _ => (l.length : Int) }, none)
    | .bools b =>
      if (List.finRange m).all (fun k => indicesFit (b k).length l) then
        ({ s with rep := .bools (fun k => andMarked (b k) l) }, none)
      else (s, some .index)

/-- The `_constraint` decorator, masks.py:40-50: the name of the method is recorded only when it did not raise. -/
def decorate (kind : Kind) (r : State m × Option Err) : State m × Option Err :=
  match r with
  | (s, none) => ({ s with constrained := some kind }, none)
  | (s, some e) => (s, some e)

/-- `constrain_index`, masks.py:896-914: it calls the decorated `constrain_indices`. -/
def indexBody (f : File K m) (s : State m) (i : Int) : State m × Option Err :=
  if s.constrained ≠ none then (s, some .runtime) else decorate .indices (indicesBody f s [i])

/-- One call; the second component is the exception raised, if any. -/
def step (f : File K m) (s : State m) : Op K → State m × Option Err
  | .spatial region union => decorate .spatial (spatialBody f s region union)
  | .property g q lo hi => decorate .property (propertyBody f s g q lo hi)
  | .indices l => decorate .indices (indicesBody f s l)
  | .index i => decorate .index (indexBody f s i)
  | .toBool => (toBool f s, none)
  | .toRanges => (toRanges s, none)

/-- A history of calls on a fresh mask; exceptions are caught by the user, who carries on. -/
def run (f : File K m) (ops : List (Op K)) : State m :=
  ops.foldl (fun s op => (step f s op).1) (init f)

/-- Loading a field of key `k` through a mask: `SWIFTDataset.__init__` converts the mask to ranges
(reader.py:726-728), `_generate_datasets` takes the ranges and the advertised size (reader.py:592-593) and the getter
reads them (reader.py:137-156). -/
def load {α : Type} (s : State m) (lay : Layout) (ds : List α) (k : Fin m) : Except Err (List (Option α)) :=
  match (toRanges s).rep with
  | .ranges r => readRanges lay ds (r k) ((toRanges s).size k).toNat
  | .bools _ => .error .typeErr  -- not reachable: `toRanges` returns ranges

/-- The length advertised for key `k` by a dataset made with the mask (reader.py:593). -/
def advertised (s : State m) (k : Fin m) : Int := (toRanges s).size k

end Verif.Mask
