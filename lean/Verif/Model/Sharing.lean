import Verif.Model.Mask

/-!
# Model of masks and open datasets that share arrays

`Mask.lean` treats the arrays of a mask as values. Here they are objects: `SWIFTMask` keeps references to arrays, some of its
methods write into an array and others put a new array in its place, and the getters of an open dataset keep references to the
arrays that the mask had when the dataset was opened (`swiftsimio/masks.py`, `swiftsimio/reader.py`). All files of a program
have the same number of mask attributes.
-/

namespace Verif.Sharing
open Verif Verif.Accel Verif.Mask

/-- An array of a mask: ranges of rows or one boolean for each row. -/
inductive Buf
  | ranges (l : List Rng)
  | bools (l : List Bool)
  deriving DecidableEq, Repr

/-- All arrays; a reference is a position. -/
abbrev Heap := List Buf

/-- The numbers of an array of ranges; no rows for an array of another kind (`c86_buffers` shows that a mask in the form of
ranges has no such array). -/
def rangesAt (h : Heap) (r : Nat) : List Rng :=
  match h[r]? with
  | some (.ranges l) => l
  | _ => []

/-- The elements of a boolean array, in the same way. -/
def boolsAt (h : Heap) (r : Nat) : List Bool :=
  match h[r]? with
  | some (.bools l) => l
  | _ => []

/-- A `SWIFTMask`, masks.py:95-141: `ref` are the attributes `_gas`, ..., `size` are `_gas_size`, .... -/
structure MaskObj (m : Nat) where
  file : Nat
  constrained : Option Kind
  cellMask : Fin m → List Bool
  rangeMask : Bool
  ref : Fin m → Nat
  size : Fin m → Int

/-- The arrays and one mask. -/
abbrev One (m : Nat) := Heap × MaskObj m

variable {K : Type} [Field K] [LinearOrder K] {m : Nat}

/-- `setattr(self, data_name, new_array)` and `setattr(self, f"{data_name}_size", n)`. -/
def assign (s : One m) (k : Fin m) (b : Buf) (n : Int) : One m :=
  (s.1 ++ [b], { s.2 with ref := fun j => if j = k then s.1.length else s.2.ref j, size := fun j => if j = k then n else s.2.size j })

/-- `getattr(self, data_name)[...] = ...`: the array stays the same object. -/
def overwrite (s : One m) (k : Fin m) (b : Buf) : One m := (s.1.set (s.2.ref k) b, s.2)

/-- One turn of the loop of `_update_range_masks`, masks.py:671-695. -/
def updateKey (f : File K m) (s : One m) (k : Fin m) : One m :=
  if s.2.rangeMask then
    assign s k (.ranges (cellRanges (f.cells k) (s.2.cellMask k))) (cellCount (f.cells k) (s.2.cellMask k))
  else overwrite s k (.bools (clearCells (f.cells k) (s.2.cellMask k) (boolsAt s.1 (s.2.ref k))))

/-- `_update_range_masks`, masks.py:663-697. -/
def updateRangeMasks (f : File K m) (s : One m) : One m := (List.finRange m).foldl (updateKey f) s

/-- `SWIFTMask.__init__`, masks.py:95-141. -/
def newMask (f : File K m) (h : Heap) (file : Nat) : One m :=
  updateRangeMasks f (h, ⟨file, none, fun k => List.replicate (f.cells k).length true, true, fun _ => 0, fun _ => 0⟩)

/-- One turn of the loop of `convert_masks_to_bool`, masks.py:885-891. -/
def boolKey (f : File K m) (s : One m) (k : Fin m) : One m :=
  assign s k (.bools ((rangesAt s.1 (s.2.ref k)).foldl (fun bs rg => setSlice bs rg true) (List.replicate (f.rows k) false)))
    (f.rows k)

/-- `convert_masks_to_bool`, masks.py:873-894. -/
def convertToBool (f : File K m) (s : One m) : One m :=
  if s.2.rangeMask then
    let t := (List.finRange m).foldl (boolKey f) s
    (t.1, { t.2 with rangeMask := false })
  else s

/-- One turn of the loop of `convert_masks_to_ranges`, masks.py:866-869. -/
def rangeKey (s : One m) (k : Fin m) : One m :=
  assign s k (.ranges (rangesFromArray (whereTrue (boolsAt s.1 (s.2.ref k))))) (whereTrue (boolsAt s.1 (s.2.ref k))).length

/-- `convert_masks_to_ranges`, masks.py:849-871. -/
def convertToRanges (s : One m) : One m :=
  if s.2.rangeMask then s
  else
    let t := (List.finRange m).foldl rangeKey s
    (t.1, { t.2 with rangeMask := true })

/-- `self.cell_mask = ...`. -/
def setCells (s : One m) (c : Fin m → List Bool) : One m := (s.1, { s.2 with cellMask := c })

/-- `constrain_spatial`, masks.py:741-847: the dictionary of cell masks is not shared with anything. -/
def spatialCall (f : File K m) (s : One m) (region : List (Option (List K))) (union : Bool) : One m × Option Err :=
  match sanitizeRegion f.box region with
  | .error e => (s, some e)
  | .ok reg =>
    if s.2.constrained = some .spatial ∧ union = true then
      if regionOk f.box reg then
        (updateRangeMasks f (setCells s (fun k =>
          List.zipWith (· || ·) (s.2.cellMask k) (cellMaskOf f.box reg (f.cells k)))), none)
      else (s, some .value)
    else if s.2.constrained = none then
      if regionOk f.box reg then
        (updateRangeMasks f (setCells s (fun k => cellMaskOf f.box reg (f.cells k))), none)
      else (s, some .value)
    else (s, some .runtime)

/-- `constrain_property`, masks.py:507-556: `current_mask[current_mask] = new_mask` writes into the array. -/
def propertyCall (f : File K m) (s0 : One m) (group quantity : String) (lower upper : K) : One m × Option Err :=
  let s := convertToBool f s0
  match f.group group, f.field group quantity with
  | some k, some vals =>
    let current := boolsAt s.1 (s.2.ref k)
    let new := (compress current vals).map (fun v => decide (v > lower) && decide (v ≤ upper))
    (overwrite s k (.bools (maskedAssign current new)), none)
  | _, _ => (s, some .key)

/-- One turn of the loop of `constrain_indices`, masks.py:944-953. -/
def indexKey (l : List Int) (s : One m) (k : Fin m) : One m :=
  if s.2.rangeMask then assign s k (.ranges (rangesFromArray (sortIndices l))) l.length
  else assign s k (.bools (andMarked (boolsAt s.1 (s.2.ref k)) l)) (s.2.size k)

/-- `constrain_indices`, masks.py:916-955; an index that does not fit is found before the loop (all arrays of such files have
one length). -/
def indicesCall (f : File K m) (s : One m) (l : List Int) : One m × Option Err :=
  if s.2.constrained ≠ none then (s, some .runtime)
  else if !f.homogeneous then (s, some .runtime)
  else if !s.2.rangeMask && !((List.finRange m).all (fun k => indicesFit (boolsAt s.1 (s.2.ref k)).length l)) then (s, some .index)
  else ((List.finRange m).foldl (indexKey l) s, none)

/-- The `_constraint` decorator, masks.py:40-50. -/
def record (kind : Kind) (r : One m × Option Err) : One m × Option Err :=
  match r with
  | (s, none) => ((s.1, { s.2 with constrained := some kind }), none)
  | (s, some e) => (s, some e)

/-- `constrain_index`, masks.py:896-914. -/
def indexCall (f : File K m) (s : One m) (i : Int) : One m × Option Err :=
  if s.2.constrained ≠ none then (s, some .runtime) else record .indices (indicesCall f s [i])

/-- One call on a mask. -/
def call (f : File K m) (s : One m) : Op K → One m × Option Err
  | .spatial region union => record .spatial (spatialCall f s region union)
  | .property g q lo hi => record .property (propertyCall f s g q lo hi)
  | .indices l => record .indices (indicesCall f s l)
  | .index i => record .index (indexCall f s i)
  | .toBool => (convertToBool f s, none)
  | .toRanges => (convertToRanges s, none)

/-- An open dataset: the getters of the fields of a group keep the array and the size that the mask had (reader.py:592-621). -/
structure DataObj (m : Nat) where
  file : Nat
  masks : Option (Fin m → Nat × Int)

/-- All arrays, masks and open datasets. -/
structure World (m : Nat) where
  heap : Heap
  masks : List (MaskObj m)
  datas : List (DataObj m)

/-- What a user can do: make a mask, call its methods, open a file with or without a mask, and write into an array of a
mask. -/
inductive Act (K : Type) (m : Nat)
  | newMask (file : Nat)
  | call (i : Nat) (op : Op K)
  | openFile (file : Nat) (i : Option Nat)
  | edit (i : Nat) (k : Fin m) (b : Buf)

/-- A mask that was changed is put back. -/
def World.put (w : World m) (i : Nat) (s : One m) : World m := { w with heap := s.1, masks := w.masks.set i s.2 }

/-- An array written by the user keeps its kind and its length. -/
def fits : Buf → Buf → Bool
  | .ranges l, .ranges l' => l.length == l'.length
  | .bools l, .bools l' => l.length == l'.length
  | _, _ => false

/-- `mask.gas[...] = ...` by the user. -/
def World.edit (w : World m) (r : Nat) (b : Buf) : World m × Option Err :=
  match w.heap[r]? with
  | some a => if fits a b then ({ w with heap := w.heap.set r b }, none) else (w, some .value)
  | none => (w, some .index)

/-- `SWIFTDataset.__init__` with a mask, reader.py:718-783: the mask is converted, then its file is compared; the getters take
the arrays. Two names of one file are not modelled. -/
def World.openWith (w : World m) (file i : Nat) (o : MaskObj m) : World m × Option Err :=
  let s := convertToRanges (w.heap, o)
  if o.file = file then
    ({ w.put i s with datas := w.datas ++ [⟨file, some (fun k => (s.2.ref k, s.2.size k))⟩] }, none)
  else (w.put i s, some .assertion)

/-- One action; exceptions are caught by the user, who carries on. A mask that does not exist is a NameError, here a key
error. -/
def step (files : Nat → File K m) (w : World m) : Act K m → World m × Option Err
  | .newMask file =>
    let s := newMask (files file) w.heap file
    ({ w with heap := s.1, masks := w.masks ++ [s.2] }, none)
  | .call i op => match w.masks[i]? with
    | none => (w, some .key)
    | some o =>
      let r := call (files o.file) (w.heap, o) op
      (w.put i r.1, r.2)
  | .openFile file none => ({ w with datas := w.datas ++ [⟨file, none⟩] }, none)
  | .openFile file (some i) => match w.masks[i]? with
    | none => (w, some .key)
    | some o => w.openWith file i o
  | .edit i k b => match w.masks[i]? with
    | none => (w, some .key)
    | some o => w.edit (o.ref k) b

/-- A program. -/
def run (files : Nat → File K m) (acts : List (Act K m)) : World m :=
  acts.foldl (fun w a => (step files w a).1) ⟨[], [], []⟩

/-- The getter of an open dataset for a field with the rows `ds`, before it is cached (reader.py:125-170): without a mask all
rows are read. -/
def World.read {α : Type} (w : World m) (d : Nat) (lay : Layout) (ds : List α) (k : Fin m) : Except Err (List (Option α)) :=
  match w.datas[d]? with
  | none => .error .index
  | some x => match x.masks with
    | none => .ok (ds.map some)
    | some r => match w.heap[(r k).1]? with
      | some (.ranges l) => readRanges lay ds l (r k).2.toNat
      | _ => .error .typeErr

end Verif.Sharing
