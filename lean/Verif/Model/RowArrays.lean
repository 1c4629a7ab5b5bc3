import Verif.Model.OrderedSlices

/-!
# Model of partial reads of arrays with several columns (swiftsimio/accelerated.py, reader.py, subset_writer.py)

In `Verif/Model/Accel.lean` a row is one value. Here a row is an array: a dataset of shape `(N, c, ...)` has `N` rows of the shape
`(c, ...)`, and a row is the list of its values in the order of the file. The selector of columns and the shapes of buffers are
those of the code; how h5py fits a selection into a buffer of another shape is modelled from its documentation
(`Selection.broadcast` and `Selection.expand_shape` of h5py 3).
-/

namespace Verif.RowArrays
open Verif Verif.Accel

/-- A dataset or array: the shape of a row and the rows. -/
structure Arr (α : Type) where
  rowShape : List Nat
  rows : List (List α)
  deriving DecidableEq, Repr

section
variable {α : Type}

/-- The shape of a row of `handle[a:b, columns]`, or of `handle[a:b]` if the dataset has one dimension (`columns` is then not
used), accelerated.py:156-160. `none` is `np.s_[:]`. A column that does not exist is an IndexError of h5py. -/
def partShape : List Nat → Option Nat → Except Err (List Nat)
  | [], _ => .ok []
  | c :: rest, none => .ok (c :: rest)
  | c :: rest, some k => if k < c then .ok rest else .error .index

/-- The values of a row of this selection. -/
def partRow : List Nat → Option Nat → List α → List α
  | _ :: rest, some k, row => (row.drop (k * rest.prod)).take rest.prod
  | _, _, row => row

/-- `Selection.expand_shape` of h5py for a selection without dropped dimensions, both shapes reversed: the dimensions of the source
are matched from the last to the first; a dimension of the source may be 1, and what is left over must be 1. -/
def expandRev : List Nat → List Nat → Except Err (List Nat)
  | [], src => if src.any (fun t => t > 1) then .error .typeErr else .ok []
  | _ :: cs, [] => (expandRev cs []).map (fun l => 1 :: l)
  | c :: cs, t :: ts => if t = 1 ∨ c = t then (expandRev cs ts).map (fun l => t :: l) else .error .typeErr

/-- `Selection.broadcast` of h5py with `Dataset.read_direct`: the values of the source, an array of the shape `t0 :: trow`, are
repeated over `n` rows of the shape `drow`. -/
def spread (n : Nat) (drow : List Nat) (t0 : Nat) (trow : List Nat) (vs : List α) : List (List (Option α)) :=
  (List.range n).map fun i => (List.range drow.prod).map fun j => vs[i % t0 * trow.prod + j % trow.prod]?

/-- `handle.read_direct(output, source_sel, dest_sel)`, accelerated.py:155-166 and 399-413: `drow` is the shape of a row of the
buffer. A dimension of size zero makes h5py divide by zero, an ArithmeticError. -/
def readDirect (d : Arr α) (col : Option Nat) (drow : List Nat) (buf : List (List (Option α))) (r : Rng) (pos : Nat) :
    Except Err (List (List (Option α))) :=
  if 0 ≤ r.1 ∧ r.1 ≤ r.2 ∧ r.2 ≤ (d.rows.length : Int) then do
    let n := (r.2 - r.1).toNat
    let s ← partShape d.rowShape col
    let t ← expandRev (n :: drow).reverse (n :: s).reverse
    match t.reverse with
    | [] => .error .runtime
    | t0 :: trow =>
      if 0 ∈ t0 :: trow then .error .runtime
      else writeAt buf pos (spread n drow t0 trow (((d.rows.drop r.1.toNat).take n).flatMap (partRow d.rowShape col)))
  else .error .index

/-- The loop shared by accelerated.py:150-168 and 396-417. -/
def readLoop (d : Arr α) (col : Option Nat) (drow : List Nat) : List Rng → Nat → List (List (Option α)) →
    Except Err (List (List (Option α)))
  | [], _, buf => .ok buf
  | r :: rs, already, buf =>
    if r.2 = r.1 then readLoop d col drow rs already buf
    else do
      let buf' ← readDirect d col drow buf r already
      readLoop d col drow rs (already + (r.2 - r.1).toNat) buf'

/-- `np.empty`: rows without values. -/
def empty (n : Nat) (drow : List Nat) : List (List (Option α)) := List.replicate n (List.replicate drow.prod none)

/-- `read_ranges_from_file_unchunked`, accelerated.py:104-170, with `output_shape = size :: drow`. -/
def readUnchunked (d : Arr α) (col : Option Nat) (rs : List Rng) (size : Nat) (drow : List Nat) :
    Except Err (List (List (Option α))) :=
  readLoop d col drow rs 0 (empty size drow)

/-- `(chunk_range_size, output_shape[1])`, or a number if there is no such element, accelerated.py:388-392: the shape of a row of the
buffer. -/
def chunkRow : List Nat → List Nat
  | [] => []
  | w :: _ => [w]

/-- `read_ranges_from_file_chunked`, accelerated.py:344-426. -/
def readChunked (d : Arr α) (col : Option Nat) (c : Int) (rs : List Rng) (drow : List Nat) : Except Err (List (List (Option α))) := do
  let chunks := getChunkRanges rs c (d.rows.length : Int)
  let size := (chunks.map (fun b => b.2 - b.1)).sum
  let buf ← readLoop d col (chunkRow drow) chunks 0 (empty size.toNat (chunkRow drow))
  extractRanges buf chunks rs

/-- `handle.request_slices(slices, dest=output)`, accelerated.py:469-474: the shape has to be that of the buffer. -/
def fetch (d : Arr α) (col : Option Nat) (slices : List Rng) (size : Nat) (drow : List Nat) : Except Err (List (List (Option α))) :=
  if slices.length > 0 then
    if serverAccepts (d.rows.length : Int) slices then do
      let s ← partShape d.rowShape col
      let rows := slices.flatMap (fun r => (((d.rows.drop r.1.toNat).take (r.2 - r.1).toNat).map (partRow d.rowShape col)).map (List.map some))
      if rows.length = size ∧ s = drow then .ok rows else .error .value
    else .error .value
  else .ok (empty size drow)

/-- `read_ranges_from_hdfstream`, accelerated.py:429-481. -/
def readStream (d : Arr α) (col : Option Nat) (rs : List Rng) (size : Nat) (drow : List Nat) : Except Err (List (List (Option α))) := do
  let os ← mkOrderedSlices rs
  let out ← fetch d col os.slices size drow
  reorderResult os out

/-- `read_ranges_from_file`, accelerated.py:484-539; the result is an array with rows of the shape of the buffer. -/
def readRanges (lay : Layout) (d : Arr α) (col : Option Nat) (rs : List Rng) (size : Nat) (drow : List Nat) :
    Except Err (Arr (Option α)) :=
  match lay with
  | .remote => (readStream d col rs size drow).map fun l => ⟨drow, l⟩
  | .contiguous => (readUnchunked d col rs size drow).map fun l => ⟨drow, l⟩
  | .chunked c =>
    if meanBelow rs 500000 then (readChunked d col (c : Int) rs drow).map fun l => ⟨chunkRow drow, l⟩
    else (readUnchunked d col rs size drow).map fun l => ⟨drow, l⟩

/-- `output_shape` of the getter without the first element, reader.py:138-144. -/
def getterRow (rowShape : List Nat) (col : Option Nat) : List Nat :=
  match rowShape, col with
  | c :: _, none => [c]
  | _, _ => []

/-- What a field or a named column of a dataset with a mask is, reader.py:136-155: `rs` and `size` are those of the mask. -/
def masked (lay : Layout) (d : Arr α) (col : Option Nat) (rs : List Rng) (size : Nat) : Except Err (Arr (Option α)) :=
  readRanges lay d col rs size (getterRow d.rowShape col)

/-- What it is without a mask, `handle[field][:, columns]` or `handle[field][:]`, reader.py:169-173. -/
def whole (d : Arr α) (col : Option Nat) : Except Err (Arr α) :=
  (partShape d.rowShape col).map fun s => ⟨s, d.rows.map (partRow d.rowShape col)⟩

/-- The dataset that is written into a subset, subset_writer.py:350-369: the shape of the buffer is made of the number of values of
the first row. -/
def subset (lay : Layout) (d : Arr α) (rs : List Rng) (size : Nat) : Except Err (Arr (Option α)) :=
  match d.rows with
  | [] => .error .index
  | _ :: _ => readRanges lay d none rs size (if d.rowShape.prod ≠ 1 then [d.rowShape.prod] else [])

/-- `index_dataset`, accelerated.py:173-197: `handle[0]` raises an IndexError if there are no rows, and the buffer is a list of as many
values as there are indices, whatever the shape of a row is. -/
def indexDataset (lay : Layout) (d : Arr α) (idx : List Int) : Except Err (Arr (Option α)) :=
  match d.rows with
  | [] => .error .index
  | _ :: _ => readRanges lay d none (rangesFromArray idx) idx.length []

end

end Verif.RowArrays
