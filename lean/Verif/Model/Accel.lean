import Verif.Model.Basic

/-!
# Model of `swiftsimio/accelerated.py` (row ranges and partial reads)

A dataset is the list of its rows. The optional column selector only acts inside a row; it is modelled in `Verif/Model/RowArrays.lean`
(a row is an opaque value of type `α`). Array dtype and byte order are not modelled here.
-/

namespace Verif.Accel
open Verif

/-- The loop of `ranges_from_array`, accelerated.py:89-101. `start`, `stop` describe the open run,
`out` the closed ones. -/
def rfaLoop : Int → Int → List Int → List Rng → List Rng
  | start, stop, [], out => out ++ [(start, stop + 1)]
  | start, stop, v :: vs, out =>
    if v ≠ stop + 1 then rfaLoop v v vs (out ++ [(start, stop + 1)])
    else rfaLoop start v vs out

/-- `ranges_from_array`, accelerated.py:52-101. -/
def rangesFromArray : List Int → List Rng
  | [] => [(0, 0)]
  | a :: as => rfaLoop a a as []

/-- Assignment to consecutive positions of a preallocated buffer, `buf[d : d+len(vs)] = vs`; refuses to write
outside the buffer. -/
def writeAt {β : Type} (buf : List β) (d : Nat) (vs : List β) : Except Err (List β) :=
  if d + vs.length ≤ buf.length then
    .ok (buf.take d ++ vs ++ buf.drop (d + vs.length))
  else .error .index

/-- The loop of `expand_ranges`, accelerated.py:265-272: `i` is the running write position. A range with
`upper < lower` makes `i` go backwards in the code; here it is refused. -/
def expandLoop : List Rng → Nat → List Int → Except Err (List Int)
  | [], _, out => .ok out
  | b :: bs, i, out =>
    if b.2 < b.1 then .error .index
    else do
      let n := (b.2 - b.1).toNat
      let out' ← writeAt out i ((List.range n).map (fun (j : Nat) => b.1 + (j : Int)))
      expandLoop bs (i + n) out'

/-- `expand_ranges`, accelerated.py:247-274. -/
def expandRanges (rs : List Rng) : Except Err (List Int) :=
  let length := (rs.map (fun b => b.2 - b.1)).sum
  expandLoop rs 0 (List.replicate length.toNat 0)

/-- `handle.read_direct(output, source_sel=start:end, dest_sel=d:d+size)`, accelerated.py:155-166 and 399-415.
`none` in the buffer is an uninitialised element of `np.empty`. h5py clips or wraps a selection that is not inside
the dataset and then raises because the shapes differ; the model raises directly. -/
def readDirect {α : Type} (ds : List α) (buf : List (Option α)) (r : Rng) (d : Nat) :
    Except Err (List (Option α)) :=
  if 0 ≤ r.1 ∧ r.1 ≤ r.2 ∧ r.2 ≤ (ds.length : Int) then
    writeAt buf d (((ds.drop r.1.toNat).take (r.2 - r.1).toNat).map some)
  else .error .index

/-- The read loop shared by accelerated.py:150-168 and 396-417. -/
def readLoop {α : Type} (ds : List α) : List Rng → Nat → List (Option α) → Except Err (List (Option α))
  | [], _, buf => .ok buf
  | r :: rs, already, buf =>
    if r.2 = r.1 then readLoop ds rs already buf
    else do
      let buf' ← readDirect ds buf r already
      readLoop ds rs (already + (r.2 - r.1).toNat) buf'

/-- `read_ranges_from_file_unchunked`, accelerated.py:104-170. `outSize` is the first element of
`output_shape`. -/
def readUnchunked {α : Type} (ds : List α) (rs : List Rng) (outSize : Nat) : Except Err (List (Option α)) :=
  readLoop ds rs 0 (List.replicate outSize none)

/-- Body of the loop of `get_chunk_ranges`, accelerated.py:222-243. `c` is the chunk size, `n` the length of the
dataset. Python's `//` is floor division, which is `/` on `Int` for a positive divisor. -/
def chunkStep (c n : Int) (acc : List Rng) (b : Rng) : List Rng :=
  let lower := b.1 / c * c
  let upper := min (-((-b.2) / c) * c) n
  match acc.getLast? with
  | some last =>
    if lower > last.2 then acc ++ [(lower, upper)]
    else acc.dropLast ++ [(last.1, upper)]
  | none => acc ++ [(lower, upper)]

/-- `get_chunk_ranges`, accelerated.py:200-244. -/
def getChunkRanges (rs : List Rng) (c n : Int) : List Rng :=
  rs.foldl (chunkStep c n) []

/-- The two-pointer loop of `extract_ranges_from_chunks`, accelerated.py:307-321: for each range the index of the
first chunk range, not before the current one, that contains it. Ranges left over when the chunk ranges run out keep
the initial value 0 of `np.zeros`. `ci` is the index of the head of the chunk list. -/
def assignChunks : Nat → List Rng → List Rng → List Nat
  | _, _, [] => []
  | _, [], _ :: rs => 0 :: rs.map (fun _ => 0)
  | ci, ch :: chs, r :: rs =>
    if ch.1 ≤ r.1 ∧ ch.2 ≥ r.2 then ci :: assignChunks ci (ch :: chs) rs
    else assignChunks (ci + 1) chs (r :: rs)
termination_by _ chs rs => chs.length + rs.length

/-- The adjustment loop, accelerated.py:323-339: `run` is `running_sum`. The last range is treated after the loop
(`chunk_array_index[-1]`, an IndexError when there is no range). -/
def adjustRanges (chunks : List Rng) : List Nat → List Rng → Int → Except Err (List Rng)
  | [i], [r], run =>
    match chunks[i]? with
    | some ch => let off := ch.1 - run; .ok [(r.1 - off, r.2 - off)]
    | none => .error .index
  | i :: j :: is, r :: rs, run =>
    match chunks[i]? with
    | some ch => do
      let off := ch.1 - run
      let rest ← adjustRanges chunks (j :: is) rs (if j > i then run + (ch.2 - ch.1) else run)
      .ok ((r.1 - off, r.2 - off) :: rest)
    | none => .error .index
  | _, _, _ => .error .index

/-- Integer-array indexing `array[idx]`, accelerated.py:341. Compiled code does not check bounds; the model raises
for any index outside `[0, len)`. -/
def gather {β : Type} (arr : List β) : List Int → Except Err (List β)
  | [] => .ok []
  | i :: is =>
    if i < 0 then .error .index
    else match arr[i.toNat]? with
      | some v => do let vs ← gather arr is; .ok (v :: vs)
      | none => .error .index

/-- `extract_ranges_from_chunks`, accelerated.py:277-341. -/
def extractRanges {β : Type} (arr : List β) (chunks rs : List Rng) : Except Err (List β) := do
  let adj ← adjustRanges chunks (assignChunks 0 chunks rs) rs 0
  let idx ← expandRanges adj
  gather arr idx

/-- `read_ranges_from_file_chunked`, accelerated.py:344-426. The buffer length is `np.diff(chunk_ranges).sum()`;
the caller's output size is not used. -/
def readChunked {α : Type} (ds : List α) (c : Int) (rs : List Rng) : Except Err (List (Option α)) := do
  let chunks := getChunkRanges rs c (ds.length : Int)
  let size := (chunks.map (fun b => b.2 - b.1)).sum
  let buf ← readLoop ds chunks 0 (List.replicate size.toNat none)
  extractRanges buf chunks rs

end Verif.Accel
