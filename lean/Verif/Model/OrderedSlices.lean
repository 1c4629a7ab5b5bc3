import Verif.Model.Accel
import Mathlib.Data.List.Sort

/-!
# Model of `swiftsimio/_ordered_slices.py` and of the remote read in `accelerated.py`
-/

namespace Verif.Accel
open Verif

/-- `np.argsort` of a list of integers: the positions in the order that sorts the values. (The default algorithm of
NumPy is not stable; positions with equal values only occur for overlapping ranges, which are refused afterwards.) -/
def argsort (xs : List Int) : List Nat :=
  (xs.zipIdx.insertionSort (fun a b => a.1 ≤ b.1)).map (·.2)

/-- `a[1:, 0] < a[:-1, 1]` for some neighbouring pair: used twice, _ordered_slices.py:40 and 50. -/
def anyOverlap : List Rng → Bool
  | a :: b :: rs => decide (b.1 < a.2) || anyOverlap (b :: rs)
  | _ => false

/-- `ordered_start[keep_start]`, _ordered_slices.py:58-59 and 67: the first start and every start that differs from
the previous stop. -/
def keepStarts : List Rng → List Int
  | [] => []
  | a :: rs => a.1 :: go a rs
where
  go : Rng → List Rng → List Int
    | _, [] => []
    | prev, b :: rs => if b.1 ≠ prev.2 then b.1 :: go b rs else go b rs

/-- `ordered_stop[keep_stop]`, _ordered_slices.py:63-64 and 68: every stop that differs from the next start, and the
last stop. -/
def keepStops : List Rng → List Int
  | [] => []
  | [a] => [a.2]
  | a :: b :: rs => if a.2 ≠ b.1 then a.2 :: keepStops (b :: rs) else keepStops (b :: rs)

/-- `inverse_order = np.empty_like(order); inverse_order[order] = np.arange(len(order))`,
_ordered_slices.py:82-84. -/
def inverseOrder (order : List Nat) : List Nat :=
  (order.zipIdx).foldl (fun inv p => inv.set p.1 p.2) (List.replicate order.length 0)

/-- The state of an `OrderedSlices` object, _ordered_slices.py:87-89. -/
structure OrderedSlices where
  slices : List Rng
  inverse : Option (List Nat)
  lengths : List Int
  deriving DecidableEq, Repr

/-- `OrderedSlices.__init__`, _ordered_slices.py:30-89. The argument is the list of rows of the two-column range
array; the column selector is in `Verif/Model/RowArrays.lean`. A range array without rows is always made by `np.array([])`
(masks.py:678-680), which has one dimension only, so `ranges[:, 1]` on line 34 raises IndexError. -/
def mkOrderedSlices (rs0 : List Rng) : Except Err OrderedSlices :=
  if rs0.isEmpty then .error .index else
  let rs := rs0.filter (fun r => decide (r.2 - r.1 > 0))
  let unsorted := anyOverlap rs
  let order := argsort (rs.map (·.1))
  let ordered := if unsorted then order.filterMap (fun i => rs[i]?) else rs
  if anyOverlap ordered then .error .runtime
  else .ok
    { slices := (keepStarts ordered).zip (keepStops ordered)
      inverse := if unsorted then some (inverseOrder order) else none
      lengths := ordered.map (fun r => r.2 - r.1) }

/-- `np.split(arr, np.cumsum(lengths)[:-1])`: pieces of the given lengths, the last one takes what is left. -/
def splitLens {β : Type} : List Nat → List β → List (List β)
  | [], arr => [arr]
  | [_], arr => [arr]
  | n :: m :: ns, arr => arr.take n :: splitLens (m :: ns) (arr.drop n)

/-- `OrderedSlices.reorder_result`, _ordered_slices.py:91-114. -/
def reorderResult {β : Type} (os : OrderedSlices) (arr : List β) : Except Err (List β) :=
  match os.inverse with
  | none => .ok arr
  | some inv =>
    let pieces := splitLens (os.lengths.map Int.toNat) arr
    match inv.mapM (fun i => pieces[i]?) with
    | some ps => .ok ps.flatten
    | none => .error .index

/-- What the server accepts: slices that are inside the dataset and do not go backwards. -/
def serverAccepts (n : Int) : List Rng → Bool
  | [] => true
  | [a] => decide (0 ≤ a.1 ∧ a.1 ≤ a.2 ∧ a.2 ≤ n)
  | a :: b :: rs => decide (0 ≤ a.1 ∧ a.1 ≤ a.2 ∧ a.2 ≤ b.1) && serverAccepts n (b :: rs)

/-- `handle.request_slices(slices, dest=output)`: the server returns the rows of the slices one after the other;
a destination of another size is an error (accelerated.py:466-471). -/
def requestSlices {α : Type} (ds : List α) (slices : List Rng) (outSize : Nat) : Except Err (List (Option α)) :=
  if serverAccepts (ds.length : Int) slices then
    let rows := slices.flatMap (fun r => ((ds.drop r.1.toNat).take (r.2 - r.1).toNat).map some)
    if rows.length = outSize then .ok rows else .error .value
  else .error .value

/-- The conditional request of accelerated.py:469-471. -/
def fetchSlices {α : Type} (ds : List α) (slices : List Rng) (outSize : Nat) : Except Err (List (Option α)) :=
  if slices.length > 0 then requestSlices ds slices outSize else .ok (List.replicate outSize none)

/-- `read_ranges_from_hdfstream`, accelerated.py:429-481. -/
def readStream {α : Type} (ds : List α) (rs : List Rng) (outSize : Nat) : Except Err (List (Option α)) := do
  let os ← mkOrderedSlices rs
  let out ← fetchSlices ds os.slices outSize
  reorderResult os out

/-- How a dataset is stored, which is all that `read_ranges_from_file` looks at. -/
inductive Layout
  | contiguous
  | chunked (c : Nat)
  | remote
  deriving DecidableEq, Repr

/-- `np.diff(ranges).mean() < 5e5`, accelerated.py:524-526. For no range the mean is NaN and the comparison is
false. -/
def meanBelow (rs : List Rng) (cross : Int) : Bool :=
  !rs.isEmpty && decide ((rs.map (fun r => r.2 - r.1)).sum < cross * rs.length)

/-- `read_ranges_from_file`, accelerated.py:484-539. -/
def readRanges {α : Type} (lay : Layout) (ds : List α) (rs : List Rng) (outSize : Nat) :
    Except Err (List (Option α)) :=
  match lay with
  | .remote => readStream ds rs outSize
  | .contiguous => readUnchunked ds rs outSize
  | .chunked c =>
    if meanBelow rs 500000 then readChunked ds (c : Int) rs else readUnchunked ds rs outSize

end Verif.Accel
