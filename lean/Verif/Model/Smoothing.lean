import Mathlib.Algebra.Order.Field.Basic
import Mathlib.Data.List.Sort
import Verif.Model.Basic

/-!
# Generated smoothing lengths (`swiftsimio/visualisation/smoothing_length/generate.py`)

The tree of `scipy` is modelled by what it returns: for a point, the distances to all particles in increasing order. `none`
stands for infinity. The distance is a parameter (periodic in the box for the code).
-/

namespace Verif.Smoothing
open Verif

/-- `array[s:e] = values` for a one-dimensional array: the slice ends at the end of the array, a single value is broadcast,
and other lengths are refused. -/
def assign {β : Type} (array : List β) (s e : Nat) (values : List β) : Except Err (List β) :=
  let e := min e array.length
  if values.length = e - s then .ok (array.take s ++ values ++ array.drop (max s e))
  else match values with
    | [v] => .ok (array.take s ++ List.replicate (e - s) v ++ array.drop (max s e))
    | _ => .error .value

/-- `number_of_blocks = 1 + number_of_parts // block_size` (line 78). -/
def numberOfBlocks (n B : Nat) : Nat := 1 + n / B

/-- The start and end of one block (lines 81-85). -/
def bounds (n B block : Nat) : Nat × Nat :=
  let start := block * B
  let stop := (block + 1) * B
  (start, if stop > n then n + 1 else stop)

/-- The loop over the blocks (lines 80-111); `work` is the query for the points of one block. -/
def blocks {P β : Type} (work : List P → Except Err (List β)) (B : Nat) (pts : List P) : List Nat → List β → Except Err (List β)
  | [], array => .ok array
  | b :: bs, array =>
    let (s, e) := bounds pts.length B b
    if s ≥ e then .ok array
    else do
      let values ← work ((pts.take e).drop s)
      let array ← assign array s e values
      blocks work B pts bs array

/-- `tree.query(points, k=k)` followed by `d[:, -1]` (lines 93-111): distance to the `k`-th particle, infinite if there are
fewer. For one neighbour `scipy` returns a one-dimensional array and the index raises; fewer than one is refused. -/
def query {P K : Type} [LinearOrder K] (dist : P → P → K) (tree : List P) (k : Nat) (pts : List P) :
    Except Err (List (Option K)) :=
  if k = 0 then .error .value
  else if k = 1 then .error .index
  else .ok (pts.map fun p => ((tree.map (dist p)).insertionSort (· ≤ ·))[k - 1]?)

/-- `generate_smoothing_lengths` (lines 15-117) for block size `B` (65536 in the code) and correction `c`
(`speedup_fac ** (1 / dimension) / kernel_gamma`). The new array has arbitrary contents `junk`; setting its last entry raises
when there are no particles. -/
def generate {P K : Type} [LinearOrder K] [Mul K] (dist : P → P → K) (B : Nat) (neighbours speedup : Nat) (c : K)
    (junk : Nat → Option K) (pts : List P) : Except Err (List (Option K)) := do
  if pts.length = 0 then throw .index
  if speedup = 0 then throw .value
  let out ← blocks (query dist pts (neighbours / speedup)) B pts (List.range (numberOfBlocks pts.length B))
    ((List.range pts.length).map junk)
  return out.map (Option.map (· * c))

end Verif.Smoothing
