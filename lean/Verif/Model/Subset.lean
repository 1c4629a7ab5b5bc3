import Verif.Model.Mask

/-!
# Model of `swiftsimio/subset_writer.py` and of the cell counts in `swiftsimio/masks.py`

The skip list, the soft links and the recursive search for datasets are in `Verif/Model/Tree.lean`; here the datasets to
be written are given by name. Attributes of datasets, compression, units and the groups copied verbatim are not modelled.
-/

namespace Verif.Mask
open Verif Verif.Accel

variable {K : Type} [Field K] [LinearOrder K] {m : Nat}

/-- `np.searchsorted(xs, v, side="right")` for an increasing array, masks.py:989-993: the number of leading elements not
above `v`. -/
def searchRight (xs : List Int) (v : Int) : Nat := (xs.takeWhile (fun x => decide (x ≤ v))).length

/-- `masked_counts[part_type][cell] += ...`, masks.py:999-1001, for one range and one cell. The table holds the offset
and count of every cell. -/
def addCell (t : List (Int × Int)) (r : Rng) (acc : List Int) (j : Nat) : Except Err (List Int) :=
  match t[j]? with
  | some c =>
    if j < acc.length then .ok (acc.modify j (fun x => x + (min r.2 (c.1 + c.2) - max r.1 c.1))) else .error .index
  | none => .error .index

/-- `range(start_cell, end_cell + 1)`, masks.py:989-993 and 998. -/
def cellsOfRange (t : List (Int × Int)) (r : Rng) : List Nat :=
  (List.range (searchRight (t.tail.map (·.1)) r.2 + 1)).drop (searchRight (t.tail.map (·.1)) r.1)

/-- Masked counts when the mask holds ranges, masks.py:985-1001. -/
def rangeCounts (t : List (Int × Int)) (rs : List Rng) : Except Err (List Int) :=
  rs.foldlM (fun acc r => (cellsOfRange t r).foldlM (addCell t r) acc) (List.replicate t.length 0)

/-- Masked counts when the mask holds booleans, masks.py:1002-1008. -/
def boolCounts (t : List (Int × Int)) (bs : List Bool) : List Int :=
  t.map (fun c =>
    let a := clipIdx bs.length c.1
    let b := clipIdx bs.length (c.1 + c.2)
    (((bs.take b).drop a).countP id : Int))

/-- `np.cumsum`. -/
def cumsumFrom (s : Int) : List Int → List Int
  | [] => []
  | x :: xs => (s + x) :: cumsumFrom (s + x) xs

/-- masks.py:1009-1011: `np.r_[0, np.cumsum(counts)[:-1]]`. -/
def prefixOffsets (counts : List Int) : List Int := 0 :: (cumsumFrom 0 counts).dropLast

/-- The offset and count of every cell of key `k` as held by the mask (`self.offsets`, `self.counts`,
masks.py:383-399). -/
def cellTable (f : File K m) (k : Fin m) : List (Int × Int) := (f.cells k).map (fun c => (c.offset, c.count))

/-- `_get_masked_counts_offsets` for key `k`, masks.py:957-1013. -/
def maskedCounts (f : File K m) (s : State m) (k : Fin m) : Except Err (List Int) :=
  match s.rep with
  | .ranges r => rangeCounts (cellTable f k) (r k)
  | .bools b => .ok (boolCounts (cellTable f k) (b k))

/-- The value of a computation that did not raise. -/
def okVal {β : Type} : (e : Except Err β) → e.isOk = true → β
  | .ok v, _ => v

/-- A loop over the keys that raises when the step of some key raises. -/
def forKeys {β : Type} (g : Fin m → Except Err β) : Except Err (Fin m → β) :=
  if h : ∀ k, (g k).isOk = true then .ok (fun k => okVal (g k) (h k)) else .error .index

/-- What `write_subset` puts in the new file. -/
structure SubsetOut (K : Type) (m : Nat) where
  numPart : Fin m → Int
  counts : Fin m → List Int
  offsets : Fin m → List Int
  data : List ((String × String) × List (Option K))

/-- One dataset, subset_writer.py:349-369: the first row is read to find the type (IndexError for a dataset without rows),
the mask is looked up (RuntimeError when there is none), and the rows of the mask are read. -/
def writeDataset (f : File K m) (r : Fin m → List Rng) (size : Fin m → Int) (lay : Layout) (n : String × String) :
    Except Err (List (Option K)) :=
  match f.field n.1 n.2 with
  | none => .error .key
  | some vals =>
    if vals.isEmpty then .error .index
    else match f.group n.1 with
      | none => .error .runtime
      | some k => readRanges lay vals (r k) (size k).toNat

/-- `_write_datasubset`, subset_writer.py:319-374. -/
def writeData (f : File K m) (r : Fin m → List Rng) (size : Fin m → Int) (lay : String × String → Layout) :
    List (String × String) → Except Err (List ((String × String) × List (Option K)))
  | [] => .ok []
  | n :: ns => do
    let v ← writeDataset f r size (lay n) n
    let vs ← writeData f r size lay ns
    .ok ((n, v) :: vs)

/-- The header entry of a key, subset_writer.py:292-303. -/
def headerCount (f : File K m) (size : Fin m → Int) (k : Fin m) : Int := if f.rows k = 0 then 0 else size k

/-- The body of `write_subset` after the guard, subset_writer.py:427-436. -/
def writeBody (f : File K m) (s : State m) (names : List (String × String)) (lay : String × String → Layout) :
    Except Err (SubsetOut K m) :=
  match (toRanges s).rep with
  | .ranges r => do
    let counts ← forKeys (fun k => maskedCounts f (toRanges s) k)
    let data ← writeData f r (toRanges s).size lay names
    .ok { numPart := headerCount f (toRanges s).size
          counts := counts
          offsets := fun k => prefixOffsets (counts k)
          data := data }
  | .bools _ => .error .typeErr  -- not reachable: `toRanges` returns ranges

/-- `write_subset`, subset_writer.py:398-436. -/
def writeSubset (f : File K m) (s : State m) (allowUnconstrained : Bool) (names : List (String × String))
    (lay : String × String → Layout) : Except Err (SubsetOut K m) :=
  if s.constrained = none ∧ allowUnconstrained = false then .error .value
  else writeBody f s names lay

/-- The new file as seen by a mask made from it: the cells keep their centres and extents, which are copied in the order
of the mask (subset_writer.py:236-247); homogeneity and groups are properties of the file type, which the renaming of
`OutputType` keeps (subset_writer.py:283-291). A dataset with uninitialised rows would lose them here; `c17_subset_partial` shows
that there are none. -/
def reopen (f : File K m) (out : SubsetOut K m) : File K m where
  box := f.box
  rows := fun k => (out.numPart k).toNat
  cells := fun k => List.zipWith (fun c oc => { c with offset := oc.1, count := oc.2 }) (f.cells k)
    ((out.offsets k).zip (out.counts k))
  homogeneous := f.homogeneous
  group := f.group
  field := fun g q => (out.data.lookup (g, q)).map (fun l => l.filterMap id)

end Verif.Mask
