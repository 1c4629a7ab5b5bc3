import Verif.Model.Subset
import Verif.Model.MaskedImage

/-!
# Images made from a subset file

`write_subset` (`swiftsimio/subset_writer.py` 398-436) followed by `load` of the new file and `project_gas`, `slice_gas` or
`render_gas`. The datasets of an image are written one by one, like every dataset.
-/

namespace Verif.SubsetImage
open Verif Verif.Accel Verif.Mask Verif.MaskedImage

section
variable {K : Type} [Field K] [LinearOrder K] {m : Nat}

/-- One dataset of type `k`, subset_writer.py:349-369: the first row is read to find the type of the values (IndexError when there
is none), then the rows of the mask. `load` reads with the same ranges and the same sizes (`_get_dataset_mask` and
`_get_dataset_size`, subset_writer.py:35-88). -/
def writeColumn {α : Type} (s : State m) (lay : Layout) (ds : List α) (k : Fin m) : Except Err (List (Option α)) :=
  if ds.isEmpty then .error .index else load s lay ds k

/-- The datasets of an image in the order of the file, subset_writer.py:345-373. The array `mask` of the image functions is not in
the file; it is treated as a further dataset, which is what a user who wants the same image must do. -/
def writeFields (s : State m) (lay : Fin 4 → Layout) (F : Fields K) (k : Fin m) : Except Err (Fields K) := do
  let xs ← writeColumn s (lay 0) F.xs k
  let ms ← writeColumn s (lay 1) F.ms k
  let hs ← writeColumn s (lay 2) F.hs k
  let flags ← writeColumn s (lay 3) F.flags k
  return { xs := xs.filterMap id, ms := ms.filterMap id, hs := hs.filterMap id, flags := flags.filterMap id }

/-- `write_subset(output, mask, allow_unconstrained)` with the mask after the calls `ops`, and the new file as `load` sees it
(subset_writer.py:398-436). -/
def subset (f : File K m) (ops : List (Op K)) (allow : Bool) (lay : Fin 4 → Layout) (F : Fields K) (k : Fin m) :
    Except Err (File K m × Fields K) := do
  let out ← writeSubset f (run f ops) allow [] (fun _ => .contiguous)
  let G ← writeFields (run f ops) lay F k
  return (reopen f out, G)

/-- One subset of a region: the argument of `constrain_spatial`, its flag `union`, the override of `write_subset`
and the storage of the datasets in the file that is read. -/
structure Stage (K : Type) where
  rows : List (Option (List K))
  union : Bool
  allow : Bool
  lay : Fin 4 → Layout

/-- Subsets of subsets: each is written from the file before it. -/
def chain (k : Fin m) : List (Stage K) → File K m × Fields K → Except Err (File K m × Fields K)
  | [], fF => .ok fF
  | s :: ss, fF => do
    let gG ← subset fF.1 [.spatial s.rows s.union] s.allow s.lay fF.2 k
    chain k ss gG

end

end Verif.SubsetImage
