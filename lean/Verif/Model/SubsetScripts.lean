import Verif.Model.SubsetImage

/-!
# Computing with the datasets of a subset file

`write_subset` (`swiftsimio/subset_writer.py` 398-436) of any datasets of several particle types, followed by `load` of the new file. A row
of a dataset is one value here, whatever its shape.
-/

namespace Verif.SubsetScripts
open Verif Verif.Accel Verif.Mask Verif.SubsetImage

section
variable {K : Type} [Field K] [LinearOrder K] {m : Nat} {α : Type}

/-- The datasets one after the other, subset_writer.py:345-373. `fields` are the numbers of the datasets with their particle types. -/
def writeAll (s : State m) (lay : Nat → Layout) (D : Nat → List α) : List (Nat × Fin m) → Except Err (Nat → List α)
  | [] => .ok fun _ => []
  | x :: l => do
    let v ← writeColumn s (lay x.1) (D x.1) x.2
    let E ← writeAll s lay D l
    return Function.update E x.1 (v.filterMap id)

/-- `write_subset(output, mask, allow_unconstrained)` with the mask after the calls `ops`, and the new file as `load` sees it
(subset_writer.py:398-436). -/
def subset (f : File K m) (ops : List (Op K)) (allow : Bool) (lay : Nat → Layout) (fields : List (Nat × Fin m)) (D : Nat → List α) :
    Except Err (File K m × (Nat → List α)) := do
  let out ← writeSubset f (run f ops) allow [] (fun _ => .contiguous)
  let E ← writeAll (run f ops) lay D fields
  return (reopen f out, E)

/-- One subset: the calls of the mask, the override of `write_subset` and the storage of the datasets in the file that is read. -/
structure Stage (K : Type) where
  ops : List (Op K)
  allow : Bool
  lay : Nat → Layout

/-- Subsets of subsets: each is written from the file before it. -/
def chain (fields : List (Nat × Fin m)) : List (Stage K) → File K m × (Nat → List α) → Except Err (File K m × (Nat → List α))
  | [], fD => .ok fD
  | s :: ss, fD => do
    let gE ← subset fD.1 s.ops s.allow s.lay fields fD.2
    chain fields ss gE

end

end Verif.SubsetScripts
