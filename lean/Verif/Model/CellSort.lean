import Verif.Model.Mask

/-!
# Model of the cell ordering in `swiftsimio/masks.py`
-/

namespace Verif.Mask
open Verif Verif.Accel

/-- What the file records about the cells of one particle type, in file order: offsets and counts
(masks.py:325-337). -/
abbrev CellTable := List (Int × Int)

/-- `self.cell_sort = np.argsort(offsets, stable=True)` of the first key, masks.py:383-396. (`argsort` is insertion sort
on the values, which keeps the order of equal values.) -/
def cellSort (first : CellTable) : List Nat := argsort (first.map (·.1))

/-- `offsets[self.cell_sort]`, `counts[self.cell_sort]`, masks.py:398-399; the same order is used for the centres and
the extents (402-428). -/
def applySort {β : Type} (order : List Nat) (xs : List β) : List β := order.filterMap (fun i => xs[i]?)

/-- The sorted tables of all keys, masks.py:387-399. The first key of the dictionary is key 0. -/
def sortedTables {m : Nat} (tables : Fin (m + 1) → CellTable) (k : Fin (m + 1)) : CellTable :=
  applySort (cellSort (tables 0)) (tables k)

end Verif.Mask
