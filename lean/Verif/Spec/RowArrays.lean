import Verif.Model.RowArrays
import Verif.Spec.Rows

/-!
# Rows and columns of arrays
-/

namespace Verif.Spec
open Verif Verif.RowArrays

variable {α : Type}

/-- All rows have the values of their shape. -/
def Rect (d : Arr α) : Prop := ∀ r ∈ d.rows, r.length = d.rowShape.prod

/-- The array `out` holds, for every row number of the list in order, the values of this row of `d` from position `offset` on, as
many as a row of the shape `shape` has, and all of them are values of the file. -/
structure ShowsRows (out : Arr (Option α)) (d : Arr α) (idx : List Int) (shape : List Nat) (offset : Nat) : Prop where
  rowShape : out.rowShape = shape
  length : out.rows.length = idx.length
  values : ∀ (n : Nat) (i : Int), idx[n]? = some i → 0 ≤ i ∧ ∃ row v, d.rows[i.toNat]? = some row ∧ out.rows[n]? = some v ∧
    v.length = shape.prod ∧ ∀ j, j < shape.prod → ∃ x, row[offset + j]? = some x ∧ v[j]? = some (some x)

/-- Ranges that are inside of `n` rows, in increasing order, without overlap. -/
structure Increasing (n : Nat) (rs : List Rng) : Prop where
  nonempty : rs ≠ []
  bounds : InBounds n rs
  order : rs.Pairwise (fun a b => a.2 ≤ b.1)

end Verif.Spec
