import Verif.Model.Basic

/-!
# Specification: rows selected by ranges

Independent of the readers: the row numbers of a list of ranges, written out one after the other, and the values a
dataset has at a list of row numbers.
-/

namespace Verif.Spec
open Verif

/-- Row numbers of one range. -/
def rowsOfRange (r : Rng) : List Int := (List.range (r.2 - r.1).toNat).map (fun (k : Nat) => r.1 + (k : Int))

/-- Row numbers of a list of ranges, in the order given. -/
def rowsOf (rs : List Rng) : List Int := rs.flatMap rowsOfRange

/-- The value a dataset holds at a row number (`none` when there is no such row). -/
def valueAt {α : Type} (ds : List α) (i : Int) : Option α := if i < 0 then none else ds[i.toNat]?

/-- The values at a list of rows. -/
def select {α : Type} (ds : List α) (rows : List Int) : List (Option α) := rows.map (valueAt ds)

/-- All ranges lie inside a dataset of `n` rows. -/
def InBounds (n : Int) (rs : List Rng) : Prop := ∀ r ∈ rs, 0 ≤ r.1 ∧ r.1 ≤ r.2 ∧ r.2 ≤ n

/-- Starts and ends are both non-decreasing along the list. -/
def Ordered (rs : List Rng) : Prop := rs.Pairwise (fun a b => a.1 ≤ b.1 ∧ a.2 ≤ b.2)

/-- No row belongs to two different entries of the list. -/
def RowsDisjoint (rs : List Rng) : Prop :=
  rs.Pairwise (fun a b => ∀ i : Int, ¬ ((a.1 ≤ i ∧ i < a.2) ∧ (b.1 ≤ i ∧ i < b.2)))

end Verif.Spec
