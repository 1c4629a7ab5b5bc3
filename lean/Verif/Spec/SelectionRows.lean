import Verif.Spec.Selections
import Verif.Spec.ShapedRows

/-!
# Conditions row by row
-/

namespace Verif.Spec
open Verif Verif.Selections

/-- The condition says for each row whether it holds, from the same row of the variables with rows: one of the sides of each comparison has one
number for each row, the other one the same or a single number. -/
inductive CondPerRow (rank : Nat → Nat) (row : Nat → Bool) : Cond → Prop
  | both (c : Programs.Cmp) {s t : Shaped.Expr} (h : PerRow rank row s true 1) (h' : PerRow rank row t true 1) : CondPerRow rank row (.cmp c s t)
  | left (c : Programs.Cmp) {s t : Shaped.Expr} (h : PerRow rank row s true 1) (h' : PerRow rank row t false 0) : CondPerRow rank row (.cmp c s t)
  | right (c : Programs.Cmp) {s t : Shaped.Expr} (h : PerRow rank row s false 0) (h' : PerRow rank row t true 1) : CondPerRow rank row (.cmp c s t)
  | and {c d : Cond} (h : CondPerRow rank row c) (h' : CondPerRow rank row d) : CondPerRow rank row (.and c d)
  | or {c d : Cond} (h : CondPerRow rank row c) (h' : CondPerRow rank row d) : CondPerRow rank row (.or c d)
  | not {c : Cond} (h : CondPerRow rank row c) : CondPerRow rank row (.not c)

/-- The rows of the list whose flag is true. -/
def flagged (b : List Bool) (rows : List Int) : List Int := rows.filter fun i => valueAt b i = some true

/-- The rows of an array of the length `n`. -/
def allRows (n : Nat) : List Int := (List.range n).map Int.ofNat

/-- Variables with rows: what the second state holds are the rows `rows` of what the first state holds; the others are the same. -/
structure RowStates (n : Nat) (rows : List Int) (row : Nat → Bool) (s s' : Selections.State) : Prop where
  rows : ∀ i, row i = true → RowsOfShaped n rows (s.shapes i) (s.env i).phys (s'.shapes i) (s'.env i).phys
  fixed : ∀ i, row i = false → s'.shapes i = s.shapes i ∧ (s'.env i).phys = (s.env i).phys

/-- One number for each row, or a single number. -/
def OnePerRow (rank : Nat → Nat) (row : Nat → Bool) (e : Shaped.Expr) : Prop := PerRow rank row e true 1 ∨ PerRow rank row e false 0

/-- A script, started in the state `s`, for which rows that are not in `sel` do not matter: formulas and choices are row by row, and cuts take rows
of `sel` only. Cuts have no rows that could be missing; the last argument says which variables have rows at the end. -/
inductive RowScript (sel : Int → Prop) : (Nat → Bool) → List (Nat × Step) → Selections.State → (Nat → Bool) → Prop
  | nil (row : Nat → Bool) (s : Selections.State) : RowScript sel row [] s row
  | formula {row row' : Nat → Bool} {i : Nat} {e : Shaped.Expr} {l : List (Nat × Step)} {s : Selections.State} {b : Bool} {q : Nat}
      (h : PerRow (fun j => (s.shapes j).length) row e b q)
      (next : ∀ t, run [(i, .formula e)] s = .ok t → RowScript sel (Function.update row i b) l t row') : RowScript sel row ((i, .formula e) :: l) s row'
  | cut {row row' : Nat → Bool} {i : Nat} {e : Shaped.Expr} {c : Cond} {l : List (Nat × Step)} {s : Selections.State} {q : Nat}
      (h : PerRow (fun j => (s.shapes j).length) row e true q) (hc : CondPerRow (fun j => (s.shapes j).length) row c)
      (hsel : ∀ b, evalCond s.shapes s.env c = .ok b → ∀ r : Int, valueAt b.val r = some true → sel r)
      (next : ∀ t, run [(i, .select e c)] s = .ok t → RowScript sel (Function.update row i false) l t row') : RowScript sel row ((i, .select e c) :: l) s row'
  | choose {row row' : Nat → Bool} {i : Nat} {e e' : Shaped.Expr} {c : Cond} {l : List (Nat × Step)} {s : Selections.State}
      (hc : CondPerRow (fun j => (s.shapes j).length) row c) (h : OnePerRow (fun j => (s.shapes j).length) row e)
      (h' : OnePerRow (fun j => (s.shapes j).length) row e')
      (next : ∀ t, run [(i, .choose c e e')] s = .ok t → RowScript sel (Function.update row i true) l t row') :
      RowScript sel row ((i, .choose c e e') :: l) s row'

end Verif.Spec
