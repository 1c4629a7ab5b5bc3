import Verif.Spec.ShapedFormulas
import Verif.Spec.Rows

/-!
# Formulas of arrays with several dimensions, row by row

A row is what an index at the first axis gives.
-/

namespace Verif.Spec
open Verif Verif.Cosmo Verif.Formulas

/-- The formula has the number of dimensions `r`; if the flag is set every row of the result depends on the same row of the variables with
rows, otherwise it has no such variables. Arrays without rows have less dimensions than those with rows that they meet. The first axis is
not reduced, indexed or moved. -/
inductive PerRow (rank : Nat → Nat) (row : Nat → Bool) : Shaped.Expr → Bool → Nat → Prop
  | var (i : Nat) : PerRow rank row (.var i) (row i) (rank i)
  | nums (s : List Nat) (v : List ℝ) : PerRow rank row (.nums s v) false s.length
  | both {f : Bin} {e e' : Shaped.Expr} {r : Nat} (h : PerRow rank row e true r) (h' : PerRow rank row e' true r) : PerRow rank row (.two f e e') true r
  | left {f : Bin} {e e' : Shaped.Expr} {r r' : Nat} (h : PerRow rank row e true r) (h' : PerRow rank row e' false r') (hr : r' < r) :
      PerRow rank row (.two f e e') true r
  | right {f : Bin} {e e' : Shaped.Expr} {r r' : Nat} (h : PerRow rank row e false r') (h' : PerRow rank row e' true r) (hr : r' < r) :
      PerRow rank row (.two f e e') true r
  | neither {f : Bin} {e e' : Shaped.Expr} {r r' : Nat} (h : PerRow rank row e false r) (h' : PerRow rank row e' false r') :
      PerRow rank row (.two f e e') false (max r r')
  | one {f : Un} {e : Shaped.Expr} {b : Bool} {r : Nat} (h : PerRow rank row e b r) : PerRow rank row (.one f e) b r
  | pow {e : Shaped.Expr} {b : Bool} {r : Nat} (q : ℝ) (h : PerRow rank row e b r) : PerRow rank row (.pow e q) b r
  | total {g : List ℝ → ℝ} {e : Shaped.Expr} {r : Nat} (h : PerRow rank row e false r) : PerRow rank row (.total g e) false 0
  | reduce {g : List ℝ → ℝ} {e : Shaped.Expr} {b : Bool} {r k : Nat} (h : PerRow rank row e b r) (hk : b = true → k ≠ 0) :
      PerRow rank row (.reduce g k e) b (r - 1)
  | select {j : Nat} {e : Shaped.Expr} {b : Bool} {r k : Nat} (h : PerRow rank row e b r) (hk : b = true → k ≠ 0) :
      PerRow rank row (.select j k e) b (r - 1)
  | take {js : List Nat} {e : Shaped.Expr} {b : Bool} {r k : Nat} (h : PerRow rank row e b r) (hk : b = true → k ≠ 0) :
      PerRow rank row (.take js k e) b r
  | newaxis {e : Shaped.Expr} {b : Bool} {r k : Nat} (h : PerRow rank row e b r) (hk : b = true → k ≠ 0) :
      PerRow rank row (.newaxis k e) b (r + 1)
  | reshape {e : Shaped.Expr} {r : Nat} (s : List Nat) (h : PerRow rank row e false r) : PerRow rank row (.reshape s e) false s.length
  | transpose {e : Shaped.Expr} {r : Nat} (h : PerRow rank row e false r) : PerRow rank row (.transpose e) false r
  | physical {e : Shaped.Expr} {b : Bool} {r : Nat} (h : PerRow rank row e b r) : PerRow rank row (.physical e) b r
  | comoving {e : Shaped.Expr} {b : Bool} {r : Nat} (h : PerRow rank row e b r) : PerRow rank row (.comoving e) b r

/-- The values `v` of an array with the shape `n :: s` are the rows `R`. -/
structure HoldsRows (n : Nat) (s : List Nat) (R : List (List ℝ)) (v : List ℝ) : Prop where
  count : R.length = n
  width : ∀ r ∈ R, r.length = (tuples s).length
  vals : v = R.flatten

/-- Two arrays, with shapes and values: the second one has the rows `rows` of the first one, which has `n` rows. -/
def RowsOfShaped (n : Nat) (rows : List Int) (s : List Nat) (v : List ℝ) (s' : List Nat) (v' : List ℝ) : Prop :=
  ∃ (u : List Nat) (R R' : List (List ℝ)), s = n :: u ∧ s' = rows.length :: u ∧ HoldsRows n u R v ∧ HoldsRows rows.length u R' v' ∧
    R'.map some = select R rows

end Verif.Spec
