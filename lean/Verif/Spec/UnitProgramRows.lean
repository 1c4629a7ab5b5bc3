import Verif.Spec.UnitPrograms
import Verif.Spec.FormulaRows

/-!
# Programs with units, row by row
-/

namespace Verif.Spec
open Verif Verif.Cosmo Verif.Formulas Verif.UnitFormulas Verif.UnitPrograms

variable {D : Type} [AddCommGroup D] [Module ℝ D]

/-- The numbers `w` are the rows `rows` of the numbers `v`. -/
def RowsOf (rows : List Int) (v w : List ℝ) : Prop := w.map some = select v rows

/-- All formulas of the program are row by row and nothing is decided by comparisons. -/
def RowWise : Stmt D → Prop
  | .skip => True
  | .assign _ e => RowByRow (ofAmounts e)
  | .into _ e => RowByRow (ofAmounts e)
  | .convert _ _ _ => True
  | .seq p q => RowWise p ∧ RowWise q
  | .ite _ _ _ => False
  | .while _ _ => False
  | .attempt p q => RowWise p ∧ RowWise q

/-- There is no `try` in the program. -/
def NoAttempt : Stmt D → Prop
  | .skip => True
  | .assign _ _ => True
  | .into _ _ => True
  | .convert _ _ _ => True
  | .seq p q => NoAttempt p ∧ NoAttempt q
  | .ite _ p q => NoAttempt p ∧ NoAttempt q
  | .while _ p => NoAttempt p
  | .attempt _ _ => False

/-- All arrays of `σ` have `n` rows; the amounts of those of `τ` are their rows `rows`, with the same names, exponents and dimensions. -/
structure RowsOfAccount (n : Nat) (rows : List Int) (σ τ : Account D) : Prop where
  vars : τ.vars = σ.vars
  next : τ.next = σ.next
  exps : τ.exps = σ.exps
  dims : τ.dims = σ.dims
  nums : ∀ l, RowsOf rows (σ.nums l) (τ.nums l)
  length : ∀ l, (σ.nums l).length = n

end Verif.Spec
