import Verif.Spec.Programs
import Verif.Spec.FormulaRows

/-!
# Programs row by row
-/

namespace Verif.Spec
open Verif Verif.Cosmo Verif.Formulas Verif.Programs

/-- All formulas of the program are row by row and nothing is decided by comparisons. -/
def RowProgram : Stmt → Prop
  | .skip => True
  | .assign _ e => RowByRow e
  | .into _ e => RowByRow e
  | .convert _ _ => True
  | .seq p q => RowProgram p ∧ RowProgram q
  | .ite _ _ _ => False
  | .while _ _ => False
  | .attempt p q => RowProgram p ∧ RowProgram q

/-- All arrays of `s` have `n` rows, and those of `t` are their rows `rows`, with the same names. -/
structure RowsOfState (n : Nat) (rows : List Int) (s t : State) : Prop where
  vars : t.vars = s.vars
  next : t.next = s.next
  heap : ∀ l, RowsOfArray rows (s.heap l) (t.heap l)
  length : ∀ l, (s.heap l).val.length = n

end Verif.Spec
