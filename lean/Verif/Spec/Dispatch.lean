import Verif.Model.Dispatch
import Mathlib.Data.Nat.Notation

/-!
# Which implementation a call should reach, without the protocol, and which class a result should have
-/

namespace Verif.Spec
open Verif Verif.Dispatch

/-- The argument is a `cosmo_array` or a `cosmo_quantity`. -/
def IsCosmo (c : Cls) : Prop := c = .cosmoArray ∨ c = .cosmoQuantity

/-- The argument is an object of unyt but not of the package. -/
def IsUnyt (c : Cls) : Prop := c = .unytArray ∨ c = .unytQuantity

/-- The argument is of an unrelated class. -/
def IsForeign (c : Cls) : Prop := ∃ n : ℕ, c = .foreign n

/-- An object of unyt or of the package. -/
def HasUnits (c : Cls) : Prop := IsUnyt c ∨ IsCosmo c

/-- `cosmo_quantity` for scalars, `cosmo_array` for anything else. -/
def kindOf (shape : List ℕ) : Cls := if shape = [] then .cosmoQuantity else .cosmoArray

/-- The result is an array of the package whose class fits its shape. -/
def Fits {V A : Type} (o : Obj V A) : Prop := o.cls = kindOf o.shape

end Verif.Spec
