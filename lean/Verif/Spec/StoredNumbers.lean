import Verif.Model.StoredNumbers
import Verif.Spec.Binary

/-!
# Specification of stored numbers and their frames
-/

namespace Verif.Spec
open Verif Verif.Stored Verif.Spec.Binary

/-- The numbers that an array of a type can hold: integers, or numbers with 53 or 24 binary digits. -/
def Holdable : DType → ℚ → Prop
  | .int _, v => ∃ n : ℤ, v = n
  | .float true, v => Rep 53 v
  | .float false, v => Rep 24 v

/-- An array that can exist: its numbers are of its type; comoving arrays can be converted and arrays without a frame cannot. -/
structure Existing (x : Stored.Arr) : Prop where
  typed : ∀ v ∈ x.vals, Holdable x.dtype v
  comoving : x.comoving = some true → x.vt = true
  frameless : x.comoving = none → x.vt = false

/-- Every number of the one list is near the number at the same place of the other, up to a fraction of it. -/
def NearAll (ε : ℚ) : List ℚ → List ℚ → Prop := List.Forall₂ fun v w => |w - v| ≤ ε * |v|

end Verif.Spec
