import Verif.Spec.Header
import Verif.Spec.Text
import Verif.Model.FieldInfo

/-!
# What the attributes of a dataset say about a field
-/

namespace Verif.Spec
open Verif Verif.Header Verif.Names
open Verif.Units (Dim)

variable {K D : Type}

/-- The attribute with the exponent of a base unit. -/
def exponentName : Dim → String
  | .current => "U_I exponent"
  | .length => "U_L exponent"
  | .mass => "U_M exponent"
  | .temperature => "U_T exponent"
  | .time => "U_t exponent"

/-- The power of a base unit in a product of powers of base units. -/
def powerOf [AddCommMonoid K] (u : List (Dim × K)) (d : Dim) : K := ((u.filter fun p => p.1 = d).map Prod.snd).sum

/-- A number, with a value for attributes that are not there. -/
def NumberOr (g : Dict (Raw K)) (name : String) (default x : K) : Prop := HasNumber g name x ∨ g name = none ∧ x = default

/-- A text, with a value for attributes that are not there. -/
def TextOr (lib : Lib D) (g : Dict (Raw K)) (name default s : String) : Prop :=
  (∃ r, g name = some r ∧ Says lib r s) ∨ g name = none ∧ s = default

/-- A switch, with a value for attributes that are not there. -/
def SwitchOr [Zero K] (g : Dict (Raw K)) (name : String) (default b : Bool) : Prop :=
  (∃ x, g name = some (.scalar x) ∧ (b = true ↔ x ≠ 0)) ∨ g name = none ∧ b = default

/-- What is to be said about the mask of a field. -/
def MaskSays [Zero K] (g : Dict (Raw K)) (print : Raw K → Str) (m : Str) : Prop :=
  (SwitchOr g "Masked" false false ∧ m = "Not masked.".toList) ∨
  (SwitchOr g "Masked" false true ∧ ∃ l x, g "Mask Datasets" = some (.words l) ∧ g "Mask Threshold" = some (.scalar x) ∧
    m = "Only computed for objects where ".toList ++ List.intercalate " + ".toList (l.map String.toList) ++ " >= ".toList
      ++ print (.scalar x) ++ ".".toList)

/-- What is to be said about compression. -/
def CompressionSays [Zero K] (lib : Lib D) (g : Dict (Raw K)) (c : String) : Prop :=
  (SwitchOr g "Is Compressed" true false ∧ c = "Not compressed.") ∨
  (SwitchOr g "Is Compressed" true true ∧ TextOr lib g "Lossy compression filter" "No compression info available" c)

/-- Attributes that have the kinds of values that SWIFT and SOAP write; any of them may be missing. -/
structure RightKinds [Zero K] (lib : Lib D) (g : Dict (Raw K)) : Prop where
  numbers : ∀ n, n = "a-scale exponent" ∨ n = "Value stored as physical" ∨ n = "Property can be converted to comoving" ∨
    (∃ d, n = exponentName d) → g n = none ∨ ∃ x, HasNumber g n x
  texts : ∀ n ∈ ["Description", "Lossy compression filter"], g n = none ∨ ∃ r s, g n = some r ∧ Says lib r s
  switches : ∀ n ∈ ["Masked", "Is Compressed"], g n = none ∨ ∃ x, g n = some (.scalar x)
  maskNames : g "Mask Datasets" = none ∨ ∃ l, g "Mask Datasets" = some (.words l)

/-- Something is missing that has to be there: an exponent, or the description of a mask that there is. -/
def Incomplete [Zero K] (g : Dict (Raw K)) : Prop :=
  (∃ d, g (exponentName d) = none) ∨
  ((∃ x, x ≠ 0 ∧ g "Masked" = some (.scalar x)) ∧ (g "Mask Datasets" = none ∨ g "Mask Threshold" = none))

/-- A name without quotes. -/
def Unquoted (s : Str) : Prop := '\'' ∉ s ∧ '"' ∉ s

end Verif.Spec
