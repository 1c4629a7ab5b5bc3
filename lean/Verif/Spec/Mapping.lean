import Verif.Model.Names

/-!
# What the keys of mapping tables should be
-/

namespace Verif.Spec
open Verif Verif.Names

/-- The letters without accents. -/
def AsciiLetter (c : Char) : Prop := c ∈ "abcdefghijklmnopqrstuvwxyzABCDEFGHIJKLMNOPQRSTUVWXYZ".toList

/-- The text begins with a key of a mapping table. -/
def StartsWithKey (s : Str) : Prop := ∃ x y rest : Str, (∀ c ∈ x, AsciiLetter c) ∧ (∀ c ∈ y, AsciiLetter c) ∧
  s = x ++ "To".toList ++ y ++ "Mapping".toList ++ rest

end Verif.Spec
