import Verif.Model.Text

/-!
# Specification of printed text

Decimal numbers as people read them, and entries of the metadata of a file.
-/

namespace Verif.Spec
open Verif Verif.Header Verif.Names

/-- The number a row of digits stands for. -/
def numeral (t : Str) : Nat := t.foldl (fun n c => 10 * n + (c.toNat - '0'.toNat)) 0

/-- A row of digits without needless zeros at the front. -/
def Digits (t : Str) : Prop := t ≠ [] ∧ (∀ c ∈ t, c.isDigit = true) ∧ (t.head? = some '0' → t = ['0'])

/-- `t` is `x` with two decimals: a sign for negative numbers, digits, a point, two digits; it differs from `x` by at most half of
the last place, and if it differs by that much the last digit is even. -/
def Rounded {K : Type} [Field K] [LinearOrder K] (x : K) (t : Str) : Prop :=
  ∃ (whole : Str) (a b : Char), Digits whole ∧ a.isDigit = true ∧ b.isDigit = true ∧
    t = (if x < 0 then ['-'] else []) ++ whole ++ ['.', a, b] ∧ |(|x| - (numeral (whole ++ [a, b]) : K) / 100)| ≤ 1 / 200 ∧
    (|(|x| - (numeral (whole ++ [a, b]) : K) / 100)| = 1 / 200 → numeral (whole ++ [a, b]) % 2 = 0)

variable {K D : Type}

/-- An entry with text, stored as bytes. -/
def HasText (lib : Lib D) (g : Dict (Raw K)) (name : String) (s : String) : Prop :=
  ∃ b, g name = some (.bytes b) ∧ lib.utf8 b = some s

/-- An entry with a number, stored as an array. -/
def HasNumber (g : Dict (Raw K)) (name : String) (x : K) : Prop := ∃ l, g name = some (.array (x :: l))

/-- An entry whose first item is a number: an array, or bytes, whose items are numbers. -/
def FirstNumber [NatCast K] (g : Dict (Raw K)) (name : String) (x : K) : Prop :=
  (∃ l, g name = some (.array (x :: l))) ∨ ∃ b l, g name = some (.bytes (b :: l)) ∧ x = (b : K)

/-- The text of the whole part of a number: a sign for numbers below minus one and at minus one, and digits. -/
def WholePart [Field K] [LinearOrder K] (x : K) (t : Str) : Prop :=
  ∃ whole, Digits whole ∧ (numeral whole : K) ≤ |x| ∧ |x| < numeral whole + 1 ∧ t = (if x ≤ -1 then ['-'] else []) ++ whole

/-- An entry that `int` accepts, and the integer: a number without what is behind the point, the first character of a text if it is a
digit, or the first word if it has digits only. -/
def FirstWhole [Field K] [LinearOrder K] (g : Dict (Raw K)) (name : String) (t : Str) : Prop :=
  (∃ x, FirstNumber g name x ∧ WholePart x t) ∨
  (∃ c l s, g name = some (.text s) ∧ s.toList = c :: l ∧ c.isDigit = true ∧ t = [c]) ∨
  (∃ w l, g name = some (.words (w :: l)) ∧ w.toList ≠ [] ∧ (∀ c ∈ w.toList, c.isDigit = true) ∧ Digits t ∧ numeral t = numeral w.toList)

/-- Names that can be told apart in a list. -/
def ListNames (l : List Str) : Prop := ∀ n ∈ l, n ≠ [] ∧ ',' ∉ n ∧ ':' ∉ n

end Verif.Spec
