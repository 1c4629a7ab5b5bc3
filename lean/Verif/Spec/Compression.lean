import Verif.Model.Compression

/-! What an expression says about compression: the texts of the arrays in it, and how many operations there are on the way to them. -/

namespace Verif.Spec
open Verif Verif.Compression

/-- All arrays of the expression have compression `s`, and there is no other object in it; a keyword argument is the last word. -/
inductive AllHave (s : List Char) : Ex → Prop
  | array : AllHave s (.array (some s))
  | keep {e : Ex} : AllHave s e → AllHave s (.keep e)
  | op {args : List Ex} : args ≠ [] → (∀ e ∈ args, AllHave s e) → AllHave s (.op args)
  | list {args : List Ex} : args ≠ [] → (∀ e ∈ args, AllHave s e) → AllHave s (.list args none)
  | listGiven {args : List Ex} : AllHave s (.list args (some s))
  | again {e : Ex} : AllHave s e → AllHave s (.again e none)
  | againGiven {e : Ex} : AllHave s (.again e (some s))

/-- All arrays have compression `s` and each is behind exactly `n` operations. -/
inductive Behind (s : List Char) : Nat → Ex → Prop
  | array : Behind s 0 (.array (some s))
  | keep {n : Nat} {e : Ex} : Behind s n e → Behind s n (.keep e)
  | op {n : Nat} {args : List Ex} : args ≠ [] → (∀ e ∈ args, Behind s n e) → Behind s (n + 1) (.op args)
  | list {n : Nat} {args : List Ex} : args ≠ [] → (∀ e ∈ args, Behind s n e) → Behind s (n + 1) (.list args none)
  | listGiven {args : List Ex} : Behind s 0 (.list args (some s))
  | again {n : Nat} {e : Ex} : Behind s n e → Behind s n (.again e none)
  | againGiven {e : Ex} : Behind s 0 (.again e (some s))

/-- The text `s` occurs in the attribute. -/
inductive Occurs (s : List Char) : Comp → Prop
  | here : Occurs s (.text s)
  | inside {b : Bool} {c : Comp} : Occurs s c → Occurs s (.pair b c)

/-- `(True, (True, … s))` with `n` times True. -/
def wrapped (s : List Char) : Nat → Comp
  | 0 => .text s
  | n + 1 => .pair true (wrapped s n)

end Verif.Spec
