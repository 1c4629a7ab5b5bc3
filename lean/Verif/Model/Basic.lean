/-!
# Common vocabulary

Python exceptions are values of `Err`; a function that may raise returns `Except Err _`.
-/

namespace Verif

/-- The Python exception classes the modelled code can raise. -/
inductive Err
  | index      -- IndexError (or an out-of-bounds access in compiled code)
  | value      -- ValueError
  | runtime    -- RuntimeError
  | attribute  -- AttributeError
  | typeErr    -- TypeError
  | key        -- KeyError
  | assertion  -- AssertionError
  | notImpl    -- NotImplementedError
  | invalidSnapshot -- swiftsimio.objects.InvalidSnapshot
  | invalidConversion -- swiftsimio.objects.InvalidConversionError
  | invalidScaleFactor -- swiftsimio.objects.InvalidScaleFactor
  deriving DecidableEq, Repr

/-- A range of rows `[start, stop)`: one row of the two-column arrays that
`swiftsimio/accelerated.py` passes around (52-101). -/
abbrev Rng := Int × Int

/-- Decidable equality of results, used by the worked examples. -/
instance {α : Type} [DecidableEq α] : DecidableEq (Except Err α) := fun a b =>
  match a, b with
  | .ok x, .ok y => if h : x = y then isTrue (by rw [h]) else isFalse (by simpa using h)
  | .error x, .error y => if h : x = y then isTrue (by rw [h]) else isFalse (by simpa using h)
  | .ok _, .error _ => isFalse (by simp)
  | .error _, .ok _ => isFalse (by simp)

end Verif
