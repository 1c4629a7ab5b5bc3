import Verif.Model.Accel
import Mathlib.Data.Int.Log
import Mathlib.Algebra.Order.Field.Basic
import Mathlib.Algebra.Order.Round
import Mathlib.Data.Rat.Floor

/-!
# What C138 says about rounding

`Rounding` is what is assumed of a rounding function, in a region of numbers up to four boxes large. `nearest` is the
arithmetic of IEEE 754 without its largest exponent: numbers with `p` binary digits and exponents from `emin` on, rounded to
a nearest one. `p = 53` and `emin = -1074` is double precision.
-/

namespace Verif.Spec

/-- A rounding function that never exchanges two numbers, leaves the box length and its negative as they are, and errs by
at most `ε` for numbers up to four boxes. -/
structure Rounding {K : Type} [Field K] [LinearOrder K] (fl : K → K) (L ε : K) : Prop where
  mono : ∀ x y : K, x ≤ y → fl x ≤ fl y
  zero : fl 0 = 0
  box : fl L = L
  neg : fl (-L) = -L
  err : ∀ z : K, -(4 * L) ≤ z → z ≤ 4 * L → z - ε ≤ fl z ∧ fl z ≤ z + ε
  small : 8 * ε < L

/-- The interval from `lower` to `upper`, or the one that wraps around if its ends are in the other order, shrunk by `δ` at
both ends contains the number or the number moved by a whole number of boxes. -/
def WellInside {K : Type} [Field K] [LinearOrder K] (δ L lower upper x : K) : Prop :=
  ∃ j : ℤ, lower + δ < x + (j : K) * L ∧ x + (j : K) * L < (if upper < lower then upper + L else upper) - δ

/-- The interval extended by `δ` at both ends overlaps the interval from `lo` to `hi` or one of its periodic copies. -/
def NearlyMeets {K : Type} [Field K] [LinearOrder K] (δ L lower upper lo hi : K) : Prop :=
  ∃ j : ℤ, lower - δ < hi + (j : K) * L ∧ lo + (j : K) * L < (if upper < lower then upper + L else upper) + δ

/-- The exponent of the last digit of `x` in the format. -/
def lastDigit (p : ℕ) (emin : ℤ) (x : ℚ) : ℤ := max (Int.log 2 |x| + 1 - p) emin

/-- Rounding to the format, with `ρ` rounding to whole numbers. -/
def nearest (p : ℕ) (emin : ℤ) (ρ : ℚ → ℤ) (x : ℚ) : ℚ := ρ (x / 2 ^ lastDigit p emin x) * 2 ^ lastDigit p emin x

/-- `ρ` rounds to a nearest whole number, ties in any way. -/
def ToNearest (ρ : ℚ → ℤ) : Prop := ∀ q : ℚ, |(ρ q : ℚ) - q| ≤ 1 / 2

/-- A number with at most `p` binary digits and exponent at least `emin`. -/
def InFormat (p : ℕ) (emin : ℤ) (x : ℚ) : Prop := ∃ m e : ℤ, emin ≤ e ∧ |m| < 2 ^ p ∧ x = m * 2 ^ e

end Verif.Spec
