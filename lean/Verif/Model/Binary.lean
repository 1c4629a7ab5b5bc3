import Mathlib.Data.Int.Log
import Mathlib.Data.Rat.Floor
import Verif.Model.Floating

/-!
# Single and double precision

IEEE 754 binary32 and binary64 with rounding to nearest, ties to even, as an `Arith` for the loops of
`Verif.Model.Floating`. The range of exponents is not limited: overflow, underflow, infinities and NaN are left out. So is
the reordering of operations that `fastmath=True` permits.
-/

namespace Verif.Binary
open Verif

/-- The nearest integer, the even one of two. -/
def nearEven (x : ℚ) : ℤ :=
  if x - ⌊x⌋ < 1 / 2 then ⌊x⌋ else if 1 / 2 < x - ⌊x⌋ then ⌊x⌋ + 1 else if ⌊x⌋ % 2 = 0 then ⌊x⌋ else ⌊x⌋ + 1

/-- The distance of neighbouring numbers with `p` digits near `q`. -/
def ulp (p : ℕ) (q : ℚ) : ℚ := 2 ^ (Int.log 2 q - (p - 1 : ℤ))

/-- Rounding of a positive number to `p` binary digits. -/
def rndPos (p : ℕ) (q : ℚ) : ℚ := nearEven (q / ulp p q) * ulp p q

/-- Rounding to `p` binary digits. -/
def rnd (p : ℕ) (q : ℚ) : ℚ := if q < 0 then -rndPos p (-q) else if q = 0 then 0 else rndPos p q

/-- A number in single (`wide = false`) or double precision. -/
structure Num where
  wide : Bool
  val : ℚ
  deriving DecidableEq

/-- The digits of the result of an operation on two numbers: numba converts to the wider type. -/
def digits (w : Bool) : ℕ := if w then 53 else 24

/-- An operation on two numbers, rounded. -/
def op (f : ℚ → ℚ → ℚ) (a b : Num) : Num :=
  { wide := a.wide || b.wide, val := rnd (digits (a.wide || b.wide)) (f a.val b.val) }

/-- `a % b` as numba compiles it: the remainder of `fmod`, which is exact, and one rounded addition if its sign is not that
of `b`. -/
def modVal (p : ℕ) (a b : ℚ) : ℚ :=
  let m := a - b * Scatter.trunc (a / b)
  if m = 0 then 0 else if (m < 0) ≠ (b < 0) then rnd p (m + b) else m

/-- Single and double precision; the kernel and the root are any functions, the loops of `deposit` and of the colour maps
do not use them. -/
def arith (kernel : Num → Num → Num) (sqrt : Num → Num) (gamma : Num) : Floating.Arith Num where
  add := op (· + ·)
  sub := op (· - ·)
  mul := op (· * ·)
  div := op (· / ·)
  mod := fun a b => { wide := a.wide || b.wide, val := modVal (digits (a.wide || b.wide)) a.val b.val }
  lt := fun a b => decide (a.val < b.val)
  le := fun a b => decide (a.val ≤ b.val)
  isZero := fun a => decide (a.val = 0)
  floor := fun a => { a with val := ⌊a.val⌋ }
  ceil := fun a => { a with val := ⌈a.val⌉ }
  sqrt := sqrt
  single := fun a => { wide := false, val := rnd 24 a.val }
  ofInt := fun n => { wide := true, val := rnd 53 n }
  toInt := fun a => Scatter.trunc a.val
  half := { wide := true, val := 1 / 2 }
  quarter := { wide := true, val := 1 / 4 }
  kernel := kernel
  gamma := gamma
  zero := { wide := false, val := 0 }
  acc := op (· + ·)

/-- The index of one value in a colour map with `n` columns, `np.int32(norm_x * min(max(value, 0.0), 1.0))`
(`tools/cmaps.py` 78-86). -/
def lookup (n : ℕ) (v : Num) : Int :=
  Scatter.trunc (op (· * ·) { wide := false, val := rnd 24 ((n : ℚ) - 1) } { v with val := min (max v.val 0) 1 }).val

/-- `int(np.ceil(resolution * (x_range / max_range)))` (`projection.py` 153-159, `slice.py` 120-121) in double precision. -/
def trimmed (res : ℕ) (range R : ℚ) : ℕ := ⌈rnd 53 ((res : ℚ) * rnd 53 (range / R))⌉.toNat

end Verif.Binary
