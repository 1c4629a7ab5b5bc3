import Verif.Model.CosmoFunctions

/-!
# Formulas: nested operations on `cosmo_array`s (swiftsimio/objects.py)

Each operation is the ufunc or method of `Model/Cosmo.lean` and `Model/CosmoFunctions.lean`; operations on bare arrays only are numpy's.
-/

namespace Verif.Formulas
open Verif Verif.Cosmo

/-- Operations with two operands: operators and functions of the registry, objects.py:982-1071. -/
inductive Bin
  | add | subtract | multiply | divide | maximum | minimum | fmax | fmin | hypot | remainder
  deriving DecidableEq, Repr

/-- The ufunc. -/
def Bin.ufunc : Bin → Ufunc
  | .add => .add
  | .subtract => .subtract
  | .multiply => .multiply
  | .divide => .divide
  | .maximum => .maximum
  | .minimum => .minimum
  | .fmax => .fmax
  | .fmin => .fmin
  | .hypot => .hypot
  | .remainder => .remainder

/-- Its numbers. -/
noncomputable def Bin.fn : Bin → ℝ → ℝ → ℝ
  | .add => (· + ·)
  | .subtract => (· - ·)
  | .multiply => (· * ·)
  | .divide => (· / ·)
  | .maximum => max
  | .minimum => min
  | .fmax => max
  | .fmin => min
  | .hypot => fun x y => Real.sqrt (x * x + y * y)
  | .remainder => fun x y => x - y * ⌊x / y⌋

/-- Operations with one operand. -/
inductive Un
  | negative | absolute | sqrt | square | cbrt | reciprocal
  deriving DecidableEq, Repr

/-- The ufunc. -/
def Un.ufunc : Un → Ufunc
  | .negative => .negative
  | .absolute => .absolute
  | .sqrt => .sqrt
  | .square => .square
  | .cbrt => .cbrt
  | .reciprocal => .reciprocal

/-- Its numbers. -/
noncomputable def Un.fn : Un → ℝ → ℝ
  | .negative => fun v => -v
  | .absolute => fun v => |v|
  | .sqrt => Real.sqrt
  | .square => fun v => v * v
  | .cbrt => fun x => if 0 ≤ x then x ^ (1 / 3 : ℝ) else -((-x) ^ (1 / 3 : ℝ))
  | .reciprocal => fun v => 1 / v

/-- A formula: variables, bare numbers, operations, powers with a number as the exponent, methods and functions of whole arrays that
pass on the attributes (`sum`, `mean`, `max`, `sort`, `cumsum`, indexing, ...), and conversions. -/
inductive Expr
  | var (i : Nat)
  | nums (v : List ℝ)
  | two (f : Bin) (s t : Expr)
  | one (f : Un) (s : Expr)
  | pow (s : Expr) (q : ℝ)
  | whole (f : List ℝ → List ℝ) (s : Expr)
  | physical (s : Expr)
  | comoving (s : Expr)

/-- An operation on two values: numpy's if both are bare, otherwise `__array_ufunc__`, objects.py:2152-2244. -/
noncomputable def apply2 (f : Bin) : Opd → Opd → Except Err Opd
  | .plain u, .plain v => (num2 f.fn [u, v]).map .plain
  | o, p => (ufunc f.ufunc (num2 f.fn) [o, p]).map .cosmo

/-- An operation on one value. -/
noncomputable def apply1 (f : Un) : Opd → Except Err Opd
  | .plain u => .ok (.plain (u.map f.fn))
  | .cosmo x => (ufunc f.ufunc (num1 f.fn) [.cosmo x]).map .cosmo

/-- `x ** q`. -/
noncomputable def applyPow (q : ℝ) : Opd → Except Err Opd
  | .plain u => .ok (.plain (u.map (· ^ q)))
  | .cosmo x => (ufunc .power (num2 (· ^ ·)) [.cosmo x, .plain [q]]).map .cosmo

/-- A function of a whole array, objects.py:1377-1399, _array_functions.py:2293-2307. -/
def applyWhole (f : List ℝ → List ℝ) : Opd → Except Err Opd
  | .plain u => .ok (.plain (f u))
  | .cosmo x => .ok (.cosmo (propagate f x))

/-- `to_physical` and `to_comoving`, objects.py:1507-1589; bare arrays have no such methods. -/
noncomputable def applyTo (physical : Bool) : Opd → Except Err Opd
  | .plain _ => .error .attribute
  | .cosmo x => (if physical then x.toPhysical else x.toComoving).map .cosmo

/-- The value of a formula; operands are evaluated from left to right. -/
noncomputable def eval (env : Nat → Arr) : Expr → Except Err Opd
  | .var i => .ok (.cosmo (env i))
  | .nums v => .ok (.plain v)
  | .two f s t => (eval env s).bind fun x => (eval env t).bind fun y => apply2 f x y
  | .one f s => (eval env s).bind (apply1 f)
  | .pow s q => (eval env s).bind (applyPow q)
  | .whole f s => (eval env s).bind (applyWhole f)
  | .physical s => (eval env s).bind (applyTo true)
  | .comoving s => (eval env s).bind (applyTo false)

/-- `s < t` and the other comparisons, objects.py:2152-2244; two bare arrays are numpy's. -/
noncomputable def compare {β : Type} (u : Ufunc) (r : ℝ → ℝ → β) (env : Nat → Arr) (s t : Expr) : Except Err (List β) :=
  (eval env s).bind fun x => (eval env t).bind fun y => match x, y with
    | .plain v, .plain w => num2 r [v, w]
    | o, p => ufuncBool u (num2 r) [o, p]

end Verif.Formulas
