import Mathlib.Analysis.SpecialFunctions.Log.Base
import Mathlib.Analysis.SpecialFunctions.Arsinh
import Mathlib.Analysis.SpecialFunctions.Arcosh
import Mathlib.Analysis.SpecialFunctions.Artanh
import Mathlib.Analysis.SpecialFunctions.Trigonometric.Arctan
import Mathlib.Analysis.SpecialFunctions.Trigonometric.Inverse
import Mathlib.Analysis.SpecialFunctions.Complex.Arg
import Verif.Spec.Cosmo
import Verif.Model.Ufuncs

/-! # What the ufuncs of numpy compute, and when arrays with frames compute it -/

namespace Verif.Spec
open Verif Verif.Cosmo

/-- The ways in which ufuncs act on numbers. -/
inductive Action
  | one (f : ℝ → ℝ)
  | two (f : ℝ → ℝ → ℝ)
  | test1 (r : ℝ → Prop)
  | test2 (r : ℝ → ℝ → Prop)
  | pair1 (f g : ℝ → ℝ)
  | pair2 (f g : ℝ → ℝ → ℝ)
  | dot

/-- Without the part behind the point. -/
noncomputable def cutOff (x : ℝ) : ℝ := if 0 ≤ x then ⌊x⌋ else ⌈x⌉

/-- The nearest integer, of two the even one. -/
noncomputable def toNearest (x : ℝ) : ℝ := if Int.fract x = 1 / 2 then (if ⌊x⌋ % 2 = 0 then ⌊x⌋ else ⌊x⌋ + 1) else round x

/-- The cube root, also of negative numbers. -/
noncomputable def cubicRoot (x : ℝ) : ℝ := if 0 ≤ x then x ^ (1 / 3 : ℝ) else -((-x) ^ (1 / 3 : ℝ))

/-- What numpy computes. The functions that look at the storage of floats (`nextafter`, `spacing`, `frexp`) and at dates (`isnat`) are not
functions of numbers; for `power` the exponent is no quantity with a frame (C24); `clip` is C52. -/
noncomputable def inNumbers : Ufunc → Option Action
  | .add => some (.two fun x y => x + y)
  | .subtract => some (.two fun x y => x - y)
  | .multiply => some (.two fun x y => x * y)
  | .divide => some (.two fun x y => x / y)
  | .logaddexp => some (.two fun x y => Real.log (Real.exp x + Real.exp y))
  | .logaddexp2 => some (.two fun x y => Real.logb 2 (2 ^ x + 2 ^ y))
  | .floorDivide => some (.two fun x y => ⌊x / y⌋)
  | .negative => some (.one fun x => -x)
  | .power => none
  | .remainder => some (.two fun x y => x - y * ⌊x / y⌋)
  | .fmod => some (.two fun x y => x - y * cutOff (x / y))
  | .absolute | .fabs => some (.one fun x => |x|)
  | .rint => some (.one toNearest)
  | .sign => some (.one fun x => if 0 < x then 1 else if x < 0 then -1 else 0)
  | .conj | .positive => some (.one fun x => x)
  | .exp => some (.one Real.exp)
  | .exp2 => some (.one fun x => 2 ^ x)
  | .log => some (.one Real.log)
  | .log2 => some (.one (Real.logb 2))
  | .log10 => some (.one (Real.logb 10))
  | .expm1 => some (.one fun x => Real.exp x - 1)
  | .log1p => some (.one fun x => Real.log (1 + x))
  | .sqrt => some (.one Real.sqrt)
  | .square => some (.one fun x => x * x)
  | .cbrt => some (.one cubicRoot)
  | .reciprocal => some (.one fun x => 1 / x)
  | .sin => some (.one Real.sin)
  | .cos => some (.one Real.cos)
  | .tan => some (.one Real.tan)
  | .sinh => some (.one Real.sinh)
  | .cosh => some (.one Real.cosh)
  | .tanh => some (.one Real.tanh)
  | .arcsin => some (.one Real.arcsin)
  | .arccos => some (.one Real.arccos)
  | .arctan => some (.one Real.arctan)
  | .arctan2 => some (.two fun y x => Complex.arg ⟨x, y⟩)
  | .arcsinh => some (.one Real.arsinh)
  | .arccosh => some (.one Real.arcosh)
  | .arctanh => some (.one Real.artanh)
  | .hypot => some (.two fun x y => Real.sqrt (x * x + y * y))
  | .deg2rad => some (.one fun x => x * (Real.pi / 180))
  | .rad2deg => some (.one fun x => x * (180 / Real.pi))
  | .greater => some (.test2 fun x y => y < x)
  | .greaterEqual => some (.test2 fun x y => y ≤ x)
  | .less => some (.test2 fun x y => x < y)
  | .lessEqual => some (.test2 fun x y => x ≤ y)
  | .notEqual => some (.test2 fun x y => x ≠ y)
  | .equal => some (.test2 fun x y => x = y)
  | .logicalAnd => some (.test2 fun x y => x ≠ 0 ∧ y ≠ 0)
  | .logicalOr => some (.test2 fun x y => x ≠ 0 ∨ y ≠ 0)
  | .logicalXor => some (.test2 fun x y => ¬(x ≠ 0 ↔ y ≠ 0))
  | .logicalNot => some (.test1 fun x => x = 0)
  | .maximum | .fmax => some (.two fun x y => max x y)
  | .minimum | .fmin => some (.two fun x y => min x y)
  | .isreal | .isfinite => some (.test1 fun _ => True)
  | .iscomplex | .isinf | .isnan => some (.test1 fun _ => False)
  | .signbit => some (.test1 fun x => x < 0)
  | .copysign => some (.two fun x y => if y < 0 then -|x| else |x|)
  | .nextafter => none
  | .modf => some (.pair1 (fun x => x - cutOff x) cutOff)
  | .frexp => none
  | .floor => some (.one fun x => ⌊x⌋)
  | .ceil => some (.one fun x => ⌈x⌉)
  | .trunc => some (.one cutOff)
  | .spacing => none
  | .divmod => some (.pair2 (fun x y => ⌊x / y⌋) fun x y => x - y * ⌊x / y⌋)
  | .isnat => none
  | .heaviside => some (.two fun x y => if x < 0 then 0 else if x = 0 then y else 1)
  | .onesLike => some (.one fun _ => 1)
  | .matmul | .vecdot => some .dot
  | .clip => none

/-- Numbers for an inner product of vectors. -/
def numDot : List (List ℝ) → Except Err (List ℝ)
  | [xs, ys] => if xs.length = ys.length then .ok [(List.zipWith (fun x y => x * y) xs ys).sum] else .error .value
  | _ => .error .typeErr

/-- Numbers for two results. -/
def numPair1 (f g : ℝ → ℝ) : List (List ℝ) → Except Err (List ℝ × List ℝ)
  | [xs] => .ok (xs.map f, xs.map g)
  | _ => .error .typeErr

/-- Numbers for two results of two arguments. -/
def numPair2 (f g : ℝ → ℝ → ℝ) (l : List (List ℝ)) : Except Err (List ℝ × List ℝ) :=
  (num2 f l).bind fun p => (num2 g l).map fun q => (p, q)

/-- Whatever frames the arguments are in, the ufunc computes what it means on their physical values, for arguments that scale as `a^k`. -/
def Right (u : Ufunc) (a k : ℝ) : Prop :=
  match inNumbers u with
  | none => False
  | some (.one f) => ∀ x, Conv a k x → (ufunc u (num1 f) [.cosmo x]).map Arr.phys = num1 f [x.phys]
  | some (.two f) => ∀ x y, Conv a k x → Conv a k y → (ufunc u (num2 f) [.cosmo x, .cosmo y]).map Arr.phys = num2 f [x.phys, y.phys]
  | some (.test1 r) => ∀ x, Conv a k x → ufuncBool u (num1 r) [.cosmo x] = num1 r [x.phys]
  | some (.test2 r) => ∀ x y, Conv a k x → Conv a k y → ufuncBool u (num2 r) [.cosmo x, .cosmo y] = num2 r [x.phys, y.phys]
  | some (.pair1 f g) => ∀ x, Conv a k x → (ufuncPair u (numPair1 f g) [.cosmo x]).map (fun z => (z.1.phys, z.2.phys)) = numPair1 f g [x.phys]
  | some (.pair2 f g) => ∀ x y, Conv a k x → Conv a k y →
      (ufuncPair u (numPair2 f g) [.cosmo x, .cosmo y]).map (fun z => (z.1.phys, z.2.phys)) = numPair2 f g [x.phys, y.phys]
  | some .dot => ∀ x y, Conv a k x → Conv a k y → (ufunc u numDot [.cosmo x, .cosmo y]).map Arr.phys = numDot [x.phys, y.phys]

/-- The ufuncs that are right for all quantities. -/
def frameFree : List Ufunc :=
  [.add, .subtract, .multiply, .divide, .floorDivide, .negative, .remainder, .fmod, .absolute, .fabs, .sign, .conj, .positive, .sqrt,
   .square, .cbrt, .reciprocal, .arctan2, .hypot, .greater, .greaterEqual, .less, .lessEqual, .notEqual, .equal, .logicalAnd, .logicalOr,
   .logicalXor, .logicalNot, .maximum, .minimum, .fmax, .fmin, .isreal, .iscomplex, .isfinite, .isinf, .isnan, .signbit, .copysign,
   .matmul, .vecdot]

end Verif.Spec
