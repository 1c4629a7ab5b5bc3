import Verif.Spec.Cosmo

/-! # How the result of a ufunc scales with the expansion -/

namespace Verif.Spec
open Verif Verif.Cosmo

/-- The rules for two arguments. -/
inductive Rule
  /-- Like a sum: a bare number counts as a quantity of the same kind. -/
  | sum
  /-- Like a maximum: a bare number may only come second. -/
  | larger
  | product
  | quotient
  /-- Like the angle of a vector: no power of the scale factor. -/
  | angle
  /-- Bare numbers or truth values. -/
  | bare
  deriving DecidableEq

/-- The rules of the ufuncs of two arguments, except for `power`. -/
def ruleOf : Ufunc → Option Rule
  | .add | .subtract | .remainder | .fmod | .hypot | .fmax | .fmin | .nextafter | .heaviside => some .sum
  | .maximum | .minimum | .copysign | .divmod => some .larger
  | .multiply | .matmul | .vecdot => some .product
  | .divide | .floorDivide => some .quotient
  | .arctan2 => some .angle
  | .logaddexp | .logaddexp2 | .greater | .greaterEqual | .less | .lessEqual | .notEqual | .equal | .logicalAnd | .logicalOr
  | .logicalXor => some .bare
  | _ => none

/-- The ufuncs of one argument: the power to which the scaling is raised, or no scaling at all. -/
noncomputable def scalingOf : Ufunc → Option (Option ℝ)
  | .negative | .absolute | .fabs | .conj | .positive | .modf | .floor | .ceil | .trunc | .spacing | .onesLike => some (some 1)
  | .sqrt => some (some (1 / 2))
  | .square => some (some 2)
  | .cbrt => some (some (1 / 3))
  | .reciprocal => some (some (-1))
  | .rint | .sign | .exp | .exp2 | .log | .log2 | .log10 | .expm1 | .log1p | .sin | .cos | .tan | .sinh | .cosh | .tanh | .arcsin | .arccos
  | .arctan | .arcsinh | .arccosh | .arctanh | .deg2rad | .rad2deg | .logicalNot | .isreal | .iscomplex | .isfinite | .isinf | .isnan
  | .signbit | .frexp | .isnat => some none
  | _ => none

/-- Two quantities that count as ones of the same kind. -/
def Alike (a k l : ℝ) : Prop := |a ^ k - a ^ l| ≤ 1e-8 + 1e-6 * a ^ l

open Classical in
/-- The exponent of the result for arguments with the given ones; `none` stands for a bare number. -/
noncomputable def resultKind (a : ℝ) : Rule → Option ℝ → Option ℝ → Except Err (Option ℝ)
  | .product, k, l => .ok (match k, l with
    | some k, some l => some (k + l)
    | some k, none => some k
    | none, l => l)
  | .quotient, k, l => .ok (match k, l with
    | some k, some l => some (k - l)
    | some k, none => some k
    | none, some l => some (-l)
    | none, none => none)
  | r, some k, some l => if Alike a k l then .ok (match r with
      | .angle => some 0
      | .bare => none
      | _ => some k) else .error .value
  | .sum, k, l => .ok (k.or l)
  | .larger, none, some _ => .error .value
  | .larger, k, _ => .ok k
  | .angle, k, l => .ok ((k.or l).map fun _ => 0)
  | .bare, _, _ => .ok none

/-- A bare number, or a quantity that scales with the given exponent. -/
def Kind (a : ℝ) : Opd → Option ℝ → Prop
  | .plain _, k => k = none
  | .cosmo x, k => ∃ e, k = some e ∧ Conv a e x

/-- The frame in which a ufunc works. -/
def isComoving : Opd → Prop
  | .plain _ => False
  | .cosmo x => x.comoving = some true

end Verif.Spec
