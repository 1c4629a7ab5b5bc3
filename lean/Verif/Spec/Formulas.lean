import Verif.Model.Formulas
import Verif.Spec.Cosmo

/-!
# What a formula means: the same formula of the physical values
-/

namespace Verif.Spec
open Verif Verif.Cosmo Verif.Formulas

/-- The numbers of an operation with two operands. -/
noncomputable def numbers2 : Bin → ℝ → ℝ → ℝ
  | .add, x, y => x + y
  | .subtract, x, y => x - y
  | .multiply, x, y => x * y
  | .divide, x, y => x / y
  | .maximum, x, y => if x ≤ y then y else x
  | .fmax, x, y => if x ≤ y then y else x
  | .minimum, x, y => if x ≤ y then x else y
  | .fmin, x, y => if x ≤ y then x else y
  | .hypot, x, y => Real.sqrt (x ^ 2 + y ^ 2)
  | .remainder, x, y => x - y * ⌊x / y⌋

/-- The numbers of an operation with one operand. -/
noncomputable def numbers1 : Un → ℝ → ℝ
  | .negative, x => 0 - x
  | .absolute, x => if 0 ≤ x then x else 0 - x
  | .sqrt, x => x ^ (1 / 2 : ℝ)
  | .square, x => x ^ 2
  | .cbrt, x => if 0 ≤ x then x ^ (1 / 3 : ℝ) else -((-x) ^ (1 / 3 : ℝ))
  | .reciprocal, x => 1 / x

/-- The formula of lists of numbers. Conversions mean nothing here. -/
noncomputable def meaning (vals : Nat → List ℝ) : Expr → Except Err (List ℝ)
  | .var i => .ok (vals i)
  | .nums v => .ok v
  | .two f s t => (meaning vals s).bind fun x => (meaning vals t).bind fun y => bcast2 (numbers2 f) x y
  | .one f s => (meaning vals s).map (fun x => x.map (numbers1 f))
  | .pow s q => (meaning vals s).map (fun x => x.map (· ^ q))
  | .whole f s => (meaning vals s).map f
  | .physical s => meaning vals s
  | .comoving s => meaning vals s

/-- There is no array with a cosmology in the formula. -/
def Bare : Expr → Prop
  | .var _ => False
  | .nums _ => True
  | .two _ s t => Bare s ∧ Bare t
  | .one _ s => Bare s
  | .pow s _ => Bare s
  | .whole _ s => Bare s
  | .physical s => Bare s
  | .comoving s => Bare s

/-- A function of a whole array that only depends on ratios: a common positive factor goes through. -/
def Homogeneous (f : List ℝ → List ℝ) : Prop := ∀ (s : ℝ) (l : List ℝ), 0 < s → f (l.map (· * s)) = (f l).map (· * s)

/-- The formula scales as `a^k` if its variables `i` scale as `a^ks i`: terms of sums, extrema and remainders scale alike (bare numbers
do not scale); products add and quotients subtract exponents, and so on. The first operand of `np.maximum` and `np.minimum` may be bare
only if the second one is. -/
inductive Dimension (ks : Nat → ℝ) : Expr → ℝ → Prop
  | var (i : Nat) : Dimension ks (.var i) (ks i)
  | nums (v : List ℝ) : Dimension ks (.nums v) 0
  | sum {f : Bin} {s t : Expr} {k : ℝ} (hf : f ∈ [Bin.add, .subtract, .fmax, .fmin, .hypot, .remainder]) (hs : Dimension ks s k) (ht : Dimension ks t k) :
      Dimension ks (.two f s t) k
  | extremum {f : Bin} {s t : Expr} {k : ℝ} (hf : f ∈ [Bin.maximum, .minimum]) (hs : Dimension ks s k) (ht : Dimension ks t k) (hb : Bare s → Bare t) :
      Dimension ks (.two f s t) k
  | mul {s t : Expr} {k l : ℝ} (hs : Dimension ks s k) (ht : Dimension ks t l) : Dimension ks (.two .multiply s t) (k + l)
  | div {s t : Expr} {k l : ℝ} (hs : Dimension ks s k) (ht : Dimension ks t l) : Dimension ks (.two .divide s t) (k - l)
  | same {f : Un} {s : Expr} {k : ℝ} (hf : f ∈ [Un.negative, .absolute]) (hs : Dimension ks s k) : Dimension ks (.one f s) k
  | sqrt {s : Expr} {k : ℝ} (hs : Dimension ks s k) : Dimension ks (.one .sqrt s) (k / 2)
  | square {s : Expr} {k : ℝ} (hs : Dimension ks s k) : Dimension ks (.one .square s) (2 * k)
  | cbrt {s : Expr} {k : ℝ} (hs : Dimension ks s k) : Dimension ks (.one .cbrt s) (k / 3)
  | reciprocal {s : Expr} {k : ℝ} (hs : Dimension ks s k) : Dimension ks (.one .reciprocal s) (-k)
  | pow {s : Expr} {k : ℝ} (hs : Dimension ks s k) (q : ℝ) : Dimension ks (.pow s q) (k * q)
  | whole {s : Expr} {k : ℝ} {f : List ℝ → List ℝ} (hf : Homogeneous f) (hs : Dimension ks s k) : Dimension ks (.whole f s) k
  | physical {s : Expr} {k : ℝ} (hs : Dimension ks s k) (hb : ¬ Bare s) : Dimension ks (.physical s) k
  | comoving {s : Expr} {k : ℝ} (hs : Dimension ks s k) (hb : ¬ Bare s) : Dimension ks (.comoving s) k

/-- All functions of whole arrays in the formula give results whose length depends only on that of their argument. -/
def Regular : Expr → Prop
  | .var _ => True
  | .nums _ => True
  | .two _ s t => Regular s ∧ Regular t
  | .one _ s => Regular s
  | .pow s _ => Regular s
  | .whole f s => (∀ u v : List ℝ, u.length = v.length → (f u).length = (f v).length) ∧ Regular s
  | .physical s => Regular s
  | .comoving s => Regular s

/-- There are no conversions in the formula. -/
def NoConversion : Expr → Prop
  | .var _ => True
  | .nums _ => True
  | .two _ s t => NoConversion s ∧ NoConversion t
  | .one _ s => NoConversion s
  | .pow s _ => NoConversion s
  | .whole _ s => NoConversion s
  | .physical _ => False
  | .comoving _ => False

/-- The variable `i` is in the formula. -/
def Uses (i : Nat) : Expr → Prop
  | .var j => j = i
  | .nums _ => False
  | .two _ s t => Uses i s ∨ Uses i t
  | .one _ s => Uses i s
  | .pow s _ => Uses i s
  | .whole _ s => Uses i s
  | .physical s => Uses i s
  | .comoving s => Uses i s

end Verif.Spec
