import Verif.Model.Floating
import Mathlib.Algebra.Order.Floor.Defs
import Mathlib.Algebra.Order.Field.Basic

/-!
# What is assumed of the arithmetic in C141
-/

namespace Verif.Spec
open Verif Verif.Floating

/-- Sums, products with a resolution or with the kernel constant, `floor` and the conversion to whole numbers never exchange two
numbers. This holds for every rounding of IEEE 754 as long as numbers fit; nothing is said about how large the errors are. -/
structure OrderedArith {F : Type} [LinearOrder F] (A : Arith F) : Prop where
  add_left : ∀ x y z : F, x ≤ y → A.add x z ≤ A.add y z
  add_right : ∀ x y z : F, x ≤ y → A.add z x ≤ A.add z y
  scale : ∀ (n : Nat) (x y : F), x ≤ y → A.mul (A.ofInt n) x ≤ A.mul (A.ofInt n) y
  width : ∀ x y : F, x ≤ y → A.mul A.gamma x ≤ A.mul A.gamma y
  single : ∀ (n : Nat) (x y : F), x ≤ y → A.mul x (A.single (A.ofInt n)) ≤ A.mul y (A.single (A.ofInt n))
  double : ∀ (n : Nat) (x y : F), x ≤ y → A.mul x (A.ofInt n) ≤ A.mul y (A.ofInt n)
  floor : ∀ x y : F, x ≤ y → A.floor x ≤ A.floor y
  toInt : ∀ x y : F, x ≤ y → A.toInt x ≤ A.toInt y

/-- The number of pixels that a kernel of the width `h` reaches to each side, as the code computes it; `fr` is the resolution. -/
def reachOf {F : Type} (A : Arith F) (fr h : F) : Int := A.toInt (A.add (A.ofInt 1) (A.mul (A.mul A.gamma h) fr))

/-- The pixel of the copy `i` of a position, as the code computes it. -/
def pixelOf {F : Type} (A : Arith F) (res : Nat) (box x : F) (i : Int) : Int :=
  A.toInt (A.floor (A.mul (A.ofInt res) (A.add x (A.mul (A.ofInt i) box))))

/-- Beyond an edge along one axis: each of the copies is on the far side of a place whose pixel is more than `reach` pixels from the image. -/
def Beyond {F : Type} [LinearOrder F] (A : Arith F) (res : Nat) (shifts : List Int) (box : F) (reach : Int) (x : F) : Prop :=
  ∀ i ∈ shifts, (∃ edge, x ≤ edge ∧ pixelOf A res box edge i + reach < 0) ∨
    (∃ edge, edge ≤ x ∧ (res : Int) ≤ pixelOf A res box edge i - reach)

/-- An arithmetic that computes sums and products exactly and then rounds them with `fl`, or with `fl32` to single precision. -/
def roundedArith {K : Type} [Field K] [LinearOrder K] [FloorRing K] (fl fl32 : K → K) (W : K → K → K) (g : K) : Arith K :=
  { Floating.exact W g with
    add := fun a b => fl (a + b)
    sub := fun a b => fl (a - b)
    mul := fun a b => fl (a * b)
    acc := fun a b => fl (a + b)
    single := fl32 }

end Verif.Spec
