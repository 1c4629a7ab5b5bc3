import Verif.Spec.FloatingImages
import Verif.Spec.RoundedCuts
import Mathlib.Data.Rat.Floor

/-!
# What is assumed of the arithmetic in C142, and what is claimed of images
-/

namespace Verif.Spec
open Verif Verif.Floating

/-- Products and quotients of numbers that are not negative are not negative, products and sums do not exchange numbers, sums with a number that
is not negative do not decrease, and the kernel is not negative. Overflow to infinity is permitted, NaN is not. -/
structure PositiveArith {F : Type} [LinearOrder F] (A : Arith F) : Prop where
  mul_nonneg : ∀ a b : F, A.zero ≤ a → A.zero ≤ b → A.zero ≤ A.mul a b
  div_nonneg : ∀ a b : F, A.zero ≤ a → A.zero ≤ b → A.zero ≤ A.div a b
  mul_left : ∀ a b c : F, a ≤ b → A.zero ≤ c → A.mul a c ≤ A.mul b c
  ofInt_nonneg : ∀ n : Int, 0 ≤ n → A.zero ≤ A.ofInt n
  single_nonneg : ∀ a : F, A.zero ≤ a → A.zero ≤ A.single a
  kernel_nonneg : ∀ r H : F, A.zero ≤ A.kernel r H
  acc_left : ∀ a b c : F, a ≤ b → A.acc a c ≤ A.acc b c
  acc_right : ∀ a b c : F, b ≤ c → A.acc a b ≤ A.acc a c
  acc_grows : ∀ a b : F, A.zero ≤ b → a ≤ A.acc a b

/-- The second particle is the first one with a mass that is at least as large. -/
def Heavier {F : Type} [LinearOrder F] (p p' : Scatter.Part F) : Prop :=
  p'.x = p.x ∧ p'.y = p.y ∧ p'.z = p.z ∧ p'.h = p.h ∧ p.m ≤ p'.m

/-- What one expects of a function that draws images of masses, with `zero` for the number zero. -/
structure Growing {F ι : Type} [LinearOrder F] (zero : F) (draw : List (Scatter.Part F) → Except Err (ι → F)) : Prop where
  /-- No pixel is negative. -/
  nonneg : ∀ ps img, (∀ p ∈ ps, zero ≤ p.m) → draw ps = .ok img → ∀ q, zero ≤ img q
  /-- No pixel decreases if particles are inserted anywhere in the list. -/
  more : ∀ ps ps' img img', ps.Sublist ps' → (∀ p ∈ ps', zero ≤ p.m) → draw ps = .ok img → draw ps' = .ok img' → ∀ q, img q ≤ img' q
  /-- No pixel decreases if masses increase. -/
  heavier : ∀ ps ps' img img', List.Forall₂ Heavier ps ps' → draw ps = .ok img → draw ps' = .ok img' → ∀ q, img q ≤ img' q

/-- The numbers that `fl` does not change, with operations that are exact and then rounded. As in `Floating.exact` the root is left out. -/
def formatArith (fl : ℚ → ℚ) (hfl : OrderKeeping fl) (fl32 : ℚ → ℚ) (W : ℚ → ℚ → ℚ) (g : ℚ) : Arith { x : ℚ // fl x = x } :=
  let r : ℚ → { x : ℚ // fl x = x } := fun x => ⟨fl x, hfl.twice x⟩
  { add := fun a b => r (a.1 + b.1)
    sub := fun a b => r (a.1 - b.1)
    mul := fun a b => r (a.1 * b.1)
    div := fun a b => r (a.1 / b.1)
    mod := fun a b => r (a.1 - b.1 * ⌊a.1 / b.1⌋)
    lt := fun a b => decide (a.1 < b.1)
    le := fun a b => decide (a.1 ≤ b.1)
    isZero := fun a => decide (a.1 = 0)
    floor := fun a => r ⌊a.1⌋
    ceil := fun a => r ⌈a.1⌉
    sqrt := id
    single := fun a => r (fl32 a.1)
    ofInt := fun n => r n
    toInt := fun a => Scatter.trunc a.1
    half := r (1 / 2)
    quarter := r (1 / 4)
    kernel := fun a b => r (W a.1 b.1)
    gamma := r g
    zero := r 0
    acc := fun a b => r (a.1 + b.1) }

end Verif.Spec
