import Verif.Model.Frame

/-!
# Images of one field weighted by another
-/

namespace Verif.Spec
open Verif Verif.Scatter

variable {K : Type} [Field K] [LinearOrder K]

/-- Particles with the quantity `u` to be drawn; the rest of a particle and its mask stay. -/
def drawn {α : Type} (pos : α → Part K) (mask : α → Bool) (u : α → K) (l : List α) : List (Part K × Bool) :=
  l.map fun a => ({ pos a with m := u a }, mask a)

/-- The limits of a region are in order; without limits the sides of the box are positive. -/
def LimitsInOrder (box : K × K × K) : Option (List K) → Prop
  | none => 0 < box.1 ∧ 0 < box.2.1 ∧ 0 < box.2.2
  | some [x0, x1, y0, y1, z0, z1] => x0 < x1 ∧ y0 < y1 ∧ z0 < z1
  | some (x0 :: x1 :: y0 :: y1 :: _) => x0 < x1 ∧ y0 < y1 ∧ 0 < box.2.2
  | some _ => True

/-- A backend draws nothing negative for quantities and kernel widths that are not negative. -/
def Positive {ι : Type} (g : K) (scatter : List (Part K) → Except Err (ι → K)) : Prop :=
  ∀ ps img, (∀ p ∈ ps, 0 ≤ p.m ∧ 0 ≤ g * p.h) → scatter ps = .ok img → ∀ q, 0 ≤ img q

/-- A kernel that is nowhere negative, as a function of the square of the distance and the width. -/
def NonNegative (W : K → K → K) : Prop := ∀ r2 H : K, 0 ≤ r2 → 0 ≤ H → 0 ≤ W r2 H

/-- The value of an image of `w * T` by the image of `w` is a mean of `T`: between any two bounds of `T`. -/
def MeanBetween {ι : Type} (lo hi : K) (num den : ι → K) : Prop :=
  ∀ q, 0 ≤ den q ∧ lo * den q ≤ num q ∧ num q ≤ hi * den q ∧ (den q ≠ 0 → lo ≤ num q / den q ∧ num q / den q ≤ hi)

end Verif.Spec
