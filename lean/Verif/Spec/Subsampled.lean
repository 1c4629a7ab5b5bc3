import Verif.Spec.Image

/-!
# Kernels that are sampled several times per pixel, stated without loops
-/

namespace Verif.Spec

variable {K : Type} [Field K] [LinearOrder K]

/-- Kernel at the centre of cell `(a, b)` of a `2D × 2D` grid over the square around the kernel. -/
def ditherCell (W : K → K → K) (D a b : Nat) : K :=
  W (((a : K) + 1 / 2 - D) ^ 2 + ((b : K) + 1 / 2 - D) ^ 2) D

/-- The share of the mass in cell `(a, b)`. -/
def ditherShare (W : K → K → K) (D a b : Nat) : K :=
  ditherCell W D a b / ∑ a' ∈ Finset.range (2 * D), ∑ b' ∈ Finset.range (2 * D), ditherCell W D a' b'

/-- Where cell `a` is laid down: at the lower edge of the cell, the kernel reaching from `x - H` to `x + H`. -/
def ditherPos (D : Nat) (x H : K) (a : Nat) : K := x + ((a : K) / D - 1) * H

/-- Surface density at a pixel when the shares of the mass are laid down one by one. -/
def ditherAt (W : K → K → K) (D res : Nat) (m H : K) (q : Int × Int) (x y : K) : K :=
  ∑ a ∈ Finset.range (2 * D), ∑ b ∈ Finset.range (2 * D),
    pointAt res (m * ditherShare W D a b) q (ditherPos D x H a) (ditherPos D y H b)

/-- Mean of the kernel over the `S × S` centres of the parts of a pixel. -/
def meanKernel (W : K → K → K) (S res : Nat) (H : K) (q : Int × Int) (x y : K) : K :=
  (∑ s ∈ Finset.range S, ∑ t ∈ Finset.range S,
    W ((((q.1 : K) + (2 * s + 1) / (2 * S)) / res - x) ^ 2 + (((q.2 : K) + (2 * t + 1) / (2 * S)) / res - y) ^ 2) H) /
      (S : K) ^ 2

/-- The kernel of radius `H` around `x` ends between `i / res` and the next border `w` further. -/
def Between (res : Nat) (w H x : K) (i : Int) : Prop := (i : K) / res ≤ x - H ∧ x + H ≤ (i : K) / res + w

instance (res : Nat) (w H x : K) (i : Int) : Decidable (Between res w H x i) := inferInstanceAs (Decidable (_ ∧ _))

/-- The kernel of radius `H` around `x` lies within pixel `i`. -/
def Within (res : Nat) (H x : K) (i : Int) : Prop := Between res (1 / (res : K)) H x i

variable [FloorRing K]

/-- Samples per pixel along one axis. -/
def samples (E res : Nat) (H : K) : Nat := 2 * ⌈(E : K) / (1 + H * res)⌉.toNat

/-- Surface density at a pixel as it is intended: kernels of at most a quarter of a pixel are laid down in shares, larger
ones are averaged over every pixel. -/
def shareAt (W : K → K → K) (E D res : Nat) (m H : K) (q : Int × Int) (x y : K) : K :=
  if H * res ≤ 1 / 4 then ditherAt W D res m H q x y else m * meanKernel W (samples E res H) res H q x y

/-- The particle's own pixel gets everything: it is on the image and the kernel ends between its lower borders and a
whole image further. -/
def Whole (res : Nat) (H x y : K) : Prop :=
  (OnImage res ⌊(res : K) * x⌋ ∧ OnImage res ⌊(res : K) * y⌋) ∧
    Between res 1 H x ⌊(res : K) * x⌋ ∧ Between res 1 H y ⌊(res : K) * y⌋

instance (res : Nat) (H x y : K) : Decidable (Whole res H x y) := inferInstanceAs (Decidable (_ ∧ _))

/-- Surface density at a pixel as it is drawn. -/
def sampledAt (W : K → K → K) (E D res : Nat) (m H : K) (q : Int × Int) (x y : K) : K :=
  if H * res ≤ 1 / 4 ∧ Whole res H x y then pointAt res m q x y else shareAt W E D res m H q x y

end Verif.Spec
