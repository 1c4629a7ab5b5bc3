import Mathlib.Algebra.BigOperators.Finprod
import Mathlib.Algebra.Order.Floor.Ring
import Mathlib.Order.Interval.Finset.Basic
import Mathlib.Data.Int.Interval
import Mathlib.Algebra.Order.Field.Basic

/-!
# Images, stated without loops

The unit interval is cut in `res` pixels. A particle has one copy for every lattice vector of the periodic box (a side
of length zero means that the axis is not periodic), and an image is a sum over all copies of all particles.
-/

namespace Verif.Spec

/-- `i` is the index of a pixel. -/
def OnImage (res : Nat) (i : Int) : Prop := 0 ≤ i ∧ i < res

instance (res : Nat) (i : Int) : Decidable (OnImage res i) := inferInstanceAs (Decidable (_ ∧ _))

section
variable {K : Type} [Field K] [LinearOrder K]

/-- Pixel `i` contains the coordinate `x`. -/
def InPixel (res : Nat) (i : Int) (x : K) : Prop := (i : K) / res ≤ x ∧ x < ((i : K) + 1) / res

instance (res : Nat) (i : Int) (x : K) : Decidable (InPixel res i x) := inferInstanceAs (Decidable (_ ∧ _))

/-- The centre of pixel `i`. -/
def centre (res : Nat) (i : Int) : K := (2 * (i : K) + 1) / (2 * res)

/-- The lattice vector `k` belongs to an axis of period `b`. -/
def IsCopy (b : K) (k : Int) : Prop := b = 0 → k = 0

instance (b : K) (k : Int) : Decidable (IsCopy b k) := inferInstanceAs (Decidable (_ → _))

/-- The coordinate has been wrapped into the box. -/
def Wrapped (b x : K) : Prop := b ≠ 0 → 0 ≤ x ∧ x < b

/-- Sum of `f` over all periodic copies of the point `(x, y)`. -/
noncomputable def tile2 (bx by_ : K) (f : K → K → K) (x y : K) : K :=
  ∑ᶠ k : ℤ × ℤ, if IsCopy bx k.1 ∧ IsCopy by_ k.2 then f (x + k.1 * bx) (y + k.2 * by_) else 0

/-- Sum of `f` over all periodic copies of the point `(x, y, z)`. -/
noncomputable def tile3 (bx by_ bz : K) (f : K → K → K → K) (x y z : K) : K :=
  ∑ᶠ k : ℤ × ℤ × ℤ, if IsCopy bx k.1 ∧ IsCopy by_ k.2.1 ∧ IsCopy bz k.2.2 then
    f (x + k.1 * bx) (y + k.2.1 * by_) (z + k.2.2 * bz) else 0

/-- A kernel, given the square of the distance, that vanishes at and beyond its radius. -/
def Compact (W : K → K → K) : Prop := ∀ r2 H : K, 0 < H → H * H ≤ r2 → W r2 H = 0

/-- Square of the distance from `(x, y)` to the centre of a pixel. -/
def gap2 (res : Nat) (q : Int × Int) (x y : K) : K := (centre res q.1 - x) ^ 2 + (centre res q.2 - y) ^ 2

/-- Square of the distance from `(x, y, z)` to the centre of a voxel of a grid with `nz` layers. -/
def gap3 (res nz : Nat) (q : Int × Int × Int) (x y z : K) : K :=
  (centre res q.1 - x) ^ 2 + (centre res q.2.1 - y) ^ 2 + (centre nz q.2.2 - z) ^ 2

/-- Surface density at a pixel of a point of weight `m` that is spread over the pixel containing it. -/
def pointAt (res : Nat) (m : K) (q : Int × Int) (x y : K) : K :=
  if InPixel res q.1 x ∧ InPixel res q.2 y then m * (res : K) ^ 2 else 0

/-- Surface density at a pixel of a particle of kernel radius `H`: kernels smaller than a pixel count as points. -/
def smoothAt (W : K → K → K) (res : Nat) (m H : K) (q : Int × Int) (x y : K) : K :=
  if H * res < 1 then pointAt res m q x y else m * W (gap2 res q x y) H

/-- Density at a voxel of a particle in the render, as it is drawn: kernels narrower than half a cell count as points,
and the kernel stops at the last cell that the loops reach. -/
def voxelAt [FloorRing K] (W : K → K → K) (res resz : Nat) (m H : K) (q : Int × Int × Int) (x y z : K) : K :=
  if H * res < 1 / 2 ∨ H * resz < 1 / 2 then
    if InPixel res q.1 x ∧ InPixel res q.2.1 y ∧ InPixel resz q.2.2 z then m * ((res : K) ^ 2 * resz) else 0
  else if q.1 ≤ ⌊(res : K) * x⌋ + ⌊(res : K) * H⌋ ∧ q.2.1 ≤ ⌊(res : K) * y⌋ + ⌊(res : K) * H⌋ ∧
      q.2.2 ≤ ⌊(resz : K) * z⌋ + ⌊(resz : K) * H⌋ then m * W (gap3 res resz q x y z) H
  else 0

/-- Sum of the kernel over the pixels that are at most `⌊res * H⌋` rows and columns away from the one containing
`(x, y)`. -/
def kernelSquare [FloorRing K] (W : K → K → K) (res : Nat) (H x y : K) : K :=
  ∑ i ∈ Finset.Icc (⌊(res : K) * x⌋ - ⌊(res : K) * H⌋) (⌊(res : K) * x⌋ + ⌊(res : K) * H⌋),
    ∑ j ∈ Finset.Icc (⌊(res : K) * y⌋ - ⌊(res : K) * H⌋) (⌊(res : K) * y⌋ + ⌊(res : K) * H⌋), W (gap2 res (i, j) x y) H

/-- Surface density of a particle whose kernel is normalised with `kernelSquare`. -/
def renormalisedAt [FloorRing K] (W : K → K → K) (res : Nat) (m H : K) (q : Int × Int) (x y : K) : K :=
  if H * res < 1 then pointAt res m q x y else m * ((res : K) ^ 2 / kernelSquare W res H x y) * W (gap2 res q x y) H

/-- The kernel of radius `H` around `x` is inside the image along one axis. -/
def Interior (H x : K) : Prop := H ≤ x ∧ x + H ≤ 1

/-- A kernel that is positive inside its radius. -/
def PositiveInside (W : K → K → K) : Prop := ∀ r2 H : K, 0 < H → 0 ≤ r2 → r2 < H * H → 0 < W r2 H

end

end Verif.Spec
