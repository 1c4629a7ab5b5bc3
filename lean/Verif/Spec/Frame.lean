import Verif.Spec.Image

/-!
# Images of a region of the box, in the coordinates of the box
-/

namespace Verif.Spec

variable {K : Type} [Field K] [LinearOrder K]

/-- Pixel `i` of `res` pixels over a length `R` starting at `a` contains `X`. -/
def InCell (a R : K) (res : Nat) (i : Int) (X : K) : Prop := a + i * (R / res) ≤ X ∧ X < a + (i + 1) * (R / res)

instance (a R : K) (res : Nat) (i : Int) (X : K) : Decidable (InCell a R res i X) := inferInstanceAs (Decidable (_ ∧ _))

/-- Centre of pixel `i` in the coordinates of the box. -/
def cellCentre (a R : K) (res : Nat) (i : Int) : K := a + (i + 1 / 2) * (R / res)

/-- A kernel without its own scale in `d` dimensions. -/
def Scales (d : Nat) (W : K → K → K) : Prop := ∀ c r2 H : K, 0 < c → W (c ^ 2 * r2) (c * H) = W r2 H / c ^ d

/-- Surface density that a particle at `(X, Y)` gives to a pixel of a square grid with corner `(a, b)` and side `R`:
kernels smaller than a pixel count as points. -/
def surfaceAt (W : K → K → K) (a b R : K) (res : Nat) (m H : K) (q : Int × Int) (X Y : K) : K :=
  if H * res < R then
    if InCell a R res q.1 X ∧ InCell b R res q.2 Y then m / (R / res) ^ 2 else 0
  else m * W ((cellCentre a R res q.1 - X) ^ 2 + (cellCentre b R res q.2 - Y) ^ 2) H

/-- Density that a particle gives to a pixel of a slice at height `zs`, as it is drawn: the kernel stops at the last column
and row that the loops reach. -/
def sliceAt [FloorRing K] (W : K → K → K) (a b zs R : K) (res : Nat) (m H : K) (q : Int × Int) (X Y Z : K) : K :=
  if q.1 ≤ ⌊(X - a) / (R / res)⌋ + ⌊H / (R / res)⌋ ∧ q.2 ≤ ⌊(Y - b) / (R / res)⌋ + ⌊H / (R / res)⌋ then
    m * W ((cellCentre a R res q.1 - X) ^ 2 + (cellCentre b R res q.2 - Y) ^ 2 + (Z - zs) ^ 2) H
  else 0

/-- Density that a particle gives to a voxel of a render, as it is drawn: kernels narrower than half a cell count as points
and other kernels stop at the last cell that the loops reach. -/
def densityAt [FloorRing K] (W : K → K → K) (a b c R : K) (res : Nat) (m H : K) (q : Int × Int × Int) (X Y Z : K) : K :=
  if H < R / res / 2 then
    if InCell a R res q.1 X ∧ InCell b R res q.2.1 Y ∧ InCell c R res q.2.2 Z then m / (R / res) ^ 3 else 0
  else if q.1 ≤ ⌊(X - a) / (R / res)⌋ + ⌊H / (R / res)⌋ ∧ q.2.1 ≤ ⌊(Y - b) / (R / res)⌋ + ⌊H / (R / res)⌋ ∧
      q.2.2 ≤ ⌊(Z - c) / (R / res)⌋ + ⌊H / (R / res)⌋ then
    m * W ((cellCentre a R res q.1 - X) ^ 2 + (cellCentre b R res q.2.1 - Y) ^ 2 + (cellCentre c R res q.2.2 - Z) ^ 2) H
  else 0

/-- Some periodic copy of `z` is in the depth range, when there is one; `b` is the period, zero if not periodic. -/
def DepthOk (b : K) (depth : Option (K × K)) (z : K) : Prop :=
  ∀ r, depth = some r → ∃ k : Int, IsCopy b k ∧ r.1 ≤ z + k * b ∧ z + k * b ≤ r.2

end Verif.Spec
