import Verif.Model.Frame

/-!
# Moved and mirrored particles and regions

What the laws of C111 are about; nothing here is used by the images themselves.
-/

namespace Verif.Spec
open Verif Verif.Scatter

variable {K : Type} [Field K]

/-- The particle `q` is `p` moved by `t`, in a periodic box also by whole boxes, which may be others for every particle. The value of
the mask goes with the particle. -/
def Displaced (box t : K × K × K) (periodic : Bool) (p q : Part K × Bool) : Prop :=
  ∃ n : ℤ × ℤ × ℤ, (periodic = false → n = (0, 0, 0)) ∧
    q = ({ p.1 with x := p.1.x + t.1 + (n.1 : K) * box.1, y := p.1.y + t.2.1 + (n.2.1 : K) * box.2.1,
                    z := p.1.z + t.2.2 + (n.2.2 : K) * box.2.2 }, p.2)

/-- The limits of a region moved by `t`; without limits in depth only the first four are moved. -/
def moveLimits (t : K × K × K) : List K → List K
  | [x0, x1, y0, y1, z0, z1] => [x0 + t.1, x1 + t.1, y0 + t.2.1, y1 + t.2.1, z0 + t.2.2, z1 + t.2.2]
  | x0 :: x1 :: y0 :: y1 :: l => (x0 + t.1) :: (x1 + t.1) :: (y0 + t.2.1) :: (y1 + t.2.1) :: l
  | l => l

/-- The two axes of the image exchanged: a particle, the limits of a region, the sides of the box. -/
def turned (p : Part K) : Part K := { p with x := p.y, y := p.x }

def turnLimits : List K → List K
  | x0 :: x1 :: y0 :: y1 :: l => y0 :: y1 :: x0 :: x1 :: l
  | l => l

def turnBox (box : K × K × K) : K × K × K := (box.2.1, box.1, box.2.2)

/-- A backend that draws the transposed image for particles whose axes are exchanged. -/
def Turns (scatter : Nat → K → K → List (Part K) → Except Err (Int × Int → K)) : Prop :=
  ∀ (res : Nat) (bx by_ : K) (ps : List (Part K)),
    scatter res by_ bx (ps.map turned) = (scatter res bx by_ ps).map fun img => fun q : Int × Int => img (q.2, q.1)

end Verif.Spec
