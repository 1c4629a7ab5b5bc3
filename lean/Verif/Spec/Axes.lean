import Verif.Spec.ImageLaws

/-!
# Exchanged axes of slices and renders

What the laws of C124 are about; nothing here is used by the images themselves.
-/

namespace Verif.Spec
open Verif Verif.Scatter

variable {K : Type}

/-- The last two axes exchanged: a particle, the sides of the box. -/
def tipped (p : Part K) : Part K := { p with y := p.z, z := p.y }

def tipBox (box : K × K × K) : K × K × K := (box.1, box.2.2, box.2.1)

/-- A backend of slices that draws the transposed image for particles whose first two axes are exchanged. -/
def SliceTurns (scatter : K → Nat → Nat → K → K → K → List (Part K) → Except Err (Int × Int → K)) : Prop :=
  ∀ (zs : K) (nx ny : Nat) (bx by_ bz : K) (ps : List (Part K)),
    scatter zs ny nx by_ bx bz (ps.map turned) = (scatter zs nx ny bx by_ bz ps).map fun img => fun q : Int × Int => img (q.2, q.1)

/-- A backend of renders that exchanges the first two axes of the voxels with those of the particles. -/
def RenderTurns (scatter : Nat → K → K → K → List (Part K) → Except Err (Int × Int × Int → K)) : Prop :=
  ∀ (res : Nat) (bx by_ bz : K) (ps : List (Part K)),
    scatter res by_ bx bz (ps.map turned) = (scatter res bx by_ bz ps).map fun img => fun q : Int × Int × Int => img (q.2.1, q.1, q.2.2)

/-- A backend of renders that exchanges the last two axes of the voxels with those of the particles. -/
def RenderTips (scatter : Nat → K → K → K → List (Part K) → Except Err (Int × Int × Int → K)) : Prop :=
  ∀ (res : Nat) (bx by_ bz : K) (ps : List (Part K)),
    scatter res bx bz by_ (ps.map tipped) = (scatter res bx by_ bz ps).map fun img => fun q : Int × Int × Int => img (q.1, q.2.2, q.2.1)

end Verif.Spec
