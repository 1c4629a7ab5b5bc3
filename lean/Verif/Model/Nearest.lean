import Verif.Model.Frame

/-!
# The nearest-neighbour slice (`swiftsimio/visualisation/slice_backends/nearest_neighbours.py`)

The tree (`scipy.spatial.cKDTree`) is a parameter `query`: the side lengths (zero means not periodic), the positions in the
tree, and a position give the index of a particle. What it is documented to return is stated in terms of `distance2`.
-/

namespace Verif.Nearest
open Verif Verif.Scatter Verif.Frame

section
variable {K : Type} [Field K] [LinearOrder K] [FloorRing K]

/-- Distance along one axis of a tree made with `boxsize`: positions are wrapped into the box, and the shorter way counts. -/
def gap (b a c : K) : K := if b = 0 then |a - c| else min |a - pmod c b| (b - |a - pmod c b|)

/-- Square of the distance that the tree uses. -/
def distance2 (box p q : K × K × K) : K :=
  gap box.1 p.1 q.1 * gap box.1 p.1 q.1 + gap box.2.1 p.2.1 q.2.1 * gap box.2.1 p.2.1 q.2.1 +
    gap box.2.2 p.2.2 q.2.2 * gap box.2.2 p.2.2 q.2.2

/-- The positions given to the tree (49-64): `x %= box_x` for every side that is not zero. -/
def treeData (bx by_ bz : K) (ps : List (Part K)) : List (K × K × K) :=
  ps.map fun p => (if bx = 0 then p.x else pmod p.x bx, if by_ = 0 then p.y else pmod p.y by_, if bz = 0 then p.z else pmod p.z bz)

/-- `slice_scatter` (67-165). Without particles the tree returns an index out of range. -/
def slice (query : K × K × K → List (K × K × K) → K × K × K → Nat) (zs : K) (xres yres : Nat) (bx by_ bz : K)
    (ps : List (Part K)) : Except Err (Int × Int → K) :=
  let res := max xres yres
  let values := ps.map fun p => p.m / p.h ^ 3
  if xres * yres ≠ 0 ∧ ps = [] then .error .index
  else .ok fun q =>
    if inside2 xres yres q then
      values.getD (query (bx, by_, bz) (treeData bx by_ bz ps)
        (((q.1 : K) + 1 / 2) / (res : K), ((q.2 : K) + 1 / 2) / (res : K), zs)) 0
    else 0

end

end Verif.Nearest
