import Mathlib.Algebra.Order.Field.Basic
import Mathlib.Algebra.Ring.Int.Parity
import Verif.Spec.Image

/-!
# Folded grids
-/

namespace Verif.Spec

variable {K : Type} [Field K] [LinearOrder K]

/-- A box of length `L` is cut in `f` pieces, each is divided into `n` cells and the pieces are laid on top of each other.
The coordinate `X`, which need not be in the box, is in cell number `i` of one of the pieces. -/
def Folded (L f : K) (n : Nat) (i : Int) (X : K) : Prop :=
  ∃ j : Int, (i + n * j) * (L / (f * n)) ≤ X ∧ X < (i + n * j + 1) * (L / (f * n))

/-- The same in three dimensions. -/
def Folded3 (L : K × K × K) (f : K) (n : Nat) (q : Int × Int × Int) (X Y Z : K) : Prop :=
  Folded L.1 f n q.1 X ∧ Folded L.2.1 f n q.2.1 Y ∧ Folded L.2.2 f n q.2.2 Z

end Verif.Spec
