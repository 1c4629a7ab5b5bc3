import Mathlib.Algebra.Ring.Int.Parity
import Verif.Model.Frame

/-!
# Depositions for power spectra (`swiftsimio/visualisation/power_spectrum.py`)

Exact arithmetic in an ordered field. In floating point `x_pos_scaled * float_res` can round up to `res`, which the
compiled loop does not check; `Verif.Model.Binary` models that (C80).
-/

namespace Verif.Power
open Verif Verif.Scatter Verif.Frame

section
variable {K : Type} [Field K] [LinearOrder K] [FloorRing K]

/-- `np.int32((x_pos % box_over_fold) * inv_box_over_fold * float_res)` (`power_spectrum.py` 87-95). -/
def pix (res : Nat) (over v : K) : Int := trunc (pmod v over * (1 / over) * (res : K))

/-- The statement of the loop for one particle (`power_spectrum.py` 80-98). -/
def depositDeps (res : Nat) (fold bx by_ bz : K) (p : Part K) : (Int × Int × Int) × K :=
  ((pix res (bx / fold) p.x, pix res (by_ / fold) p.y, pix res (bz / fold) p.z),
    p.m * ((res : K) * res * res * (fold * fold * fold)))

/-- `deposit` (`power_spectrum.py` 13-100). -/
def deposit (res : Nat) (fold bx by_ bz : K) (ps : List (Part K)) : Except Err (Int × Int × Int → K) :=
  paint (inside3 res res res) (ps.map (depositDeps res fold bx by_ bz))

/-- `deposit_parallel` (`power_spectrum.py` 104-184). -/
def depositParallel (threads : Nat) (order : List Nat) (res : Nat) (fold bx by_ bz : K) (ps : List (Part K)) :
    Except Err (Int × Int × Int → K) :=
  parallel (deposit res fold bx by_ bz) threads order ps

/-- The array returned by `render_to_deposit`: its numbers, the number in its unit, its frame and exponent. -/
structure Deposition (K : Type) where
  grid : Int × Int × Int → K
  unit : K
  comoving : Bool
  exponent : Int

/-- `render_to_deposit` (`power_spectrum.py` 187-275) at scale factor `a`. The box is `metadata.boxsize`, which is comoving
(`metadata_fields.py` 97-101). `posComoving` is the frame of the coordinates, `qComoving` and `k` the frame and exponent of
the field, `sameUnits` says that coordinates and box are in the same unit. -/
def renderToDeposit (a : K) (box : K × K × K) (sameUnits posComoving qComoving : Bool) (k : Int) (res : Nat) (folding : Int)
    (ps : List (Part K)) : Except Err (Deposition K) := do
  if posComoving && !(qComoving || decide (a ^ k = 1)) then throw .attribute
  if !posComoving && !(!qComoving || decide (a ^ k = 1)) then throw .attribute
  if !sameUnits then throw .attribute
  let grid ← deposit res ((2 : K) ^ folding) box.1 box.2.1 box.2.2 ps
  return { grid := grid, unit := 1 / (box.1 * box.2.1 * box.2.2), comoving := posComoving, exponent := k - 3 }

/-- The numbers that `to_comoving()` of the result gives, in the unit of the weights per cube of the unit of the box. -/
def Deposition.inComoving (d : Deposition K) (a : K) (q : Int × Int × Int) : K :=
  if d.comoving then d.grid q * d.unit else d.grid q * d.unit / a ^ d.exponent

end

end Verif.Power
