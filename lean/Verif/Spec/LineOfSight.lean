import Verif.Model.LineOfSight
import Mathlib.Algebra.Field.Defs

/-!
# Line-of-sight files
-/

namespace Verif.Spec
open Verif.Names Verif.LineOfSight

/-- The last `w` decimal digits of `n`, with leading zeros. -/
def padded : Nat → Nat → List Char
  | 0, _ => []
  | w + 1, n => padded w (n / 10) ++ [Char.ofNat (48 + n % 10)]

/-- The group of line of sight `n`, `"LOS_%04d"` in SWIFT for `w = 4`. -/
def losGroup (w n : Nat) : Str := "LOS_".toList ++ padded w n

/-- The Python name of the group of line of sight `n`. -/
def losName (w n : Nat) : Str := "los_".toList ++ padded w n

/-- The attributes that say where a line of sight is. -/
def losPosition (attr : Str) : Prop := attr = "Xpos".toList ∨ attr = "Ypos".toList ∨ attr = "Zpos".toList

/-- The values in the physical frame: `v * a ^ exponent` for comoving values. -/
def losPhysical {K : Type} [Field K] (x : Attr K) : List K :=
  if x.comoving then x.vals.map (fun v => v * x.scale ^ x.exponent) else x.vals

end Verif.Spec
