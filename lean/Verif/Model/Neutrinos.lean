import Verif.Model.Scatter

/-!
# Neutrinos of a cosmology (`swiftsimio/conversions.py`)
-/

namespace Verif.Neutrinos
open Verif Verif.Scatter

section
variable {K : Type} [Field K] [LinearOrder K] [FloorRing K]

/-- `swift_neutrinos_to_astropy` (`conversions.py` 18-62). A scalar is a list of one entry (43-46); `int` and `astype(int)`
truncate; a list times a negative number is empty. -/
def toAstropy (nEff nUr : K) (masses deg : List K) : Except Err (List K) :=
  if !(deg.all fun d => decide (d = (trunc d : K))) then .error .attribute
  else if trunc nEff ≠ (deg.map trunc).sum + trunc nUr then .error .attribute
  else .ok (((masses.zip deg).map fun p => List.replicate (trunc p.2).toNat p.1).foldl (· ++ ·) [] ++
    List.replicate (trunc nUr).toNat 0)

/-- The values that `swift_cosmology_to_astropy` takes from the header, or its defaults (`conversions.py` 116-135). The
default of the masses and degeneracies is the scalar zero. -/
def fromHeader (nEff nUr : Option K) (masses deg : Option (List K)) : Except Err (List K) :=
  toAstropy (nEff.getD (304 / 100)) (nUr.getD (304 / 100)) (masses.getD [0]) (deg.getD [0])

end

end Verif.Neutrinos
