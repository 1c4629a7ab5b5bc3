import Verif.Model.Header
import Verif.Model.Neutrinos
import Mathlib.Analysis.SpecialFunctions.Pow.Real

/-!
# Model of the conversion of a cosmology (swiftsimio/conversions.py)

`swift_cosmology_to_astropy` up to the call of `w0waCDM`: the arguments of that call. The constants of nature are parameters.
Entries of the group `Cosmology` that are strings are refused here with TypeError; astropy would refuse them later.
-/

namespace Verif.Cosmology
open Verif Verif.Header

/-- `G`, the constant of Stefan and Boltzmann, and the speed of light, in cgs. -/
structure Nature where
  G : ℝ
  sigma : ℝ
  c : ℝ

/-- The arguments of `w0waCDM`, `H0` in `1/s`, temperature in K, masses in eV. -/
structure Astropy where
  H0 : ℝ
  Om0 : ℝ
  Ode0 : ℝ
  w0 : ℝ
  wa : ℝ
  Tcmb0 : ℝ
  Ob0 : ℝ
  Neff : ℝ
  mNu : List ℝ

/-- `r[0]` as a number. -/
noncomputable def number (r : Raw ℝ) : Except Err ℝ :=
  match item r 0 with
  | .ok (.scalar x) => .ok x
  | .ok _ => .error .typeErr
  | .error e => .error e

/-- `cosmo[k][0]`. -/
noncomputable def required (cosmo : Dict (Raw ℝ)) (k : String) : Except Err ℝ :=
  match cosmo k with
  | some r => number r
  | none => .error .key

/-- `critdens_const`, conversions.py:103. -/
noncomputable def critdensConst (n : Nature) : ℝ := 3 / (8 * Real.pi * n.G)

/-- `a_B_c2`, conversions.py:104. -/
noncomputable def aBc2 (n : Nature) : ℝ := 4 * n.sigma / n.c ^ 3

/-- The temperature that goes with a density of radiation, conversions.py:106-115. -/
noncomputable def temperature (n : Nature) (H0 omegaR : ℝ) : ℝ :=
  (omegaR * (critdensConst n * H0 ^ 2) / aBc2 n) ^ ((1 : ℝ) / 4)

/-- `Tcmb0`, conversions.py:97-115: a missing, empty or zero entry is replaced by the above. -/
noncomputable def tcmb (n : Nature) (cosmo : Dict (Raw ℝ)) (H0 omegaR : ℝ) : Except Err ℝ :=
  match cosmo "T_CMB_0 [K]" with
  | none => .ok (temperature n H0 omegaR)
  | some r => match number r with
    | .ok x => if x ≠ 0 then .ok x else .ok (temperature n H0 omegaR)
    | .error .index => .ok (temperature n H0 omegaR)
    | .error e => .error e

/-- `Neff`, conversions.py:117-120. -/
noncomputable def neff (cosmo : Dict (Raw ℝ)) : Except Err ℝ :=
  match cosmo "N_eff" with
  | none => .ok (304 / 100)
  | some r => match number r with
    | .ok x => .ok x
    | .error .index => .ok (304 / 100)
    | .error e => .error e

/-- An array, or a number as an array of one, conversions.py:43-46. -/
def numbers : Raw ℝ → Except Err (List ℝ)
  | .scalar x => .ok [x]
  | .array l => .ok l
  | _ => .error .typeErr

/-- `cosmo["M_nu_eV"]` and `cosmo["deg_nu"]`, conversions.py:122-130. -/
noncomputable def species (cosmo : Dict (Raw ℝ)) (k : String) : Except Err (List ℝ) :=
  match cosmo k with
  | none => .ok [0]
  | some r => numbers r

/-- `np.squeeze(N_ur)` with `N_ur` of conversions.py:132-135: an array of any other length than one cannot be made an integer. -/
noncomputable def nur (cosmo : Dict (Raw ℝ)) : Except Err ℝ :=
  match cosmo "N_ur" with
  | none => .ok (304 / 100)
  | some (.scalar x) => .ok x
  | some (.array [x]) => .ok x
  | some _ => .error .typeErr

/-- `swift_cosmology_to_astropy`, conversions.py:62-149; `time` is the unit of time in seconds. -/
noncomputable def toAstropy (n : Nature) (time : ℝ) (cosmo : Dict (Raw ℝ)) : Except Err Astropy := do
  let h ← required cosmo "H0 [internal units]"
  let H0 := h / time
  let omegaB ← required cosmo "Omega_b"
  let omegaL ← required cosmo "Omega_lambda"
  let omegaR ← required cosmo "Omega_r"
  let omegaM ← required cosmo "Omega_m"
  let w0 ← required cosmo "w_0"
  let wa ← required cosmo "w_a"
  let t ← tcmb n cosmo H0 omegaR
  let ne ← neff cosmo
  let ms ← species cosmo "M_nu_eV"
  let ds ← species cosmo "deg_nu"
  let nu ← nur cosmo
  let m ← Neutrinos.toAstropy ne nu ms ds
  return ⟨H0, omegaM, omegaL, w0, wa, t, omegaB, ne, m⟩

end Verif.Cosmology
