import Verif.Model.Cosmology

/-!
# The parameters of a cosmology
-/

namespace Verif.Spec
open Verif.Cosmology

/-- The argument of `w0waCDM` that each entry of the group `Cosmology` is, as the documentation of SWIFT and of astropy name
them. -/
def cosmologyTable : List (String × (Astropy → ℝ)) :=
  [("Omega_m", Astropy.Om0), ("Omega_lambda", Astropy.Ode0), ("Omega_b", Astropy.Ob0), ("w_0", Astropy.w0), ("w_a", Astropy.wa)]

/-- The critical density of the universe, `3 H² / (8 π G)`. -/
noncomputable def criticalDensity (n : Nature) (H0 : ℝ) : ℝ := 3 * H0 ^ 2 / (8 * Real.pi * n.G)

/-- The density of photons of temperature `T` over the critical density, `4 σ T⁴ / c³` over the above (`Ogamma0` of astropy). -/
noncomputable def photons (n : Nature) (H0 T : ℝ) : ℝ := 4 * n.sigma * T ^ 4 / n.c ^ 3 / criticalDensity n H0

/-- The density of photons and `N` massless neutrinos (`Ogamma0 + Onu0` of astropy for massless species). -/
noncomputable def radiation (n : Nature) (H0 T N : ℝ) : ℝ :=
  photons n H0 T * (1 + 7 / 8 * ((4 : ℝ) / 11) ^ ((4 : ℝ) / 3) * N)

end Verif.Spec
