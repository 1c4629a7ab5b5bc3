import Verif.Model.Cosmo

/-! # Model of ufuncs with two results (swiftsimio/objects.py) -/

namespace Verif.Cosmo
open Verif

/-- `__array_ufunc__` for `modf` and `divmod`, objects.py:2188-2226: both results get the frame, the factor and the flag. -/
noncomputable def ufuncPair (u : Ufunc) (num : List (List ℝ) → Except Err (List ℝ × List ℝ)) (args : List Opd) : Except Err (Arr × Arr) :=
  match prepare true args [] with
  | .error e => .error e
  | .ok p => match handle (registry u) p.cfs args with
    | .error e => .error e
    | .ok c => match num (p.args.map Opd.vals) with
      | .error e => .error e
      | .ok v => .ok ({ val := v.1, comoving := p.comoving, cf := c, vt := p.vt }, { val := v.2, comoving := p.comoving, cf := c, vt := p.vt })

end Verif.Cosmo
