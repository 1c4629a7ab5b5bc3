import Verif.Model.Cosmo

/-!
# Frames of images (`swiftsimio/visualisation/_vistools.py`)

`backend_strip_and_restore_cosmo_and_units`: the wrapper between the front ends, which work with `cosmo_array`, and the
backends, which work with bare numbers. The images are lists of pixels.
-/

namespace Verif.Cosmo
open Verif

/-- `convert_to_comoving` or `convert_to_physical`. -/
noncomputable def Arr.inFrame (c : Bool) (x : Arr) : Except Err Arr := if c then x.convertToComoving else x.convertToPhysical

/-- `norm.to_comoving()` or `norm.to_physical()`. -/
noncomputable def Arr.copyIn (c : Bool) (x : Arr) : Except Err Arr := if c then x.toComoving else x.toPhysical

/-- The wrapper, `_vistools.py` 210-266: positions `x`, `y` and sizes `h` are brought to the frame of the field `m`, as is the
norm; other arguments (`z`, `z_slice`, the box) are given to the backend as they are. The pixels get the attributes of `m` and
are divided by the norm. For a field in an unknown frame nothing is converted and the pixels are divided by 1. -/
noncomputable def restore (backend : List ℝ → List ℝ → List ℝ → List (List ℝ) → List ℝ → Except Err (List ℝ))
    (x y h : Arr) (others : List Arr) (m norm : Arr) : Except Err Arr :=
  match m.comoving with
  | none => do
    let v ← backend x.val y.val h.val (others.map Arr.val) m.val
    ufunc .divide (num2 (· / ·)) [.cosmo ⟨v, m.comoving, m.cf, m.vt⟩, .plain [1]]
  | some c => do
    let x' ← x.inFrame c
    let y' ← y.inFrame c
    let h' ← h.inFrame c
    let norm' ← norm.copyIn c
    let v ← backend x'.val y'.val h'.val (others.map Arr.val) m.val
    ufunc .divide (num2 (· / ·)) [.cosmo ⟨v, m.comoving, m.cf, m.vt⟩, .cosmo norm']

end Verif.Cosmo
