import Verif.Model.Cosmo

/-! What a `cosmo_array` means: its physical values. Comoving values are multiplied by `a^k`. -/

namespace Verif.Cosmo
open Verif

/-- The physical values of an array. -/
noncomputable def Arr.phys (x : Arr) : List ℝ :=
  match x.comoving, x.cf with
  | some true, some ⟨some k, some a⟩ => x.val.map (fun v => v * a ^ k)
  | _, _ => x.val

/-- The physical values of an operand: bare numbers are themselves. -/
noncomputable def Opd.phys : Opd → List ℝ
  | .plain v => v
  | .cosmo x => x.phys

/-- A convertible array at scale factor `a` that scales as `a^k`. -/
structure Conv (a k : ℝ) (x : Arr) : Prop where
  pos : 0 < a
  cf : x.cf = some ⟨some k, some a⟩
  vt : x.vt = true
  framed : x.comoving ≠ none

end Verif.Cosmo
