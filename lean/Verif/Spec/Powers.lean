import Verif.Model.Powers

/-! The exponent of `a` in an expression, and expressions that are made without roots. -/

namespace Verif.Spec
open Verif Verif.Powers

/-- The expression scales as `a ^ k`. -/
noncomputable def scaling : Sym → ℝ
  | .atom k => k
  | .nest s p => scaling s * p
  | .prod s t => scaling s + scaling t

/-- Expressions that come from `cosmo_factor.create` by products, quotients and whole powers. -/
inductive Rootless : Sym → Prop
  | create (k : ℝ) : Rootless (.atom k)
  | mul {s t : Sym} : Rootless s → Rootless t → Rootless (s.mul t)
  | power {s : Sym} (n : ℤ) : Rootless s → Rootless (s.pow n)

end Verif.Spec
