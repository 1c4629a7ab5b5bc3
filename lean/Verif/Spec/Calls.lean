import Verif.Model.Calls
import Verif.Spec.Cosmo

/-!
# Specification of calls with keywords
-/

namespace Verif.Spec
open Verif Verif.Cosmo Verif.Calls Verif.Names

/-- In the call the parameter `name` of a function gets the object `o`. -/
def Gets (params : List Str) (c : Call) (name : Str) (o : Opd) : Prop :=
  (∃ i : Nat, params[i]? = some name ∧ c.args[i]? = some o) ∨ (name, o) ∈ c.kws

/-- Python accepts the call: there are parameters for all positional arguments, keywords are parameters, and no parameter gets two
values. -/
structure Accepted (params : List Str) (c : Call) : Prop where
  few : c.args.length ≤ params.length
  known : ∀ q ∈ c.kws, q.1 ∈ params
  once : (params.take c.args.length ++ c.kws.map Prod.fst).Nodup

/-- Two ways to write the same call. -/
def SameCall (params : List Str) (c d : Call) : Prop := (∀ name o, Gets params c name o ↔ Gets params d name o) ∧ c.out = d.out

/-- Every array of the call can be converted between the frames at scale factor `a`. -/
def Convertible (a : ℝ) (c : Call) : Prop :=
  ∀ x, Opd.cosmo x ∈ c.args ∨ (∃ name, (name, Opd.cosmo x) ∈ c.kws) ∨ c.out = some (.cosmo x) → ∃ k, Conv a k x

end Verif.Spec
