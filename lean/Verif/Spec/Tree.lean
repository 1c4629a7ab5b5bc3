import Verif.Model.Tree

/-!
# Specification for the search for datasets and links: paths in a tree
-/

namespace Verif.Spec
open Verif Verif.Tree

/-- `kids` has the member `n` under `key`. -/
inductive Member : Kids → Str → Node → Prop
  | here (key n rest) : Member (.cons key n rest) key n
  | there (key n rest k' n') : Member rest k' n' → Member (.cons key n rest) k' n'

/-- Following the keys from a group, through soft links, ends at a dataset. -/
inductive Reaches : Node → List Str → Prop
  | data : Reaches .data []
  | link (p n ks) : Reaches n ks → Reaches (.link p n) ks
  | step (kids key n ks) : Member kids key n → Reaches n ks → Reaches (.group kids) (key :: ks)

/-- The path made of the keys. -/
def render : List Str → Str
  | [] => []
  | k :: ks => '/' :: k ++ render ks

/-- A soft link with stored path `p` at the end of the keys; no link is followed on the way. -/
inductive LinkAt : Node → List Str → Str → Prop
  | link (p n) : LinkAt (.link p n) [] p
  | dangling (p) : LinkAt (.dangling p) [] p
  | step (kids key n ks p) : Member kids key n → LinkAt n ks p → LinkAt (.group kids) (key :: ks) p

mutual
/-- Members of a group have distinct names, which do not contain the separator; no link dangles. -/
def NodeOk : Node → Prop
  | .data => True
  | .group kids => KidsOk kids
  | .link _ n => NodeOk n
  | .dangling _ => False
/-- The same for the members of a group. -/
def KidsOk : Kids → Prop
  | .nil => True
  | .cons key n rest => '/' ∉ key ∧ (∀ n', ¬ Member rest key n') ∧ NodeOk n ∧ KidsOk rest
end

end Verif.Spec
