import Verif.Spec.SelectionRows

/-!
# Scripts with fields of several particle types
-/

namespace Verif.Spec
open Verif Verif.Selections

/-- All variables of the formula fulfil `P`. -/
def UsesOnly (P : Nat → Prop) : Shaped.Expr → Prop
  | .var i => P i
  | .nums _ _ => True
  | .two _ s t => UsesOnly P s ∧ UsesOnly P t
  | .one _ s => UsesOnly P s
  | .pow s _ => UsesOnly P s
  | .total _ s => UsesOnly P s
  | .reduce _ _ s => UsesOnly P s
  | .select _ _ s => UsesOnly P s
  | .take _ _ s => UsesOnly P s
  | .newaxis _ s => UsesOnly P s
  | .reshape _ s => UsesOnly P s
  | .transpose s => UsesOnly P s
  | .physical s => UsesOnly P s
  | .comoving s => UsesOnly P s

/-- All variables of the condition fulfil `P`. -/
def CondUsesOnly (P : Nat → Prop) : Cond → Prop
  | .cmp _ s t => UsesOnly P s ∧ UsesOnly P t
  | .and c d => CondUsesOnly P c ∧ CondUsesOnly P d
  | .or c d => CondUsesOnly P c ∧ CondUsesOnly P d
  | .not c => CondUsesOnly P c

variable {κ : Type} [DecidableEq κ]

/-- A variable that is a field of the type `k`. -/
def OfType (ty : Nat → Option κ) (k : κ) (i : Nat) : Bool := decide (ty i = some k)

/-- A variable that is a field of the type `k` or has no rows. -/
def OfTypeOrFree (ty : Nat → Option κ) (k : κ) (i : Nat) : Prop := ty i = some k ∨ ty i = none

/-- Fields of the type `k` in the second state are the rows `rows k` of those in the first state; variables without type are the same. -/
structure TypeStates (n : κ → Nat) (rows : κ → List Int) (ty : Nat → Option κ) (s s' : Selections.State) : Prop where
  rows : ∀ i k, ty i = some k → RowsOfShaped (n k) (rows k) (s.shapes i) (s.env i).phys (s'.shapes i) (s'.env i).phys
  fixed : ∀ i, ty i = none → s'.shapes i = s.shapes i ∧ (s'.env i).phys = (s.env i).phys

/-- A script, started in the state `s`, each line of which uses fields of one type and variables without type only, and for which rows of the type `k`
that are not in `sel k` do not matter, as in `RowScript`. -/
inductive TypeScript (sel : κ → Int → Prop) : (Nat → Option κ) → List (Nat × Step) → Selections.State → (Nat → Option κ) → Prop
  | nil (ty : Nat → Option κ) (s : Selections.State) : TypeScript sel ty [] s ty
  | formula (k : κ) {ty ty' : Nat → Option κ} {i : Nat} {e : Shaped.Expr} {l : List (Nat × Step)} {s : Selections.State} {b : Bool} {q : Nat}
      (h : PerRow (fun j => (s.shapes j).length) (OfType ty k) e b q) (hu : UsesOnly (OfTypeOrFree ty k) e)
      (next : ∀ t, run [(i, .formula e)] s = .ok t → TypeScript sel (Function.update ty i (if b then some k else none)) l t ty') :
      TypeScript sel ty ((i, .formula e) :: l) s ty'
  | cut (k : κ) {ty ty' : Nat → Option κ} {i : Nat} {e : Shaped.Expr} {c : Cond} {l : List (Nat × Step)} {s : Selections.State} {q : Nat}
      (h : PerRow (fun j => (s.shapes j).length) (OfType ty k) e true q) (hc : CondPerRow (fun j => (s.shapes j).length) (OfType ty k) c)
      (hu : UsesOnly (OfTypeOrFree ty k) e) (huc : CondUsesOnly (OfTypeOrFree ty k) c)
      (hsel : ∀ b, evalCond s.shapes s.env c = .ok b → ∀ r : Int, valueAt b.val r = some true → sel k r)
      (next : ∀ t, run [(i, .select e c)] s = .ok t → TypeScript sel (Function.update ty i none) l t ty') : TypeScript sel ty ((i, .select e c) :: l) s ty'
  | choose (k : κ) {ty ty' : Nat → Option κ} {i : Nat} {e e' : Shaped.Expr} {c : Cond} {l : List (Nat × Step)} {s : Selections.State}
      (hc : CondPerRow (fun j => (s.shapes j).length) (OfType ty k) c) (h : OnePerRow (fun j => (s.shapes j).length) (OfType ty k) e)
      (h' : OnePerRow (fun j => (s.shapes j).length) (OfType ty k) e') (huc : CondUsesOnly (OfTypeOrFree ty k) c) (hu : UsesOnly (OfTypeOrFree ty k) e)
      (hu' : UsesOnly (OfTypeOrFree ty k) e')
      (next : ∀ t, run [(i, .choose c e e')] s = .ok t → TypeScript sel (Function.update ty i (some k)) l t ty') :
      TypeScript sel ty ((i, .choose c e e') :: l) s ty'

end Verif.Spec
