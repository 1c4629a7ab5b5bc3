import Verif.Model.Sharing
import Verif.Spec.Mask

/-!
# Specification of programs with several masks and datasets

What a program does to one mask, said as if the mask were a value of its own.
-/

namespace Verif.Spec
open Verif Verif.Mask Verif.Sharing

variable {K : Type} {m : Nat}

/-- The files of the masks a program makes, in the order of making. -/
def filesOf : List (Act K m) → List Nat
  | [] => []
  | .newMask file :: acts => file :: filesOf acts
  | _ :: acts => filesOf acts

/-- The calls of a program on mask `i`, when `n` masks have been made before; opening a dataset with the mask counts as a call
of `convert_masks_to_ranges`. -/
def callsFrom (i : Nat) : Nat → List (Act K m) → List (Op K)
  | _, [] => []
  | n, .newMask _ :: acts => callsFrom i (n + 1) acts
  | n, .call j op :: acts => (if j = i ∧ i < n then [op] else []) ++ callsFrom i n acts
  | n, .openFile _ (some j) :: acts => (if j = i ∧ i < n then [.toRanges] else []) ++ callsFrom i n acts
  | n, .openFile _ none :: acts => callsFrom i n acts
  | n, .edit _ _ _ :: acts => callsFrom i n acts

/-- The calls on mask `i` in a whole program. -/
def callsOn (i : Nat) (acts : List (Act K m)) : List (Op K) := callsFrom i 0 acts

/-- The user writes into an array of a mask. -/
def IsEdit : Act K m → Prop
  | .edit _ _ _ => True
  | _ => False

/-- No array of a mask is written by the user. -/
def NoEdit (acts : List (Act K m)) : Prop := ∀ a ∈ acts, ¬ IsEdit a

/-- Two arrays of the same kind with as many elements. -/
def SameShape : Buf → Buf → Prop
  | .ranges l, .ranges l' => l.length = l'.length
  | .bools l, .bools l' => l.length = l'.length
  | .ranges _, .bools _ => False
  | .bools _, .ranges _ => False

/-- What a user sees of a mask: its arrays and sizes. -/
def Shows (w : World m) (o : MaskObj m) (s : State m) : Prop :=
  o.constrained = s.constrained ∧ o.cellMask = s.cellMask ∧ o.size = s.size ∧
  ((∃ r, o.rangeMask = true ∧ s.rep = .ranges r ∧ ∀ k, w.heap[o.ref k]? = some (.ranges (r k))) ∨
    (∃ b, o.rangeMask = false ∧ s.rep = .bools b ∧ ∀ k, w.heap[o.ref k]? = some (.bools (b k))))

end Verif.Spec
