import Verif.Model.Handles

/-! Vocabulary for C22: which handles are open, and which closing operations occur in a program. -/

namespace Verif.Handles

/-- Handle `h` exists, was opened by `o`, and is open. -/
def OpenBy (w : World) (h : Nat) (o : Owner) : Prop :=
  ∃ x : Handle, w.handles[h]? = some x ∧ x.owner = o ∧ x.isOpen = true

mutual
/-- The program text contains the user's `h.close()`. -/
def Op.userCloses (h : Nat) : Op → Prop
  | .userClose n => n = h
  | .withFile _ body => body.userCloses h
  | .attempt body => body.userCloses h
  | _ => False
/-- The same for a sequence. -/
def Ops.userCloses (h : Nat) : Ops → Prop
  | .nil => False
  | .cons op rest => op.userCloses h ∨ rest.userCloses h
end

mutual
/-- The program text asks object `i` to close what it manages. -/
def Op.asksClose (i : Nat) : Op → Prop
  | .closeIfManager n => n = i
  | .withFile _ body => body.asksClose i
  | .attempt body => body.asksClose i
  | _ => False
/-- The same for a sequence. -/
def Ops.asksClose (i : Nat) : Ops → Prop
  | .nil => False
  | .cons op rest => op.asksClose i ∨ rest.asksClose i
end

end Verif.Handles
