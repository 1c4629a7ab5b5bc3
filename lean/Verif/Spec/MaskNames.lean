import Verif.Model.MaskNames

/-!
# Histories of a mask object, and where the mask of a type is kept
-/

namespace Verif.Spec
open Verif Verif.MaskNames

/-- The attributes that the class keeps for itself. -/
def kept : List Name := ["metadata".toList, "_group_mapping".toList, "_group_size_mapping".toList, "_update_list".toList]

/-- Masks after any history: attributes are read, and others than the four above are stored. -/
inductive Reach (shared : Option Name) (groups : List Name) : Obj → Prop
  | made : Reach shared groups (fresh shared groups)
  | read {o o' : Obj} {d : Nat} {n : Name} {v : Val} : Reach shared groups o → getAttr d o n = .ok (o', v) → Reach shared groups o'
  | store {o : Obj} {n : Name} {v : Val} : Reach shared groups o → n ∉ kept → Reach shared groups (put o n v)

/-- The attribute with the mask of a type: one for all types if their cells are shared. -/
def place (shared : Option Name) (g : Name) : Name := if shared.isSome then "_shared".toList else '_' :: g

/-- A name that means nothing by itself: not stored, no property, no method. -/
def Unclaimed (o : Obj) (n : Name) : Prop :=
  o n = none ∧ n ≠ "group_mapping".toList ∧ n ≠ "group_size_mapping".toList ∧ n ≠ "update_list".toList ∧ n ∉ methods

end Verif.Spec
