import Verif.Model.Memory
import Verif.Spec.Cosmo

/-! What the arrays of a program mean, and which arrays share memory. -/

namespace Verif.Memory
open Verif Verif.Cosmo

/-- The physical values of an array in base units. -/
noncomputable def Obj.phys (m : Nat → ℝ) (o : Obj) : List ℝ := (o.arr m).phys.map (fun v => v * o.unit)

/-- The physical values of the array with number `j`. -/
noncomputable def Heap.phys (h : Heap) (j : Nat) : Option (List ℝ) := (h.objs[j]?).map (Obj.phys h.mem)

/-- Two arrays share no memory. -/
def Apart (o p : Obj) : Prop := ∀ c ∈ o.cells, c ∉ p.cells

/-- The states that programs can reach: the cells of an array are in use and distinct, units are not zero and scale factors
are positive. -/
structure Good (h : Heap) : Prop where
  used : ∀ o ∈ h.objs, ∀ c ∈ o.cells, c < h.next
  nodup : ∀ o ∈ h.objs, o.cells.Nodup
  unit : ∀ o ∈ h.objs, o.unit ≠ 0
  factor : ∀ o ∈ h.objs, ∀ f, o.cf = some f → ∀ a, f.sf = some a → 0 < a

/-- Commands that a program can contain: slices take places at most once, units are not zero and scale factors are
positive. -/
def Cmd.Proper : Cmd → Prop
  | .new u x => u ≠ 0 ∧ ∀ f, x.cf = some f → ∀ a, f.sf = some a → 0 < a
  | .slice _ idx => idx.Nodup
  | .units _ u => u ≠ 0
  | .field _ _ u => u ≠ 0
  | _ => True

/-- A command leaves the numbers of the array `j` alone, or converts this array itself: it does not convert another array that
shares memory with `j` and it does not assign to such an array. Copies and slices are always harmless; the constructor is
harmless if it has nothing to convert. -/
def Harmless (h : Heap) (j : Nat) : Cmd → Prop
  | .convert i _ => i ≠ j → ∀ o ∈ h.objs[i]?, ∀ p ∈ h.objs[j]?, Apart o p
  | .units i _ => i ≠ j → ∀ o ∈ h.objs[i]?, ∀ p ∈ h.objs[j]?, Apart o p
  | .field i _ _ => i ≠ j → ∀ o ∈ h.objs[i]?, ∀ p ∈ h.objs[j]?, Apart o p
  | .construct i cm _ => ∀ o ∈ h.objs[i]?, cm = none ∨ cm = o.comoving ∨ ∀ p ∈ h.objs[j]?, Apart o p
  | .assign i _ _ => ∀ o ∈ h.objs[i]?, ∀ p ∈ h.objs[j]?, Apart o p
  | _ => True

/-- Every command of a program is harmless for the array `j` when it is run. -/
noncomputable def HarmlessAll (h : Heap) (j : Nat) : List Cmd → Prop
  | [] => True
  | q :: l => Harmless h j q ∧ HarmlessAll (exec h q).1 j l

end Verif.Memory
