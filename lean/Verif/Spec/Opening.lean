import Verif.Model.Opening
import Verif.Spec.Handles

/-!
# Specification of opening and closing files

What a user sees of the handles: which are open, and whether a file can be read.
-/

namespace Verif.Spec
open Verif Verif.Handles Verif.Opening

/-- Handle `h` is open and is one of file `f`. -/
def IsOpen (w : World) (h f : Nat) : Prop := ∃ x : Handle, w.handles[h]? = some x ∧ x.isOpen = true ∧ x.file = f

/-- Object `i` reads file `f` through handle `h`, which is not its own. -/
def Borrows (w : World) (i h f : Nat) : Prop := w.providers[i]? = some ⟨f, some h, false⟩

/-- Nothing raises when the file is opened as a dataset. -/
def Loads (d : Disk) (f : Nat) : Prop :=
  d.bad f .units = none ∧ d.bad f .header = none ∧ d.bad f .metadata = none ∧
    ∀ k < (d.groups f).length, d.bad f (.group k) = none ∧ d.bad f (.fields k) = none

/-- Nothing raises when a mask of the file is made. -/
def Masks (d : Disk) (f : Nat) : Prop :=
  d.bad f .units = none ∧ d.bad f .header = none ∧ d.bad f .metadata = none ∧
    (∀ k < (d.groups f).length, d.bad f (.group k) = none) ∧ d.bad f .masking = none ∧ d.bad f .cells = none

end Verif.Spec
