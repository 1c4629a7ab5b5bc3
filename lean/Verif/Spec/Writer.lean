import Verif.Model.Writer

/-!
# What a written file should be
-/

namespace Verif.Spec
open Verif.Writer

/-- The fields a particle type needs besides IDs: coordinates, velocities and masses; for gas also smoothing lengths and
internal energies; for stars also smoothing lengths. -/
def needs (t : Nat) : List Name :=
  [.coordinates, .velocities, .masses] ++ (if t = 0 then [.internalEnergy] else []) ++
    (if t = 0 ∨ t = 4 then [.smoothingLengths] else [])

/-- Something has been set for the type. -/
def populated {α : Type} (g : Group α) (t : Nat) : Bool := g.ids.isSome || (needs t).any (fun n => (g.field n).isSome)

/-- All fields of the type are there, with `n` rows each; there are no IDs or `n` of them; coordinates and velocities have the
same number of components. -/
structure Consistent {α : Type} (g : Group α) (t n : Nat) : Prop where
  fields : ∀ m : Name, m ∈ needs t → ∃ (r : List Nat) (d : List α), g.field m = some ⟨some r, d⟩ ∧ d.length = n
  ids : ∀ l : List Int, g.ids = some l → l.length = n
  vectors : ∀ a b : Arr α, g.field .coordinates = some a → g.field .velocities = some b → a.row = b.row

/-- The types to write, in order. -/
def toWrite {α : Type} (w : State α) : List Nat := (List.range 8).filter (fun t => populated (w t) t)

/-- All IDs of a writer, type after type. -/
def allIds {α : Type} (w : State α) : List Int := (toWrite w).flatMap (fun t => (w t).ids.getD [])

/-- All IDs of a file, group after group. -/
def fileIds {α : Type} (f : File α) : List Int := f.groups.flatMap (fun e => e.ids.getD [])

/-- The last thing that was done with the field `n` of type `t` was to assign `a`. -/
def LastSet {α : Type} (ops : List (Op α)) (t : Nat) (n : Name) (a : Arr α) : Prop :=
  ∃ l₁ l₂ : List (Op α), ops = l₁ ++ .setField t n a :: l₂ ∧ ∀ o ∈ l₂, o ≠ .del t n ∧ ∀ b, o ≠ .setField t n b

end Verif.Spec
