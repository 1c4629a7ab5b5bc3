import Verif.Model.WriterObject
import Verif.Spec.Reread

/-!
# What a program has told a writer
-/

namespace Verif.Spec
open Verif Verif.Reread Verif.WriterObject
open Verif.Writer (Name)
open Verif.Units (Dim)

/-- The field that is called `m` in programs is called `n` here. -/
def Called (m : List Char) (n : Name) : Prop := ∃ s, (n, s) ∈ fieldNames ∧ m = s.toList

/-- The command says something about the field `n` of type `t`. -/
def Touches (t : Nat) (n : Name) : Cmd → Prop
  | .set u m _ => u = t ∧ Called m n
  | .ids u _ => u = t ∧ n = .particleIds
  | .del u m => u = t ∧ Called m n
  | .hidden u m _ => u = t ∧ m = n
  | .scale _ => False
  | .system _ => False

/-- The scale factor after some commands. -/
def scaleAfter (a : ℝ) : List Cmd → ℝ
  | [] => a
  | .scale b :: l => scaleAfter b l
  | _ :: l => scaleAfter a l

/-- The unit system after some commands. -/
def systemAfter (u : Dim → ℝ) : List Cmd → Dim → ℝ
  | [] => u
  | .system v :: l => systemAfter v l
  | _ :: l => systemAfter u l

/-- The attributes and methods of the datasets that are not fields, snapshot_writer.py:58-280. -/
def ownNames : List String :=
  ["writer", "unit_system", "particle_type", "particle_name", "n_part", "requires_particle_ids_before_write",
    "generate_empty_properties", "check_empty", "check_consistent", "generate_smoothing_lengths", "write_particle_group",
    "write_particle_group_metadata", "get_attributes"]

/-- A name that means nothing to the datasets of type `t`: no field of this type, and no name that they use for themselves. -/
def Foreign (t : Nat) (m : List Char) : Prop :=
  (∀ n, Called m n → n ≠ .particleIds ∧ n ∉ needs t) ∧ (∀ s ∈ ownNames, m ≠ s.toList) ∧ m.head? ≠ some '_'

end Verif.Spec
