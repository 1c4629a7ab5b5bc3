import Verif.Model.Basic

/-!
# Model of the lazily read fields of `swiftsimio/reader.py`

A dataset has several objects (one per particle type, one per named-column field); object `o` stores the value of its
field `name` in the attribute `"_" ++ name`, which is `None` until the field is read. What a read of the file gives
(`read_ranges_from_file` and the construction of the array, C01-C04) is a parameter.
-/

namespace Verif.Fields
open Verif

/-- Where a property gets its value: a dataset of the file (reader.py:110-189) or an attribute of a group
(reader.py:227-288). -/
inductive Kind
  | dataset
  | attribute
  deriving DecidableEq, Repr

/-- The properties of the classes built by `_generate_datasets` (reader.py:544-680): the result of reading the file, for
every object and field that exists. The file does not change. -/
abbrev Source (V : Type) := Nat → String → Option (Kind × Except Err V)

/-- The instance attributes, and the list of reads of the file so far. -/
structure State (V : Type) where
  slots : Nat → String → Option V
  log : List (Nat × String)

/-- `generate_empty_properties` (reader.py:367-394) and reader.py:478-480: all attributes are `None`. -/
def init {V : Type} : State V := { slots := fun _ _ => none, log := [] }

/-- `setattr(self, f"_{name}", value)`. -/
def State.put {V : Type} (s : State V) (o : Nat) (name : String) (v : Option V) : State V where
  slots := fun o' a => if o' = o ∧ a = "_" ++ name then v else s.slots o' a
  log := s.log

/-- The getters, reader.py:110-189 and 255-288. Only the KeyError of a dataset is caught, the result is then `None`. -/
def getField {V : Type} (src : Source V) (s : State V) (o : Nat) (name : String) : State V × Except Err (Option V) :=
  match src o name with
  | none => (s, .error .attribute)
  | some (k, r) =>
    match s.slots o ("_" ++ name) with
    | some v => (s, .ok (some v))
    | none =>
      let s' : State V := { s with log := s.log ++ [(o, name)] }
      match r with
      | .ok v => (s'.put o name (some v), .ok (some v))
      | .error e => if k = .dataset ∧ e = .key then (s', .ok none) else (s', .error e)

/-- What a user does with the fields of a dataset. -/
inductive Op (V : Type)
  | get (o : Nat) (name : String)
  | set (o : Nat) (name : String) (v : Option V)
  | del (o : Nat) (name : String)
  /-- get the array and change its elements in place -/
  | modify (o : Nat) (name : String) (f : V → V)

/-- An in-place change of what a getter returned: nothing to change when it returned `None` or raised. -/
def changed {V : Type} (o : Nat) (n : String) (f : V → V) (r : State V × Except Err (Option V)) : State V :=
  match r.2 with
  | .ok (some v) => r.1.put o n (some (f v))
  | _ => r.1

/-- One operation; assignment and deletion go through the properties of the class (reader.py:192-224, 291-321). -/
def step {V : Type} (src : Source V) (s : State V) : Op V → State V
  | .get o n => (getField src s o n).1
  | .set o n v => if (src o n).isSome then s.put o n v else s
  | .del o n => if (src o n).isSome then s.put o n none else s
  | .modify o n f => changed o n f (getField src s o n)

/-- A history. -/
def run {V : Type} (src : Source V) (ops : List (Op V)) : State V := ops.foldl (step src) init

end Verif.Fields
