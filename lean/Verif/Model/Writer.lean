import Verif.Model.Basic
import Mathlib.Data.List.Dedup

/-!
# Model of the snapshot writer (swiftsimio/snapshot_writer.py)

An array is its list of rows and the shape of a row; particle IDs are one-dimensional. Units and frames of the fields are in
`Model/Attributes.lean`. Files are the groups and the header counts.
-/

namespace Verif.Writer
open Verif

/-- The names of the required fields, metadata/writer/required_fields.py:5-20. -/
inductive Name
  | smoothingLengths
  | internalEnergy
  | coordinates
  | particleIds
  | velocities
  | masses
  deriving DecidableEq, Repr

/-- The required fields of a particle type in the order of the dictionary, metadata/writer/required_fields.py:5-44. -/
def required (t : Nat) : List Name :=
  if t = 0 then [.smoothingLengths, .internalEnergy, .coordinates, .particleIds, .velocities, .masses]
  else if t = 4 then [.coordinates, .particleIds, .velocities, .masses, .smoothingLengths]
  else [.coordinates, .particleIds, .velocities, .masses]

/-- An array: `row` is the shape of a row, `none` for an array without dimensions. -/
structure Arr (α : Type) where
  row : Option (List Nat)
  data : List α
  deriving DecidableEq

/-- `array.shape`. -/
def Arr.shape {α : Type} (a : Arr α) : List Nat :=
  match a.row with
  | none => []
  | some r => a.data.length :: r

/-- The dataset of one particle type: `self._<name>` for all names, snapshot_writer.py:76-86. -/
structure Group (α : Type) where
  ids : Option (List Int)
  field : Name → Option (Arr α)

/-- A new dataset, snapshot_writer.py:76-86. -/
def Group.new {α : Type} : Group α := ⟨none, fun _ => none⟩

/-- The shape of `self._<name>`, none when it is not set. -/
def Group.shape {α : Type} (g : Group α) (n : Name) : Option (List Nat) :=
  match n with
  | .particleIds => g.ids.map (fun l => [l.length])
  | n => (g.field n).map Arr.shape

/-- `check_empty`, snapshot_writer.py:88-101. -/
def checkEmpty {α : Type} (g : Group α) (t : Nat) : Bool := (required t).all (fun n => (g.shape n).isNone)

/-- The loop of `check_consistent`, snapshot_writer.py:126-134: the sizes, and whether IDs are missing. -/
def sizes {α : Type} (g : Group α) : List Name → Except Err (List Nat × Bool)
  | [] => .ok ([], false)
  | n :: l => match g.shape n with
    | none => if n = .particleIds then do
        let r ← sizes g l
        return (r.1, true)
      else .error .attribute
    | some [] => .error .index
    | some (k :: _) => do
      let r ← sizes g l
      return (k :: r.1, r.2)

/-- `check_consistent`, snapshot_writer.py:103-148: the number of particles, and whether IDs are missing. -/
def checkConsistent {α : Type} (g : Group α) (t : Nat) : Except Err (Nat × Bool) := do
  let r ← sizes g (required t)
  match r.1 with
  | [] => .error .index
  | n :: l =>
    if !((n :: l).all (fun x => n == x)) then .error .assertion
    else if g.shape .coordinates ≠ g.shape .velocities then .error .attribute
    else .ok (n, r.2)

/-- The setter of `particle_ids`, snapshot_writer.py:410-432. -/
def setIds {α : Type} (g : Group α) (ids : List Int) : Except Err (Group α) :=
  if ids.any (fun x => x ≤ 0) then .error .value
  else if ids.dedup.length ≠ ids.length then .error .value
  else .ok { g with ids := some ids }

/-- All particle types, `SWIFTSnapshotWriter`; there are eight, metadata/particle/particle_types.py:3-12. -/
abbrev State (α : Type) := Nat → Group α

def State.new {α : Type} : State α := fun _ => Group.new

def State.set {α : Type} (w : State α) (t : Nat) (g : Group α) : State α := fun u => if u = t then g else w u

/-- `np.arange(start, start + n)`. -/
def arange (start n : Nat) : List Int := (List.range n).map (fun i : Nat => (start : Int) + (i : Int))

/-- `_generate_ids`, snapshot_writer.py:710-741, for the types and their numbers of particles. -/
def generateIds {α : Type} : List (Nat × Nat) → Nat → State α → Except Err (State α)
  | [], _, w => .ok w
  | (t, n) :: l, used, w => do
    let g ← setIds (w t) (arange used n)
    generateIds l (used + n) (w.set t g)

/-- The first loop of `write`, snapshot_writer.py:867-876: types to write, their numbers of particles and whether they lack
IDs. -/
def collect {α : Type} (w : State α) : List Nat → Except Err (List (Nat × Nat × Bool))
  | [] => .ok []
  | t :: l =>
    if checkEmpty (w t) t then collect w l
    else do
      let r ← checkConsistent (w t) t
      let rest ← collect w l
      return (t, r.1, r.2) :: rest

/-- A particle group in the file. -/
structure Entry (α : Type) where
  type : Nat
  ids : Option (List Int)
  fields : List (Name × Option (Arr α))

/-- A file: `NumPart_ThisFile`/`NumPart_Total` and the groups. -/
structure File (α : Type) where
  numPart : List Nat
  groups : List (Entry α)

/-- The result of `write`: the writer afterwards, whether the file was opened (and so truncated), and the file or an error. -/
structure Outcome (α : Type) where
  writer : State α
  opened : Bool
  result : Except Err (File α)

/-- The mass table of `_write_metadata`, snapshot_writer.py:768-773: `masses[0]` of each type that is written. -/
def massTable {α : Type} (w : State α) (names : List (Nat × Nat × Bool)) : Except Err (List α) :=
  names.mapM (fun x => match (w x.1).field .masses with
    | none => .error .attribute
    | some m => match m.data with
      | [] => .error .index
      | a :: _ => .ok a)

/-- The counts of `_write_metadata`, snapshot_writer.py:757-773. -/
def numberOfParticles (names : List (Nat × Nat × Bool)) : List Nat :=
  (List.range 8).map (fun t => ((names.find? (fun x => x.1 == t)).map (fun x => x.2.1)).getD 0)

/-- `write_particle_group`, snapshot_writer.py:180-208. -/
def entry {α : Type} (w : State α) (t : Nat) : Entry α :=
  ⟨t, (w t).ids, ((required t).filter (· ≠ .particleIds)).map (fun n => (n, (w t).field n))⟩

/-- The part of `write` with the file open, snapshot_writer.py:889-897. `extra` is `NumPart_ThisFile` of the extra header
(snapshot_writer.py:789-790), if it is there. -/
def writeFile {α : Type} (extra : Option (List Nat)) (w : State α) (names : List (Nat × Nat × Bool)) : Except Err (File α) := do
  let _ ← massTable w names
  return ⟨extra.getD (numberOfParticles names), names.map (fun x => entry w x.1)⟩

/-- `write`, snapshot_writer.py:855-898. -/
def write {α : Type} (extra : Option (List Nat)) (w : State α) : Outcome α :=
  match collect w (List.range 8) with
  | .error e => ⟨w, false, .error e⟩
  | .ok names =>
    if names.any (fun x => x.2.2) then
      match generateIds (names.map (fun x => (x.1, x.2.1))) 1 w with
      | .error e => ⟨w, false, .error e⟩
      | .ok w' => ⟨w', true, writeFile extra w' names⟩
    else if names = [] then ⟨w, false, .error .value⟩
    else
      let all := names.flatMap (fun x => ((w x.1).ids).getD [])
      if all.dedup.length ≠ all.length then ⟨w, false, .error .value⟩
      else ⟨w, true, writeFile extra w names⟩

/-- What a user does with a writer. `poke` is writing into the array that was given as `particle_ids`: the writer keeps a view of
it (snapshot_writer.py:421-432), so the stored IDs change with it and are not checked again. -/
inductive Op (α : Type)
  | setIds (t : Nat) (ids : List Int)
  | setField (t : Nat) (n : Name) (a : Arr α)
  | del (t : Nat) (n : Name)
  | poke (t : Nat) (i : Nat) (x : Int)
  | write

/-- The writer after an operation; an operation that raises leaves it as it is, except `write`. -/
def step {α : Type} (w : State α) : Op α → State α
  | .setIds t ids => match setIds (w t) ids with
    | .ok g => w.set t g
    | .error _ => w
  | .setField t n a => if n = .particleIds then w else
      w.set t { w t with field := fun m => if m = n then some a else (w t).field m }
  | .del t n => if n = .particleIds then w.set t { w t with ids := none } else
      w.set t { w t with field := fun m => if m = n then none else (w t).field m }
  | .poke t i x => w.set t { w t with ids := (w t).ids.map (fun l => l.set i x) }
  | .write => (write none w).writer

end Verif.Writer
