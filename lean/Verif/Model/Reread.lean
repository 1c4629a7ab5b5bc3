import Verif.Model.Attributes
import Verif.Model.WriterHeader
import Verif.Model.Names

/-!
# Model of a whole snapshot, written by SWIFTSnapshotWriter and opened again (swiftsimio/snapshot_writer.py, reader.py)

The parts are in `Model/Writer.lean` (which groups are written), `Model/Attributes.lean` (units and frames of a field),
`Model/WriterHeader.lean` (header and units), `Model/Header.lean` (metadata that is read) and `Model/Names.lean` (names of types
and fields); this is how they fit together. The arrays of the user are taken as they are when they are assigned: the writer keeps
views of them (`c30_alias_fails`). A file that could not be finished because writing raised is not modelled.
-/

namespace Verif.Reread
open Verif Verif.Cosmo Verif.Attributes
open Verif.Writer (Name required)
open Verif.WriterHeader (Conf unitAttrs asRead readTypes)
open Verif.Names (Str snake partType particleNames loadFieldNames datasetTable)
open Verif.Header (Dict Raw Val Lib postprocess)
open Verif.Units (Dim loadUnit)

/-- The names of the attributes of the writer, metadata/writer/required_fields.py:5-20. -/
def attrName : Name → Str
  | .smoothingLengths => "smoothing_lengths".toList
  | .internalEnergy => "internal_energy".toList
  | .coordinates => "coordinates".toList
  | .particleIds => "particle_ids".toList
  | .velocities => "velocities".toList
  | .masses => "masses".toList

/-- The names of the datasets, the `handle` of metadata/writer/required_fields.py:5-20. -/
def handleOf : Name → Str
  | .smoothingLengths => "SmoothingLengths".toList
  | .internalEnergy => "InternalEnergy".toList
  | .coordinates => "Coordinates".toList
  | .particleIds => "ParticleIDs".toList
  | .velocities => "Velocities".toList
  | .masses => "Masses".toList

/-- The `dimensions` of metadata/writer/required_fields.py:5-20. -/
noncomputable def dimsOf : Name → Exps
  | .smoothingLengths => ⟨0, 1, 0, 0, 0⟩
  | .internalEnergy => ⟨0, 2, 0, 0, -2⟩
  | .coordinates => ⟨0, 1, 0, 0, 0⟩
  | .particleIds => ⟨0, 0, 0, 0, 0⟩
  | .velocities => ⟨0, 1, 0, 0, -1⟩
  | .masses => ⟨0, 0, 1, 0, 0⟩

/-- An array with units: `row` is the shape of a row (none for an array without dimensions), `rows` their number; the values are
in row-major order. -/
structure Stored where
  row : Option (List Nat)
  rows : Nat
  field : Field

/-- `array.shape`. -/
def Stored.shape (x : Stored) : List Nat :=
  match x.row with
  | none => []
  | some r => x.rows :: r

/-- What `Model/Writer.lean` needs of it: the shape, and the first number of each row. -/
noncomputable def Stored.view (x : Stored) : Writer.Arr ℝ :=
  ⟨x.row, (List.range x.rows).map (fun i : Nat => (x.field.arr.val[i * (x.row.getD []).prod]?).getD 0)⟩

/-- The dataset of a type. -/
structure Group where
  ids : Option (List Int)
  fields : Name → Option Stored

/-- The writer: a dataset for each type. -/
abbrev State := Nat → Group

/-- A new writer, snapshot_writer.py:76-86. -/
def State.new : State := fun _ => ⟨none, fun _ => none⟩

/-- The state as `Model/Writer.lean` has it. -/
noncomputable def view (w : State) : Writer.State ℝ := fun t => ⟨(w t).ids, fun n => ((w t).fields n).map Stored.view⟩

/-- Assignments and deletions. -/
inductive Op
  | set (t : Nat) (n : Name) (x : Stored)
  | ids (t : Nat) (l : List Int)
  | del (t : Nat) (n : Name)

/-- The five base units in cgs. -/
def baseOf (base : Dim → ℝ) : Base := ⟨base .current, base .length, base .mass, base .temperature, base .time⟩

/-- A field of one type is replaced. -/
def State.put (w : State) (t : Nat) (n : Name) (x : Option Stored) : State :=
  fun u => if u = t then { w u with fields := fun m => if m = n then x else (w u).fields m } else w u

/-- IDs of one type are replaced. -/
def State.putIds (w : State) (t : Nat) (l : Option (List Int)) : State := fun u => if u = t then { w u with ids := l } else w u

/-- `writer.gas.masses = x`, `del writer.gas.masses`, snapshot_writer.py:395-470: an assignment that raises changes nothing. -/
noncomputable def step (base : Dim → ℝ) (sf : ℝ) (w : State) : Op → State
  | .set t n x =>
    if n = .particleIds then w
    else match setField (baseOf base) sf (dimsOf n) x.field with
      | .ok y => w.put t n (some { x with field := y })
      | .error _ => w
  | .ids t l => match Writer.setIds (view w t) l with
    | .ok _ => w.putIds t (some l)
    | .error _ => w
  | .del t n => if n = .particleIds then w.putIds t none else w.put t n none

/-- A new writer after some assignments and deletions. -/
noncomputable def run (base : Dim → ℝ) (sf : ℝ) (ops : List Op) : State := ops.foldl (step base sf) State.new

/-- A dataset in the file: its shape, its attributes and its numbers. -/
structure Dset where
  shape : List Nat
  data : Attrs × List ℝ

/-- The file: the header, the units and the groups with their datasets. -/
structure H5 where
  header : Dict (Raw ℝ)
  units : List (String × ℝ)
  groups : List (Str × List (Str × Dset))

/-- IDs as the writer keeps them, snapshot_writer.py:421-432. -/
noncomputable def idField (sf : ℝ) (l : List Int) : Field :=
  ⟨⟨l.map (fun i : Int => (i : ℝ)), some true, some (CF.create sf 0), true⟩, ⟨0, 0, 0, 0, 0⟩, 1⟩

/-- One dataset with its attributes, snapshot_writer.py:198-206, 229-231 and 249-280. -/
noncomputable def dsetOf (sf : ℝ) (w : State) (e : Writer.Entry ℝ) (n : Name) : Except Err (Str × Dset) :=
  if n = .particleIds then
    match e.ids with
    | none => .error .typeErr
    | some l => (writeField (idField sf l)).map (fun d => (handleOf n, ⟨[l.length], d⟩))
  else
    match (w e.type).fields n with
    | none => .error .typeErr
    | some x => (writeField x.field).map (fun d => (handleOf n, ⟨x.shape, d⟩))

/-- One group, snapshot_writer.py:180-231. -/
noncomputable def groupOf (sf : ℝ) (w : State) (e : Writer.Entry ℝ) : Except Err (Str × List (Str × Dset)) :=
  ((required e.type).mapM (dsetOf sf w e)).map (fun l => (partType e.type, l))

/-- `write`, snapshot_writer.py:855-898. -/
noncomputable def writeAll (base : Dim → ℝ) (c : Conf ℝ) (w : State) : Except Err H5 :=
  match (Writer.write none (view w)).result with
  | .error e => .error e
  | .ok f => (f.groups.mapM (groupOf c.scaleFactor w)).map
      (fun g => ⟨WriterHeader.header c (fun x : ℝ => x) f, unitAttrs base, g⟩)

/-- An open file: scale factor, base units, names of the groups, and the file. -/
structure Opened where
  scale : ℝ
  base : Base
  names : List (Str × Str)
  file : H5

/-- The size in cgs of a base unit that was read, metadata/objects.py:810-824. -/
noncomputable def unitSize (table : Dim → List ℝ) (attrs : List (String × ℝ)) (d : Dim) : Except Err ℝ :=
  (loadUnit table attrs d).map (fun r => r.2 * ((table d)[r.1]?).getD 0)

/-- `SWIFTUnits`, metadata/objects.py:786-824. -/
noncomputable def readBase (table : Dim → List ℝ) (attrs : List (String × ℝ)) : Except Err Base :=
  (unitSize table attrs .current).bind fun i => (unitSize table attrs .length).bind fun l =>
    (unitSize table attrs .mass).bind fun m => (unitSize table attrs .temperature).bind fun k =>
      (unitSize table attrs .time).bind fun t => .ok ⟨i, l, m, k, t⟩

/-- `metadata.a` as a number. -/
def scaleOf {D : Type} (s : Dict (Val ℝ D)) : Except Err ℝ :=
  match s "a" with
  | some (.raw (.scalar a)) => .ok a
  | _ => .error .typeErr

/-- A particle type with its name, metadata/objects.py:992-1017. -/
def nameOf (t : Nat) : Except Err (Str × Str) :=
  match particleNames.lookup (partType t) with
  | some n => .ok (n, partType t)
  | none => .error .key

/-- `load`: units, metadata and the groups, __init__.py:127-165, reader.py:670-783. -/
noncomputable def openFile {D : Type} (lib : Lib D) (table : Dim → List ℝ) (h : H5) : Except Err Opened :=
  (readBase table h.units).bind fun b => (postprocess lib (asRead h.header)).bind fun s =>
    (scaleOf s).bind fun a => (readTypes s).bind fun ts => (ts.mapM nameOf).bind fun ns => .ok ⟨a, b, ns, h⟩

/-- The members of a group, metadata/objects.py:679-690; there are no attributes of groups in snapshots. -/
def member (present : List Str) (group : Str) (ds : List (Str × Dset)) (f : Str) : Except Err Dset :=
  match datasetTable (loadFieldNames group (ds.map Prod.fst) present) [] f with
  | some (.field path) => match ds.find? (fun d => (group ++ '/' :: d.1) == path) with
    | some d => .ok d.2
    | none => .error .key
  | _ => .error .attribute

/-- `data.<group>.<field>`: the shape and the array, reader.py:110-173. -/
noncomputable def getField (o : Opened) (g f : Str) : Except Err (List Nat × Field) :=
  match o.names.lookup g with
  | none => .error .attribute
  | some group => match o.file.groups.lookup group with
    | none => .error .key
    | some ds => (member (o.names.map Prod.snd) group ds f).map (fun d => (d.shape, readField o.base o.scale d.data))

end Verif.Reread
