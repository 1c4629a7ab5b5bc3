import Verif.Model.Handles

/-!
# Model of the functions that open files (swiftsimio/__init__.py, _file_utils.py and the constructors they call)

`load`, `mask`, `validate_file`, `SWIFTDataset`, `SWIFTUnits`, the metadata classes and `SWIFTMask` as programs over the handles of
`Verif/Model/Handles.lean`. What they read is left out, except that any of it may raise: a disk says what each stage of reading a
file does. A program returns a value or an exception and always the handles and objects it leaves behind.
-/

namespace Verif.Opening
open Verif Verif.Handles

/-- A program. -/
def Prog (α : Type) : Type := World → World × Except Err α

/-- `return a`. -/
def Prog.ret {α : Type} (a : α) : Prog α := fun w => (w, .ok a)

/-- One program after the other; an exception leaves both. -/
def Prog.andThen {α β : Type} (p : Prog α) (f : α → Prog β) : Prog β := fun w =>
  match p w with
  | (w', .ok a) => f a w'
  | (w', .error e) => (w', .error e)

instance : Monad Prog where
  pure := Prog.ret
  bind := Prog.andThen

/-- The stages of reading a file. -/
inductive Stage
  | code
  | header
  | units
  | metadata
  | group (k : Nat)
  | fields (k : Nat)
  | masking
  | cells
  | data (k : Nat)
  deriving DecidableEq, Repr

/-- What matters of the files: for each of the groups of a file the number of fields with named columns, and the stages that
raise. -/
structure Disk where
  groups : Nat → List Nat
  bad : Nat → Stage → Option Err

/-- `HandleProvider.__init__`, _handle_provider.py:28-33: the number of the new object. -/
def new (file : Nat) (handle : Option Nat) : Prog Nat := fun w => (w.mkProvider file handle, .ok w.providers.length)

/-- `self.handle`, _handle_provider.py:35-57. -/
def useHandle (i : Nat) : Prog Nat := fun w =>
  match w.providers[i]? with
  | none => (w, .error .key)
  | some p => match w.getHandle i p with
    | (w', some e) => (w', .error e)
    | (w', none) => match w'.providers[i]?.bind (·.handle) with
      | some h => (w', .ok h)
      | none => (w', .error .key)  -- not reachable: the property returns a handle

/-- `self._close_handle_if_manager()`, _handle_provider.py:59-62. -/
def closeManaged (i : Nat) : Prog Unit := fun w =>
  match w.providers[i]? with
  | none => (w, .error .key)
  | some p => match w.closeIfManager p with
    | (w', some e) => (w', .error e)
    | (w', none) => (w', .ok ())

/-- `with self.open_file() as handle`, _handle_provider.py:64-82. -/
def withOpen {α : Type} (i : Nat) (body : Nat → Prog α) : Prog α := fun w =>
  match w.providers[i]? with
  | none => (w, .error .key)
  | some p =>
    if w.truthy p.handle then body (p.handle.getD 0) w
    else
      let r := body w.handles.length (w.openNew p.file (.temp i)).1
      (r.1.close w.handles.length, r.2)

/-- Reading through a handle: a closed one raises ValueError. -/
def look (d : Disk) (h : Nat) (s : Stage) : Prog Unit := fun w =>
  match w.handles[h]? with
  | none => (w, .error .value)
  | some x =>
    if x.isOpen then match d.bad x.file s with
      | some e => (w, .error e)
      | none => (w, .ok ())
    else (w, .error .value)

/-- `handle.filename`: a closed handle raises ValueError. -/
def fileName (h : Nat) : Prog Nat := fun w =>
  match w.handles[h]? with
  | none => (w, .error .value)
  | some x => if x.isOpen then (w, .ok x.file) else (w, .error .value)

/-- `self.filename`. -/
def ownFile (i : Nat) : Prog Nat := fun w =>
  match w.providers[i]? with
  | none => (w, .error .key)
  | some p => (w, .ok p.file)

/-- A check that does not read the file. -/
def check (d : Disk) (f : Nat) (s : Stage) : Prog Unit := fun w =>
  match d.bad f s with
  | some e => (w, .error e)
  | none => (w, .ok ())

/-- One program for each element. -/
def each {α : Type} (f : α → Prog Unit) : List α → Prog Unit
  | [] => Prog.ret ()
  | a :: l => (f a).andThen fun _ => each f l

/-- `SWIFTUnits(filename, handle)`, metadata/objects.py:786-826. -/
def units (d : Disk) (f : Nat) (h : Option Nat) : Prog Nat := do
  let i ← new f h
  let n ← useHandle i
  look d n .units
  closeManaged i
  return i

/-- `SWIFTGroupMetadata`, metadata/objects.py:618-638. -/
def groupMetadata (d : Disk) (f h k : Nat) : Prog Unit := do
  let i ← new f (some h)
  let n ← useHandle i
  look d n (.group k)
  closeManaged i

/-- The units of a metadata object, metadata/objects.py:97-101: made anew if none are given. -/
def ownUnits (d : Disk) (f i : Nat) (given : Bool) : Prog Unit :=
  if given then Prog.ret () else do
    let n ← useHandle i
    let _ ← units d f (some n)
    Prog.ret ()

/-- The metadata classes, metadata/objects.py:91-139, 890-909, 1504-1519 and 1585-1601, which open and close alike. -/
def metadata (d : Disk) (f : Nat) (given : Bool) (h : Option Nat) : Prog Nat := do
  let i ← new f h
  ownUnits d f i given
  let n ← useHandle i
  look d n .metadata
  each (fun k => do
    let n ← useHandle i
    groupMetadata d f n k) (List.range (d.groups f).length)
  closeManaged i
  return i

/-- `_metadata_discriminator`, metadata/objects.py:828-868: without a handle the file is opened for a moment. -/
def discriminate (d : Disk) (f : Nat) (h : Option Nat) : Prog Nat :=
  match h with
  | some n => do
    look d n .header
    metadata d f true (some n)
  | none => do
    (fun w =>
      let r := look d w.handles.length .header (w.openNew f (.temp w.providers.length)).1
      (r.1.close w.handles.length, r.2) : Prog Unit)
    metadata d f true none

/-- `_generate_datasets`, reader.py:544-680: the objects with named columns, reader.py:467-489, then the group, reader.py:348-391;
they take the file name from the handle. -/
def groupDataset (d : Disk) (h k columns : Nat) : Prog Unit := do
  each (fun _ => do
    let f ← fileName h
    let _ ← new f (some h)
    Prog.ret ()) (List.range columns)
  let f ← fileName h
  let i ← new f (some h)
  let n ← useHandle i
  look d n (.fields k)
  closeManaged i

/-- The assertion of `get_units` and `get_metadata`, reader.py:756-759 and 774-777: the same handle or the same file. -/
def sameFile (i m : Nat) : Prog Unit := fun w =>
  match w.providers[i]?, w.providers[m]? with
  | some p, some q => if p.handle = q.handle ∨ p.file = q.file then (w, .ok ()) else (w, .error .assertion)
  | _, _ => (w, .error .key)

/-- `SWIFTDataset.get_units`, reader.py:747-763. -/
def getUnits (d : Disk) (i : Nat) : Option Nat → Prog Unit
  | some m => sameFile i m
  | none => do
    let n ← useHandle i
    let f ← ownFile i
    let _ ← units d f (some n)
    Prog.ret ()

/-- `SWIFTDataset.get_metadata`, reader.py:765-783. -/
def getMetadata (d : Disk) (i : Nat) : Option Nat → Prog Unit
  | some m => sameFile i m
  | none => do
    let n ← useHandle i
    let f ← ownFile i
    let _ ← discriminate d f (some n)
    Prog.ret ()

/-- `SWIFTDataset.create_datasets`, reader.py:785-808. -/
def createDatasets (d : Disk) (i : Nat) : Prog Unit := do
  let f ← ownFile i
  each (fun g : Nat × Nat => do
    let n ← useHandle i
    groupDataset d n g.2 g.1) (d.groups f).zipIdx

/-- `SWIFTDataset.__init__`, reader.py:719-736. -/
def dataset (d : Disk) (f : Nat) (mask h : Option Nat) : Prog Nat := do
  let i ← new f h
  getUnits d i mask
  getMetadata d i mask
  createDatasets d i
  closeManaged i
  return i

/-- `SWIFTMask.__init__`, masks.py:95-141. -/
def maskObject (d : Disk) (f : Nat) (h : Option Nat) : Prog Nat := do
  let i ← new f h
  check d f .masking
  let n ← useHandle i
  look d n .cells
  closeManaged i
  return i

/-- What the user gives: a path or a handle. -/
inductive Source
  | path (f : Nat)
  | handle (h : Nat)
  deriving DecidableEq, Repr

/-- `split_path_or_handle` and the object of `open_path_or_handle`, _file_utils.py:64-102. -/
def provide : Source → Prog Nat
  | .path f => new f none
  | .handle h => do
    let f ← fileName h
    new f (some h)

/-- `with open_path_or_handle(filename) as handle`. -/
def opened {α : Type} (s : Source) (body : Nat → Prog α) : Prog α := do
  let i ← provide s
  withOpen i body

/-- `validate_file`, __init__.py:67-93 (the KeyError that becomes an IOError is left as it is). -/
def validateFile (d : Disk) (s : Source) : Prog Unit := opened s fun n => look d n .code

/-- `mask`, __init__.py:96-142. -/
def makeMask (d : Disk) (s : Source) : Prog Nat := opened s fun n => do
  let f ← fileName n
  let _ ← units d f (some n)
  let _ ← discriminate d f (some n)
  maskObject d f (some n)

/-- `load`, __init__.py:145-165. -/
def load (d : Disk) (s : Source) (mask : Option Nat) : Prog Nat := opened s fun n => do
  let f ← fileName n
  dataset d f mask (some n)

/-- Objects that a program can hold. The object of `open_path_or_handle` for a path is not returned to anyone; it is the only one
without a handle, _file_utils.py:101-102. -/
def held (i : Nat) (w : World) : Bool :=
  match w.providers[i]? with
  | some p => p.handle.isSome
  | none => false

/-- What a user does. `read` is any access through `open_file`: a field (reader.py:128), an attribute of a group (reader.py:273),
`constrain_property` (masks.py:528) and `write_subset` (subset_writer.py:431); also `present_groups` of a line of sight,
metadata/objects.py:1385-1389. `attribute` is `x.handle`, `close` the call of `_close_handle_if_manager`. -/
inductive Cmd
  | open_ (f : Nat)
  | close (h : Nat)
  | validate (s : Source)
  | mask (s : Source)
  | load (s : Source) (mask : Option Nat)
  | read (i k : Nat)
  | attribute (i : Nat)
  | getUnits (i : Nat) (mask : Option Nat)
  | getMetadata (i : Nat) (mask : Option Nat)
  | createDatasets (i : Nat)
  | closeManaged (i : Nat)
  deriving DecidableEq, Repr

/-- A method of an object. -/
def method {α : Type} (i : Nat) (p : Prog α) : Prog α := fun w => if held i w then p w else (w, .error .key)

/-- One command, what it returns dropped. The mask of `load` is an object that exists. -/
def step (d : Disk) (w : World) : Cmd → World
  | .open_ f => (w.openNew f .user).1
  | .close h => w.close h
  | .validate s => (validateFile d s w).1
  | .mask s => (makeMask d s w).1
  | .load s m => if m.all (held · w) then (load d s m w).1 else w
  | .read i k => (method i (withOpen i fun n => look d n (.data k)) w).1
  | .attribute i => (method i (useHandle i) w).1
  | .getUnits i m => (method i (getUnits d i m) w).1
  | .getMetadata i m => (method i (getMetadata d i m) w).1
  | .createDatasets i => (method i (createDatasets d i) w).1
  | .closeManaged i => (method i (closeManaged i) w).1

/-- Commands one after the other; exceptions are caught. -/
def run (d : Disk) (w : World) (l : List Cmd) : World := l.foldl (step d) w

end Verif.Opening
