import Verif.Model.Reread

/-!
# Model of the writer as an object whose attributes are set (swiftsimio/snapshot_writer.py)

`writer.gas` is an object of a class with a property for each required field; any other name is an attribute like those of every
Python object. `writer.scale_factor` and `writer.unit_system` are plain attributes and can be set at any time. The setters of fields
use the unit system with which the writer was made (`generate_dataset` hands it to `generate_setter`), and the scale factor that the
writer has when a field is assigned. Names that the object uses for itself (`writer`, `n_part`, ...: `ownNames` of Spec/WriterObject.lean, and those that begin with an underscore
other than `_<field>`) are not modelled, nor are arrays with units assigned to `particle_ids` (IDs are given as integers).
-/

namespace Verif.WriterObject
open Verif Verif.Attributes Verif.Reread
open Verif.Writer (Name required)
open Verif.WriterHeader (Conf)
open Verif.Names (Str)
open Verif.Units (Dim)

/-- A `SWIFTSnapshotWriter`: the unit system of the setters, the attribute `unit_system`, the attributes that go to the header (with
`scale_factor`), the arrays `_<field>` of the datasets, and the other attributes of the datasets. -/
structure Obj where
  made : Dim → ℝ
  units : Dim → ℝ
  conf : Conf ℝ
  state : State
  other : Nat → Str → Option Stored

/-- A new writer, snapshot_writer.py:660-708. -/
def Obj.new (units : Dim → ℝ) (c : Conf ℝ) : Obj := ⟨units, units, c, State.new, fun _ _ => none⟩

/-- The property of a name, if there is one: `this_dataset_dict` of `generate_dataset`, snapshot_writer.py:472-528. -/
def property (t : Nat) (name : Str) : Option Name := (required t).find? (fun n => attrName n == name)

/-- What a program does with a writer. -/
inductive Cmd
  /-- `writer.<type>.<name> = x` -/
  | set (t : Nat) (name : Str) (x : Stored)
  /-- `writer.<type>.particle_ids = l` -/
  | ids (t : Nat) (l : List Int)
  /-- `del writer.<type>.<name>` -/
  | del (t : Nat) (name : Str)
  /-- `writer.<type>._<field> = x` -/
  | hidden (t : Nat) (n : Name) (x : Stored)
  /-- `writer.scale_factor = a` -/
  | scale (a : ℝ)
  /-- `writer.unit_system = u` -/
  | system (u : Dim → ℝ)

/-- A plain attribute of a dataset is set or deleted. -/
def Obj.setOther (w : Obj) (t : Nat) (name : Str) (x : Option Stored) : Obj :=
  { w with other := fun u m => if u = t ∧ m = name then x else w.other u m }

/-- One command: the writer afterwards and the exception. Properties: `generate_setter` and `generate_deleter`,
snapshot_writer.py:354-470; a deleter sets `_<field>` to `None` and never raises. Other names: `object.__setattr__` and
`object.__delattr__`. -/
noncomputable def exec (w : Obj) : Cmd → Obj × Option Err
  | .set t name x => match property t name with
    | none => (w.setOther t name (some x), none)
    | some n =>
      if n = .particleIds then (w, none)
      else match setField (baseOf w.made) w.conf.scaleFactor (dimsOf n) x.field with
        | .ok y => ({ w with state := w.state.put t n (some { x with field := y }) }, none)
        | .error e => (w, some e)
  | .ids t l => match Writer.setIds (view w.state t) l with
    | .ok _ => ({ w with state := w.state.putIds t (some l) }, none)
    | .error e => (w, some e)
  | .del t name => match property t name with
    | none => if (w.other t name).isSome then (w.setOther t name none, none) else (w, some .attribute)
    | some n => ({ w with state := if n = .particleIds then w.state.putIds t none else w.state.put t n none }, none)
  | .hidden t n x => ({ w with state := w.state.put t n (some x) }, none)
  | .scale a => ({ w with conf := { w.conf with scaleFactor := a } }, none)
  | .system u => ({ w with units := u }, none)

/-- A program that goes on after exceptions. -/
noncomputable def run (w : Obj) (l : List Cmd) : Obj := l.foldl (fun v q => (exec v q).1) w

/-- `writer.<type>.<name>` for names other than `particle_ids`: `generate_getter`, snapshot_writer.py:317-351, gives `_<field>`, which
is `None` until something is assigned. -/
def getAttr (w : Obj) (t : Nat) (name : Str) : Except Err (Option Stored) :=
  match property t name with
  | some n => .ok ((w.state t).fields n)
  | none => match w.other t name with
    | some x => .ok (some x)
    | none => .error .attribute

/-- `writer.write(filename)`, snapshot_writer.py:855-898: `_write_units` takes `self.unit_system` and `_write_metadata`
`self.scale_factor`, as they are now. -/
noncomputable def save (w : Obj) : Except Err H5 := writeAll w.units w.conf w.state

end Verif.WriterObject
