import Verif.Model.Basic
import Mathlib.Logic.Function.Basic

/-!
# Model of the attributes of an open dataset (swiftsimio/reader.py)

Python attributes of the objects that `_generate_datasets` makes: a class with properties, an instance dictionary, and the names of
the base class. Values are symbols for what is in them: a read of the file says which dataset, column and mask it uses. What such
a read returns is in other modules (C03 to C08, C32, C58, C67). A lookup has a depth, as in Python; too deep is a RecursionError,
which is a RuntimeError. The file was opened by the dataset and is closed again before attributes are read, so that reading needs the
file name. The conversion of masks to ranges, and units and metadata of the dataset itself, are left out.
-/

namespace Verif.Dataset
open Verif

abbrev Name := List Char

/-- The private name of an attribute, f"_{name}". -/
def under (n : Name) : Name := '_' :: n

/-- What is read from the file. `mask` and `size` are the names of the variables of the mask object. -/
inductive Source
  | field (path : Name) (column : Option Nat) (mask size : Option Name)
  | attr (group name : Name)
  deriving DecidableEq, Repr

/-- Values of attributes. -/
inductive Val
  | none
  | file (s : Source)
  | user (k : Nat)        -- anything a user may set
  | object (id : Name)    -- an object with named columns
  | own (id : Name)       -- what the object itself was given: file name, metadata, ...
  deriving DecidableEq, Repr

/-- Entries of a class. -/
inductive Member
  | lazy (s : Source)     -- a property with the getter, setter and deleter of its own name
  | object (id : Name)    -- an instance, not a property
  deriving DecidableEq, Repr

structure Obj where
  cls : List (Name × Member)
  inst : Name → Option Val

/-- The methods of the base classes that are used (reader.py:328-400, _handle_provider.py:65-82). -/
def methods : List Name :=
  ["open_file".toList, "generate_empty_properties".toList, "_close_handle_if_manager".toList]

/-- The property of `HandleProvider` (_handle_provider.py:36-56). -/
def handleName : Name := "handle".toList
def metadataName : Name := "metadata".toList
def filenameName : Name := "filename".toList
def openFileName : Name := "open_file".toList
def managerName : Name := "handle_manager".toList
def groupMetadataName : Name := "group_metadata".toList
def emptyPropertiesName : Name := "generate_empty_properties".toList
def closeName : Name := "_close_handle_if_manager".toList

/-- `setattr(o, name, v)`. -/
def setAttr : Nat → Obj → Name → Val → Except Err Obj
  | 0, _, _, _ => .error .runtime
  | d + 1, o, name, v =>
    match o.cls.lookup name with
    | some (.lazy _) => setAttr d o (under name) v
    | some (.object _) => .ok { o with inst := Function.update o.inst name (some v) }
    | none =>
      if name = handleName then .error .attribute
      else .ok { o with inst := Function.update o.inst name (some v) }

/-- An attribute that is not a property of the class itself. -/
def plainAttr (o : Obj) (name : Name) : Except Err Val :=
  match o.inst name with
  | some v => .ok v
  | none => if name ∈ methods then .ok (.own name) else .error .attribute

/-- An attribute that has to be one of the object's own. -/
def needOwn (name : Name) (r : Obj × Val) : Except Err Obj := if r.2 = .own name then .ok r.1 else .error .typeErr

/-- The end of a getter: the value is kept and returned (reader.py:140-171, 173). -/
def keep (d : Nat) (look : Obj → Name → Except Err (Obj × Val)) (name : Name) (s : Source) (o : Obj) : Except Err (Obj × Val) :=
  (setAttr d o (under name) (.file s)).bind fun o => look o (under name)

/-- Reading from the file (reader.py:115-171): `self.open_file()`, which uses `self.filename`, and `self.metadata.units`. -/
def readFile (d : Nat) (look : Obj → Name → Except Err (Obj × Val)) (name : Name) (s : Source) (o : Obj) : Except Err (Obj × Val) :=
  ((look o openFileName).bind (needOwn openFileName)).bind fun o =>
    ((look o filenameName).bind (needOwn filenameName)).bind fun o =>
      ((look o metadataName).bind (needOwn metadataName)).bind fun o => keep d look name s o

/-- A getter (reader.py:110-173 and 242-264) once `self._name` is known. -/
def getter (d : Nat) (look : Obj → Name → Except Err (Obj × Val)) (name : Name) (s : Source) (r : Obj × Val) : Except Err (Obj × Val) :=
  if r.2 = .none then readFile d look name s r.1 else .ok r

/-- `getattr(o, name)`. -/
def getAttr : Nat → Obj → Name → Except Err (Obj × Val)
  | 0, _, _ => .error .runtime
  | d + 1, o, name =>
    match o.cls.lookup name with
    | some (.lazy s) => (getAttr d o (under name)).bind (getter d (getAttr d) name s)
    | some (.object id) => .ok (o, (o.inst name).getD (.object id))
    | none => if name = handleName then .ok (o, .own handleName) else (plainAttr o name).map fun v => (o, v)

/-- `delattr(o, name)`: reader.py:290-306 for properties. -/
def delAttr (d : Nat) (o : Obj) (name : Name) : Except Err Obj :=
  match o.cls.lookup name with
  | some (.lazy _) => (getAttr d o (under name)).bind fun r => setAttr d r.1 (under name) .none
  | _ => if (o.inst name).isSome then .ok { o with inst := Function.update o.inst name none } else .error .attribute

/-- The attributes that `__init__` sets before the properties are emptied, in order: _handle_provider.py:27-33 and
reader.py:354-362, or reader.py:455-461 for named columns. -/
def groupSelf : List Name :=
  [filenameName, "_handle".toList, managerName, "units".toList, "group".toList, "group_name".toList, groupMetadataName, metadataName]
def columnsSelf : List Name :=
  [filenameName, "_handle".toList, managerName, "field_path".toList, groupMetadataName, metadataName, "named_columns".toList,
    "name".toList]

def setOwn (d : Nat) (names : List Name) (o : Obj) : Except Err Obj := names.foldlM (fun o n => setAttr d o n (.own n)) o

/-- A field: its attribute name, its path and its named columns. -/
structure FieldMeta where
  name : Name
  path : Name
  columns : Option (List Name)
  deriving DecidableEq, Repr

/-- The metadata of a group: the name of the group in Python and in the file, its fields, its attributes. -/
structure GroupMeta where
  name : Name
  group : Name
  fields : List FieldMeta
  attrs : List (Name × Name)
  deriving DecidableEq, Repr

/-- One turn of the loop of `generate_empty_properties` (reader.py:376-388). -/
def emptyField (d : Nat) (present : Name → Bool) (o : Obj) (f : FieldMeta) : Except Err Obj :=
  ((getAttr d o handleName).bind (needOwn handleName)).bind fun o =>
    if present f.path then setAttr d o (under f.name) .none else .error .attribute

/-- The rest of it (390-391). -/
def emptyAttrs (d : Nat) (attrs : List (Name × Name)) (o : Obj) : Except Err Obj :=
  ((getAttr d o groupMetadataName).bind (needOwn groupMetadataName)).bind fun o =>
    attrs.foldlM (fun o a => setAttr d o (under a.1) .none) o

/-- `generate_empty_properties` (reader.py:369-393). -/
def emptyProperties (d : Nat) (present : Name → Bool) (g : GroupMeta) (o : Obj) : Except Err Obj :=
  ((getAttr d o groupMetadataName).bind (needOwn groupMetadataName)).bind fun o =>
    (g.fields.foldlM (emptyField d present) o).bind (emptyAttrs d g.attrs)

/-- `__SWIFTGroupDataset.__init__` (reader.py:348-367): the properties are emptied by a method, and another one closes the file. -/
def initGroup (d : Nat) (present : Name → Bool) (g : GroupMeta) (o : Obj) : Except Err Obj :=
  (setOwn d groupSelf o).bind fun o =>
    ((getAttr d o emptyPropertiesName).bind (needOwn emptyPropertiesName)).bind fun o =>
      (emptyProperties d present g o).bind fun o =>
        ((getAttr d o closeName).bind (needOwn closeName)).bind fun o =>
          (getAttr d o managerName).bind (needOwn managerName)

/-- `__SWIFTNamedColumnDataset.__init__` (reader.py:447-470). -/
def initColumns (d : Nat) (columns : List Name) (o : Obj) : Except Err Obj :=
  (setOwn d columnsSelf o).bind fun o => columns.foldlM (fun o c => setAttr d o (under c) .none) o

/-- The masks: whether there is one for all groups, and the groups. -/
structure MaskMeta where
  shared : Bool
  groups : List Name
  deriving DecidableEq, Repr

/-- f"{group}_size". -/
def sized (g : Name) : Name := g ++ "_size".toList

/-- The attributes and methods of a `SWIFTMask` that are found without `__getattr__` (masks.py:95-141, 302-305, 385-440 and the
names of its methods). -/
def maskOwn : List Name :=
  ["metadata".toList, "units".toList, "range_mask".toList, "constrained".toList, "safe_padding".toList, "counts".toList,
    "offsets".toList, "minpositions".toList, "maxpositions".toList, "cell_sort".toList, "centers".toList, "cell_size".toList,
    "cell_mask".toList, "filename".toList, "handle".toList, "handle_manager".toList, "group_mapping".toList,
    "group_size_mapping".toList, "update_list".toList, "constrain_mask".toList, "constrain_property".toList,
    "constrain_spatial".toList, "convert_masks_to_ranges".toList, "convert_masks_to_bool".toList, "constrain_index".toList,
    "constrain_indices".toList, "open_file".toList]

/-- `group_mapping` (masks.py:143-170). -/
def groupMapping (m : MaskMeta) : List (Name × Name) :=
  m.groups.map fun g => (g, if m.shared then "_shared".toList else under g)

/-- `group_size_mapping` (masks.py:172-201). -/
def sizeMapping (m : MaskMeta) : List (Name × Name) :=
  m.groups.map fun g => (sized g, if m.shared then "_shared_size".toList else under (sized g))

/-- `getattr(mask, name, default)` (masks.py:226-255): the name of the variable. Of equal keys of a dictionary the last one counts,
but equal keys of one of the two mappings have equal values. -/
def maskAttr (m : MaskMeta) (name : Name) : Option Name :=
  if name ∈ maskOwn then some name
  else ((sizeMapping m).lookup name).or ((groupMapping m).lookup name)

/-- reader.py:592-593. -/
def maskVars (m : Option MaskMeta) (g : Name) : Option Name × Option Name :=
  match m with
  | none => (none, none)
  | some m => (maskAttr m g, maskAttr m (sized g))

/-- A group: its own object and those of its named columns. -/
structure Group where
  self : Obj
  cols : List (Name × Obj)

/-- A new object: nothing is set. -/
def fresh (cls : List (Name × Member)) : Obj := ⟨cls, fun _ => none⟩

/-- The class of an object with named columns (reader.py:631-644); the latest entry of a name is the first of the list. -/
def columnsClass (f : FieldMeta) (mask : Option Name × Option Name) (columns : List Name) : List (Name × Member) :=
  (columns.zipIdx.map fun c => (c.1, Member.lazy (.field f.path (some c.2) mask.1 mask.2))).reverse

/-- The entry of a field (reader.py:604-663). -/
def fieldMember (f : FieldMeta) (mask : Option Name × Option Name) : Member :=
  match f.columns with
  | none => .lazy (.field f.path none mask.1 mask.2)
  | some _ => .object f.name

/-- The class of a group (reader.py:601-678). -/
def groupClass (g : GroupMeta) (mask : Option Name × Option Name) : List (Name × Member) :=
  (g.fields.map (fun f => (f.name, fieldMember f mask)) ++ g.attrs.map fun a => (a.1, Member.lazy (.attr g.group a.2))).reverse

/-- The objects with named columns (reader.py:646-661). -/
def makeColumns (d : Nat) (mask : Option Name × Option Name) (f : FieldMeta) : Except Err (List (Name × Obj)) :=
  match f.columns with
  | none => .ok []
  | some cs => (initColumns d cs (fresh (columnsClass f mask cs))).map fun o => [(f.name, o)]

def makeAllColumns (d : Nat) (mask : Option Name × Option Name) : List FieldMeta → Except Err (List (Name × Obj))
  | [] => .ok []
  | f :: l => (makeColumns d mask f).bind fun a => (makeAllColumns d mask l).map fun b => b ++ a

/-- `_generate_datasets` (reader.py:543-684). -/
def generate (d : Nat) (present : Name → Bool) (m : Option MaskMeta) (g : GroupMeta) : Except Err Group :=
  (makeAllColumns d (maskVars m g.name) g.fields).bind fun cols =>
    (initGroup d present g (fresh (groupClass g (maskVars m g.name)))).map fun o => ⟨o, cols⟩

/-- `create_datasets` (reader.py:795-808); the latest group of a name is the first. -/
def create (d : Nat) (present : Name → Bool) (m : Option MaskMeta) : List GroupMeta → Except Err (List (Name × Group))
  | [] => .ok []
  | g :: l => (generate d present m g).bind fun x => (create d present m l).map fun rest => rest ++ [(g.name, x)]

/-- What a user does with an attribute. -/
inductive Act
  | get
  | set (v : Val)
  | del
  deriving DecidableEq, Repr

/-- An attribute: of a group, or of an object with named columns. -/
structure Target where
  group : Name
  field : Name
  column : Option Name
  deriving DecidableEq, Repr

/-- One action on one object: the value that is seen, if any. -/
def actObj (d : Nat) (o : Obj) (n : Name) : Act → Except Err (Obj × Option Val)
  | .get => (getAttr d o n).map fun r => (r.1, some r.2)
  | .set v => (setAttr d o n v).map fun o => (o, none)
  | .del => (delAttr d o n).map fun o => (o, none)

/-- The object with named columns that an attribute is. -/
def asObject (r : Obj × Val) : Except Err (Obj × Name) :=
  match r.2 with
  | .object id => .ok (r.1, id)
  | _ => .error .attribute

/-- Replace the first entry of a name. -/
def replace {α : Type} (n : Name) (a : α) : List (Name × α) → List (Name × α)
  | [] => []
  | (k, x) :: l => if k = n then (k, a) :: l else (k, x) :: replace n a l

def actColumn (d : Nat) (cols : List (Name × Obj)) (id c : Name) (a : Act) : Except Err (List (Name × Obj) × Option Val) :=
  match cols.lookup id with
  | none => .error .attribute
  | some o => (actObj d o c a).map fun r => (replace id r.1 cols, r.2)

/-- `group.field`, `group.field = v`, `del group.field`, and the same for `group.field.column`. -/
def actGroup (d : Nat) (g : Group) (field : Name) (a : Act) : Option Name → Except Err (Group × Option Val)
  | none => (actObj d g.self field a).map fun r => (⟨r.1, g.cols⟩, r.2)
  | some c => ((getAttr d g.self field).bind asObject).bind fun r =>
      (actColumn d g.cols r.2 c a).map fun q => (⟨r.1, q.1⟩, q.2)

def act (d : Nat) (s : List (Name × Group)) (t : Target) (a : Act) : Except Err (List (Name × Group) × Option Val) :=
  match s.lookup t.group with
  | none => .error .attribute
  | some g => (actGroup d g t.field a t.column).map fun r => (replace t.group r.1 s, r.2)

/-- Actions one after the other: the values seen. -/
def run (d : Nat) : List (Name × Group) → List (Target × Act) → Except Err (List (Option Val))
  | _, [] => .ok []
  | s, (t, a) :: l => (act d s t a).bind fun r => (run d r.1 l).map fun vs => r.2 :: vs

end Verif.Dataset
