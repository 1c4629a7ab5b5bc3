import Verif.Model.Names
import Verif.Model.LineOfSight

/-!
# Model of the groups of a dataset, for files of all kinds (swiftsimio/metadata/objects.py, swiftsimio/reader.py)

From what is in a file to the attributes of a `SWIFTDataset` that carry data: the groups that are present, the fields of each, and the
names of their columns. What is read from the header (`Verif/Model/Header.lean`) is given here.
-/

namespace Verif.Groups
open Verif Verif.Names

/-- What matters of a file. -/
structure Src where
  kind : Kind
  header : Names.Header                             -- `has_type` and `num_part`
  subhaloTypes : Option (List Str)                  -- `subhalo_types`
  top : List Str                                    -- names of the groups at the top
  members : Str → Option (List Str)                 -- names of the members of a group, if it is there
  attrs : Str → List Str                            -- names of the attributes of a group
  columns : Option (List (Str × List (Option Str))) -- `SubgridScheme/NamedColumns`; `none` for bytes that are no UTF-8

/-- `present_groups`, metadata/objects.py:992-1002, 1374-1391, 1521-1531 and 1608-1618. -/
def presentGroups (f : Src) : Except Err (List Str) :=
  match f.kind with
  | .snapshot => .ok (Names.presentGroups f.header)
  | .lineOfSight => .ok (LineOfSight.presentGroups f.top)
  | .fof => .ok ["Groups".toList]
  | .soap => match f.subhaloTypes with
    | some l => .ok l
    | none => .error .attribute

/-- `present_group_names`, metadata/objects.py:1005-1017, 1393-1403, 1533-1543 and 1620-1632. -/
def presentGroupNames (f : Src) : Except Err (List Str) :=
  match f.kind with
  | .snapshot => Names.presentGroupNames f.header
  | .lineOfSight => .ok (LineOfSight.presentGroupNames f.top)
  | .fof => .ok ["fof_groups".toList]
  | .soap => (presentGroups f).bind fun l => l.mapM soapName

/-- `particle_name_class`, metadata/particle/particle_types.py:14-23. -/
def particleClasses : List (Str × Str) :=
  [("PartType0".toList, "Gas".toList), ("PartType1".toList, "DarkMatter".toList), ("PartType2".toList, "Boundary".toList),
    ("PartType3".toList, "Sinks".toList), ("PartType4".toList, "Stars".toList), ("PartType5".toList, "BlackHoles".toList),
    ("PartType6".toList, "Neutrinos".toList), ("PartType7".toList, "SelfInteractingDarkMatter".toList)]

/-- `get_nice_name`, metadata/objects.py:1336-1351, 1405-1420, 1545-1560 and 1634-1649. -/
def niceName (k : Kind) (group : Str) : Except Err Str :=
  match k with
  | .snapshot => match particleClasses.lookup group with
    | some n => .ok n
    | none => .error .key
  | .lineOfSight => .ok (LineOfSight.niceName group)
  | .fof => .ok "FOFGroups".toList
  | .soap => soapNice group

/-- `[x.decode("utf-8") for x in data[k][:]]`. -/
def decodeAll (l : List (Option Str)) : Except Err (List Str) := l.mapM fun x => match x with
  | some s => .ok s
  | none => .error .value  -- UnicodeDecodeError

/-- `get_named_column_metadata`, metadata/objects.py:911-926; only snapshots and lines of sight call it (line 898), and without it
there are no named columns (line 700). -/
def namedColumns (f : Src) : Except Err (List (Str × List Str)) :=
  match f.kind with
  | .soap => .ok []
  | .fof => .ok []
  | _ => match f.columns with
    | none => .ok []
    | some l => l.mapM fun p => (decodeAll p.2).map fun v => (p.1, v)

/-- `field.split("/")[-1]`. -/
def lastPart (path : Str) : Str := (split path).getLastD []

/-- One turn of the loop of `load_named_columns`, metadata/objects.py:696-744. -/
def columnsOf (named : List (Str × List Str)) (path : Str) : Except Err (Option (List Str)) :=
  match named.lookup (lastPart path) with
  | some l => (formatColumns l).map some
  | none => .ok none

/-- The metadata of a group: `SWIFTGroupMetadata`. -/
structure Info where
  group : Str
  name : Str
  fields : List (Str × Str)                  -- paths and names
  columns : List (Str × Option (List Str))   -- by path
  attrs : List Str
  deriving DecidableEq, Repr

/-- `SWIFTGroupMetadata.__init__` and `load_metadata`, metadata/objects.py:617-677 and 746-758; group attributes are for lines of sight
(lines 78 and 1373). -/
def groupInfo (f : Src) (present : List Str) (named : List (Str × List Str)) (g n : Str) : Except Err Info :=
  match f.members g with
  | none => .error .key
  | some keys =>
    (((loadFieldNames g keys present).map Prod.fst).mapM fun p => (columnsOf named p).map fun c => (p, c)).map fun cs =>
      { group := g, name := n, fields := loadFieldNames g keys present, columns := cs,
        attrs := if f.kind = .lineOfSight then f.attrs g else [] }

/-- f"{name}_properties". -/
def propertiesName (n : Str) : Str := n ++ "_properties".toList

/-- `load_groups`, metadata/objects.py:107-139: the attributes of the metadata; a later group replaces an earlier one. -/
def loadGroups (f : Src) (present : List Str) (named : List (Str × List Str)) :
    List (Str × Str) → (Str → Option Info) → Except Err (Str → Option Info)
  | [], d => .ok d
  | (g, n) :: l, d => (groupInfo f present named g n).bind fun i =>
      loadGroups f present named l (fun m => if m = propertiesName n then some i else d m)

/-- A group of a dataset: the name of its class and its metadata. -/
structure Group where
  className : Str
  info : Info
  deriving DecidableEq, Repr

/-- `create_datasets`, reader.py:783-808: the attributes of the dataset; the class is that of `_generate_datasets` (reader.py:588-678). -/
def createDatasets (k : Kind) (props : Str → Option Info) : List Str → (Str → Option Group) → Except Err (Str → Option Group)
  | [], d => .ok d
  | n :: l, d => match props (propertiesName n) with
    | none => .error .attribute
    | some i => (niceName k i.group).bind fun c =>
        createDatasets k props l (fun m => if m = n then some ⟨c ++ "Dataset".toList, i⟩ else d m)

/-- `SWIFTDataset(filename)` without a mask, as far as groups are concerned, reader.py:718-735 with metadata/objects.py:891-907, 1503-1518
and 1584-1601. -/
def dataset (f : Src) : Except Err (Str → Option Group) :=
  (namedColumns f).bind fun named => (presentGroups f).bind fun gs => (presentGroupNames f).bind fun ns =>
    (loadGroups f gs named (gs.zip ns) (fun _ => none)).bind fun props => createDatasets f.kind props ns (fun _ => none)

end Verif.Groups
