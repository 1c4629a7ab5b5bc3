import Verif.Model.Basic

/-!
# Model of names, file types and particle types (swiftsimio/metadata)

Strings are lists of characters. `str.lower` is modelled for ASCII names: other characters are left as they are.
-/

namespace Verif.Names
open Verif

abbrev Str := List Char

/-- `[a-z0-9]`. -/
def lowDigit (c : Char) : Bool := (decide ('a' ≤ c) && decide (c ≤ 'z')) || (decide ('0' ≤ c) && decide (c ≤ '9'))

/-- `[A-Z]`. -/
def upper (c : Char) : Bool := decide ('A' ≤ c) && decide (c ≤ 'Z')

/-- `re.sub("([a-z0-9])([A-Z])", r"\1_\2", name)`: matches are found from the left and do not overlap. -/
def resub : Str → Str
  | a :: b :: l => if lowDigit a && upper b then a :: '_' :: b :: resub l else a :: resub (b :: l)
  | l => l

/-- `_convert_snake_to_camel`, metadata/objects.py:29-45. -/
def snake (name : Str) : Str := (resub name).map Char.toLower

/-- `load_field_names`, metadata/objects.py:679-690: paths and names of the members of a group that are not groups
themselves. -/
def loadFieldNames (group : Str) (keys present : List Str) : List (Str × Str) :=
  (keys.filter (fun k => !present.contains (group ++ '/' :: k))).map (fun k => (group ++ '/' :: k, snake k))

/-- `load_group_attributes`, metadata/objects.py:746-758: a dictionary from the Python name to the attribute; a later entry
replaces an earlier one. -/
def loadGroupAttributes (attrs : List Str) (name : Str) : Option Str :=
  attrs.foldl (fun d a => fun n => if n = snake a then some a else d n) (fun _ => none) name

/-- What `data.gas.<name>` reads: a dataset or an attribute of the group. -/
inductive Target
  | field (path : Str)
  | attr (name : Str)
  deriving DecidableEq, Repr

/-- The dictionary of properties of a group class, `_generate_datasets`, reader.py:600-667: first the fields, then the group
attributes; a later entry replaces an earlier one. -/
def datasetTable (fields : List (Str × Str)) (attrs : List Str) (name : Str) : Option Target :=
  let d := fields.foldl (fun (d : Str → Option Target) f => fun n => if n = f.2 then some (.field f.1) else d n) (fun _ => none)
  match loadGroupAttributes attrs name with
  | some a => some (.attr a)
  | none => d name

/-- The column that `data.gas.<field>.<name>` reads, reader.py:632-645: a later column replaces an earlier one. -/
def columnTable (names : List Str) (name : Str) : Option Nat :=
  names.zipIdx.foldl (fun d c => fun n => if n = c.1 then some c.2 else d n) (fun _ => none) name

/-- `num_capitals`, metadata/objects.py:714-728. -/
def numCapitals (s : Str) : Nat := s.countP upper

/-- `load_named_columns` for a field that has named columns, metadata/objects.py:706-740. -/
def formatColumns (names : List Str) : Except Err (List Str) :=
  if names.length = 0 then .error .value  -- ZeroDivisionError
  else if ((names.map numCapitals).sum : Rat) / names.length < 101 / 100 then .ok (names.map (List.map Char.toLower))
  else .ok names

/-- The kinds of metadata objects. -/
inductive Kind
  | snapshot
  | lineOfSight
  | soap
  | fof
  deriving DecidableEq, Repr

/-- `_metadata_discriminator`, metadata/objects.py:827-868; `none` when the header has no `OutputType`. -/
def discriminate (t : Option String) : Except Err Kind :=
  let t := t.getD "FullVolume"
  if t = "FullVolume" ∨ t = "VolumeSubset" then .ok .snapshot
  else if t = "LineOfSight" then .ok .lineOfSight
  else if t = "SOAP" ∨ t = "SOAPSubset" then .ok .soap
  else if t = "FOF" ∨ t = "FOFSubset" then .ok .fof
  else .error .value

/-- The dictionary of subset_writer.py:284-291. -/
def renameTable : List (String × String) :=
  [("FullVolume", "VolumeSubset"), ("SOAP", "SOAPSubset"), ("FOF", "FOFSubset"), ("VolumeSubset", "VolumeSubset"),
    ("SOAPSubset", "SOAPSubset"), ("FOFSubset", "FOFSubset")]

/-- The `OutputType` written for a subset, subset_writer.py:276-291: a header without it stays without. -/
def renameType : Option String → Except Err (Option String)
  | none => .ok none
  | some t => match renameTable.lookup t with
    | some u => .ok (some u)
    | none => .error .key

/-- `masking_valid` of the metadata classes, metadata/objects.py:74, 889, 1372 and 1581 (FOF inherits line 74). -/
def maskingValid : Kind → Bool
  | .snapshot => true
  | .lineOfSight => false
  | .soap => true
  | .fof => false

/-- `particle_name_underscores`, metadata/particle/particle_types.py:3-12. -/
def particleNames : List (Str × Str) :=
  [("PartType0".toList, "gas".toList), ("PartType1".toList, "dark_matter".toList), ("PartType2".toList, "boundary".toList),
    ("PartType3".toList, "sinks".toList), ("PartType4".toList, "stars".toList), ("PartType5".toList, "black_holes".toList),
    ("PartType6".toList, "neutrinos".toList), ("PartType7".toList, "sidm".toList)]

/-- `f"PartType{i}"`. -/
def partType (i : Nat) : Str := "PartType".toList ++ Nat.toDigits 10 i

/-- The two header entries that say which types are there: `CanHaveTypes` (may be missing) and `NumPart_ThisFile`. -/
structure Header where
  hasType : Option (List Int)
  numPart : List Int

/-- `np.where(np.array(getattr(self, "has_type", self.num_part)) != 0)[0]`, metadata/objects.py:1001. -/
def presentTypes (h : Header) : List Nat :=
  let v := h.hasType.getD h.numPart
  (List.range v.length).filter (fun i => v[i]?.getD 0 != 0)

/-- `present_groups`, metadata/objects.py:992-1002. -/
def presentGroups (h : Header) : List Str := (presentTypes h).map partType

/-- `present_group_names`, metadata/objects.py:1005-1017: a type without a name raises KeyError. -/
def presentGroupNames (h : Header) : Except Err (List Str) :=
  (presentGroups h).mapM (fun g => match particleNames.lookup g with
    | some n => .ok n
    | none => .error .key)

/-- `self.n_gas` and the like, metadata/objects.py:349-357. -/
def nOf (h : Header) (i : Nat) : Int := h.numPart[i]?.getD 0

/-- `str.split("/")`. -/
def split : Str → List Str
  | [] => [[]]
  | c :: l => match split l with
    | [] => [[c]]
    | w :: ws => if c = '/' then [] :: w :: ws else (c :: w) :: ws

/-- `"_".join`. -/
def join : List Str → Str
  | [] => []
  | [w] => w
  | w :: v :: ws => w ++ '_' :: join (v :: ws)

/-- `soap_name_underscores`, metadata/soap/soap_types.py:19-27. -/
def soapNames : List (Str × Str) :=
  [("BoundSubhalo".toList, "bound_subhalo".toList), ("InputHalos".toList, "input_halos".toList),
    ("InclusiveSphere".toList, "inclusive_sphere".toList), ("ExclusiveSphere".toList, "exclusive_sphere".toList),
    ("SO".toList, "spherical_overdensity".toList), ("SOAP".toList, "soap".toList),
    ("ProjectedAperture".toList, "projected_aperture".toList)]

/-- `get_soap_name_underscore`, metadata/soap/soap_types.py:5-30. -/
def soapName (group : Str) : Except Err Str :=
  match split group with
  | [] => .error .index
  | h :: t => match soapNames.lookup h with
    | some u => .ok (join ((u :: t).map (List.map Char.toLower)))
    | none => .error .key

/-- `soap_name_nice`, metadata/soap/soap_types.py:47-55. -/
def soapNices : List (Str × Str) :=
  [("BoundSubhalo".toList, "BoundSubhalo".toList), ("InputHalos".toList, "InputHalos".toList),
    ("InclusiveSphere".toList, "InclusiveSphere".toList), ("ExclusiveSphere".toList, "ExclusiveSphere".toList),
    ("SO".toList, "SphericalOverdensity".toList), ("SOAP".toList, "SOAP".toList),
    ("ProjectedAperture".toList, "ProjectedAperture".toList)]

/-- `str.capitalize`: the first character in upper case and all others in lower case (letters of the Latin alphabet). -/
def capitalize : Str → Str
  | [] => []
  | c :: l => c.toUpper :: l.map Char.toLower

/-- `get_soap_name_nice`, metadata/soap/soap_types.py:33-58. -/
def soapNice (group : Str) : Except Err Str :=
  match split group with
  | [] => .error .index
  | h :: t => match soapNices.lookup h with
    | some u => .ok ((u :: t).flatMap capitalize)
    | none => .error .key

end Verif.Names
