import Verif.Model.Names
import Mathlib.Data.List.Sort

/-!
# Model of line-of-sight files (swiftsimio/metadata/objects.py, swiftsimio/reader.py)

Groups and group attributes. Strings are lists of characters; Python compares strings character by character, as the order of
lists here.
-/

namespace Verif.LineOfSight
open Verif Verif.Names

/-- `present_groups`, metadata/objects.py:1375-1391. -/
def presentGroups (keys : List Str) : List Str :=
  (keys.filter (fun k => "LOS_".toList.isPrefixOf k)).insertionSort (· ≤ ·)

/-- `present_group_names`, metadata/objects.py:1393-1403. -/
def presentGroupNames (keys : List Str) : List Str := (presentGroups keys).map (List.map Char.toLower)

/-- `get_nice_name`, metadata/objects.py:1405-1420. -/
def niceName (group : Str) : Str := group.filter (· ≠ '_')

/-- The three positions, metadata/objects.py:1437-1441, 1459 and 1479. -/
def positions : List Str := ["xpos".toList, "ypos".toList, "zpos".toList]

/-- An attribute of a group: values in the unit of length of the file or without unit, whether it is a single number, and the
cosmology. -/
structure Attr (K : Type) where
  vals : List K
  single : Bool
  length : Bool
  comoving : Bool
  exponent : Int
  scale : K
  deriving DecidableEq, Repr

/-- `cosmo_array(np.atleast_1d(value), unit, comoving=comoving, cosmo_factor=cf).squeeze()`, reader.py:273-282, with
`get_group_attribute_units`, `get_group_attribute_comoving` and `get_group_attribute_cosmo_factor`,
metadata/objects.py:1422-1481; `squeeze` makes a number of an array of length one. -/
def parse {K : Type} (a : K) (name : Str) (value : List K) : Attr K :=
  { vals := value, single := value.length == 1, length := positions.contains name, comoving := positions.contains name,
    exponent := if positions.contains name then 1 else 0, scale := a }

/-- The object of a group: what is cached under each name (`none` is Python's `None`). -/
abbrev Cache (K : Type) := Str → Option (Attr K)

/-- The getter, reader.py:253-287: a cached value is returned, otherwise the attribute is read and kept. -/
def get {K : Type} (a : K) (attrs : Str → Option (List K)) (name attrName : Str) (c : Cache K) : Except Err (Attr K × Cache K) :=
  match c name with
  | some v => .ok (v, c)
  | none => match attrs attrName with
    | none => .error .key
    | some value => .ok (parse a name value, fun n => if n = name then some (parse a name value) else c n)

/-- `data.los_0000.<name>` for the attributes `attrs` of a group in the order of the file: the property of that name,
reader.py:661-674 with `load_group_attributes`. -/
def read {K : Type} (a : K) (attrs : List (Str × List K)) (c : Cache K) (name : Str) : Except Err (Attr K × Cache K) :=
  match loadGroupAttributes (attrs.map Prod.fst) name with
  | none => .error .attribute
  | some attrName => get a (fun n => attrs.lookup n) name attrName c

/-- Reading several names one after the other. -/
def reads {K : Type} (a : K) (attrs : List (Str × List K)) (c : Cache K) : List Str → Except Err (List (Attr K) × Cache K)
  | [] => .ok ([], c)
  | n :: ns => match read a attrs c n with
    | .error e => .error e
    | .ok (v, c') => match reads a attrs c' ns with
      | .error e => .error e
      | .ok (vs, c'') => .ok (v :: vs, c'')

end Verif.LineOfSight
