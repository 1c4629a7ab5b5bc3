import Verif.Model.Names

/-!
# Model of mapping tables (swiftsimio/metadata/objects.py)

`MappingTable` and `SWIFTSnapshotMetadata.get_mapping_metadata`. Strings are lists of characters and `str.lower` is that of
ASCII, as in `Model/Names.lean`. The warning for the old name `Grain` is not modelled.
-/

namespace Verif.Mapping
open Verif Verif.Names

/-- `[a-zA-Z]`. -/
def letter (c : Char) : Bool := (decide ('a' ≤ c) && decide (c ≤ 'z')) || (decide ('A' ≤ c) && decide (c ≤ 'Z'))

/-- `([a-zA-Z]*)Mapping` at the start of `r`: as many letters as possible are taken. -/
def matchTail (r : Str) : Option Str :=
  ((List.range (r.length + 1)).reverse.find? (fun j => (r.take j).all letter && "Mapping".toList.isPrefixOf (r.drop j))).map
    (fun j => r.take j)

/-- `re.match("([a-zA-Z]*)To([a-zA-Z]*)Mapping", s)`, metadata/objects.py:950-954: as many letters as possible are taken for the
first group, then for the second. -/
def matchKey (s : Str) : Option (Str × Str) :=
  (List.range (s.length + 1)).reverse.findSome? (fun i =>
    if (s.take i).all letter && "To".toList.isPrefixOf (s.drop i) then
      (matchTail (s.drop (i + 2))).map (fun y => (s.take i, y))
    else none)

/-- Attributes of a table or of the metadata. -/
abbrev Dict (V : Type) := Str → Option V

/-- `setattr`. -/
def Dict.set {V : Type} (d : Dict V) (name : Str) (v : V) : Dict V := fun n => if n = name then some v else d n

/-- `f"{name_x.lower()}_to_{name_y.lower()}"`. -/
def entryName (x y : Str) : Str := x.map Char.toLower ++ "_to_".toList ++ y.map Char.toLower

section
variable {K : Type}

/-- `data[x][y]`. -/
def at2 (data : List (List K)) (i j : Nat) : Except Err K :=
  match data[i]? with
  | none => .error .index
  | some r => match r[j]? with
    | none => .error .index
    | some v => .ok v

/-- One `setattr` of `MappingTable.__init__`. -/
def setEntry (data : List (List K)) (x : Str × Nat) (t : Dict K) (y : Str × Nat) : Except Err (Dict K) :=
  match at2 data x.2 y.2 with
  | .ok v => .ok (t.set (entryName x.1 y.1) v)
  | .error e => .error e

/-- `MappingTable.__init__`, metadata/objects.py:540-558, the entries. -/
def mappingTable (data : List (List K)) (xs ys : List Str) : Except Err (Dict K) :=
  xs.zipIdx.foldlM (fun t x => ys.zipIdx.foldlM (setEntry data x) t) (fun _ => none)

/-- The columns of the first name in `named` that starts with `x`, metadata/objects.py:970-975. -/
def columnsOf (named : List (Str × List Str)) (x : Str) : Except Err (List Str) :=
  match named.filter (fun p => x.isPrefixOf p.1) with
  | p :: _ => .ok p.2
  | [] => .error .index

/-- One key, metadata/objects.py:953-987: `Grain` stands for `Dust`. -/
def mapOne (named : List (Str × List Str)) (s : Dict (Dict K)) (p : Str × List (List K)) : Except Err (Dict (Dict K)) :=
  match matchKey p.1 with
  | none => .ok s
  | some (x, y) =>
    let x := if x = "Grain".toList then "Dust".toList else x
    match columnsOf named x with
    | .error e => .error e
    | .ok xs => match columnsOf named y with
      | .error e => .error e
      | .ok ys => match mappingTable p.2 xs ys with
        | .error e => .error e
        | .ok t => .ok (s.set (snake p.1) t)

/-- `get_mapping_metadata`, metadata/objects.py:928-989: the tables of the datasets of `SubgridScheme` whose name ends with
`Mapping`; without the group there are no datasets. -/
def mappings (named : List (Str × List Str)) (datasets : List (Str × List (List K))) : Except Err (Dict (Dict K)) :=
  (datasets.filter (fun p => "Mapping".toList.isSuffixOf p.1)).foldlM (mapOne named) (fun _ => none)

end

end Verif.Mapping
