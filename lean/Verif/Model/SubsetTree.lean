import Verif.Model.Tree
import Verif.Model.Names

/-!
# Model of the objects written by `write_subset` (swiftsimio/subset_writer.py)

The input file is a tree, the output file the list of the objects that are made, by path, in the order of their making. What the
objects hold is in `Verif/Model/Subset.lean` (rows, counts, offsets) and `Verif/Model/Names.lean` (`OutputType`). An HDF5 error
for a path that is already there is a ValueError. The code makes objects while it looks for others; the model first looks for
everything and then makes the objects, so that of two errors the other one can be reported.
-/

namespace Verif.Tree
open Verif

/-- What is put at a path of the new file. -/
inductive Item
  | group                 -- an empty group
  | header                -- a group with the attributes of the old one, some of them changed
  | copy (n : Node)       -- a copy
  | sorted                -- a copy in the order of the cells of the mask
  | counts (key : Str)    -- the new counts of a mask
  | offsets (key : Str)   -- the new offsets of a mask
  | rows (key : Str)      -- the rows selected by a mask
  | soft (path : Str)     -- a soft link

/-- The members of a group in order. -/
def Kids.toList : Kids → List (Str × Node)
  | .nil => []
  | .cons k n rest => (k, n) :: rest.toList

/-- `group[key]`, through soft links. -/
def resolve : Node → Option Node
  | .link _ n => resolve n
  | .dangling _ => none
  | n => some n

/-- The members of the group `key` of a group; KeyError if there is none, AttributeError if it is a dataset. -/
def openGroup (kids : Kids) (key : Str) : Except Err Kids :=
  match (kids.toList.lookup key).bind resolve with
  | some (.group k) => .ok k
  | some _ => .error .attribute
  | none => .error .key

/-- The masks: one per particle type that is present, or one shared by all groups. -/
inductive Masks
  | shared
  | types (names : List Str)
  deriving DecidableEq, Repr

/-- The keys of `mask.counts`, masks.py:328-337. -/
def Masks.keys : Masks → List Str
  | .shared => ["shared".toList]
  | .types l => l

/-- `_get_swift_name`, subset_writer.py:12-32; `list.index` raises ValueError. -/
def swiftName (name : Str) : Except Err Str :=
  match Names.particleNames.find? (fun e => e.2 = name) with
  | some e => .ok e.1
  | none => .error .value

/-- The inner loop of subset_writer.py:217-232 for one key: the datasets that get its numbers. `_get_swift_name` is only called
if there is a dataset. -/
def cellWrite (m : Masks) (dsets : List Str) (key : Str) : Except Err (List (Str × Str)) :=
  match m with
  | .shared => .ok (dsets.map (fun d => (d, key)))
  | .types _ =>
    if dsets = [] then .ok []
    else match swiftName key with
      | .error e => .error e
      | .ok s => .ok ((dsets.filter (fun d => decide (s <:+: d))).map (fun d => (d, key)))

/-- The loops of subset_writer.py:217-232 for counts or for offsets: which dataset gets the numbers of which key. -/
def cellWrites (m : Masks) (dsets : List Str) : List Str → Except Err (List (Str × Str))
  | [] => .ok []
  | key :: ks => do
    let a ← cellWrite m dsets key
    let b ← cellWrites m dsets ks
    .ok (a ++ b)

/-- `"Cells/OffsetsInFile" if "Cells/OffsetsInFile" in infile else "Cells/Offsets"`, subset_writer.py:206-208. -/
def offsetsName (cells : Kids) : Str :=
  if (cells.toList.lookup "OffsetsInFile".toList).isSome then "OffsetsInFile".toList else "Offsets".toList

/-- The numbers of the cells, subset_writer.py:213-232, for the group `name` of the group of cells. -/
def numbersOf (cells : Kids) (m : Masks) (name : Str) : Except Err (List (Str × Str)) := do
  let k ← openGroup cells name
  let d ← findDatasets ("/Cells/".toList ++ name) k
  cellWrites m d m.keys

/-- A member that is copied; KeyError if it is missing. -/
def member (kids : Kids) (key : Str) : Except Err Node :=
  match kids.toList.lookup key with
  | some n => .ok n
  | none => .error .key

/-- The bounding boxes of cells, subset_writer.py:238-247. -/
def boxItems (cells : Kids) : List (Str × Item) :=
  if (cells.toList.lookup "MinPositions".toList).isSome && (cells.toList.lookup "MaxPositions".toList).isSome
  then [("/Cells/MinPositions".toList, .sorted), ("/Cells/MaxPositions".toList, .sorted)] else []

/-- `_update_metadata_counts`, subset_writer.py:189-247. -/
def cellItems (root : Kids) (m : Masks) : Except Err (List (Str × Item)) := do
  let cells ← openGroup root "Cells".toList
  let cw ← numbersOf cells m "Counts".toList
  let ow ← numbersOf cells m (offsetsName cells)
  let _ ← member cells "Centres".toList
  let info ← member cells "Meta-data".toList
  .ok ([("/Cells".toList, .group), ("/Cells/Counts".toList, .group), ("/Cells/".toList ++ offsetsName cells, .group)] ++
    cw.map (fun w => (w.1, .counts w.2)) ++ ow.map (fun w => (w.1, .offsets w.2)) ++
    [("/Cells/Centres".toList, .sorted), ("/Cells/Meta-data".toList, .copy info)] ++ boxItems cells)

/-- The test of subset_writer.py:275-279: links, `Cells` and the first parts of the groups that are present. -/
def topSkipped (links groups : List Str) (field : Str) : Bool :=
  (links ++ ["Cells".toList] ++ groups.map (fun g => (Names.split g).headD [])).any
    (fun s => !s.isEmpty && decide (s <:+: field))

/-- The loop of `_write_metadata`, subset_writer.py:278-316. -/
def topItems (links groups : List Str) (root : Kids) : List (Str × Item) :=
  (root.toList.filter (fun e => !topSkipped links groups e.1)).map (fun e =>
    ('/' :: e.1, if e.1 = "Header".toList ∨ e.1 = "Parameters".toList then .header else .copy e.2))

/-- `_get_dataset_mask`, subset_writer.py:35-60: the key of the mask, `none` if there is no mask. A mask without the type
raises AttributeError, for which `getattr` gives None. -/
def maskKey (m : Masks) (name : Str) : Except Err (Option Str) :=
  match m with
  | .shared => .ok (some "shared".toList)
  | .types l =>
    if "PartType".toList <:+: name then
      match Names.particleNames.lookup ((Names.split (lstrip name)).headD []) with
      | none => .error .key
      | some k => .ok (if k ∈ l then some k else none)
    else .ok none

/-- `_write_datasubset`, subset_writer.py:319-374: which dataset gets the rows of which mask; RuntimeError without a mask. -/
def dataItems (m : Masks) : List Str → Except Err (List (Str × Item))
  | [] => .ok []
  | n :: ns => do
    let k ← maskKey m n
    match k with
    | none => .error .runtime
    | some k => do
      let b ← dataItems m ns
      .ok ((n, .rows k) :: b)

/-- `_connect_links`, subset_writer.py:377-395. -/
def linkItems (links : List (Str × Str)) : List (Str × Item) := links.map (fun l => ('/' :: l.1, .soft l.2))

/-- Whether there is something at the path `p`. Below a copied group only objects found in the original are made, all of which
are in the copy. -/
def taken (out : List (Str × Item)) (p : Str) : Bool :=
  out.any (fun e => e.1 = p || match e.2 with
    | .copy _ => (e.1 ++ ['/']).isPrefixOf p
    | _ => false)

/-- Makes the objects one after the other. -/
def createAll (out : List (Str × Item)) : List (Str × Item) → Except Err (List (Str × Item))
  | [] => .ok out
  | e :: es => if taken out e.1 then .error .value else createAll (out ++ [e]) es

/-- `write_subset` after the check of the mask, subset_writer.py:428-436: `groups` are the `present_groups` of the metadata. -/
def writeTree (m : Masks) (groups : List Str) (root : Kids) : Except Err (List (Str × Item)) := do
  let links := findLinks [] root
  let a ← cellItems root m
  let names ← written root
  let c ← dataItems m names
  createAll [] (a ++ topItems (links.map (·.1)) groups root ++ c ++ linkItems links)

end Verif.Tree
