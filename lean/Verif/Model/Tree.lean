import Verif.Model.Basic
import Mathlib.Data.List.Infix

/-!
# Model of the search for datasets and links in `swiftsimio/subset_writer.py`

A file is a finite tree. Names are lists of characters. A soft link carries the path it stores and the node this path
resolves to; links that resolve to one of their own ancestors (for which the search does not terminate) cannot be
expressed.
-/

namespace Verif.Tree
open Verif

/-- Names and paths. -/
abbrev Str := List Char

mutual
/-- An object in an HDF5 file. -/
inductive Node
  | data
  | group (kids : Kids)
  | link (path : Str) (dest : Node)
  | dangling (path : Str)
/-- The members of a group in the order of `keys()`. -/
inductive Kids
  | nil
  | cons (key : Str) (n : Node) (rest : Kids)
end

/-- `f"{path}/{key}"`. -/
def sub (path key : Str) : Str := path ++ '/' :: key

mutual
/-- The body of the loop of `_find_datasets` for one member, subset_writer.py:127-132. `input_file[subpath]` follows soft
links and raises KeyError for a dangling one. The code appends to a list shared by the recursive calls; the model returns
what a call appends. -/
def findNode (path : Str) : Node → Except Err (List Str)
  | .data => .ok [path]
  | .group kids => findDatasets path kids
  | .link _ n => findNode path n
  | .dangling _ => .error .key
/-- `_find_datasets`, subset_writer.py:91-134. -/
def findDatasets (path : Str) : Kids → Except Err (List Str)
  | .nil => .ok []
  | .cons key n rest => do
    let a ← findNode (sub path key) n
    let b ← findDatasets path rest
    .ok (a ++ b)
end

/-- `subpath.lstrip("/")`. -/
def lstrip (p : Str) : Str := p.dropWhile (· = '/')

/-- `_find_links`, subset_writer.py:137-186: the name and the stored path of every soft link. The recursive call on line
184 rebinds its two lists (lines 173-174), so what it finds is lost and only direct members count. -/
def findLinks (path : Str) : Kids → List (Str × Str)
  | .nil => []
  | .cons key n rest =>
    match n with
    | .link p _ => (lstrip (sub path key), p) :: findLinks path rest
    | .dangling p => (lstrip (sub path key), p) :: findLinks path rest
    | _ => findLinks path rest

/-- `["Cells", "SubgridScheme", "PartTypeNames"]`, subset_writer.py:345. -/
def reserved : List Str := ["Cells".toList, "SubgridScheme".toList, "PartTypeNames".toList]

/-- The test of subset_writer.py:348: some entry of the skip list is contained in the name. (An empty string in the list
counts as false there.) -/
def skipped (links : List Str) (name : Str) : Bool :=
  (links ++ reserved).any (fun s => !s.isEmpty && decide (s <:+: name))

/-- The datasets written by `_write_datasubset` called from `write_subset`, subset_writer.py:344-349 and 434-435. -/
def written (root : Kids) : Except Err (List Str) := do
  let names ← findDatasets [] root
  .ok (names.filter (fun n => !skipped ((findLinks [] root).map (·.1)) n))

end Verif.Tree
