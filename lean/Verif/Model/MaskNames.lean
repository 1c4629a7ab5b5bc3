import Verif.Model.Basic
import Mathlib.Logic.Function.Basic

/-!
# Model of the attributes of a mask (swiftsimio/masks.py)

Python's rules for `mask.name`: a property of the class, the instance dictionary, a method, and then `__getattr__`, which looks into two
dictionaries that are properties themselves. A lookup has a depth; too deep is a RecursionError, which is a RuntimeError. If a property
raises AttributeError, Python calls `__getattr__` with its name. Values are symbols: the arrays and numbers are those of
`Verif/Model/Mask.lean`. The property `handle` of the base class is left out.
-/

namespace Verif.MaskNames
open Verif

abbrev Name := List Char

/-- Values of attributes. -/
inductive Val
  | none
  | thing (k : Nat)                                        -- arrays, sizes and whatever else is stored
  | metadata (shared : Option Name) (groups : List Name)   -- `shared_cell_counts` and `present_group_names`
  | table (t : List (Name × Name))                         -- a dictionary of names
  | names (l : List Name)                                  -- a list of names
  | method (name : Name)
  deriving DecidableEq, Repr

/-- A mask: its instance dictionary. -/
abbrev Obj := Name → Option Val

def metadataName : Name := "metadata".toList
def mappingName : Name := "group_mapping".toList
def sizesName : Name := "group_size_mapping".toList
def listName : Name := "update_list".toList
def mappingCache : Name := "_group_mapping".toList
def sizesCache : Name := "_group_size_mapping".toList
def listCache : Name := "_update_list".toList

/-- The methods of the class, masks.py:95-1013 and _handle_provider.py:28-82, and those every object has that are used below. -/
def methods : List Name :=
  ["_generate_empty_masks".toList, "_unpack_cell_metadata".toList, "constrain_mask".toList, "constrain_property".toList,
    "_generate_cell_mask".toList, "_update_range_masks".toList, "_sanitize_region".toList, "constrain_spatial".toList,
    "convert_masks_to_ranges".toList, "convert_masks_to_bool".toList, "constrain_index".toList, "constrain_indices".toList,
    "_get_masked_counts_offsets".toList, "_close_handle_if_manager".toList, "open_file".toList, "__reduce_ex__".toList]

/-- f"_{group}" and f"{group}_size". -/
def under (n : Name) : Name := '_' :: n
def sized (n : Name) : Name := n ++ "_size".toList

def sharedName : Name := "_shared".toList

/-- The dictionary of `group_mapping`, masks.py:158-168. -/
def mappingOf (shared : Option Name) (groups : List Name) : List (Name × Name) :=
  match shared with
  | none => groups.map fun g => (g, under g)
  | some _ => groups.map fun g => (g, sharedName)

/-- The dictionary of `group_size_mapping`, masks.py:187-199. -/
def sizesOf (shared : Option Name) (groups : List Name) : List (Name × Name) :=
  match shared with
  | none => groups.map fun g => (sized g, sized (under g))
  | some _ => groups.map fun g => (sized g, sized sharedName)

/-- The list of `update_list`, masks.py:216-223. -/
def listOf (shared : Option Name) (groups : List Name) : List Name :=
  match shared with
  | none => groups.map under
  | some _ => [sharedName]

/-- `self.name = v`. -/
def put (o : Obj) (name : Name) (v : Val) : Obj := Function.update o name (some v)

/-- `self.metadata.shared_cell_counts` and `self.metadata.present_group_names`; other values have no such attribute. -/
def metaOf (r : Obj × Val) : Except Err (Obj × Option Name × List Name) :=
  match r.2 with
  | .metadata s gs => .ok (r.1, s, gs)
  | _ => .error .attribute

/-- A property with a cache, masks.py:155-170, 184-201 and 213-224: the value that is kept, or else it is made from the metadata, kept,
and `again` gives the result. -/
def cached (look : Obj → Name → Except Err (Obj × Val)) (cache : Name) (make : Option Name → List Name → Val)
    (again : Obj → Except Err (Obj × Val)) (o : Obj) : Except Err (Obj × Val) :=
  (look o cache).bind fun r =>
    if r.2 ≠ .none then .ok r
    else ((look r.1 metadataName).bind metaOf).bind fun m => again (put m.1 cache (make m.2.1 m.2.2))

/-- `mappings.get(name)` for `{**a, **b}`: the entries of `b` come first, and later entries before earlier ones. -/
def find (a b : List (Name × Name)) (name : Name) : Option Name := (a ++ b).reverse.lookup name

/-- The entries of a dictionary; nothing else can be unpacked with `**`. -/
def tableOf : Val → Except Err (List (Name × Name))
  | .table t => .ok t
  | _ => .error .typeErr

/-- `__getattr__`, masks.py:226-255. -/
def fallback (look : Obj → Name → Except Err (Obj × Val)) (o : Obj) (name : Name) : Except Err (Obj × Val) :=
  (look o mappingName).bind fun r => (tableOf r.2).bind fun a =>
    (look r.1 sizesName).bind fun q => (tableOf q.2).bind fun b =>
      match find a b name with
      | none => .error .attribute
      | some u => look q.1 u

/-- The value of a property, and `__getattr__` after an AttributeError. -/
def orFallback (look : Obj → Name → Except Err (Obj × Val)) (o : Obj) (name : Name) (r : Except Err (Obj × Val)) :
    Except Err (Obj × Val) :=
  match r with
  | .error .attribute => fallback look o name
  | r => r

/-- `getattr(mask, name)`. -/
def getAttr : Nat → Obj → Name → Except Err (Obj × Val)
  | 0, _, _ => .error .runtime
  | d + 1, o, name =>
    if name = mappingName then
      orFallback (getAttr d) o name
        (cached (getAttr d) mappingCache (fun s gs => .table (mappingOf s gs)) (fun o => getAttr d o mappingName) o)
    else if name = sizesName then
      orFallback (getAttr d) o name
        (cached (getAttr d) sizesCache (fun s gs => .table (sizesOf s gs)) (fun o => getAttr d o sizesName) o)
    else if name = listName then
      orFallback (getAttr d) o name
        (cached (getAttr d) listCache (fun s gs => .names (listOf s gs)) (fun o => getAttr d o listCache) o)
    else match o name with
      | some v => .ok (o, v)
      | none => if name ∈ methods then .ok (o, .method name) else fallback (getAttr d) o name

/-- `hasattr(o, name)`: only AttributeError means no. -/
def hasAttr (d : Nat) (o : Obj) (name : Name) : Except Err Bool :=
  match getAttr d o name with
  | .ok _ => .ok true
  | .error .attribute => .ok false
  | .error e => .error e

/-- The end of `copy.copy`, `copy.deepcopy` and unpickling (`copy._reconstruct`, `pickle`'s `load_build`) for a class without `__copy__`,
`__deepcopy__`, `__reduce__` and `__setstate__`: an object is made without calling `__init__`, and it is asked for `__setstate__`; if it
has none the dictionary is copied. -/
def reconstruct (d : Nat) (state : Obj) : Except Err Obj :=
  (hasAttr d (fun _ => none) "__setstate__".toList).bind fun b => if b then .error .typeErr else .ok state

/-- The attributes that `__init__` sets before anything is asked for, masks.py:110-123 and _handle_provider.py:29-31, in a new
dictionary. -/
def fresh (shared : Option Name) (groups : List Name) : Obj :=
  [("filename".toList, .thing 0), ("_handle".toList, .thing 1), ("handle_manager".toList, .thing 2), (metadataName, .metadata shared groups),
    ("units".toList, .thing 3), (mappingCache, .none), (sizesCache, .none), (listCache, .none), ("range_mask".toList, .thing 4),
    ("constrained".toList, .none), ("safe_padding".toList, .thing 5)].foldl (fun o p => put o p.1 p.2) (fun _ => none)

end Verif.MaskNames
