import Verif.Model.Dataset

/-!
# What the attributes of an open dataset have to be
-/

namespace Verif.Dataset.Spec
open Verif Verif.Dataset

/-- Names that the objects use themselves. -/
def reserved : List Name :=
  ["filename".toList, "handle".toList, "_handle".toList, "handle_manager".toList, "metadata".toList, "group_metadata".toList,
    "open_file".toList, "generate_empty_properties".toList, "_close_handle_if_manager".toList, "close_handle_if_manager".toList]

/-- Names that can be attributes of one object: all different, none of them reserved, and none is the private name of another. -/
structure Clean (names : List Name) : Prop where
  nodup : names.Nodup
  free : ∀ n ∈ names, n ∉ reserved
  apart : ∀ n ∈ names, ∀ m ∈ names, n ≠ '_' :: m

/-- A group whose names do not get in the way of each other. -/
structure Group (g : GroupMeta) : Prop where
  names : Clean (g.fields.map FieldMeta.name ++ g.attrs.map Prod.fst)
  columns : ∀ f ∈ g.fields, ∀ cs, f.columns = some cs →
    Clean cs ∧ f.name ≠ "units".toList ∧ f.name ≠ "group".toList ∧ f.name ≠ "group_name".toList

/-- A dataset whose groups do not get in the way of each other. -/
structure Groups (gs : List GroupMeta) : Prop where
  nodup : (gs.map GroupMeta.name).Nodup
  group : ∀ g ∈ gs, Group g

/-- What else a mask has. -/
def ofMask : List Name :=
  ["metadata", "units", "range_mask", "constrained", "safe_padding", "counts", "offsets", "minpositions", "maxpositions", "cell_sort",
    "centers", "cell_size", "cell_mask", "filename", "handle", "handle_manager", "group_mapping", "group_size_mapping", "update_list",
    "constrain_mask", "constrain_property", "constrain_spatial", "convert_masks_to_ranges", "convert_masks_to_bool", "constrain_index",
    "constrain_indices", "open_file"].map String.toList

/-- A mask for the groups, and none of them has the name of something else of a mask. -/
structure Mask (gs : List GroupMeta) (m : MaskMeta) : Prop where
  groups : ∀ g ∈ gs, g.name ∈ m.groups
  free : ∀ g ∈ gs, g.name ∉ ofMask ∧ g.name ++ "_size".toList ∉ ofMask
  apart : ∀ g ∈ gs, ∀ h ∈ m.groups, g.name ≠ h ++ "_size".toList

/-- The variable with the mask of a group, and the one with its size. -/
def maskOf : Option MaskMeta → Name → Option Name × Option Name
  | none, _ => (none, none)
  | some m, g => if m.shared then (some "_shared".toList, some "_shared_size".toList)
    else (some ('_' :: g), some ('_' :: (g ++ "_size".toList)))

/-- What an attribute shows as long as nothing else has been put there. -/
inductive Content (gs : List GroupMeta) (m : Option MaskMeta) : Target → Source → Prop
  | field {g f} : g ∈ gs → f ∈ g.fields → f.columns = none →
      Content gs m ⟨g.name, f.name, none⟩ (.field f.path none (maskOf m g.name).1 (maskOf m g.name).2)
  | column {g f cs c k} : g ∈ gs → f ∈ g.fields → f.columns = some cs → cs[k]? = some c →
      Content gs m ⟨g.name, f.name, some c⟩ (.field f.path (some k) (maskOf m g.name).1 (maskOf m g.name).2)
  | attr {g a} : g ∈ gs → a ∈ g.attrs → Content gs m ⟨g.name, a.1, none⟩ (.attr g.group a.2)

/-- What is in memory: nothing (`none`) or a value. An attribute that is set to `None` is forgotten. -/
def after (content : Target → Source) (mem : Target → Option Val) (t : Target) : Act → Target → Option Val
  | .get => Function.update mem t (some ((mem t).getD (.file (content t))))
  | .set v => Function.update mem t (if v = .none then none else some v)
  | .del => Function.update mem t none

/-- What is seen: the value in memory, and otherwise that of the file. -/
def seen (content : Target → Source) (mem : Target → Option Val) (t : Target) : Act → Option Val
  | .get => some ((mem t).getD (.file (content t)))
  | _ => none

def run (content : Target → Source) : (Target → Option Val) → List (Target × Act) → List (Option Val)
  | _, [] => []
  | mem, (t, a) :: l => seen content mem t a :: run content (after content mem t a) l

end Verif.Dataset.Spec
