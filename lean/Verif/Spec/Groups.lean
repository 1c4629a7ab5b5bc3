import Verif.Model.Groups

/-!
# What the groups of a dataset should be
-/

namespace Verif.Spec
open Verif Verif.Names Verif.Groups

/-- The names of the columns that the file gives for a dataset called `k`: only snapshots and lines of sight have any. -/
def GivenColumns (f : Src) (k : Str) (l : List Str) : Prop :=
  (f.kind = .snapshot ∨ f.kind = .lineOfSight) ∧ ∃ t, f.columns = some t ∧ t.lookup k = some (l.map some)

/-- All names of columns are text. -/
def ColumnsText (f : Src) : Prop :=
  f.kind = .snapshot ∨ f.kind = .lineOfSight → ∀ t, f.columns = some t → ∀ p ∈ t, none ∉ p.2

/-- The object `D` shows the group `g` of a file with the groups `gs` under the name `n`: a field for each member that is not a group
of the list itself, and the names of the columns of those that have any. -/
structure ShowsGroup (f : Src) (gs : List Str) (g n : Str) (D : Group) : Prop where
  group : D.info.group = g
  name : D.info.name = n
  className : ∃ c, niceName f.kind g = .ok c ∧ D.className = c ++ "Dataset".toList
  fields : ∃ keys, f.members g = some keys ∧ D.info.fields = ((keys.filter fun k => (g ++ '/' :: k) ∉ gs).map fun k => (g ++ '/' :: k, snake k))
  columns : ∀ keys, f.members g = some keys → ∀ k ∈ keys, '/' ∉ k → (g ++ '/' :: k) ∉ gs →
    (∀ l, GivenColumns f k l → ∃ c, formatColumns l = .ok c ∧ D.info.columns.lookup (g ++ '/' :: k) = some (some c)) ∧
    ((∀ l, ¬ GivenColumns f k l) → D.info.columns.lookup (g ++ '/' :: k) = some none)
  attrs : D.info.attrs = if f.kind = .lineOfSight then f.attrs g else []

/-- The types of particles: the group, the attribute of the dataset and the class of what is there. -/
def typeClasses : List (String × String × String) :=
  [("PartType0", "gas", "GasDataset"), ("PartType1", "dark_matter", "DarkMatterDataset"), ("PartType2", "boundary", "BoundaryDataset"),
    ("PartType3", "sinks", "SinksDataset"), ("PartType4", "stars", "StarsDataset"), ("PartType5", "black_holes", "BlackHolesDataset"),
    ("PartType6", "neutrinos", "NeutrinosDataset"), ("PartType7", "sidm", "SelfInteractingDarkMatterDataset")]

/-- The other attributes of a dataset, reader.py:716-808 and _handle_provider.py:28-82. -/
def otherAttributes : List Str :=
  ["filename".toList, "mask".toList, "units".toList, "metadata".toList, "_handle".toList, "handle".toList, "handle_manager".toList,
    "_close_handle_if_manager".toList, "open_file".toList, "get_units".toList, "get_metadata".toList, "create_datasets".toList]

end Verif.Spec
