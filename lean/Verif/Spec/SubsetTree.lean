import Verif.Spec.Tree
import Verif.Model.SubsetTree

/-! What a written subset should contain. -/

namespace Verif.Spec
open Verif Verif.Tree

/-- The name contains neither the name of a soft link of the root, nor `Cells`, nor the first part of a group of data. -/
structure Free (root : Kids) (groups : List Str) (key : Str) : Prop where
  links : ∀ s q, s ≠ [] → LinkAt (.group root) [s] q → ¬ s <:+: key
  cells : ¬ "Cells".toList <:+: key
  groups : ∀ g ∈ groups, g.takeWhile (· ≠ '/') ≠ [] → ¬ g.takeWhile (· ≠ '/') <:+: key

/-- The dataset at the end of the keys is one that is written: its path contains neither the name of a soft link of the root nor
a reserved word. -/
structure Wanted (root : Kids) (ks : List Str) : Prop where
  reaches : Reaches (.group root) ks
  links : ∀ s q, s ≠ [] → LinkAt (.group root) [s] q → ¬ s <:+: render ks
  cells : ¬ "Cells".toList <:+: render ks
  schemes : ¬ "SubgridScheme".toList <:+: render ks
  names : ¬ "PartTypeNames".toList <:+: render ks

/-- The member `key` of a group, seen through soft links, is a group with the given members. -/
inductive IsGroup : Node → Kids → Prop
  | group (kids) : IsGroup (.group kids) kids
  | link (p n kids) : IsGroup n kids → IsGroup (.link p n) kids

/-- An HDF5 object cannot be made where there is one, or below a copied group that has it. -/
def Clash (e f : Str × Item) : Prop := f.1 = e.1 ∨ ∃ n, e.2 = .copy n ∧ (e.1 ++ ['/']) <+: f.1

/-- A table of cells: datasets named after particle types. -/
def Table (kids : Kids) : Prop := ∀ key n, Member kids key n → n = .data ∧ ∃ name, (key, name) ∈ Names.particleNames

/-- A snapshot as SWIFT writes it: the names of the masks `l` are those of different particle types, whose groups are among the
groups of data; there are cells, with tables of counts and offsets; and all the data to be written is in the groups of these
particle types. -/
structure Usual (root : Kids) (l groups : List Str) : Prop where
  ok : KidsOk root
  named : ∀ n, ¬ Member root [] n
  keys : l.Nodup
  types : ∀ k ∈ l, ∃ t, (t, k) ∈ Names.particleNames ∧ t ∈ groups
  cells : ∃ cells ck ok off, Member root "Cells".toList (.group cells) ∧ Member cells "Counts".toList (.group ck) ∧ Table ck ∧
    Member cells off (.group ok) ∧ Table ok ∧
    (off = "OffsetsInFile".toList ∨ (off = "Offsets".toList ∧ ∀ n, ¬ Member cells "OffsetsInFile".toList n)) ∧
    (∃ n, Member cells "Centres".toList n) ∧ ∃ n, Member cells "Meta-data".toList n
  data : ∀ ks, Wanted root ks → ∃ t r k, ks = t :: r ∧ (t, k) ∈ Names.particleNames ∧ k ∈ l

end Verif.Spec
