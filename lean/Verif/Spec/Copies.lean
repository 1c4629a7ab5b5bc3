import Verif.Spec.Reread

/-!
# Copying a snapshot through the reader and the writer
-/

namespace Verif.Spec
open Verif Verif.Cosmo Verif.Attributes Verif.Reread
open Verif.Writer (Name)

/-- A program that assigns to a writer what it finds in an open file: every field and the IDs of every type that is there, in any order
and as often as it likes, and nothing else. -/
structure Copies (o : Opened) (ops : List Op) : Prop where
  fields : ∀ t n x, Op.set t n x ∈ ops → n ∈ needs t ∧ ∃ s m, types[t]? = some s ∧ (n, m) ∈ fieldNames ∧
    getField o s.toList m.toList = .ok (extents x, x.field)
  ids : ∀ t l, Op.ids t l ∈ ops → ∃ s y, types[t]? = some s ∧ getField o s.toList "particle_ids".toList = .ok ([l.length], y) ∧
    y.arr.val = l.map (fun i : Int => (i : ℝ))
  keeps : ∀ t n, Op.del t n ∉ ops
  all : ∀ t s, types[t]? = some s → s.toList ∈ o.names.map Prod.fst → (∃ l, Op.ids t l ∈ ops) ∧ ∀ n ∈ needs t, ∃ x, Op.set t n x ∈ ops

/-- The units of length, mass and time of a writer are those of an open file. -/
def UnitsOf (base : Units.Dim → ℝ) (o : Opened) : Prop := base .length = o.base.L ∧ base .mass = o.base.M ∧ base .time = o.base.t

/-- Copies of copies: each time the last file is opened, and everything in it assigned to a new writer with its scale factor and units. -/
inductive Generation {D : Type} (lib : Header.Lib D) (table : Units.Dim → List ℝ) (h : H5) : Nat → H5 → Prop
  | first : Generation lib table h 0 h
  | copy {k : Nat} {h₁ h₂ : H5} {o : Opened} {base : Units.Dim → ℝ} {c : WriterHeader.Conf ℝ} {ops : List Op} (prev : Generation lib table h k h₁)
      (opened : openFile lib table h₁ = .ok o) (pos : ∀ d, 0 < base d) (plain : Plain c) (scale : c.scaleFactor = o.scale) (units : UnitsOf base o)
      (copies : Copies o ops) (wrote : writeAll base c (run base c.scaleFactor ops) = .ok h₂) : Generation lib table h (k + 1) h₂

end Verif.Spec
