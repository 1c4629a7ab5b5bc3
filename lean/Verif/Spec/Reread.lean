import Verif.Model.Reread
import Verif.Spec.Writer
import Verif.Spec.Cosmo

/-!
# What should be found in a snapshot that was written
-/

namespace Verif.Spec
open Verif Verif.Cosmo Verif.Attributes Verif.Reread
open Verif.Writer (Name)

/-- The operation says something about the field `n` of type `t`. -/
def About (t : Nat) (n : Name) : Op → Prop
  | .set u m _ => u = t ∧ m = n
  | .ids u _ => u = t ∧ n = .particleIds
  | .del u m => u = t ∧ m = n

/-- The last operation on a field was to assign `x`. -/
def Given (ops : List Op) (t : Nat) (n : Name) (x : Stored) : Prop :=
  ∃ l₁ l₂ : List Op, ops = l₁ ++ .set t n x :: l₂ ∧ ∀ o ∈ l₂, ¬ About t n o

/-- The last operation on the IDs of a type was to assign `l`. -/
def GivenIds (ops : List Op) (t : Nat) (l : List Int) : Prop :=
  ∃ l₁ l₂ : List Op, ops = l₁ ++ .ids t l :: l₂ ∧ ∀ o ∈ l₂, ¬ About t .particleIds o

/-- The number of rows, then the shape of a row; nothing for a number. -/
def extents (x : Stored) : List Nat := (x.row.map fun r => x.rows :: r).getD []

/-- The documented dimensions of a field. -/
def HasDims : Name → Exps → Prop
  | .coordinates, e => e = ⟨0, 1, 0, 0, 0⟩
  | .smoothingLengths, e => e = ⟨0, 1, 0, 0, 0⟩
  | .velocities, e => e = ⟨0, 1, 0, 0, -1⟩
  | .internalEnergy, e => e = ⟨0, 2, 0, 0, -2⟩
  | .masses, e => e = ⟨0, 0, 1, 0, 0⟩
  | .particleIds, _ => False

/-- The names of the types. -/
def types : List String := ["gas", "dark_matter", "boundary", "sinks", "stars", "black_holes", "neutrinos", "sidm"]

/-- The names of the fields. -/
def fieldNames : List (Name × String) :=
  [(.coordinates, "coordinates"), (.particleIds, "particle_ids"), (.velocities, "velocities"), (.masses, "masses"),
    (.smoothingLengths, "smoothing_lengths"), (.internalEnergy, "internal_energy")]

/-- What a user has assigned and not deleted makes type `t` one that is to be written. -/
def Populated (ops : List Op) (t : Nat) : Prop := (∃ l, GivenIds ops t l) ∨ ∃ n ∈ needs t, ∃ x, Given ops t n x

/-- Everything that was assigned could be: convertible arrays with the scale factor of the writer and the right dimensions, IDs that
are positive and not repeated. -/
structure Fine (a : ℝ) (ops : List Op) : Prop where
  fields : ∀ t n x, Op.set t n x ∈ ops → (∃ k, Conv a k x.field.arr) ∧ HasDims n x.field.dims
  ids : ∀ t l, Op.ids t l ∈ ops → (∀ i ∈ l, 1 ≤ i) ∧ l.Nodup

/-- Something was assigned; each type for which something was has all its fields, with the same number of rows, not zero; and IDs
are missing for some type or different for all particles. -/
structure Complete (ops : List Op) : Prop where
  some : ∃ t, t < 8 ∧ Populated ops t
  types : ∀ t, t < 8 → Populated ops t → ∃ N : Nat, 0 < N ∧ (∀ n ∈ needs t, ∃ x r, Given ops t n x ∧ x.row = Option.some r ∧ x.rows = N) ∧
    (∀ l, GivenIds ops t l → l.length = N) ∧
    ∀ x y, Given ops t .coordinates x → Given ops t .velocities y → x.row = y.row
  ids : (∃ t, t < 8 ∧ Populated ops t ∧ ¬ ∃ l, GivenIds ops t l) ∨
    ∀ t u l m, t < 8 → u < 8 → t ≠ u → GivenIds ops t l → GivenIds ops u m → l.Disjoint m

/-- No entry of the extra header replaces an entry that is used to find groups and the scale factor. -/
def Plain (c : WriterHeader.Conf ℝ) : Prop :=
  ∀ n ∈ ["Scale-factor", "NumPart_ThisFile", "CanHaveTypes"], n ∉ (c.extra.getD []).map Prod.fst

/-- The unit that is read is one of the table of the reader times a number of five digits. -/
def FiveDigitUnit (table : Units.Dim → List ℝ) (base : Units.Dim → ℝ) (d : Units.Dim) : Prop :=
  ∀ (i : Nat) (v c : ℝ), Units.loadUnit table (WriterHeader.unitAttrs base) d = .ok (i, v) → (table d)[i]? = some c →
    ∃ m k : Int, |m| ≤ 100000 ∧ base d / c = m * (10 : ℝ) ^ k

end Verif.Spec
