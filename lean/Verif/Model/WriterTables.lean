import Mathlib.Data.Rat.Defs
import Verif.Model.Names
import Verif.Model.Writer

/-!
# Model of the tables the snapshot writer makes: numbers of types, counts, masses and exponents (swiftsimio/snapshot_writer.py)

`Verif/Model/Writer.lean` takes the number of a type and the counts as given; here they are made from the names of the types with
the statements of the code. `int` of a text is modelled for signs and decimal digits; spaces and underscores between the digits are not
modelled.
-/

namespace Verif.WriterTables
open Verif Verif.Names

/-- `s.strip(chars)`: characters of the set are removed on both sides. -/
def strip (chars s : Str) : Str :=
  ((s.dropWhile fun c => chars.contains c).reverse.dropWhile fun c => chars.contains c).reverse

/-- The value of decimal digits; anything else is a ValueError. -/
def parseDigits (acc : Nat) : Str → Except Err Nat
  | [] => .ok acc
  | c :: cs => if c.isDigit then parseDigits (10 * acc + (c.toNat - '0'.toNat)) cs else .error .value

/-- Digits without a sign; an empty text is a ValueError. -/
def parseNat : Str → Except Err Nat
  | [] => .error .value
  | s => parseDigits 0 s

/-- `int(s)`. -/
def parseInt : Str → Except Err Int
  | '-' :: s => (parseNat s).map fun (n : Nat) => -(n : Int)
  | '+' :: s => (parseNat s).map fun (n : Nat) => (n : Int)
  | s => (parseNat s).map fun (n : Nat) => (n : Int)

/-- `_ptype_str_to_int`, snapshot_writer.py:17-31: the number, or the text itself if it is no particle type. -/
def typeNumber (s : Str) : Except Err (Int ⊕ Str) :=
  if "PartType".toList <:+: s then (parseInt (strip "PartType".toList s)).map .inl else .ok (.inr s)

/-- The number where one is needed: a text in a sum or as an index is a TypeError. -/
def typeIndex (s : Str) : Except Err Int :=
  match typeNumber s with
  | .error e => .error e
  | .ok (.inl n) => .ok n
  | .ok (.inr _) => .error .typeErr

/-- `max(l)` for numbers. -/
def pyMax : List Int → Except Err Int
  | [] => .error .value
  | a :: l => .ok (l.foldl max a)

/-- `l[i] = x`, with the negative indices of Python. -/
def assign {β : Type} (l : List β) (i : Int) (x : β) : Except Err (List β) :=
  let j := if i < 0 then i + l.length else i
  if 0 ≤ j ∧ j < l.length then .ok (l.set j.toNat x) else .error .index

/-- The loop that fills `number_of_particles` and `mass_table`, snapshot_writer.py:768-774. -/
def fill {K : Type} (names : List Str) (nPart : Str → Nat) (mass : Str → Except Err K) :
    List (Str × Str) → List Nat × List K → Except Err (List Nat × List K)
  | [], acc => .ok acc
  | (key, name) :: rest, acc =>
    if names.contains name then do
      let i ← typeIndex key
      let counts ← assign acc.1 i (nPart name)
      let m ← mass name
      let masses ← assign acc.2 i m
      fill names nPart mass rest (counts, masses)
    else fill names nPart mass rest acc

/-- The tables of `_write_metadata`, snapshot_writer.py:757-774. `types` is `particle_name_underscores`, `mass name` is
`getattr(self, name).masses[0]`. -/
def tables {K : Type} [Zero K] (types : List (Str × Str)) (names : List Str) (nPart : Str → Nat) (mass : Str → Except Err K) :
    Except Err (List Nat × List K) := do
  let numbers ← types.mapM fun t => typeIndex t.1
  let top ← pyMax numbers
  let n := (top + 1).toNat
  fill names nPart mass types (List.replicate n 0, List.replicate n 0)

/-- `unyt.dimensions.base_dimensions`; `one` is the dimension of pure numbers. -/
inductive Base
  | mass
  | length
  | time
  | temperature
  | angle
  | current
  | one
  | luminous
  | logarithmic
  deriving DecidableEq, Repr

/-- `as_ordered_factors` and `as_base_exp` of sympy: a product gives its powers, and the number 1 gives itself with exponent 1. -/
def factors (product : List (Base × ℚ)) : List (Base × ℚ) :=
  match product with
  | [] => [(.one, 1)]
  | l => l

/-- `get_dimensions`, snapshot_writer.py:283-314: zeros for all base dimensions, then the exponents of the factors in turn. -/
def getDimensions (product : List (Base × ℚ)) : Base → ℚ :=
  (factors product).foldl (fun d f k => if k = f.1 then f.2 else d k) fun _ => 0

/-- The five exponents of `get_attributes`, snapshot_writer.py:268-272. -/
def written (product : List (Base × ℚ)) : List (String × ℚ) :=
  let d := getDimensions product
  [("U_I exponent", d .current), ("U_L exponent", d .length), ("U_M exponent", d .mass), ("U_T exponent", d .temperature),
    ("U_t exponent", d .time)]

end Verif.WriterTables
