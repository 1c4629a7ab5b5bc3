import Verif.Model.Bytes

/-! # What the bytes of an array mean -/

namespace Verif.Bytes

/-- Unsigned value of a word, most significant byte first. -/
def bigEndian (b : List UInt8) : Nat := b.foldl (fun v x => 256 * v + x.toNat) 0

/-- Unsigned value of a word, least significant byte first. -/
def littleEndian : List UInt8 → Nat
  | [] => 0
  | x :: l => x.toNat + 256 * littleEndian l

/-- The numbers in an item. Signed integers and floats are functions of the unsigned value of the word. -/
inductive Val where
  | numbers (n : List Nat)
  | fields (l : List Val)

/-- Value of a word with a given byte order on a machine that is little endian or not. -/
def word (le : Bool) (o : Order) (b : List UInt8) : Nat :=
  match o, le with
  | .swapped, true => bigEndian b
  | .swapped, false => littleEndian b
  | _, true => littleEndian b
  | _, false => bigEndian b

mutual
/-- The numbers an item stands for; `none` when it does not fit the type. -/
def value (le : Bool) : DType → Item → Option Val
  | .plain o, .words w => some (.numbers (w.map (word le o)))
  | .struct ds, .fields l => (values le ds l).map .fields
  | _, _ => none
def values (le : Bool) : List DType → List Item → Option (List Val)
  | [], [] => some []
  | d :: ds, i :: l => match value le d i, values le ds l with
    | some v, some vs => some (v :: vs)
    | _, _ => none
  | _, _ => none
end

/-- The numbers of an array. -/
def Array'.value (le : Bool) (a : Array') : List (Option Val) := a.items.map (Bytes.value le a.dtype)

mutual
/-- Words of types without byte order are single bytes. -/
def fits : DType → Item → Prop
  | .plain .irrelevant, .words w => ∀ b ∈ w, b.length = 1
  | .plain _, .words _ => True
  | .struct ds, .fields l => allFit ds l
  | _, _ => False
def allFit : List DType → List Item → Prop
  | [], [] => True
  | d :: ds, i :: l => fits d i ∧ allFit ds l
  | _, _ => False
end

mutual
/-- No part of the type has native byte order. -/
def DType.uniform : DType → Prop
  | .plain o => o ≠ .native
  | .struct l => allUniform l
def allUniform : List DType → Prop
  | [] => True
  | d :: l => d.uniform ∧ allUniform l
end

/-- Every field of the type (or the type itself) is either native or without native parts. Types without nested structures
are always of this form. -/
def DType.simple : DType → Prop
  | .plain _ => True
  | .struct l => ∀ d ∈ l, d.isNative = true ∨ d.uniform

end Verif.Bytes
