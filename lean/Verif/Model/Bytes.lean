import Verif.Model.Basic

/-!
# Model of `to_native_byteorder_inplace` (swiftsimio/accelerated.py)

An array is a data type and a list of items. An item of a plain type is a list of words and a word is a list of bytes
(complex numbers have two words, unicode strings one word per character, byte strings one word of one byte per character).
An item of a structured type is the list of its fields. Padding between fields is not modelled.
-/

namespace Verif.Bytes

/-- The character numpy uses for the byte order: `=` (or the order of the machine), the opposite order, or `|`. -/
inductive Order where
  | native
  | swapped
  | irrelevant
  deriving DecidableEq, Repr

/-- `np.dtype`: a plain type or a structured one. -/
inductive DType where
  | plain (o : Order)
  | struct (fields : List DType)

/-- One item of an array. -/
inductive Item where
  | words (w : List (List UInt8))
  | fields (l : List Item)

/-- `np.ndarray`. -/
structure Array' where
  dtype : DType
  items : List Item

mutual
/-- `dtype.isnative`; for structured types all fields must be native. -/
def DType.isNative : DType → Bool
  | .plain o => o != .swapped
  | .struct l => allNative l
def allNative : List DType → Bool
  | [] => true
  | d :: l => d.isNative && allNative l
end

mutual
/-- `dtype.newbyteorder("native")`. -/
def DType.toNative : DType → DType
  | .plain .swapped => .plain .native
  | .plain o => .plain o
  | .struct l => .struct (allToNative l)
def allToNative : List DType → List DType
  | [] => []
  | d :: l => d.toNative :: allToNative l
end

mutual
/-- What `byteswap(inplace=True)` does to an item: the bytes of every word are reversed. For structured items numpy does so
in all fields, whatever their byte order. -/
def Item.byteswap : Item → Item
  | .words w => .words (w.map List.reverse)
  | .fields l => .fields (allByteswap l)
def allByteswap : List Item → List Item
  | [] => []
  | i :: l => i.byteswap :: allByteswap l
end

/-- The loop over `arr.dtype.names`, accelerated.py:46-48, for one item. -/
def swapFields : List DType → List Item → List Item
  | d :: ds, i :: is => (if d.isNative then i else i.byteswap) :: swapFields ds is
  | _, is => is

/-- `to_native_byteorder_inplace`, accelerated.py:32-49. -/
def toNative (a : Array') : Array' :=
  if a.dtype.isNative then a
  else match a.dtype with
    | .plain _ => ⟨a.dtype.toNative, a.items.map Item.byteswap⟩
    | .struct ds => ⟨a.dtype.toNative, a.items.map (fun i => match i with
      | .fields l => .fields (swapFields ds l)
      | .words w => .words w)⟩

end Verif.Bytes
