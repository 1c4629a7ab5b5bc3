import Verif.Model.Text

/-!
# Model of what is attached to a field when it is read (swiftsimio/metadata/field/attr_reader.py, swiftsimio/reader.py)

The attributes of a dataset as h5py gives them, the functions that interpret them, and the part of the getter that turns them into an
array. The numbers of the dataset are a parameter: what is read is in other modules (C03 to C08). The unit is a list of powers of the
base units of the file. Exponents are numbers; a text in their place makes unyt raise, which is not modelled further than that. Also
the objects for fields with named columns as Python objects: `str`, `len`, `==`.
-/

namespace Verif.FieldInfo
open Verif Verif.Header Verif.Names
open Verif.Units (Dim)

/-- The letters of the base units in the names of attributes, in the order of `unit_dict`, attr_reader.py:32-38. -/
def unitTypes : List (String × Dim) :=
  [("I", .current), ("L", .length), ("M", .mass), ("T", .temperature), ("t", .time)]

section
variable {K D : Type}

/-- `attributes[name]`. -/
def entry (attrs : Dict (Raw K)) (name : String) : Except Err (Raw K) :=
  match attrs name with
  | some r => .ok r
  | none => .error .key

/-- `attributes[name][0]` where a number is needed. -/
def firstNumber [NatCast K] (r : Raw K) : Except Err K :=
  (item r 0).bind fun x => match x with
    | .scalar y => .ok y
    | _ => .error .value

/-- One turn of the loop of `load_field_units`, attr_reader.py:40-46. -/
def addUnit [NatCast K] [Zero K] [DecidableEq K] (attrs : Dict (Raw K)) (u : List (Dim × K)) (p : String × Dim) :
    Except Err (List (Dim × K)) := do
  let r ← entry attrs ("U_" ++ p.1 ++ " exponent")
  let x ← firstNumber r
  return if x ≠ 0 then u ++ [(p.2, x)] else u

/-- `load_field_units`, attr_reader.py:13-50. -/
def loadUnits [NatCast K] [Zero K] [DecidableEq K] (attrs : Dict (Raw K)) : Except Err (List (Dim × K)) :=
  unitTypes.foldlM (addUnit attrs) []

/-- `sep.join(names)`. -/
def joined (sep : Str) : List Str → Str
  | [] => []
  | [n] => n
  | n :: m :: l => n ++ sep ++ joined sep (m :: l)

/-- `' + '.join(value)`: a text is joined character by character, numbers and bytes raise TypeError. -/
def joinPlus : Raw K → Except Err Str
  | .words l => .ok (joined " + ".toList (l.map String.toList))
  | .text s => .ok (joined " + ".toList (s.toList.map fun c => [c]))
  | .array [] => .ok []
  | .bytes [] => .ok []
  | _ => .error .typeErr

/-- What `f"{value}"` is: texts are themselves, the rest is printed by numpy. -/
def plainText (print : Raw K → Str) : Raw K → Str
  | .text s => s.toList
  | r => print r

/-- The text for the mask of a SOAP field, attr_reader.py:72-80. -/
def maskText [Zero K] [DecidableEq K] (print : Raw K → Str) (attrs : Dict (Raw K)) : Except Err Str := do
  let masked ← truth ((attrs "Masked").getD (.scalar 0))
  if masked then
    let names ← entry attrs "Mask Datasets"
    let list ← joinPlus names
    let least ← entry attrs "Mask Threshold"
    return "Only computed for objects where ".toList ++ list ++ " >= ".toList ++ plainText print least ++ ".".toList
  else return "Not masked.".toList

/-- `load_field_description`, attr_reader.py:53-81. -/
def loadDescription [Zero K] [DecidableEq K] (lib : Lib D) (print : Raw K → Str) (attrs : Dict (Raw K)) : Except Err Str := do
  let d ← decode lib ((attrs "Description").getD (.text "No description available."))
  let m ← maskText print attrs
  return plainText print d ++ " ".toList ++ m

/-- `load_field_compression`, attr_reader.py:84-105. -/
def loadCompression [Zero K] [One K] [DecidableEq K] (lib : Lib D) (attrs : Dict (Raw K)) : Except Err (Raw K) := do
  let c ← truth ((attrs "Is Compressed").getD (.scalar 1))
  if c then decode lib ((attrs "Lossy compression filter").getD (.text "No compression info available"))
  else return .text "Not compressed."

/-- `load_field_cosmo_factor`, attr_reader.py:108-129: the exponent of the scale factor. -/
def loadExponent [NatCast K] [Zero K] (attrs : Dict (Raw K)) : Except Err K :=
  firstNumber ((attrs "a-scale exponent").getD (.array [0]))

/-- `attributes.get(name, [default])[0] == 1`. -/
def isOne [NatCast K] [One K] [DecidableEq K] (r : Raw K) : Except Err Bool :=
  (item r 0).map fun x => x = .scalar 1

/-- `load_field_physical`, attr_reader.py:132-146. -/
def loadPhysical [NatCast K] [Zero K] [One K] [DecidableEq K] (attrs : Dict (Raw K)) : Except Err Bool :=
  isOne ((attrs "Value stored as physical").getD (.array [0]))

/-- `load_field_valid_transform`, attr_reader.py:149-164. -/
def loadValid [NatCast K] [One K] [DecidableEq K] (attrs : Dict (Raw K)) : Except Err Bool :=
  isOne ((attrs "Property can be converted to comoving").getD (.array [1]))

/-- What is attached to the numbers of a field. -/
structure Info (K : Type) where
  unit : List (Dim × K)
  exponent : K
  name : Str
  compression : Raw K
  comoving : Bool
  valid : Bool
  deriving DecidableEq, Repr

/-- `f"[Column {column_index}, {name}]"` with the space before it, reader.py:177. -/
def columnText (column : Option Nat) (name : Str) : Str :=
  " [Column ".toList ++ Text.orNone (Nat.toDigits 10) column ++ ", ".toList ++ name ++ "]".toList

/-- The calls of a getter, reader.py:130-182, in the order of the code. `masked` is whether there is a mask. -/
def info [NatCast K] [Zero K] [One K] [DecidableEq K] (lib : Lib D) (print : Raw K → Str) (attrs : Dict (Raw K)) (masked : Bool)
    (column : Option Nat) (name : Str) : Except Err (Info K) := do
  let unit ← loadUnits attrs
  let exponent ← loadExponent attrs
  let description ← loadDescription lib print attrs
  let compression ← loadCompression lib attrs
  let physical ← loadPhysical attrs
  let valid ← loadValid attrs
  return ⟨unit, exponent, if masked then description else description ++ columnText column name, compression, !physical, valid⟩

/-- What the user gets for the attribute: the numbers with what is attached, or `None` because of a KeyError, reader.py:183-185. -/
def field [NatCast K] [Zero K] [One K] [DecidableEq K] {V : Type} (lib : Lib D) (print : Raw K → Str) (attrs : Dict (Raw K))
    (masked : Bool) (column : Option Nat) (name : Str) (numbers : Except Err V) : Except Err (Option (Info K × V)) :=
  match (info lib print attrs masked column name).bind fun i => numbers.map fun v => (i, v) with
  | .ok r => .ok (some r)
  | .error e => if e = .key then .ok none else .error e

end

/-! ## Objects for named columns -/

/-- The attributes of a `__SWIFTNamedColumnDataset` that are set when it is made, reader.py:467-480. -/
structure Columns where
  filename : Str
  fieldPath : Str
  namedColumns : List Str
  name : Str
  deriving DecidableEq, Repr

/-- `repr` of a text without backslashes and other characters that are escaped: the quotes depend on the quotes in it. -/
def quoted (s : Str) : Str :=
  if s.contains '\'' && !s.contains '"' then '"' :: s ++ ['"'] else '\'' :: s.flatMap (fun c => if c = '\'' then ['\\', '\''] else [c]) ++ ['\'']

/-- `__str__` and `__repr__`, reader.py:491-513. -/
def columnsText (x : Columns) : Str :=
  "Named columns instance with [".toList ++ joined ", ".toList (x.namedColumns.map quoted) ++ "] available for \"".toList ++ x.name ++ "\"".toList

/-- `__len__`, reader.py:515-524. -/
def columnsLen (x : Columns) : Nat := x.namedColumns.length

/-- Something that named columns can be compared with. -/
inductive Other
  | columns (x : Columns)
  | thing             -- no attribute `named_columns`

/-- `x == y`, reader.py:526-541. Python also calls it as `y == x` when `y` does not know the class. -/
def columnsEq (x : Columns) : Other → Except Err Bool
  | .columns y => .ok (x.namedColumns = y.namedColumns ∧ x.name = y.name)
  | .thing => .error .attribute

end Verif.FieldInfo
