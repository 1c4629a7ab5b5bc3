import Verif.Model.Names

/-!
# Statistics files (`swiftsimio/statistics.py`, `accelerated.list_of_strings_to_arrays`)

Lines are lists of characters and end with a newline, except possibly the last. White space is space, tab, newline and
carriage return (Python knows more). Reading a number from text (`num`, with a flag that says `np.float64` rather than
`np.int64`) and a unit (`unit`) are parameters.
-/

namespace Verif.Statistics
open Verif Verif.Names

/-- `\s` and the white space of `str.split()`. -/
def space (c : Char) : Bool := c.isWhitespace

/-- `str.split()`: the parts between white space. `cur` is the part that is being read. -/
def wordsFrom : Str → Str → List Str
  | cur, [] => if cur = [] then [] else [cur]
  | cur, c :: l => if space c then (if cur = [] then wordsFrom [] l else cur :: wordsFrom [] l) else wordsFrom (cur ++ [c]) l

def words (l : Str) : List Str := wordsFrom [] l

/-- `"." in item or "e" in item` (`accelerated.py` 567). -/
def isFloat (item : Str) : Bool := item.contains '.' || item.contains 'e'

section
variable {V U : Type}

/-- The inner loop for line number `index` (`accelerated.py` 577-578). -/
def fillLine (num : Bool → Str → Except Err V) (dtypes : List Bool) (index : Nat) (line : Str) (arrays : List (List V)) :
    Except Err (List (List V)) :=
  (dtypes.zip (words line).zipIdx).foldlM
    (fun arrays p => do
      let v ← num p.1 p.2.1
      return arrays.modify p.2.2 (fun a => a.set index v)) arrays

/-- `list_of_strings_to_arrays` (`accelerated.py` 542-580). -/
def toArrays (num : Bool → Str → Except Err V) (zero : V) (lines : List Str) : Except Err (List (List V)) :=
  match lines with
  | [] => .error .index
  | first :: _ =>
    let dtypes := (words first).map isFloat
    lines.zipIdx.foldlM (fun arrays p => fillLine num dtypes p.2 p.1 arrays) (dtypes.map fun _ => List.replicate lines.length zero)

/-- `regex_name.match`, the regular expression `# \(([0-9]*)\) +([^\.\n]*)` (`statistics.py` 50): its second group. -/
def matchName (l : Str) : Option Str :=
  match l with
  | '#' :: ' ' :: '(' :: l =>
    match l.dropWhile (fun c => decide ('0' ≤ c) && decide (c ≤ '9')) with
    | ')' :: ' ' :: l => some ((l.dropWhile (· = ' ')).takeWhile fun c => c ≠ '.' && c ≠ '\n')
    | _ => none
  | _ => none

/-- `regex_unit.match`, the regular expression `# *Unit = ([^\s]+) ?(.*)` (`statistics.py` 51): its two groups. -/
def matchUnit (l : Str) : Option (Str × Str) :=
  match l with
  | '#' :: l =>
    match l.dropWhile (· = ' ') with
    | 'U' :: 'n' :: 'i' :: 't' :: ' ' :: '=' :: ' ' :: l =>
      let value := l.takeWhile fun c => !space c
      if value = [] then none
      else match l.drop value.length with
        | ' ' :: rest => some (value, rest.takeWhile (· ≠ '\n'))
        | rest => some (value, rest.takeWhile (· ≠ '\n'))
    | _ => none
  | _ => none

/-- The variables of the header loop: `header_names`, `header_units` (a dictionary, latest entry first) and
`current_name`. -/
structure Head (U : Type) where
  names : List Str := []
  units : List (Option Str × U) := []
  current : Option Str := none

/-- One turn of the header loop (`statistics.py` 57-79). -/
def headLine (unit : Str → Str → Except Err U) (dimensionless : U) (h : Head U) (line : Str) : Except Err (Head U) :=
  match matchName line with
  | some name => .ok { names := h.names ++ [name], units := (some name, dimensionless) :: h.units, current := some name }
  | none =>
    match matchUnit line with
    | some (v, e) =>
      if v ≠ "dimensionless".toList then do
        let u ← unit v e
        return { h with units := (h.current, u) :: h.units }
      else .ok { h with units := (h.current, dimensionless) :: h.units }
    | none => .ok h

/-- The header loop (`statistics.py` 43-79). It returns the variables, the line before the first line of data, and the
lines of data. A file that ends before the data raises. When the first line is already data, `lines[-1]` is the last line. -/
def readHead (unit : Str → Str → Except Err U) (dimensionless : U) : Head U → Str → List Str → Except Err (Head U × Str × List Str)
  | _, _, [] => .error .index
  | h, last, line :: lines =>
    if line.head? = some '#' then do
      let h ← headLine unit dimensionless h line
      readHead unit dimensionless h line lines
    else .ok (h, last, line :: lines)

/-- `re.split(r"\s{2,}", line)`. `cur` is the part that is being read, `gap` the white space after it. -/
def splitGapsFrom : Str → Str → Str → List Str
  | cur, gap, [] => if gap.length ≥ 2 then [cur, []] else [cur ++ gap]
  | cur, gap, c :: l =>
    if space c then splitGapsFrom cur (gap ++ [c]) l
    else if gap.length ≥ 2 then cur :: splitGapsFrom [c] [] l
    else splitGapsFrom (cur ++ gap ++ [c]) [] l

def splitGaps (l : Str) : List Str := splitGapsFrom [] [] l

/-- `x.replace(".", "").replace(" ", "_").replace("\n", "").lower()` (`statistics.py` 83). -/
def attributeName (x : Str) : Str :=
  (((x.filter (· ≠ '.')).map fun c => if c = ' ' then '_' else c).filter (· ≠ '\n')).map Char.toLower

/-- The last header line (`statistics.py` 81-86). -/
def attributeNames (line : Str) : List Str := ((splitGaps (line.drop 1)).filter (· ≠ [])).map attributeName

/-- `SWIFTStatisticsFile.__init__` (`statistics.py` 28-113): the attributes that are set, in order. An attribute set twice
has the later value. -/
def readFile (num : Bool → Str → Except Err V) (zero : V) (unit : Str → Str → Except Err U) (dimensionless : U)
    (lines : List Str) : Except Err (List (Str × List V × U)) := do
  let (h, last, raw) ← readHead unit dimensionless {} (lines.getLastD []) lines
  let snake := attributeNames last
  let arrays ← toArrays num zero raw
  (arrays.zip (h.names.zip snake)).mapM fun p =>
    match h.units.find? (fun e => decide (e.1 = some p.2.1)) with
    | some e => .ok (p.2.2, p.1, e.2)
    | none => .error .key

/-- The value of an attribute after all have been set. -/
def attr (attrs : List (Str × List V × U)) (name : Str) : Option (List V × U) :=
  (attrs.reverse.find? fun a => decide (a.1 = name)).map Prod.snd

end

end Verif.Statistics
