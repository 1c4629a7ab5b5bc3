import Verif.Model.Names

/-!
# What a statistics file says

A file has lines of comment that start with `#`, then lines of numbers. Among the comments, lines such as `# (3)  Mass of gas.`
open the description of a column and lines such as `#      Unit = 2.0e33 g` give its unit. The last line of comment lists the
names of the columns. None of this mentions the reader.
-/

namespace Verif.Statistics.Spec
open Verif Verif.Names

/-- Only white space. -/
def Blank (l : Str) : Prop := ∀ c ∈ l, c.isWhitespace = true

/-- A word: not empty, no white space. -/
def Word (w : Str) : Prop := w ≠ [] ∧ ∀ c ∈ w, c.isWhitespace = false

/-- The line has these words, separated by white space. -/
inductive Row : Str → List Str → Prop
  | done {b : Str} : Blank b → Row b []
  | word {b w l : Str} {ws : List Str} : Blank b → Word w → (∀ c ∈ l.head?, c.isWhitespace = true) → Row l ws → Row (b ++ w ++ l) (w :: ws)

/-- Words separated by one space each. -/
inductive Phrase : Str → Prop
  | one {w : Str} : Word w → Phrase w
  | more {w p : Str} : Word w → Phrase p → Phrase (w ++ ' ' :: p)

/-- The line, without its `#`, has these names, separated by two or more characters of white space. -/
inductive Names : Str → List Str → Prop
  | done {b : Str} : b = [] ∨ b = ['\n'] ∨ (Blank b ∧ 2 ≤ b.length) → Names b []
  | name {b w l : Str} {ws : List Str} : Blank b → 2 ≤ b.length → Phrase w → Names l ws → Names (b ++ w ++ l) (w :: ws)

/-- `# (7)  title.` followed by anything: the title goes up to the first full stop or the end of the line. -/
def TitleLine (l t : Str) : Prop :=
  ∃ (digits tail : Str) (k : Nat), l = '#' :: ' ' :: '(' :: (digits ++ ')' :: (List.replicate (k + 1) ' ' ++ (t ++ tail))) ∧
    (∀ c ∈ digits, c.isDigit = true) ∧ (∀ c ∈ t.head?, c ≠ ' ') ∧ (∀ c ∈ t, c ≠ '.' ∧ c ≠ '\n') ∧
    (∀ c ∈ tail.head?, c = '.' ∨ c = '\n')

/-- `#      Unit = v e`: the value `v` goes up to the first white space, the expression `e` is the rest of the line. -/
def UnitLine (l v e : Str) : Prop :=
  ∃ (k : Nat) (tail rest : Str),
      l = '#' :: (List.replicate k ' ' ++ 'U' :: 'n' :: 'i' :: 't' :: ' ' :: '=' :: ' ' :: (v ++ tail)) ∧ Word v ∧
    (∀ c ∈ tail.head?, c.isWhitespace = true) ∧ (tail = ' ' :: (e ++ rest) ∨ (tail = e ++ rest ∧ tail.head? ≠ some ' ')) ∧
    (∀ c ∈ e, c ≠ '\n') ∧ ∀ c ∈ rest.head?, c = '\n'

/-- Any other comment. -/
def NoteLine (l : Str) : Prop := l.head? = some '#' ∧ (∀ t, ¬TitleLine l t) ∧ ∀ v e, ¬UnitLine l v e

/-- The comments about one column: a title, then perhaps a unit, with other comments after each. -/
inductive Block : List Str → Str → Option (Str × Str) → Prop
  | plain {l t : Str} {notes : List Str} : TitleLine l t → (∀ n ∈ notes, NoteLine n) → Block (l :: notes) t none
  | unit {l t u v e : Str} {notes notes' : List Str} : TitleLine l t → (∀ n ∈ notes, NoteLine n) → UnitLine u v e →
      (∀ n ∈ notes', NoteLine n) → Block (l :: (notes ++ u :: notes')) t (some (v, e))

/-- The unit that was written. -/
def UnitOf {U : Type} (unit : Str → Str → Except Err U) (dimensionless : U) : Option (Str × Str) → U → Prop
  | none, u => u = dimensionless
  | some (v, e), u => if v = "dimensionless".toList then u = dimensionless else unit v e = .ok u

/-- A column as the comments describe it. -/
structure Column (U : Type) where
  title : Str
  unit : U
  name : Str

/-- The comments `ls` describe this column. -/
def Describes {U : Type} (unit : Str → Str → Except Err U) (dimensionless : U) (ls : List Str) (col : Column U) : Prop :=
  ∃ s, Block ls col.title s ∧ UnitOf unit dimensionless s col.unit

/-- The name of a column as a Python attribute. -/
def pyName : Str → Str
  | [] => []
  | c :: l => if c = '.' then pyName l else (if c = ' ' then '_' else c.toLower) :: pyName l

/-- Numbers with a decimal point or an exponent are floating-point numbers. -/
def Floating (w : Str) : Prop := '.' ∈ w ∨ 'e' ∈ w

instance : DecidablePred Floating := fun w => inferInstanceAs (Decidable ('.' ∈ w ∨ 'e' ∈ w))

end Verif.Statistics.Spec
