import Verif.Model.Header
import Verif.Model.Names

/-!
# Model of `validate_file` and of the command `swiftsnap` (swiftsimio/__init__.py, swiftsimio/swiftsnap.py)

The command reads the metadata of the files it is given and prints a report. What is printed is a list with one string for each call
of `print`. Formatting of numbers, dates and cosmologies, wrapping of long lines and the text of arrays are functions of Python's
library and of other packages; they are parameters.
-/

namespace Verif.CommandLine
open Verif Verif.Header Verif.Names

/-- What formatting does: `f"{x:.4g}"` (which raises for values that are not numbers), `f"{x}"` or `str(x)` of a value of the
metadata, `str` of a cosmology, `textwrap.wrap(s, 80)`, and `x.title().replace("_", " ")`. -/
structure Fmt (K D : Type) where
  g4 : Val K D → Except Err String
  str : Val K D → String
  cosmo : Option (Dict (Raw K)) → String
  wrap : String → List String
  title : String → String

/-- A file: the attributes of its groups, the order in which h5py lists the names of the attributes of a group, and what is raised
by the parts of `SWIFTUnits` and of the metadata classes that are not modelled here (units, fields, named columns). -/
structure Input (K : Type) where
  file : File K
  names : String → List String
  units : Option Err
  rest : Option Err

/-- What a call of `validate_file` does. `notSwift` is OSError, which is IOError. -/
inductive Verdict
  | isSwift
  | notSwift
  | raised (e : Err)
  deriving DecidableEq, Repr

section
variable {K D : Type}

/-- `b"SWIFT"`. -/
def swiftBytes : List Nat := [83, 87, 73, 70, 84]

/-- Whether `value != b"SWIFT"` is true: text and numbers differ from bytes; an array is compared element by element, and the truth
of the result is asked for. -/
def differs : Raw K → Except Err Bool
  | .bytes b => .ok (b ≠ swiftBytes)
  | .scalar _ => .ok true
  | .text _ => .ok true
  | .array [] => .ok false
  | .array [_] => .ok true
  | .array _ => .error .value
  | .words [] => .ok false
  | .words [_] => .ok true
  | .words _ => .error .value

/-- `validate_file`, __init__.py:66-93. A file that cannot be opened raises OSError (FileNotFoundError is one). -/
def validate (f : Option (Input K)) : Verdict :=
  match f with
  | none => .notSwift
  | some i => match i.file.group "Code" with
    | none => .notSwift
    | some d => match d "Code" with
      | none => .notSwift
      | some r => match differs r with
        | .ok true => .notSwift
        | .ok false => .isSwift
        | .error e => .raised e

/-- The metadata of a file: the class, the groups of attributes, the attributes from the header and the cosmology. -/
structure Meta (K D : Type) where
  kind : Kind
  groups : Dict (Option (Dict (Raw K)))
  names : String → List String
  attrs : Dict (Val K D)
  cosmology : Option (Dict (Raw K))

/-- `OutputType` as the discriminator sees it, metadata/objects.py:849-856; something that is not text is in none of its lists. -/
def outputType (lib : Lib D) (h : Dict (Raw K)) : Except Err (Option String) :=
  match h "OutputType" with
  | none => .ok none
  | some r => match decode lib r with
    | .error e => .error e
    | .ok (.text t) => .ok (some t)
    | .ok _ => .ok (some "")

/-- `_metadata_discriminator`, metadata/objects.py:827-868, with the constructors, metadata/objects.py:891-909, 1504-1519 and
1585-1601. -/
def readMeta [NatCast K] [Zero K] [One K] [DecidableEq K] (lib : Lib D) (i : Input K) : Except Err (Meta K D) :=
  match i.file.group "Header" with
  | none => .error .key
  | some h => do
    let t ← outputType lib h
    let k ← discriminate t
    let s ← postprocess lib i.file
    let c ← cosmologyOf i.file
    match i.rest with
    | some e => .error e
    | none => .ok ⟨k, getMetadata i.file, i.names, s, c⟩

/-- `decode`, swiftsnap.py:13-34, of an attribute of a group. -/
def decodeRaw (lib : Lib D) (fmt : Fmt K D) : Raw K → Except Err String
  | .bytes b => match lib.utf8 b with
    | some s => .ok s
    | none => .error .value
  | .text s => .ok s
  | r => .ok (fmt.str (.raw r))

/-- `decode(data.run_name)`: text is left as it is. -/
def decodeVal (lib : Lib D) (fmt : Fmt K D) : Val K D → Except Err String
  | .raw r => decodeRaw lib fmt r
  | v => .ok (fmt.str v)

/-- `data.name`. -/
def attr (d : Meta K D) (name : String) : Except Err (Val K D) :=
  match d.attrs name with
  | some v => .ok v
  | none => .error .attribute

/-- `data.policy` and the like, used as a dictionary: `None` has no methods. -/
def groupOf (d : Meta K D) (name : String) : Except Err (Dict (Raw K)) :=
  match d.groups name with
  | some (some g) => .ok g
  | _ => .error .attribute

/-- `format_string` of `code_info` and `compiler_info`, metadata/objects.py:1036-1050 and 1076-1090: `None` cannot be indexed, and
only bytes can be decoded. -/
def codeString (lib : Lib D) (d : Meta K D) (param : String) : Except Err String :=
  match d.groups "code" with
  | some (some g) => match g param with
    | none => .error .key
    | some (.bytes b) => match lib.utf8 b with
      | some s => .ok s
      | none => .error .value
    | some _ => .error .attribute
  | some none => .error .typeErr
  | none => .error .attribute

/-- Only snapshots and lines of sight have `code_info` and `compiler_info`. -/
def hasInfo : Kind → Bool
  | .snapshot => true
  | .lineOfSight => true
  | .soap => false
  | .fof => false

/-- `compiler_info`, metadata/objects.py:1060-1097. -/
def compilerInfo (lib : Lib D) (d : Meta K D) : Except Err String :=
  if hasInfo d.kind then do
    let a ← codeString lib d "Compiler Name"
    let b ← codeString lib d "Compiler Version"
    let c ← codeString lib d "MPI library"
    return a ++ " (" ++ b ++ ")\n" ++ c
  else .error .attribute

/-- `code_info`, metadata/objects.py:1019-1058. -/
def codeInfo (lib : Lib D) (d : Meta K D) : Except Err String :=
  if hasInfo d.kind then do
    let a ← codeString lib d "Code"
    let b ← codeString lib d "Git Branch"
    let c ← codeString lib d "Git Revision"
    let e ← codeString lib d "Git Date"
    return a ++ " (" ++ b ++ ")\n" ++ c ++ "\n" ++ e
  else .error .attribute

/-- The names of the policies that are on, swiftsnap.py:126-128. -/
def activePolicies [Zero K] [DecidableEq K] (g : Dict (Raw K)) : List String → Except Err (List String)
  | [] => .ok []
  | n :: ns => match g n with
    | none => activePolicies g ns
    | some r => match truth r with
      | .error e => .error e
      | .ok b => match activePolicies g ns with
        | .error e => .error e
        | .ok l => .ok (if b then n :: l else l)

/-- The lines of the policies, swiftsnap.py:126-133. -/
def policyLines [Zero K] [DecidableEq K] (fmt : Fmt K D) (d : Meta K D) : Except Err (List String) := do
  let g ← groupOf d "policy"
  let l ← activePolicies g (d.names "Policy")
  return fmt.wrap ("Active policies: " ++ String.intercalate ", " l)

/-- The number of particles of one type, swiftsnap.py:144-147; without the attribute it is zero. -/
def countText [Zero K] (fmt : Fmt K D) (d : Meta K D) (x : String) : Except Err String := do
  let n ← fmt.g4 ((d.attrs ("n_" ++ x)).getD (.raw (.scalar 0)))
  return fmt.title x ++ ": " ++ n

/-- The lines of the numbers of particles, swiftsnap.py:142-151. -/
def countLines [Zero K] (fmt : Fmt K D) (d : Meta K D) : Except Err (List String) := do
  let l ← typeNames.mapM (countText fmt d)
  return fmt.wrap ("Number of particles: " ++ String.intercalate ", " l)

/-- The state of the simulation, swiftsnap.py:163. `time` is in the unit that it is converted to. -/
def stateLine (fmt : Fmt K D) (d : Meta K D) : Except Err String := do
  let z ← attr d "z"
  let z ← fmt.g4 z
  let a ← attr d "a"
  let a ← fmt.g4 a
  let t ← attr d "time"
  let t ← fmt.g4 t
  return "Simulation state: z=" ++ z ++ ", a=" ++ a ++ ", t=" ++ t

/-- The scheme of gravity or of hydrodynamics, swiftsnap.py:170-174. -/
def schemeLine (lib : Lib D) (fmt : Fmt K D) (d : Meta K D) (label group : String) : Except Err String := do
  let g ← groupOf d group
  let s ← match g "Scheme" with
    | some r => decodeRaw lib fmt r
    | none => .ok "None"
  return label ++ ": " ++ s

/-- One line of the subgrid schemes, swiftsnap.py:176-178. -/
def subgridLine (lib : Lib D) (fmt : Fmt K D) (n : String) (r : Raw K) : Except Err String := do
  let s ← decodeRaw lib fmt r
  return n.replace "Model" "model" ++ ": " ++ s

/-- The entries of a dictionary in order. -/
def items (g : Dict (Raw K)) (names : List String) : List (String × Raw K) :=
  names.filterMap (fun n => (g n).map (fun r => (n, r)))

/-- The lines of the subgrid schemes. -/
def subgridSteps (lib : Lib D) (fmt : Fmt K D) (d : Meta K D) : List (Except Err (List String)) :=
  match groupOf d "subgrid_scheme" with
  | .error e => [.error e]
  | .ok g => ((items g (d.names "SubgridScheme")).filter (fun p => p.1 ≠ "NamedColumns")).map
      (fun p => (subgridLine lib fmt p.1 p.2).map (fun s => [s]))

/-- One call of `print`. -/
def one (x : Except Err String) : Except Err (List String) := x.map (fun s => [s])

/-- The calls of `print` for one file, swiftsnap.py:120-178; each is an exception or what it prints. -/
def reportSteps [Zero K] [DecidableEq K] (lib : Lib D) (fmt : Fmt K D) (d : Meta K D) : List (Except Err (List String)) :=
  [one ((attr d "run_name").bind (decodeVal lib fmt)),
    one ((attr d "snapshot_date").map (fun v => "Written at: " ++ fmt.str v)),
    policyLines fmt d, .ok [""],
    one ((attr d "output_type").bind fun t => (attr d "select_output").map fun s =>
      "Output type: " ++ fmt.str t ++ ", Output selection: " ++ fmt.str s),
    .ok [""], countLines fmt d, .ok [""], one (compilerInfo lib d), one (codeInfo lib d), .ok [""], one (stateLine fmt d), .ok [""],
    .ok ["Cosmology: " ++ fmt.cosmo d.cosmology], .ok [""],
    one (schemeLine lib fmt d "Gravity scheme" "gravity_scheme"), one (schemeLine lib fmt d "Hydrodynamics scheme" "hydro_scheme")] ++
  subgridSteps lib fmt d

/-- How the command ends. -/
inductive Outcome
  | returned
  | exit (code : Nat)
  | raised (e : Err)
  deriving DecidableEq, Repr

/-- Calls of `print` one after the other until one raises. -/
def printAll : List (Except Err (List String)) → List String × Outcome
  | [] => ([], .returned)
  | .error e :: _ => ([], .raised e)
  | .ok l :: rest => ((l ++ (printAll rest).1), (printAll rest).2)

/-- The first file that is not valid, swiftsnap.py:94-101. -/
def checkAll (disk : String → Option (Input K)) : List String → Option (List String × Outcome)
  | [] => none
  | n :: ns => match validate (disk n) with
    | .isSwift => checkAll disk ns
    | .notSwift => some ([n ++ " is not a SWIFT snapshot."], .exit 1)
    | .raised e => some ([], .raised e)

/-- `SWIFTUnits` of one file, swiftsnap.py:104-106. -/
def opened (disk : String → Option (Input K)) (n : String) : Except Err (Input K) :=
  match disk n with
  | some i => match i.units with
    | none => .ok i
    | some e => .error e
  | none => .error .key

/-- The units of all files and then the metadata of all files, swiftsnap.py:104-108. -/
def readAll [NatCast K] [Zero K] [One K] [DecidableEq K] (lib : Lib D) (disk : String → Option (Input K)) (files : List String) :
    Except Err (List (Meta K D)) := do
  let is ← files.mapM (opened disk)
  is.mapM (readMeta lib)

/-- One number for each file, swiftsnap.py:110-118. -/
def numbers (fmt : Fmt K D) (name : String) (ms : List (Meta K D)) : List String × Outcome :=
  match ms.mapM (fun d => (attr d name).bind fmt.g4) with
  | .error e => ([], .raised e)
  | .ok l => ([String.intercalate "\n" l], .exit 0)

/-- `swiftsnap`, swiftsnap.py:80-178, with the arguments `-r`, `-a` and the names of the files. -/
def swiftsnap [NatCast K] [Zero K] [One K] [DecidableEq K] (lib : Lib D) (fmt : Fmt K D) (disk : String → Option (Input K))
    (redshift scaleFactor : Bool) (files : List String) : List String × Outcome :=
  match checkAll disk files with
  | some r => r
  | none => match readAll lib disk files with
    | .error e => ([], .raised e)
    | .ok ms =>
      if redshift then numbers fmt "z" ms
      else if scaleFactor then numbers fmt "a" ms
      else printAll (ms.flatMap (reportSteps lib fmt))

end

end Verif.CommandLine
