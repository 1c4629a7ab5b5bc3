import Verif.Model.CommandLine
import Verif.Spec.Header

/-!
# What the command `swiftsnap` should print

A sheet holds the facts of one file; `lines` is its layout; `Describes` says where in the file the facts are.
-/

namespace Verif.Spec
open Verif Verif.Header Verif.CommandLine

/-- The particle types in the order of their numbers. -/
def particleTypes : List String := ["gas", "dark_matter", "boundary", "sinks", "stars", "black_holes", "neutrinos", "sidm"]

/-- The facts of one file as texts. -/
structure Sheet where
  runName : String
  date : String
  policies : List String
  outputType : String
  selection : String
  counts : List String
  compiler : String
  compilerVersion : String
  mpi : String
  code : String
  branch : String
  revision : String
  gitDate : String
  z : String
  a : String
  t : String
  cosmology : String
  gravity : String
  hydro : String
  subgrid : List (String × String)

/-- The layout of the report. -/
def Sheet.lines (wrap : String → List String) (title : String → String) (s : Sheet) : List String :=
  [s.runName, "Written at: " ++ s.date] ++ wrap ("Active policies: " ++ String.intercalate ", " s.policies) ++
  ["", "Output type: " ++ s.outputType ++ ", Output selection: " ++ s.selection, ""] ++
  wrap ("Number of particles: " ++
    String.intercalate ", " (List.zipWith (fun x n => title x ++ ": " ++ n) particleTypes s.counts)) ++
  ["", s.compiler ++ " (" ++ s.compilerVersion ++ ")\n" ++ s.mpi,
    s.code ++ " (" ++ s.branch ++ ")\n" ++ s.revision ++ "\n" ++ s.gitDate, "",
    "Simulation state: z=" ++ s.z ++ ", a=" ++ s.a ++ ", t=" ++ s.t, "", "Cosmology: " ++ s.cosmology, "",
    "Gravity scheme: " ++ s.gravity, "Hydrodynamics scheme: " ++ s.hydro] ++
  s.subgrid.map (fun p => p.1.replace "Model" "model" ++ ": " ++ p.2)

variable {K D : Type}

/-- The entry of a header or group is the text `t`, or it is missing and `t` is the default. -/
def TextAt (lib : Lib D) (h : Dict (Raw K)) (key default t : String) : Prop :=
  (∃ r, h key = some r ∧ Says lib r t) ∨ (h key = none ∧ t = default)

/-- The entry is a string of bytes that says `t`. -/
def BytesAt (lib : Lib D) (h : Dict (Raw K)) (key t : String) : Prop := ∃ b, h key = some (.bytes b) ∧ lib.utf8 b = some t

/-- The text of the date of a file. -/
def DateText (lib : Lib D) (h : Dict (Raw K)) (t : String) : Prop :=
  (∃ r, h "SnapshotDate" = some r ∧ Says lib r t) ∨ (h "SnapshotDate" = none ∧ TextAt lib h "Snapshot date" "" t)

/-- The file says that SWIFT wrote it. -/
def Marked (f : Option (Input K)) : Prop :=
  ∃ i d, f = some i ∧ i.file.group "Code" = some d ∧ d "Code" = some (.bytes [83, 87, 73, 70, 84])

/-- The mark, if there is one, is not an array. -/
def PlainMark (f : Option (Input K)) : Prop :=
  ∀ i d r, f = some i → i.file.group "Code" = some d → d "Code" = some r → (∀ l, r ≠ .array l) ∧ ∀ l, r ≠ .words l

/-- Texts are printed as they are. -/
def PrintsText (fmt : Fmt K D) : Prop := ∀ t : String, fmt.str (.raw (.text t)) = t

/-- The file can be opened: the header is well formed, of a known type, and no other part is broken. -/
structure Opens [Zero K] [DecidableEq K] (lib : Lib D) (i : Input K) (h : Dict (Raw K)) : Prop where
  header : i.file.group "Header" = some h
  wellFormed : WellFormed lib h
  type : ∃ t, TextAt lib h "OutputType" "" t ∧
    t ∈ ["", "FullVolume", "VolumeSubset", "LineOfSight", "SOAP", "SOAPSubset", "FOF", "FOFSubset"] ∧ (h "OutputType" ≠ none → t ≠ "")
  light : i.file.reducedLightspeed ≠ some []
  cosmology : ∃ c, cosmologyOf i.file = .ok c
  units : i.units = none
  rest : i.rest = none

/-- The facts are those of the file, which is a snapshot or a file of lines of sight with the groups that SWIFT writes. -/
structure Describes [Zero K] [One K] [DecidableEq K] (lib : Lib D) (fmt : Fmt K D) (i : Input K) (h : Dict (Raw K)) (s : Sheet) : Prop where
  runName : TextAt lib h "RunName" "" s.runName
  date : ∃ t, DateText lib h t ∧ (∀ d, lib.strptime t = some d → s.date = fmt.str (.date d)) ∧
    (∀ d, lib.strptime t = none → lib.strptimeOld t = some d → s.date = fmt.str (.date d)) ∧
    (lib.strptime t = none → lib.strptimeOld t = none → s.date = t)
  policies : ∃ g, i.file.group "Policy" = some g ∧ (∀ n ∈ i.names "Policy", ∃ x, g n = some (.array [x])) ∧
    s.policies = (i.names "Policy").filter (fun n => g n ≠ some (.array [0]))
  outputType : TextAt lib h "OutputType" "" s.outputType
  particles : s.outputType ∈ ["", "FullVolume", "VolumeSubset", "LineOfSight"]
  selection : TextAt lib h "SelectOutput" "" s.selection
  counts : ∃ l, h "NumPart_ThisFile" = some (.array l) ∧ s.counts.length = 8 ∧
    ∀ n (hn : n < s.counts.length), fmt.g4 (.raw (.scalar (l[n]?.getD 0))) = .ok s.counts[n]
  code : ∃ g, i.file.group "Code" = some g ∧ BytesAt lib g "Compiler Name" s.compiler ∧
    BytesAt lib g "Compiler Version" s.compilerVersion ∧ BytesAt lib g "MPI library" s.mpi ∧ BytesAt lib g "Code" s.code ∧
    BytesAt lib g "Git Branch" s.branch ∧ BytesAt lib g "Git Revision" s.revision ∧ BytesAt lib g "Git Date" s.gitDate
  z : ∃ x l, h "Redshift" = some (.array (x :: l)) ∧ fmt.g4 (.raw (.scalar x)) = .ok s.z
  a : ∃ x, ((∃ l, h "Scale-factor" = some (.array (x :: l))) ∨ (h "Scale-factor" = none ∧ x = 1)) ∧ fmt.g4 (.raw (.scalar x)) = .ok s.a
  t : ∃ x l, h "Time" = some (.array (x :: l)) ∧ fmt.g4 (.quantity x [(.time, 1)]) = .ok s.t
  cosmology : ∃ c, cosmologyOf i.file = .ok c ∧ s.cosmology = fmt.cosmo c
  gravity : ∃ g, i.file.group "GravityScheme" = some g ∧ TextAt lib g "Scheme" "None" s.gravity
  hydro : ∃ g, i.file.group "HydroScheme" = some g ∧ TextAt lib g "Scheme" "None" s.hydro
  subgrid : ∃ g, i.file.group "SubgridScheme" = some g ∧
    List.Forall₂ (fun (n : String) (p : String × String) => p.1 = n ∧ ∃ r, g n = some r ∧ Says lib r p.2)
      ((i.names "SubgridScheme").filter (fun n => n ≠ "NamedColumns")) s.subgrid

end Verif.Spec
