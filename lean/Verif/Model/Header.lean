import Verif.Model.Basic
import Verif.Model.Units
import Mathlib.Algebra.Field.Defs

/-!
# Model of the metadata of a file (swiftsimio/metadata/objects.py, metadata/metadata/metadata_fields.py)

`SWIFTMetadata.get_metadata`, `postprocess_header` and `extract_cosmology`. An object of the metadata classes is the dictionary
of its attributes. Not modelled: `convert_to_units` after the box size was made with those units (it changes nothing), that the
arrays share their memory with the header, and box sizes that are not numbers (unyt raises, modelled as TypeError).
-/

namespace Verif.Header
open Verif
open Verif.Units (Dim)

/-- What h5py returns for an attribute: a number, an array of numbers, bytes (strings of fixed length), a string, or an array
of strings. -/
inductive Raw (K : Type)
  | scalar (x : K)
  | array (l : List K)
  | bytes (b : List Nat)
  | text (s : String)
  | words (l : List String)
  deriving DecidableEq, Repr

/-- The value of an attribute of a metadata object. A quantity is a number of the units of the file with given exponents of
the dimensions. -/
inductive Val (K D : Type)
  | raw (r : Raw K)
  | quantity (x : K) (unit : List (Dim × Int))
  | quantities (l : List K) (unit : List (Dim × Int))
  | cosmo (r : Raw K) (unit : List (Dim × Int)) (exponent : Int) (scale : Raw K) (comoving validTransform : Bool)
  | masses (t : List (String × Option K))
  | date (d : D)
  | none
  deriving DecidableEq, Repr

/-- A dictionary. -/
abbrev Dict (V : Type) := String → Option V

/-- `d[name] = v`, or `setattr`. -/
def Dict.set {V : Type} (d : Dict V) (name : String) (v : V) : Dict V := fun n => if n = name then some v else d n

/-- The parts of a file that are read: attributes of groups and two datasets of `SubgridScheme`. -/
structure File (K : Type) where
  group : String → Option (Dict (Raw K))
  photonGroupEdges : Option (List K)
  reducedLightspeed : Option (List K)

/-- What Python's library does: decoding of utf-8 and the two formats of dates. -/
structure Lib (D : Type) where
  utf8 : List Nat → Option String
  strptime : String → Option D
  strptimeOld : String → Option D

/-- `metadata_fields_to_read`, metadata_fields.py:6-19. -/
def fieldsToRead : List (String × String) :=
  [("Code", "code"), ("Cosmology", "cosmology_raw"), ("Header", "header"), ("GravityScheme", "gravity_scheme"),
    ("HydroScheme", "hydro_scheme"), ("InternalCodeUnits", "internal_code_units"), ("Parameters", "parameters"),
    ("Policy", "policy"), ("RuntimePars", "runtime_pars"), ("SubgridScheme", "subgrid_scheme"), ("StarsScheme", "stars_scheme"),
    ("UnusedParameters", "unused_parameters")]

/-- `header_unpack_arrays`, metadata_fields.py:24-33. -/
def unpackArrays : List (String × String) :=
  [("BoxSize", "boxsize"), ("NumPart_ThisFile", "num_part"), ("NumGroup_ThisFile", "num_group"),
    ("NumSubhalos_ThisFile", "num_subhalo"), ("CanHaveTypes", "has_type"), ("NumFilesPerSnapshot", "num_files_per_snapshot"),
    ("OutputType", "output_type"), ("SubhaloTypes", "subhalo_types")]

/-- `header_unpack_mass_tables`, metadata_fields.py:37-40. -/
def unpackMassTables : List (String × String) := [("MassTable", "mass_table"), ("InitialMassTable", "initial_mass_table")]

/-- `header_unpack_string`, metadata_fields.py:109-114. -/
def unpackString : List (String × String) :=
  [("RunName", "run_name"), ("SelectOutput", "select_output"), ("OutputType", "output_type"), ("System", "system_name")]

/-- `header_unpack_single_float`, metadata_fields.py:120-125. -/
def unpackSingleFloat : List (String × List String) :=
  [("Time", ["time", "t"]), ("Dimension", ["dimension"]), ("Redshift", ["redshift", "z"]), ("Scale-factor", ["scale_factor"])]

/-- `generate_units_header_unpack_arrays`, metadata_fields.py:43-76. -/
def unitsArrays : List (String × List (Dim × Int)) := [("boxsize", [(.length, 1)])]

/-- `generate_units_header_unpack_single_float`, metadata_fields.py:128-158. -/
def unitsSingleFloat : List (String × List (Dim × Int)) := [("time", [(.time, 1)]), ("t", [(.time, 1)])]

/-- `particle_name_underscores`, metadata/particle/particle_types.py:3-12, the values. -/
def typeNames : List String :=
  ["gas", "dark_matter", "boundary", "sinks", "stars", "black_holes", "neutrinos", "sidm"]

section
variable {K D : Type}

/-- `get_metadata`, metadata/objects.py:141-149; a value of `none` is Python's `None`. -/
def getMetadata (f : File K) : Dict (Option (Dict (Raw K))) :=
  fieldsToRead.foldl (fun s p => s.set p.2 (f.group p.1)) (fun _ => none)

/-- `r[i]`: an element of an array, a byte as a number, a character as a string; the elements of a number do not exist. -/
def item [NatCast K] : Raw K → Nat → Except Err (Raw K)
  | .scalar _, _ => .error .index
  | .array l, i => match l[i]? with
    | some x => .ok (.scalar x)
    | none => .error .index
  | .bytes b, i => match b[i]? with
    | some x => .ok (.scalar x)
    | none => .error .index
  | .text s, i => match s.toList[i]? with
    | some c => .ok (.text c.toString)
    | none => .error .index
  | .words l, i => match l[i]? with
    | some s => .ok (.text s)
    | none => .error .index

/-- `unyt_quantity(x, units=unit)` of something that is not a number raises RuntimeError. -/
def quantity : Raw K → List (Dim × Int) → Except Err (Val K D)
  | .scalar x, u => .ok (.quantity x u)
  | _, _ => .error .runtime

/-- One variable of a single float, metadata/objects.py:172-184 and 185-197: both branches do the same. -/
def singleFloat [NatCast K] (r : Raw K) (s : Dict (Val K D)) (variable_ : String) : Except Err (Dict (Val K D)) :=
  match item r 0 with
  | .error e => .error e
  | .ok x => match unitsSingleFloat.lookup variable_ with
    | some u => match quantity x u with
      | .ok v => .ok (s.set variable_ v)
      | .error e => .error e
    | none => .ok (s.set variable_ (.raw x))

/-- The single floats, metadata/objects.py:166-200: a missing field is skipped. -/
def singleFloats [NatCast K] (header : Dict (Raw K)) (s : Dict (Val K D)) : Except Err (Dict (Val K D)) :=
  unpackSingleFloat.foldlM (fun s p => match header p.1 with
    | some r => p.2.foldlM (singleFloat r) s
    | none => .ok s) s

/-- The scale factor, metadata/objects.py:202-207. -/
def scaleFactor [One K] (s : Dict (Val K D)) : Dict (Val K D) :=
  match s "scale_factor" with
  | some v => s.set "a" v
  | none => (s.set "a" (.raw (.scalar 1))).set "scale_factor" (.raw (.scalar 1))

/-- `self.scale_factor` as a plain value: what is set above has no units. -/
def scaleOf [One K] (s : Dict (Val K D)) : Raw K :=
  match s "scale_factor" with
  | some (.raw r) => r
  | _ => .scalar 1

/-- `cosmo_array` or `cosmo_quantity` of a value from the header with the arguments of
`generate_cosmo_args_header_unpack_arrays`, metadata_fields.py:79-104. -/
def cosmoOf (scale r : Raw K) (u : List (Dim × Int)) : Except Err (Val K D) :=
  match r with
  | .scalar x => .ok (.cosmo (.scalar x) u 1 scale true true)
  | .array l => .ok (.cosmo (.array l) u 1 scale true true)
  | _ => .error .typeErr

/-- One array, metadata/objects.py:226-258. The only name with a unit also has cosmology arguments. -/
def unpackArray (scale r : Raw K) (s : Dict (Val K D)) (name : String) : Except Err (Dict (Val K D)) :=
  match unitsArrays.lookup name with
  | some u => match cosmoOf scale r u with
    | .ok v => .ok (s.set name v)
    | .error e => .error e
  | none => .ok (s.set name (.raw r))

/-- The arrays, metadata/objects.py:225-261. -/
def arrays (scale : Raw K) (header : Dict (Raw K)) (s : Dict (Val K D)) : Except Err (Dict (Val K D)) :=
  unpackArrays.foldlM (fun s p => match header p.1 with
    | some r => unpackArray scale r s p.2
    | none => .ok s) s

/-- One entry of `MassTable.__init__`, metadata/objects.py:473-484. -/
def massEntry [NatCast K] (r : Raw K) (i : Nat) : Except Err (Option K) :=
  match item r i with
  | .ok (.scalar x) => .ok (some x)
  | .ok _ => .error .runtime
  | .error _ => .ok none

/-- `MassTable.__init__`, metadata/objects.py:468-486; the quantities are in the mass unit of the file. -/
def massTable [NatCast K] (r : Raw K) : Except Err (List (String × Option K)) :=
  typeNames.zipIdx.mapM (fun p => match massEntry r p.2 with
    | .ok x => .ok (p.1, x)
    | .error e => .error e)

/-- The mass tables, metadata/objects.py:264-283: zeros if there is no entry. -/
def massTables [NatCast K] [Zero K] (header : Dict (Raw K)) (s : Dict (Val K D)) : Except Err (Dict (Val K D)) :=
  unpackMassTables.foldlM (fun s p =>
    match massTable ((header p.1).getD (.array (List.replicate typeNames.length 0))) with
    | .ok t => .ok (s.set p.2 (.masses t))
    | .error e => .error e) s

/-- `raw.decode("utf-8")`, or the value itself if it cannot be decoded, metadata/objects.py:292-296. Bytes that are not utf-8
raise UnicodeDecodeError, a ValueError. -/
def decode (lib : Lib D) : Raw K → Except Err (Raw K)
  | .bytes b => match lib.utf8 b with
    | some s => .ok (.text s)
    | none => .error .value
  | r => .ok r

/-- The strings, metadata/objects.py:287-300. -/
def strings (lib : Lib D) (header : Dict (Raw K)) (s : Dict (Val K D)) : Except Err (Dict (Val K D)) :=
  unpackString.foldlM (fun s p => match header p.1 with
    | some r => match decode lib r with
      | .ok t => .ok (s.set p.2 (.raw t))
      | .error e => .error e
    | none => .ok (s.set p.2 (.raw (.text "")))) s

/-- The date of the snapshot, metadata/objects.py:304-330; `strptime` of something that is not a string raises TypeError. -/
def snapshotDate (lib : Lib D) (header : Dict (Raw K)) : Except Err (Val K D) :=
  match decode lib ((header "SnapshotDate").getD ((header "Snapshot date").getD (.text ""))) with
  | .error e => .error e
  | .ok (.text t) => match lib.strptime t with
    | some d => .ok (.date d)
    | none => match lib.strptimeOld t with
      | some d => .ok (.date d)
      | none => .ok (.raw (.text t))
  | .ok _ => .error .typeErr

/-- `photon_group_edges`, metadata/objects.py:333-338. -/
def photonGroupEdges (f : File K) : Val K D :=
  match f.photonGroupEdges with
  | some l => .quantities l [(.time, -1)]
  | none => .none

/-- `reduced_lightspeed`, metadata/objects.py:341-348. -/
def reducedLightspeed (f : File K) : Except Err (Val K D) :=
  match f.reducedLightspeed with
  | some (x :: _) => .ok (.quantity x [(.length, 1), (.time, -1)])
  | some [] => .error .index
  | none => .ok .none

/-- `n_gas` and the like, metadata/objects.py:351-358. -/
def counts [NatCast K] [Zero K] (s : Dict (Val K D)) : Except Err (Dict (Val K D)) :=
  typeNames.zipIdx.foldlM (fun s p => match s "num_part" with
    | some (.raw r) => match item r p.2 with
      | .ok x => .ok (s.set ("n_" ++ p.1) (.raw x))
      | .error _ => .ok (s.set ("n_" ++ p.1) (.raw (.scalar 0)))
    | some _ => .error .typeErr
    | none => .error .attribute) s

/-- `gas_gamma`, metadata/objects.py:361-365: `None` without the group or without the entry. -/
def gasGamma (hydro : Option (Dict (Raw K))) : Val K D :=
  match hydro with
  | some d => match d "Adiabatic index" with
    | some r => .raw r
    | none => .none
  | none => .none

/-- `postprocess_header`, metadata/objects.py:151-367, the attributes it sets; a file without header raises TypeError. -/
def postprocess [NatCast K] [Zero K] [One K] (lib : Lib D) (f : File K) : Except Err (Dict (Val K D)) :=
  match getMetadata f "header" with
  | some (some header) => do
    let s ← singleFloats header (fun _ => none)
    let s := scaleFactor s
    let s ← arrays (scaleOf s) header s
    let s ← massTables header s
    let s ← strings lib header s
    let d ← snapshotDate lib header
    let s := s.set "snapshot_date" d
    let s := s.set "photon_group_edges" (photonGroupEdges f)
    let c ← reducedLightspeed f
    let s := s.set "reduced_lightspeed" c
    let s ← counts s
    return s.set "gas_gamma" (gasGamma ((getMetadata f "hydro_scheme").getD none))
  | _ => .error .typeErr

/-- Truth of a value in Python: an empty array is false (numpy warns or raises, depending on the version), an array of several
values raises ValueError. -/
def truth [Zero K] [DecidableEq K] : Raw K → Except Err Bool
  | .scalar x => .ok (x ≠ 0)
  | .array [] => .ok false
  | .array [x] => .ok (x ≠ 0)
  | .array _ => .error .value
  | .bytes b => .ok (b ≠ [])
  | .text s => .ok (s ≠ "")
  | .words [] => .ok false
  | .words [s] => .ok (s ≠ "")
  | .words _ => .error .value

/-- The dictionary that `extract_cosmology` turns into a cosmology, metadata/objects.py:369-385; `none` if `cosmology` is
`None`. -/
def cosmologyOf [Zero K] [DecidableEq K] (f : File K) : Except Err (Option (Dict (Raw K))) :=
  match (getMetadata f "cosmology_raw").getD none with
  | none => .ok none
  | some d => match d "Cosmological run" with
    | none => .ok none
    | some r => match truth r with
      | .ok true => .ok (some d)
      | .ok false => .ok none
      | .error e => .error e

end

end Verif.Header
