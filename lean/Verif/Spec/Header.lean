import Verif.Model.Header

/-!
# The documented attributes of the metadata of a file

Tables from the attribute to the entry of the header it comes from, and which headers are well formed.
-/

namespace Verif.Spec
open Verif.Header
open Verif.Units (Dim)

/-- The numbers: SWIFT stores them as arrays of length one. -/
def headerNumbers : List (String × String) :=
  [("dimension", "Dimension"), ("redshift", "Redshift"), ("z", "Redshift")]

/-- The entries that are used as they are. -/
def headerPlain : List (String × String) :=
  [("num_part", "NumPart_ThisFile"), ("num_group", "NumGroup_ThisFile"), ("num_subhalo", "NumSubhalos_ThisFile"),
    ("has_type", "CanHaveTypes"), ("num_files_per_snapshot", "NumFilesPerSnapshot"), ("subhalo_types", "SubhaloTypes")]

/-- The texts. -/
def headerTexts : List (String × String) :=
  [("run_name", "RunName"), ("select_output", "SelectOutput"), ("output_type", "OutputType"), ("system_name", "System")]

/-- The tables of masses. -/
def headerMasses : List (String × String) := [("mass_table", "MassTable"), ("initial_mass_table", "InitialMassTable")]

/-- The name of each particle type. -/
def typeOf : Nat → Option String
  | 0 => some "gas"
  | 1 => some "dark_matter"
  | 2 => some "boundary"
  | 3 => some "sinks"
  | 4 => some "stars"
  | 5 => some "black_holes"
  | 6 => some "neutrinos"
  | 7 => some "sidm"
  | _ => none

/-- The groups of a file whose attributes are kept. -/
def groupAttributes : List (String × String) :=
  [("code", "Code"), ("cosmology_raw", "Cosmology"), ("header", "Header"), ("gravity_scheme", "GravityScheme"),
    ("hydro_scheme", "HydroScheme"), ("internal_code_units", "InternalCodeUnits"), ("parameters", "Parameters"),
    ("policy", "Policy"), ("runtime_pars", "RuntimePars"), ("subgrid_scheme", "SubgridScheme"), ("stars_scheme", "StarsScheme"),
    ("unused_parameters", "UnusedParameters")]

/-- All attributes that come from the header. -/
def headerNames : List String :=
  ["time", "t", "dimension", "redshift", "z", "scale_factor", "a", "boxsize", "num_part", "num_group", "num_subhalo",
    "has_type", "num_files_per_snapshot", "subhalo_types", "run_name", "select_output", "output_type", "system_name",
    "mass_table", "initial_mass_table", "snapshot_date", "photon_group_edges", "reduced_lightspeed", "gas_gamma",
    "n_gas", "n_dark_matter", "n_boundary", "n_sinks", "n_stars", "n_black_holes", "n_neutrinos", "n_sidm"]

variable {K D : Type}

/-- A number stored as an array. -/
def IsNumber (r : Raw K) : Prop := ∃ x l, r = .array (x :: l)

/-- A text, stored as string or as bytes, that says `s`. -/
def Says (lib : Lib D) (r : Raw K) (s : String) : Prop := r = .text s ∨ ∃ b, r = .bytes b ∧ lib.utf8 b = some s

/-- A header that SWIFT writes: whatever entries it has are of the right kind, and the numbers of particles are there. -/
structure WellFormed (lib : Lib D) (h : Dict (Raw K)) : Prop where
  numbers : ∀ k ∈ ["Time", "Dimension", "Redshift", "Scale-factor"], ∀ r, h k = some r → IsNumber r
  box : ∀ r, h "BoxSize" = some r → (∃ x, r = .scalar x) ∨ ∃ l, r = .array l
  counts : ∃ l, h "NumPart_ThisFile" = some (.array l)
  masses : ∀ k ∈ ["MassTable", "InitialMassTable"], ∀ r, h k = some r → ∃ l, r = .array l
  texts : ∀ k ∈ ["RunName", "SelectOutput", "OutputType", "System", "SnapshotDate", "Snapshot date"], ∀ r, h k = some r →
    ∃ s, Says lib r s

end Verif.Spec
