import Verif.Model.Cosmo

/-!
# Model of units and cosmology attributes of fields: written by swiftsimio/snapshot_writer.py, read by
swiftsimio/metadata/field/attr_reader.py (called from swiftsimio/reader.py)

A unit is the exponents of the five base units of a file and its size in cgs. Units with other dimensions (angle, luminous
intensity) cannot be given to the writer: every required field has dimensions of mass, length and time (or none).
-/

namespace Verif.Attributes
open Verif Verif.Cosmo

/-- Exponents of current, length, mass, temperature and time. -/
@[ext] structure Exps where
  I : ℝ
  L : ℝ
  M : ℝ
  T : ℝ
  t : ℝ

noncomputable instance : DecidableEq Exps := Classical.decEq _

/-- The size in cgs of the base units of a unit system. -/
structure Base where
  I : ℝ
  L : ℝ
  M : ℝ
  T : ℝ
  t : ℝ

/-- The unit of given dimensions in a unit system. -/
noncomputable def Base.unit (b : Base) (e : Exps) : ℝ := b.I ^ e.I * b.L ^ e.L * b.M ^ e.M * b.T ^ e.T * b.t ^ e.t

/-- An array with its dimensions and the size of its unit in cgs. -/
structure Field where
  arr : Arr
  dims : Exps
  size : ℝ

/-- `convert_to_base`: values in the unit system of the writer. -/
noncomputable def Field.toBase (b : Base) (x : Field) : Field :=
  ⟨{ x.arr with val := x.arr.val.map (fun v => v * (x.size / b.unit x.dims)) }, x.dims, b.unit x.dims⟩

/-- The setter of a field with dimensions `need`, snapshot_writer.py:395-409. The conversions are in place: the result is also
the array of the caller afterwards. -/
noncomputable def setField (b : Base) (sf : ℝ) (need : Exps) (x : Field) : Except Err Field :=
  match x.arr.cf with
  | none => .error .attribute
  | some f =>
    if f.sf ≠ some sf then .error .assertion
    else if x.dims ≠ need then .error .value
    else match (x.toBase b).arr.convertToComoving with
      | .error e => .error e
      | .ok y => .ok ⟨y, x.dims, b.unit x.dims⟩

/-- The attributes of a dataset in a file; those that may be missing are options. -/
structure Attrs where
  dims : Exps
  aScale : Option ℝ
  physical : Option Int
  convertible : Option Int

/-- `float(getattr(expr, "exp", 1.0))`: sympy makes `a**0` the number 1 and `a**1` the symbol `a`, which have no `exp`. -/
noncomputable def exponentOf (k : ℝ) : ℝ := if k = 0 ∨ k = 1 then 1 else k

/-- `get_attributes`, snapshot_writer.py:233-280, together with the values that are written. -/
noncomputable def writeField (x : Field) : Except Err (Attrs × List ℝ) :=
  match x.arr.cf with
  | some ⟨some k, some _⟩ => .ok (⟨x.dims, some (exponentOf k), none, none⟩, x.arr.val)
  | _ => .error .typeErr

/-- `load_field_units`, `load_field_cosmo_factor`, `load_field_physical`, `load_field_valid_transform`, attr_reader.py:13-164, and
the array made from them, reader.py:130-182. -/
noncomputable def readField (b : Base) (sf : ℝ) (f : Attrs × List ℝ) : Field :=
  ⟨⟨f.2, some (!(f.1.physical.getD 0 == 1)), some (CF.create sf (f.1.aScale.getD 0)), f.1.convertible.getD 1 == 1⟩, f.1.dims,
    (if f.1.dims.I = 0 then 1 else b.I ^ f.1.dims.I) * (if f.1.dims.L = 0 then 1 else b.L ^ f.1.dims.L) *
      (if f.1.dims.M = 0 then 1 else b.M ^ f.1.dims.M) * (if f.1.dims.T = 0 then 1 else b.T ^ f.1.dims.T) *
      (if f.1.dims.t = 0 then 1 else b.t ^ f.1.dims.t)⟩

/-- What a user gets back: set a field, write the file, read it. -/
noncomputable def roundTrip (b : Base) (sf : ℝ) (need : Exps) (x : Field) : Except Err Field :=
  match setField b sf need x with
  | .error e => .error e
  | .ok y => match writeField y with
    | .error e => .error e
    | .ok f => .ok (readField b sf f)

end Verif.Attributes
