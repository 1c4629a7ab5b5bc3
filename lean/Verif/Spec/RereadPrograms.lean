import Verif.Spec.UnitPrograms
import Verif.Spec.Reread

/-!
# Programs with fields that were written to a file and read again
-/

namespace Verif.Spec
open Verif Verif.Cosmo Verif.Attributes Verif.Reread Verif.UnitFormulas
open Verif.Writer (Name)

variable {D : Type} [AddCommGroup D] [Module ℝ D]

/-- A field as an array with a unit; `dim` says what the exponents of the base units are in `D`. -/
def asArray (dim : Exps → D) (x : Field) : Arr × U D := (x.arr, ⟨x.size, dim x.dims⟩)

/-- A field that a user assigned: the type of the particles, the names, the array. -/
structure Assigned where
  type : Nat
  typeName : String
  name : Name
  attr : String
  array : Stored

/-- The last thing that was assigned to the field is this array, which has the exponent `k` of the scale factor `a` and the right dimensions. -/
structure Assigned.Good (ops : List Op) (a k : ℝ) (f : Assigned) : Prop where
  typeName : types[f.type]? = some f.typeName
  attr : (f.name, f.attr) ∈ fieldNames
  needed : f.name ∈ needs f.type
  given : Given ops f.type f.name f.array
  conv : Conv a k f.array.field.arr
  dims : HasDims f.name f.array.field.dims
  size : 0 < f.array.field.size

end Verif.Spec
