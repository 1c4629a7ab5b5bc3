import Verif.Model.Names

/-!
# What names and file types should be
-/

namespace Verif.Spec
open Verif.Names

/-- The snake case name, position by position: every letter in lower case, with an underscore before an upper case letter that
follows a lower case letter or a digit. -/
def snakeAt (s : Str) : Str :=
  (List.range s.length).flatMap (fun i =>
    let c := s[i]?.getD ' '
    if 0 < i ∧ ((s[i - 1]?.getD ' ').isLower ∨ (s[i - 1]?.getD ' ').isDigit) ∧ c.isUpper then ['_', c.toLower]
    else [c.toLower])

/-- The documented file types and what they hold. -/
def fileTypes : List (String × Kind) :=
  [("FullVolume", .snapshot), ("VolumeSubset", .snapshot), ("LineOfSight", .lineOfSight), ("SOAP", .soap),
    ("SOAPSubset", .soap), ("FOF", .fof), ("FOFSubset", .fof)]

/-- The documented particle types in file order. -/
def typeNames : List String := ["gas", "dark_matter", "boundary", "sinks", "stars", "black_holes", "neutrinos", "sidm"]

/-- The types of SOAP groups with their names in Python and the names of their classes. -/
def soapTypes : List (String × String × String) :=
  [("BoundSubhalo", "bound_subhalo", "Boundsubhalo"), ("InputHalos", "input_halos", "Inputhalos"),
    ("InclusiveSphere", "inclusive_sphere", "Inclusivesphere"), ("ExclusiveSphere", "exclusive_sphere", "Exclusivesphere"),
    ("SO", "spherical_overdensity", "Sphericaloverdensity"), ("SOAP", "soap", "Soap"),
    ("ProjectedAperture", "projected_aperture", "Projectedaperture")]

end Verif.Spec
