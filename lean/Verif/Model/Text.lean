import Verif.Model.CommandLine
import Verif.Model.Cosmo
import Mathlib.Algebra.Order.Floor.Defs

/-!
# Model of the text that objects are printed as (swiftsimio/objects.py, _array_functions.py, reader.py, metadata/objects.py)

`str`, `repr`, `np.array2string` and `np.array_repr` of arrays; `str` of factors, groups, datasets, tables and statistics; the
descriptions `library_info`, `hydro_info`, `viscosity_info` and `diffusion_info`. What unyt prints for numbers and units, sympy for an
expression and Python for a float are parameters. `{x:4.2f}` is modelled: numbers are exact, there is no negative zero, and infinities
and NaN are left out.
-/

namespace Verif.Text
open Verif Verif.Cosmo Verif.Header Verif.CommandLine Verif.Names

/-- What other packages print: `str(a**k)` of sympy and `f"{x}"` of a float. -/
structure Printer where
  power : ℝ → Str
  float : ℝ → Str

/-- `f"{x}"` of something that may be `None`. -/
def orNone {α : Type} (f : α → Str) : Option α → Str
  | none => "None".toList
  | some x => f x

/-- `cosmo_factor.__str__`, objects.py:318-327. -/
def factorText (p : Printer) (f : CF) : Str := orNone p.power f.expr ++ " at a=".toList ++ orNone p.float f.sf

/-- `cosmo_factor.__repr__`, objects.py:827-836. -/
def factorRepr (p : Printer) (f : CF) : Str :=
  "cosmo_factor(expr=".toList ++ orNone p.power f.expr ++ ", scale_factor=".toList ++ orNone p.float f.sf ++ ")".toList

/-- `str` of a bool. -/
def boolText : Bool → Str
  | true => "True".toList
  | false => "False".toList

/-- `cosmo_array.__str__`, objects.py:1301-1317; `body` is what unyt prints. -/
def arrayStr (body : Str) (x : Arr) : Str :=
  body ++ " ".toList ++ (match x.comoving with
    | some true => "(Comoving)".toList
    | none => "(Physical/comoving not set)".toList
    | some false => "(Physical)".toList)

/-- `np.array2string`, _array_functions.py:1284-1293; `body` is the numbers, and unyt appends the unit in quotes. -/
def array2string (body unit : Str) (x : Arr) : Str :=
  body ++ ", units='".toList ++ unit ++ "'".toList ++ (match x.comoving with
    | some true => " (comoving)".toList
    | some false => " (physical)".toList
    | none => [])

/-- `np.array_repr`, _array_functions.py:2209-2230, which `repr` of an array calls, objects.py:1319-1328; `body` is what unyt
prints, which ends with a bracket. -/
def arrayRepr (p : Printer) (body : Str) (x : Arr) : Str :=
  body.dropLast ++ ", comoving='".toList ++ orNone boolText x.comoving ++ "', cosmo_factor='".toList
    ++ orNone (factorText p) x.cf ++ "', valid_transform='".toList ++ boolText x.vt ++ "')".toList

/-- `np.savetxt`, _array_functions.py:1939-1976: only the numbers go to the file. -/
def savetxt (numbers : List ℝ → Str) (x : Arr) : Str := numbers x.val

/-- `", ".join(names)`. -/
def commas : List Str → Str
  | [] => []
  | [n] => n
  | n :: m :: l => n ++ ", ".toList ++ commas (m :: l)

/-- `__SWIFTGroupDataset.__str__`, reader.py:393-403. -/
def groupText (filename : Str) (fields : List Str) : Str :=
  "SWIFT dataset at ".toList ++ filename ++ ". \nAvailable fields: ".toList ++ commas fields

/-- `SWIFTDataset.__str__`, reader.py:738-741. -/
def datasetText (filename : Str) (groups : List Str) : Str :=
  "SWIFT dataset at ".toList ++ filename ++ ". \nAvailable groups: ".toList ++ commas groups

/-- `SWIFTStatisticsFile.__str__`, statistics.py:113-125. -/
def statisticsText (filename : Str) (fields : List Str) : Str :=
  "Statistics file: ".toList ++ filename ++ ", containing fields: ".toList ++ commas fields

/-- `MappingTable.__str__`, metadata/objects.py:560-573: the number of columns is that of the first row. -/
def mappingText {K : Type} (x y : Str) (data : List (List K)) : Except Err Str :=
  match data with
  | [] => .error .index
  | r :: l => .ok ("Mapping table from ".toList ++ x ++ " to ".toList ++ y ++ ", containing ".toList
      ++ Nat.toDigits 10 (r :: l).length ++ " by ".toList ++ Nat.toDigits 10 r.length ++ " elements.".toList)

section
variable {K D : Type}

/-- Rounding of a number that is not negative to the nearest integer, halves to even. -/
def nearestEven [Field K] [LinearOrder K] [FloorRing K] (y : K) : Nat :=
  let f := ⌊y⌋.toNat
  if y - f < 1 / 2 then f
  else if 1 / 2 < y - f then f + 1
  else if f % 2 = 0 then f else f + 1

/-- `f"{x:4.2f}"`. -/
def fixed2 [Field K] [LinearOrder K] [FloorRing K] (x : K) : Str :=
  let n := nearestEven (100 * |x|)
  ((if x < 0 then ['-'] else []) ++ Nat.toDigits 10 (n / 100) ++ '.' :: [(n / 10 % 10).digitChar, (n % 10).digitChar]).leftpad 4 ' '

/-- `format_string` of the schemes, metadata/objects.py:1192-1206 and 1251-1265; `None` cannot be indexed, and only bytes can be
decoded. -/
def schemeString (lib : Lib D) (d : Meta K D) (param : String) : Except Err Str :=
  match d.groups "hydro_scheme" with
  | some (some g) => match g param with
    | none => .error .key
    | some (.bytes b) => match lib.utf8 b with
      | some s => .ok s.toList
      | none => .error .value
    | some _ => .error .attribute
  | some none => .error .typeErr
  | none => .error .attribute

/-- `self.hydro_scheme[param][0]`. -/
def schemeItem [NatCast K] (d : Meta K D) (param : String) : Except Err (Raw K) :=
  match d.groups "hydro_scheme" with
  | some (some g) => match g param with
    | none => .error .key
    | some r => item r 0
  | some none => .error .typeErr
  | none => .error .attribute

/-- `format_float`, metadata/objects.py:1162-1176, 1235-1249 and 1295-1309: text cannot be formatted as a number. -/
def schemeFloat [Field K] [LinearOrder K] [FloorRing K] (d : Meta K D) (param : String) : Except Err Str :=
  (schemeItem d param).bind fun r => match r with
    | .scalar x => .ok (fixed2 x)
    | _ => .error .value

/-- `int(x)`, towards zero. -/
def truncated [Field K] [LinearOrder K] [FloorRing K] (x : K) : Int := if 0 ≤ x then ⌊x⌋ else ⌈x⌉

/-- The text of an integer. -/
def intText (n : Int) : Str := if n < 0 then '-' :: Nat.toDigits 10 n.natAbs else Nat.toDigits 10 n.natAbs

/-- `get_int`, metadata/objects.py:1178-1192; `int` of digits is their number. `int` also takes signs, blanks and underscores, which are
left out here. -/
def schemeInt [Field K] [LinearOrder K] [FloorRing K] (d : Meta K D) (param : String) : Except Err Str :=
  (schemeItem d param).bind fun r => match r with
    | .scalar x => .ok (intText (truncated x))
    | .text s => if s.toList ≠ [] ∧ s.toList.all Char.isDigit = true then .ok (Nat.toDigits 10 (Nat.ofDigitChars 10 s.toList 0)) else .error .value
    | _ => .error .value

/-- `library_info`, metadata/objects.py:1099-1138. -/
def libraryInfo (lib : Lib D) (d : Meta K D) : Except Err Str :=
  if hasInfo d.kind then do
    let a ← codeString lib d "FFTW library version"
    let b ← codeString lib d "GSL library version"
    let c ← codeString lib d "HDF5 library version"
    return "FFTW v".toList ++ a.toList ++ "\nGSL v".toList ++ b.toList ++ "\nHDF5 v".toList ++ c.toList
  else .error .attribute

/-- `hydro_info`, metadata/objects.py:1140-1217. -/
def hydroInfo [Field K] [LinearOrder K] [FloorRing K] (lib : Lib D) (d : Meta K D) : Except Err Str :=
  if hasInfo d.kind then do
    let scheme ← schemeString lib d "Scheme"
    let kernel ← schemeString lib d "Kernel function"
    let dim ← schemeInt d "Dimension"
    let eta ← schemeFloat d "Kernel eta"
    let ngb ← schemeFloat d "Kernel target N_ngb"
    let cfl ← schemeFloat d "CFL parameter"
    return scheme ++ "\n".toList ++ kernel ++ " in ".toList ++ dim ++ "D\n$\\eta$ = ".toList ++ eta ++ " (".toList ++ ngb
      ++ " $N_{ngb}$)\n$C_{\\rm CFL}$ = ".toList ++ cfl
  else .error .attribute

/-- `viscosity_info`, metadata/objects.py:1219-1277. -/
def viscosityInfo [Field K] [LinearOrder K] [FloorRing K] (lib : Lib D) (d : Meta K D) : Except Err Str :=
  if hasInfo d.kind then do
    let model ← schemeString lib d "Viscosity Model"
    let a ← schemeFloat d "Alpha viscosity"
    let l ← schemeFloat d "Viscosity decay length [internal units]"
    let b ← schemeFloat d "Beta viscosity"
    let lo ← schemeFloat d "Alpha viscosity (min)"
    let hi ← schemeFloat d "Alpha viscosity (max)"
    return model ++ "\n$\\alpha_{V, 0}$ = ".toList ++ a ++ ", $\\ell_V$ = ".toList ++ l ++ ", $\\beta_V$ = ".toList ++ b ++ "\n".toList
      ++ lo ++ " < $\\alpha_V$ < ".toList ++ hi
  else .error .attribute

/-- `diffusion_info`, metadata/objects.py:1279-1319. -/
def diffusionInfo [Field K] [LinearOrder K] [FloorRing K] (d : Meta K D) : Except Err Str :=
  if hasInfo d.kind then do
    let a ← schemeFloat d "Diffusion alpha"
    let b ← schemeFloat d "Diffusion beta"
    let lo ← schemeFloat d "Diffusion alpha (min)"
    let hi ← schemeFloat d "Diffusion alpha (max)"
    return "$\\alpha_{D, 0}$ = ".toList ++ a ++ ", $\\beta_D$ = ".toList ++ b ++ "\n$".toList ++ lo ++ " < \\alpha_D < ".toList ++ hi
      ++ "$".toList
  else .error .attribute

end

end Verif.Text
