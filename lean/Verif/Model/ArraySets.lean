import Verif.Model.CosmoFunctions
import Mathlib.Data.List.Sort
import Mathlib.Data.List.Dedup
import Mathlib.Algebra.Order.Floor.Ring
import Mathlib.Analysis.SpecialFunctions.Trigonometric.Basic

/-!
# Model of set operations, comparisons, order statistics and signal functions, `swiftsimio/_array_functions.py`

The numbers are those of numpy; the wrappers are those of the package.
-/

namespace Verif.Cosmo
open Verif

open Classical in
/-- `np.unique` on numbers. -/
noncomputable def uniqueNum (l : List ℝ) : List ℝ := (l.insertionSort (· ≤ ·)).dedup

/-- `np.union1d`, _array_functions.py:1574. -/
noncomputable def union1d (x y : Opd) : Except Err Arr := wrap2 preserve2 (fun u v => .ok (uniqueNum (u ++ v))) x y

open Classical in
/-- `np.intersect1d`, _array_functions.py:1571-1573. -/
noncomputable def intersect1d (x y : Opd) : Except Err Arr :=
  wrap2 preserve2 (fun u v => .ok (uniqueNum (u.filter (fun t => t ∈ v)))) x y

open Classical in
/-- `np.setdiff1d`, _array_functions.py:2080-2082. -/
noncomputable def setdiff1d (x y : Opd) : Except Err Arr :=
  wrap2 preserve2 (fun u v => .ok (uniqueNum (u.filter (fun t => t ∉ v)))) x y

/-- `_default_comparison_wrapper`, _array_functions.py:1173-1221 (the factor, 793-843, is checked as by
`_return_without_cosmo_factor`), and `_default_binary_wrapper` with `_return_without_cosmo_factor` (2062-2064). The results
are bare. -/
noncomputable def wrapCompare {β : Type} (f : List ℝ → List ℝ → β) (x y : Opd) : Except Err β :=
  match prepare true [x, y] [] with
  | .error e => .error e
  | .ok p => match without2 x.cf y.cf with
    | .error e => .error e
    | .ok _ => match p.args with
      | [u, v] => .ok (f u.vals v.vals)
      | _ => .error .runtime

open Classical in
/-- `np.isin`, _array_functions.py:2003 and again 2253. -/
noncomputable def isin (x y : Opd) : Except Err (List Bool) := wrapCompare (fun u v => u.map (fun t => decide (t ∈ v))) x y

open Classical in
/-- `np.array_equal`, _array_functions.py:1730, for one axis. -/
noncomputable def arrayEqual (x y : Opd) : Except Err Bool := wrapCompare (fun u v => decide (u = v)) x y

open Classical in
/-- `np.searchsorted(a, v)`, _array_functions.py:2062-2064: for each value the number of elements below it. -/
noncomputable def searchsorted (x y : Opd) : Except Err (List ℕ) :=
  wrapCompare (fun u v => v.map (fun t => (u.filter (fun s => s < t)).length)) x y

open Classical in
/-- `np.isclose(a, b, rtol, atol)`, _array_functions.py:1728, of single elements with bare tolerances (the defaults are
`1e-5` and `1e-8`). -/
noncomputable def iscloseBare (rtol atol : ℝ) (x y : Opd) : Except Err (List Bool) :=
  wrapCompare (fun u v => List.zipWith (fun s t => decide (|s - t| ≤ atol + rtol * |t|)) u v) x y

/-- `np.ptp`, _array_functions.py:1853. -/
noncomputable def ptp (x : Arr) : Except Err Arr :=
  wrap1 keep (fun l => match l with
    | [] => []
    | v :: l => [l.foldl max v - l.foldl min v]) x

/-- `np.quantile(x, q)` with linear interpolation, _array_functions.py:1831-1840, of `n` elements: between the elements
around `q (n - 1)` of the sorted array. -/
noncomputable def quantileNum (q : ℝ) (l : List ℝ) : ℝ :=
  let s := l.insertionSort (· ≤ ·)
  let pos := q * (l.length - 1)
  let i := ⌊pos⌋.toNat
  s.getD i 0 + (pos - ⌊pos⌋) * (s.getD (min (i + 1) (l.length - 1)) 0 - s.getD i 0)

open Classical in
/-- numpy refuses a `q` outside of `[0, 1]`. -/
noncomputable def quantile (q : ℝ) (x : Arr) : Except Err Arr :=
  if 0 ≤ q ∧ q ≤ 1 then wrap1 keep (fun l => [quantileNum q l]) x else .error .value

/-- The element `n` of the convolution of two lists. -/
noncomputable def convAt (u v : List ℝ) (n : ℕ) : ℝ :=
  ((List.range (n + 1)).map (fun i => u.getD i 0 * v.getD (n - i) 0)).sum

/-- `np.convolve` (mode `full`), _array_functions.py:2170 (`correlate`, 2171-2173, is the convolution with the reverse). -/
noncomputable def convolve (x y : Opd) : Except Err Arr :=
  wrap2 mul2 (fun u v =>
    if u = [] ∨ v = [] then .error .value
    else .ok ((List.range (u.length + v.length - 1)).map (convAt u v))) x y

noncomputable def correlate (x y : Opd) : Except Err Arr :=
  wrap2 mul2 (fun u v =>
    if u = [] ∨ v = [] then .error .value
    else .ok ((List.range (u.length + v.length - 1)).map (convAt u v.reverse))) x y

/-- `np.around` to integers, _array_functions.py:1583: halves to even. -/
noncomputable def roundEven (v : ℝ) : ℝ :=
  if v - ⌊v⌋ < 1 / 2 then ⌊v⌋
  else if 1 / 2 < v - ⌊v⌋ then ⌊v⌋ + 1
  else if Even ⌊v⌋ then ⌊v⌋ else ⌊v⌋ + 1

noncomputable def around (x : Arr) : Except Err Arr := wrap1 keep (fun l => l.map roundEven) x

open Classical in
/-- `np.sinc`, _array_functions.py:2085-2089: unyt's function is called on the array as it is and returns bare numbers. -/
noncomputable def sinc (x : Arr) : List ℝ :=
  x.val.map (fun v => if v = 0 then 1 else Real.sin (Real.pi * v) / (Real.pi * v))

open Classical in
/-- What `np.unwrap` adds after a step `d`: nothing for steps smaller than half the period, else what reduces the step to
`[-T/2, T/2)`, or to `T/2` for upward steps to the middle. -/
noncomputable def stepFix (T d : ℝ) : ℝ :=
  if |d| < T / 2 then 0
  else
    let r := (d + T / 2) - T * ⌊(d + T / 2) / T⌋ - T / 2
    (if r = -(T / 2) ∧ 0 < d then T / 2 else r) - d

/-- The elements after the first, with the sum of the corrections so far. -/
noncomputable def unwrapFrom (T : ℝ) : ℝ → ℝ → List ℝ → List ℝ
  | _, _, [] => []
  | u, c, v :: l => (v + (c + stepFix T (v - u))) :: unwrapFrom T v (c + stepFix T (v - u)) l

noncomputable def unwrapVals (T : ℝ) : List ℝ → List ℝ
  | [] => []
  | u :: l => u :: unwrapFrom T u 0 l

/-- `np.unwrap(p, period=T)` of an array with one axis and a bare `T`, _array_functions.py:2179-2196. -/
noncomputable def unwrap (T : ℝ) (x : Arr) : Except Err Arr := wrap1 keep (unwrapVals T) x

end Verif.Cosmo
