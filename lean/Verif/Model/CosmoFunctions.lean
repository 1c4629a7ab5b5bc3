import Verif.Model.Cosmo

/-!
# Model of the numpy functions wrapped in `swiftsimio/_array_functions.py`

The numbers are computed by unyt and numpy; here they are a function on lists (a quantity is a list of length one).
-/

namespace Verif.Cosmo
open Verif

/-- `_propagate_cosmo_array_attributes_to_result`, _array_functions.py:171-202, for a `cosmo_array` argument and a
`cosmo_array` result: `max`, `min`, `mean`, `median`, `sort`, `sum`, `partition` (2293-2307) and the methods of
objects.py:1377-1399 (`flatten`, `ravel`, `repeat`, `take`, `__getitem__`, ...). Functions without a wrapper (`cumsum`) get
the same attributes from `__array_finalize__`, objects.py:1284-1299. -/
def propagate (f : List ℝ → List ℝ) (x : Arr) : Arr := { x with val := f x.val }

/-- `_default_unary_wrapper`, _array_functions.py:1063-1111, for one `cosmo_array` and keyword arguments that are not
cosmo objects. -/
noncomputable def wrap1 (rule : Option CF → Except Err (Option CF)) (f : List ℝ → List ℝ) (x : Arr) : Except Err Arr :=
  match prepare true [.cosmo x] [] with
  | .error e => .error e
  | .ok p => match rule x.cf with
    | .error e => .error e
    | .ok c => match p.args with
      | [y] => .ok { val := f y.vals, comoving := p.comoving, cf := c, vt := p.vt }
      | _ => .error .runtime

/-- `_default_binary_wrapper`, _array_functions.py:1114-1162. -/
noncomputable def wrap2 (rule : Option CF → Option CF → Except Err (Option CF)) (f : List ℝ → List ℝ → Except Err (List ℝ))
    (x y : Opd) : Except Err Arr :=
  match prepare true [x, y] [] with
  | .error e => .error e
  | .ok p => match rule x.cf y.cf with
    | .error e => .error e
    | .ok c => match p.args with
      | [u, v] => (f u.vals v.vals).map (fun r => { val := r, comoving := p.comoving, cf := c, vt := p.vt })
      | _ => .error .runtime

/-- `_preserve_cosmo_factor` of one factor. -/
def keep (c : Option CF) : Except Err (Option CF) := .ok c

/-- `_reciprocal_cosmo_factor`, _array_functions.py:600-620. -/
noncomputable def recip (c : Option CF) : Except Err (Option CF) := powerCF c none (-1)

/-- `np.prod`, _array_functions.py:1803-1826, over all elements: the result has one element. -/
noncomputable def prodAll (x : Arr) : Except Err Arr :=
  wrap1 (fun c => powerCF c none (x.val.length : ℝ)) (fun l => [l.prod]) x

/-- `np.var`, _array_functions.py:1829. -/
noncomputable def varAll (x : Arr) : Except Err Arr :=
  wrap1 keep (fun l => [(l.map (fun v => (v - l.sum / l.length) ^ 2)).sum / l.length]) x

/-- `np.einsum("i,i->i", x, y)`, _array_functions.py:2141-2167: the factors of the operands must agree and are kept. -/
noncomputable def einsumProduct (x y : Opd) : Except Err Arr := wrap2 preserve2 (bcast2 (· * ·)) x y

/-- `np.fft.fft` of an array with one element (which is that element), _array_functions.py:1688. -/
noncomputable def fftSingle (x : Arr) : Except Err Arr := wrap1 recip id x

/-- `np.linalg.det` of `n` matrices of size 1 (shape `(n, 1, 1)`), _array_functions.py:1843-1848: the power is
`a.shape[0]`. -/
noncomputable def detOnes (x : Arr) : Except Err Arr :=
  wrap1 (fun c => powerCF c none (x.val.length : ℝ)) id x

/-- `np.average(a, weights=w)`, _array_functions.py:2259-2290: the arguments are coerced to one frame, but the numbers are
computed from the original ones. -/
noncomputable def average (x w : Arr) : Except Err Arr :=
  match prepare true [.cosmo x] [.cosmo w] with
  | .error e => .error e
  | .ok p =>
    if x.val.length ≠ w.val.length then .error .value
    else .ok { val := [(List.zipWith (· * ·) x.val w.val).sum / w.val.sum], comoving := p.comoving, cf := x.cf, vt := p.vt }

/-- `np.clip(a, lo, hi)`, _array_functions.py:2092-2120, with both limits given by position or as `a_min` and `a_max`. -/
noncomputable def clip (x lo hi : Arr) : Except Err Arr :=
  match prepare true [.cosmo x] [.cosmo lo, .cosmo hi] with
  | .error e => .error e
  | .ok p => match reduce1 preserve2 [x.cf, lo.cf, hi.cf] with
    | .error e => .error e
    | .ok c => match p.args, p.kw with
      | [y], [l, h] => match l.vals, h.vals with
        | [l], [h] => .ok { val := y.vals.map (fun v => min (max v l) h), comoving := p.comoving, cf := c, vt := p.vt }
        | _, _ => .error .notImpl
      | _, _ => .error .runtime

/-- `np.clip(a, min=lo, max=hi)`, _array_functions.py:2092-2120: the keywords `min` and `max` are bound by the signature
and not used; numpy is called without limits and returns a copy. -/
noncomputable def clipMinMax (x : Arr) (_lo _hi : Arr) : Except Err Arr := wrap1 keep id x

/-- `np.select([cond], [x])` where the condition holds everywhere, _array_functions.py:2067-2077: the attributes are taken
from the lists, which have none. -/
noncomputable def selectAll (x : Arr) : Except Err Arr :=
  match prepare true [.cosmo x] [] with
  | .error e => .error e
  | .ok p => match p.args with
    | [y] => .ok { val := y.vals, comoving := none, cf := x.cf, vt := true }
    | _ => .error .runtime

/-- `np.where(cond, x, y)`, _array_functions.py:2123-2134, with a bare condition. -/
noncomputable def whereThree (cond : List Bool) (x y : Opd) : Except Err Arr :=
  wrap2 preserve2 (fun u v =>
    if cond.length = u.length ∧ u.length = v.length then
      .ok ((cond.zip (u.zip v)).map (fun q => if q.1 then q.2.1 else q.2.2))
    else .error .value) x y

/-- `np.where(x)` with only a condition that is a `cosmo_array`, _array_functions.py:2123-2134: after the branch for one
argument the code goes on to `cfs[1]`. -/
def whereOne (x : Arr) : Except Err (List ℝ) :=
  match [x.cf][1]? with
  | none => .error .index
  | some _ => .ok []

/-- Linear interpolation of one point between two. -/
noncomputable def lerp (x x0 x1 f0 f1 : ℝ) : ℝ := f0 + (x - x0) / (x1 - x0) * (f1 - f0)

/-- `np.interp(x, xp, fp)` for one point between two, _array_functions.py:2199-2206: the factors of `x` and `xp` are not
compared. -/
noncomputable def interpTwo (x xp fp : Arr) : Except Err Arr :=
  match prepare true [.cosmo x, .cosmo xp, .cosmo fp] [] with
  | .error e => .error e
  | .ok p => match p.args with
    | [u, v, w] => match u.vals, v.vals, w.vals with
      | [x], [x0, x1], [f0, f1] => .ok { val := [lerp x x0 x1 f0 f1], comoving := p.comoving, cf := fp.cf, vt := p.vt }
      | _, _, _ => .error .notImpl
    | _ => .error .runtime

/-- `np.histogram_bin_edges(a, bins=edges)` with explicit edges, _array_functions.py:1303-1320: `res` is only assigned in
the other branch (UnboundLocalError). -/
noncomputable def binEdgesExplicit (x edges : Arr) : Except Err Arr :=
  match prepare true [.cosmo x] [.cosmo edges] with
  | .error e => .error e
  | .ok _ => .error .runtime

/-- Histogram counts with weights for explicit edges: half-open bins, the last one closed. -/
noncomputable def histCounts (xs ws : List ℝ) : List ℝ → List ℝ
  | [] => []
  | [_] => []
  | [e, f] => [((xs.zip ws).map (fun q => if e ≤ q.1 ∧ q.1 ≤ f then q.2 else 0)).sum]
  | e :: f :: g :: l => ((xs.zip ws).map (fun q => if e ≤ q.1 ∧ q.1 < f then q.2 else 0)).sum :: histCounts xs ws (f :: g :: l)

/-- `density=True`: divide by the total and by the widths of the bins. -/
noncomputable def histDensity (counts edges : List ℝ) : List ℝ :=
  List.zipWith (fun c w => c / w / counts.sum) counts (List.zipWith (· - ·) edges.tail edges)

/-- `np.histogram(a, bins=edges, weights=w, density=d)` with explicit edges, _array_functions.py:1337-1364: counts and
edges. With `density` the factor of the counts is the one of the weights divided by the one of the values. -/
noncomputable def histogram (x edges w : Arr) (density : Bool) : Except Err (Arr × Arr) :=
  match prepare true [.cosmo x] [.cosmo edges, .cosmo w] with
  | .error e => .error e
  | .ok p => match recip x.cf with
    | .error e => .error e
    | .ok inv => match p.args, p.kw with
      | [y], [b, v] =>
        let counts := histCounts y.vals v.vals b.vals
        let res := if density then histDensity counts b.vals else counts
        match (if density then mul2 w.cf inv else .ok w.cf) with
        | .error e => .error e
        | .ok c => .ok (⟨res, p.comoving, c, p.vt⟩, ⟨b.vals, p.comoving, x.cf, p.vt⟩)
      | _, _ => .error .runtime

/-- The edges returned by `np.histogram2d(x, y, bins=(xb, yb), density=True)`, _array_functions.py:1367-1470: the numbers
are the edges in the frame common to all arguments, the label is the frame common to `x` and its own bins. Only the edges
along `x` are modelled. -/
noncomputable def histogram2dEdges (x y xb yb : Arr) : Except Err Arr :=
  match prepare true [.cosmo x] [.cosmo xb], prepare true [.cosmo x, .cosmo y] [.cosmo xb, .cosmo yb] with
  | .ok px, .ok p => match p.kw with
    | [b, _] => .ok { val := b.vals, comoving := px.comoving, cf := x.cf, vt := px.vt }
    | _ => .error .runtime
  | .error e, _ => .error e
  | _, .error e => .error e

end Verif.Cosmo
