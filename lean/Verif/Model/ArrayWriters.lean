import Verif.Model.CosmoFunctions

/-!
# Model of the numpy functions that write into an array, build arrays or solve equations

These are wrapped one by one in `swiftsimio/_array_functions.py`. Arrays are flat lists of numbers without units; numpy's own
work on the numbers is written out for lists. Two arguments that share memory are not modelled here (see `Memory.lean`).
-/

namespace Verif.Cosmo
open Verif

section numbers
variable {α : Type}

/-- What numpy does to the numbers of the destination and the source. -/
abbrev Writer (α : Type) := List α → List α → Except Err (List α)

/-- `np.copyto(dst, src, where=mask)` on one-dimensional numbers: a source of length one is repeated. -/
def copytoNum (mask : List Bool) : Writer α := fun d s =>
  if mask.length ≠ d.length then .error .value
  else if s.length = d.length then .ok ((mask.zip (d.zip s)).map (fun q => if q.1 then q.2.2 else q.2.1))
  else match s with
    | [v] => .ok ((mask.zip d).map (fun q => if q.1 then v else q.2))
    | _ => .error .value

/-- The loop of `np.place`: the `n`-th element selected gets `vals[n % len(vals)]`. -/
def placeFrom (v : List α) : Nat → List Bool → List α → List α
  | n, true :: m, x :: d => v.getD (n % v.length) x :: placeFrom v (n + 1) m d
  | n, false :: m, x :: d => x :: placeFrom v n m d
  | _, _, d => d

/-- `np.place(arr, mask, vals)` on numbers. -/
def placeNum (mask : List Bool) : Writer α := fun d v =>
  if mask.length ≠ d.length then .error .value
  else if v = [] ∧ true ∈ mask then .error .value
  else .ok (placeFrom v 0 mask d)

/-- `np.putmask(a, mask, values)` on numbers: element `i` gets `values[i % len(values)]`. -/
def putmaskNum (mask : List Bool) : Writer α := fun d v =>
  if mask.length ≠ d.length then .error .value
  else .ok (d.mapIdx (fun i x => if mask.getD i false then v.getD (i % v.length) x else x))

/-- The `mode` of `np.put`. -/
inductive PutMode
  | raise
  | wrap
  | clip
  deriving DecidableEq, Repr

/-- The position an index of `np.put` stands for in an array of length `n`. -/
def putIndex (mode : PutMode) (n : Nat) (i : Int) : Except Err Nat :=
  match mode with
  | .raise => if 0 ≤ i ∧ i < n then .ok i.toNat else if i < 0 ∧ -(n : Int) ≤ i then .ok (i + n).toNat else .error .index
  | .wrap => if n = 0 then .error .index else .ok (i % (n : Int)).toNat
  | .clip => if n = 0 then .error .index else .ok (min (max i 0) ((n : Int) - 1)).toNat

/-- Writing `vals[j % len(vals)]` to the `j`-th position, one after the other. -/
def putFrom (v : List α) : Nat → List Nat → List α → List α
  | _, [], d => d
  | j, i :: l, d => putFrom v (j + 1) l (match v[j % v.length]? with
    | some x => d.set i x
    | none => d)

/-- `np.put(a, ind, v, mode)` on numbers; an index out of range is found before anything is written (numpy writes up to the
first such index). -/
def putNum (mode : PutMode) (ind : List Int) : Writer α := fun d v =>
  match ind.mapM (putIndex mode d.length) with
  | .error e => .error e
  | .ok l => .ok (putFrom v 0 l d)

/-- `np.put_along_axis(arr, indices, values, 0)` on one-dimensional numbers. -/
def putAlongNum (ind : List Int) : Writer α := fun d v =>
  if v.length = ind.length ∨ v.length = 1 then putNum .raise ind d v else .error .value

/-- `np.fill_diagonal(a, val)` for a matrix with `n` columns, on its numbers row by row: every `(n + 1)`-th element up to
`n * n`. -/
def fillDiagonalNum (n : Nat) : Writer α := fun d v =>
  if v = [] then .error .value
  else .ok (putFrom v 0 (((List.range n).map (fun i => i * (n + 1))).filter (fun i => i < d.length)) d)

/-- `np.insert(arr, i, values)` on one-dimensional numbers. -/
def insertNum (i : Int) : Writer α := fun d v =>
  match (if 0 ≤ i ∧ i ≤ d.length then Except.ok i.toNat
    else if i < 0 ∧ -(d.length : Int) ≤ i then .ok (i + d.length).toNat else .error Err.index) with
  | .error e => .error e
  | .ok j => .ok (d.take j ++ v ++ d.drop j)

end numbers

/-- The part common to `copyto` (_array_functions.py:1793-1800), `place` (2010-2017), `put` (2023-2030), `put_along_axis`
(2036-2043), `putmask` (2049-2056) and `fill_diagonal` (1994-2000): the source is converted in place to the frame of the
destination. `strict` is `fill_diagonal`, which does not ask whether the source is a `cosmo_array`. -/
noncomputable def alignTo (strict : Bool) (dst src : Opd) : Except Err Opd :=
  let frame := match dst with
    | .plain _ => none
    | .cosmo d => d.comoving
  match frame, src with
  | none, s => .ok s
  | some true, .cosmo s => s.convertToComoving.map .cosmo
  | some false, .cosmo s => s.convertToPhysical.map .cosmo
  | some _, .plain v => if strict then .error .attribute else .ok (.plain v)

/-- New numbers in an operand. -/
def Opd.withVals (v : List ℝ) : Opd → Opd
  | .plain _ => .plain v
  | .cosmo x => .cosmo { x with val := v }

/-- `copyto`, `place`, `put`, `put_along_axis`, `putmask`, `fill_diagonal`, _array_functions.py:1787-1800, 1990-2000,
2006-2057: the frames and the factors are checked, the source is converted and unyt writes the numbers. Returns how the call
ended and both arrays afterwards; masks and indices have no cosmology attributes. `copyto` checks the factors only for two
`cosmo_array`s, which is what `preserve2` does. -/
noncomputable def writeInto (strict : Bool) (w : Writer ℝ) (dst src : Opd) : Except Err Unit × Opd × Opd :=
  match prepare true [dst, src] [] with
  | .error e => (.error e, dst, src)
  | .ok _ => match preserve2 dst.cf src.cf with
    | .error e => (.error e, dst, src)
    | .ok _ => match alignTo strict dst src with
      | .error e => (.error e, dst, src)
      | .ok s => match w dst.vals s.vals with
        | .error e => (.error e, dst, s)
        | .ok v => (.ok (), dst.withVals v, s)

/-- `np.insert(arr, i, values)`, _array_functions.py:1876-1881. -/
noncomputable def insert (i : Int) (x y : Opd) : Except Err Arr := wrap2 preserve2 (insertNum i) x y

/-- The step of `np.linspace`. -/
noncomputable def linspaceStep (n : Nat) (endpoint : Bool) (s e : ℝ) : ℝ := (e - s) / (if endpoint then (n : ℝ) - 1 else n)

/-- The numbers of `np.linspace(start, stop, num, endpoint)` for two numbers; numpy sets the last one to `stop`, which
changes nothing in exact arithmetic. -/
noncomputable def linspaceNum (n : Nat) (endpoint : Bool) : List ℝ → List ℝ → Except Err (List ℝ)
  | [s], [e] => .ok ((List.range n).map (fun (i : Nat) => s + i * linspaceStep n endpoint s e))
  | _, _ => .error .notImpl

/-- `np.linspace`, _array_functions.py:1734-1761. -/
noncomputable def linspace (n : Nat) (endpoint : Bool) (x y : Opd) : Except Err Arr :=
  wrap2 preserve2 (linspaceNum n endpoint) x y

/-- The second result of `np.linspace(..., retstep=True)`. -/
noncomputable def linspaceRet (n : Nat) (endpoint : Bool) (x y : Opd) : Except Err Arr :=
  wrap2 preserve2 (fun u v => match u, v with
    | [s], [e] => .ok [linspaceStep n endpoint s e]
    | _, _ => .error .notImpl) x y

/-- `np.logspace(start, stop, num=1, base=b)` for bare exponents, _array_functions.py:1764-1779: the factor of the base is
kept. -/
noncomputable def logspaceOne (start : ℝ) (b : Arr) : Except Err Arr :=
  match prepare true [.plain [start]] [.cosmo b] with
  | .error e => .error e
  | .ok p => match p.kw with
    | [y] => .ok { val := y.vals.map (fun v => v ^ start), comoving := p.comoving, cf := b.cf, vt := p.vt }
    | _ => .error .runtime

/-- The trapezium rule. -/
noncomputable def trapz : List ℝ → List ℝ → ℝ
  | y :: y' :: l, x :: x' :: m => (x' - x) * (y + y') / 2 + trapz (y' :: l) (x' :: m)
  | _, _ => 0

/-- `np.trapezoid(y, x)`, _array_functions.py:2238-2250. -/
noncomputable def trapezoid (y : Arr) (x : Opd) : Except Err Arr :=
  match prepare true [.cosmo y] [x] with
  | .error e => .error e
  | .ok p => match mul2 y.cf x.cf with
    | .error e => .error e
    | .ok c => match p.args, p.kw with
      | [u], [v] =>
        if u.vals.length ≠ v.vals.length then .error .value
        else .ok { val := [trapz u.vals v.vals], comoving := p.comoving, cf := c, vt := p.vt }
      | _, _ => .error .runtime

/-- `_divide_cosmo_factor(cf_b, cf_a)`, _array_functions.py:576-597, with the arguments of `solve`. -/
noncomputable def divInto (ca cb : Option CF) : Except Err (Option CF) :=
  match recip ca with
  | .error e => .error e
  | .ok d => mul2 cb d

/-- `np.linalg.solve` and `tensorsolve`, _array_functions.py:1899-1913, with numpy's solver as a parameter. -/
noncomputable def solve (f : List ℝ → List ℝ → Except Err (List ℝ)) (x y : Opd) : Except Err Arr := wrap2 divInto f x y

/-- `np.linalg.lstsq`, _array_functions.py:1884-1898: solution, residual and singular values (the rank is a number). -/
noncomputable def lstsq (sol res sing : List ℝ → List ℝ → Except Err (List ℝ)) (x y : Opd) :
    Except Err (Arr × Arr × Arr) :=
  match wrap2 divInto sol x y with
  | .error e => .error e
  | .ok z => match wrap2 (fun _ cb => powerCF cb none 2) res x y with
    | .error e => .error e
    | .ok r => match wrap2 (fun ca _ => .ok ca) sing x y with
      | .error e => .error e
      | .ok s => .ok (z, r, s)

/-- `np.linalg.eig` and `eigh`, _array_functions.py:1915-1929: the eigenvalues keep the factor, the eigenvectors are returned
as they are. -/
noncomputable def eig (vals vecs : List ℝ → List ℝ) (x : Arr) : Except Err (Arr × List ℝ) :=
  match prepare true [.cosmo x] [] with
  | .error e => .error e
  | .ok p => match p.args with
    | [y] => .ok ({ val := vals y.vals, comoving := p.comoving, cf := x.cf, vt := p.vt }, vecs y.vals)
    | _ => .error .runtime

/-- `np.pad(x, (0, 1), constant_values=c)`, _array_functions.py:1857-1864: the factor of `c` is not looked at. -/
noncomputable def padOne (x c : Arr) : Except Err Arr :=
  match prepare true [.cosmo x] [.cosmo c] with
  | .error e => .error e
  | .ok p => match p.args, p.kw with
    | [u], [v] => .ok { val := u.vals ++ v.vals, comoving := p.comoving, cf := x.cf, vt := p.vt }
    | _, _ => .error .runtime

/-- `np.meshgrid(x, y)`, _array_functions.py:2310-2322, rows first: each result gets the attributes of its own argument. -/
def meshgrid (x y : Arr) : Arr × Arr :=
  (propagate (fun l => (List.replicate y.val.length l).flatten) x,
   propagate (fun l => (l.map (fun v => List.replicate x.val.length v)).flatten) y)

/-- What `np.block` returns: the `cosmo_factor` is a list. -/
structure BlockArr where
  val : List ℝ
  comoving : Option Bool
  cf : List (Option CF)
  vt : Bool

/-- The comparison of two one-element lists of factors, `cf != ret_cf`; `None` and a factor cannot be compared. -/
noncomputable def sameList (f g : Option CF) : Except Err Bool :=
  match f, g with
  | none, none => .ok true
  | some f, some g => .ok (decide (f.same g))
  | _, _ => .error .value

/-- `cm` in `_prepare_array_block_args`, the `comoving` of `_prepare_array_func_args` of one argument. -/
def Opd.frame : Opd → Option Bool
  | .plain _ => none
  | .cosmo x => x.comoving

/-- The loop that compares the factors, _array_functions.py:1655-1658. -/
noncomputable def checkFactors (f : Option CF) : List (Option CF) → Except Err Unit
  | [] => .ok ()
  | g :: l => match sameList g f with
    | .ok true => checkFactors f l
    | .ok false => .error .value
    | .error e => .error e

/-- `_recursive_to_comoving`, _array_functions.py:1586-1607, on one row. -/
noncomputable def rowToComoving : List Opd → Except Err (List Opd)
  | [] => .ok []
  | .plain _ :: _ => .error .attribute
  | .cosmo x :: l => match x.toComoving with
    | .error e => .error e
    | .ok y => (rowToComoving l).map (fun r => .cosmo y :: r)

/-- `np.block([x, y, ...])`, _array_functions.py:1610-1685, for one row of one-dimensional arrays. `cfs` holds one *list* of
factors per block and the result gets the first of these lists. -/
noncomputable def block (ops : List Opd) : Except Err BlockArr :=
  match ops with
  | [] => .error .index
  | o :: l =>
    let cms := (o :: l).map Opd.frame
    let done (r : List Opd) (c : Option Bool) : Except Err BlockArr :=
      match checkFactors o.cf (l.map Opd.cf) with
      | .error e => .error e
      | .ok _ => .ok { val := (r.map Opd.vals).flatten, comoving := c, cf := [o.cf], vt := ((o :: l).map Opd.vt).all id }
    if ∀ c ∈ cms, c = some true then done (o :: l) (some true)
    else if ∀ c ∈ cms, c = none then done (o :: l) none
    else if ∃ c ∈ cms, c = none then .error .value
    else if ∀ c ∈ cms, c = some false then done (o :: l) (some false)
    else match rowToComoving (o :: l) with
      | .error e => .error e
      | .ok r => done r (some true)

/-- `convert_to_physical`, objects.py:1458-1505, when `cosmo_factor` is a list: it has no `a_factor`. -/
def BlockArr.convertToPhysical (x : BlockArr) : Except Err BlockArr :=
  match x.comoving with
  | none => .error .invalidConversion
  | some false => .ok x
  | some true => .error .attribute

/-- `convert_to_comoving`, objects.py:1410-1456, when `cosmo_factor` is a list. -/
def BlockArr.convertToComoving (x : BlockArr) : Except Err BlockArr :=
  if x.comoving = some true then .ok x
  else if x.vt = false ∨ x.comoving = none then .error .invalidConversion
  else .error .attribute

/-- `np.choose(a, [x])` where the index is always 0, _array_functions.py:1867-1873: the attributes come from the bare index
and the list, which have none. -/
noncomputable def chooseFirst (x : Arr) : Except Err Arr :=
  match prepare true [.cosmo x] [] with
  | .error e => .error e
  | .ok _ => .ok { val := x.val, comoving := none, cf := x.cf, vt := true }

/-- The bin of a number: the last edge belongs to the last bin. -/
noncomputable def binOf (x : ℝ) : List ℝ → Option Nat
  | [e, f] => if e ≤ x ∧ x ≤ f then some 0 else none
  | e :: f :: g :: l => if e ≤ x ∧ x < f then some 0 else (binOf x (f :: g :: l)).map (· + 1)
  | _ => none

/-- The weight in the cell `c` of a histogram of several dimensions; a dimension is a sample and its edges. -/
noncomputable def cellCount (dims : List (List ℝ × List ℝ)) (ws : List ℝ) (c : List Nat) : ℝ :=
  (ws.mapIdx (fun n w => if dims.map (fun q => q.1[n]?.bind (fun x => binOf x q.2)) = c.map some then w else 0)).sum

/-- `_prepare_array_func_args(s, bins=b, range=None)` for every dimension, _array_functions.py:1494-1497. -/
noncomputable def prepareDims : List (Arr × Arr) → Except Err (List Prepared)
  | [] => .ok []
  | q :: l => match prepare true [.cosmo q.1] [.cosmo q.2] with
    | .error e => .error e
    | .ok p => (prepareDims l).map (fun r => p :: r)

/-- The sample and the edges of one dimension as unyt gets them. -/
def Prepared.dim (p : Prepared) : List ℝ × List ℝ :=
  ((p.args.map Opd.vals).flatten, (p.kw.map Opd.vals).flatten)

/-- `np.histogramdd(sample, bins, weights=w)` with explicit edges, _array_functions.py:1475-1529 and 1560-1566: the weights
are handled by themselves; `cells` are the cells asked for. -/
noncomputable def histogramdd (dims : List (Arr × Arr)) (w : Arr) (cells : List (List Nat)) : Except Err (Arr × List Arr) :=
  match prepareDims dims with
  | .error e => .error e
  | .ok ps => match prepare true [] [.cosmo w] with
    | .error e => .error e
    | .ok pw =>
      .ok ({ val := cells.map (fun c => cellCount (ps.map Prepared.dim) ((pw.kw.map Opd.vals).flatten) c),
             comoving := pw.comoving, cf := w.cf, vt := pw.vt },
           (ps.zip dims).map (fun q => { val := q.1.dim.2, comoving := q.1.comoving, cf := q.2.1.cf, vt := q.1.vt }))

/-- The edges returned by `np.histogramdd(sample, bins, density=True)`, _array_functions.py:1530-1566: all are labelled with
the factor of the first sample. Their numbers are those given: `bins` is a list and is not converted. -/
noncomputable def histogramddDensityEdges (dims : List (Arr × Arr)) : Except Err (List Arr) :=
  match prepareDims dims with
  | .error e => .error e
  | .ok ps => match dims with
    | [] => .ok []
    | d :: _ => match prepare true (dims.map (fun q => Opd.cosmo q.1)) [] with
      | .error e => .error e
      | .ok _ => .ok ((ps.zip dims).map (fun q =>
          { val := q.2.2.val, comoving := q.1.comoving, cf := d.1.cf, vt := q.1.vt }))

/-- The sum of a matrix over an axis. -/
noncomputable def sumMatrix (rows : List (List ℝ)) : Nat → Except Err (List ℝ)
  | 0 => .ok (rows.foldr (List.zipWith (· + ·)) ((rows.headD []).map (fun _ => 0)))
  | 1 => .ok (rows.map List.sum)
  | _ => .error .index

/-- The sum of a vector over an axis. -/
noncomputable def sumVector (l : List ℝ) : Nat → Except Err ℝ
  | 0 => .ok l.sum
  | _ => .error .index

/-- `np.apply_over_axes(np.sum, m, [i, j])` for a matrix, _array_functions.py:1978-1987: the result of the first sum has one
axis less, and the second axis is counted in it. -/
noncomputable def applyOverAxes (rows : List (List ℝ)) (i j : Nat) : Except Err ℝ :=
  match sumMatrix rows i with
  | .error e => .error e
  | .ok r => sumVector r j

end Verif.Cosmo
