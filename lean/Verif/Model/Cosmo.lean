import Mathlib.Analysis.SpecialFunctions.Pow.Real
import Verif.Model.Basic

/-!
# Model of `cosmo_factor`, `cosmo_array` (swiftsimio/objects.py) and the wrappers of `swiftsimio/_array_functions.py`

Values are real numbers (floats without rounding), arrays are one-dimensional lists. Units are handled by unyt and are not
modelled: all operands are in the same unit system. A scale-factor expression is a power `a**k`, which is what
`cosmo_factor.create` makes; its exponent is a real number. Warnings are not modelled. Expressions as
sympy keeps them are in `Model/Powers.lean` (C104), the `compression` attribute is in `Model/Compression.lean` (C103).
-/

namespace Verif.Cosmo
open Verif

/-- `cosmo_factor`, objects.py:238-292: `expr = a**k` or `None`, and the scale factor or `None`. -/
@[ext] structure CF where
  expr : Option ℝ
  sf : Option ℝ

/-- `NULL_CF`, objects.py:839. -/
def CF.null : CF := ⟨none, none⟩

/-- `cosmo_factor.create`, objects.py:294-315. -/
def CF.create (a k : ℝ) : CF := ⟨some k, some a⟩

/-- `a_factor`, objects.py:330-343. -/
noncomputable def CF.aFactor (f : CF) : Option ℝ :=
  match f.expr, f.sf with
  | some k, some a => some (a ^ k)
  | _, _ => none

/-- `redshift`, objects.py:346-360. -/
noncomputable def CF.redshift (f : CF) : Option ℝ := f.sf.map (fun a => 1 / a - 1)

/-- `__add__` and `__sub__`, objects.py:362-441. -/
noncomputable def CF.add (f g : CF) : Except Err CF :=
  if f.sf ≠ g.sf then .error .invalidScaleFactor
  else if f.expr ≠ g.expr then .error .invalidScaleFactor
  else .ok f

/-- `__mul__`, objects.py:443-488. -/
noncomputable def CF.mul (f g : CF) : Except Err CF :=
  if f.sf ≠ g.sf then .error .invalidScaleFactor
  else match f.expr, g.expr with
    | some k, some l => .ok ⟨some (k + l), f.sf⟩
    | none, none => .ok ⟨none, f.sf⟩
    | _, _ => .error .invalidScaleFactor

/-- `__truediv__`, objects.py:490-532. -/
noncomputable def CF.div (f g : CF) : Except Err CF :=
  if f.sf ≠ g.sf then .error .invalidScaleFactor
  else match f.expr, g.expr with
    | some k, some l => .ok ⟨some (k - l), f.sf⟩
    | none, none => .ok ⟨none, f.sf⟩
    | _, _ => .error .invalidScaleFactor

/-- `__pow__`, objects.py:636-652. -/
noncomputable def CF.pow (f : CF) (p : ℝ) : CF := ⟨f.expr.map (fun k => k * p), f.sf⟩

/-- `np.isclose(x, y, rtol=1e-6)` with the default `atol=1e-8`. -/
def isclose (x y : ℝ) : Prop := |x - y| ≤ 1e-8 + 1e-6 * |y|

/-- `__eq__`, objects.py:758-797. -/
def CF.same (f g : CF) : Prop :=
  f.sf = g.sf ∧
  match f.aFactor, g.aFactor with
  | none, none => True
  | some x, some y => isclose x y
  | _, _ => False

noncomputable instance (f g : CF) : Decidable (CF.same f g) := Classical.propDecidable _

/-- A `cosmo_array` or `cosmo_quantity`: values, `comoving`, `cosmo_factor` (can be `None`) and `valid_transform`. -/
@[ext] structure Arr where
  val : List ℝ
  comoving : Option Bool
  cf : Option CF
  vt : Bool

/-- An operand of a numpy function: something without the cosmology attributes, or a `cosmo_array`. -/
inductive Opd
  | plain (v : List ℝ)
  | cosmo (x : Arr)

/-- `self.cosmo_factor.a_factor` as it is used to rescale values: attribute of `None`, and arithmetic with `None`. -/
noncomputable def Arr.factor (x : Arr) : Except Err ℝ :=
  match x.cf with
  | none => .error .attribute
  | some f => match f.aFactor with
    | none => .error .typeErr
    | some r => .ok r

/-- `convert_to_comoving`, objects.py:1410-1456 (without `units`). -/
noncomputable def Arr.convertToComoving (x : Arr) : Except Err Arr :=
  if x.comoving = some true then .ok x
  else if x.vt = false ∨ x.comoving = none then .error .invalidConversion
  else match x.factor with
    | .error e => .error e
    | .ok r => .ok { x with val := x.val.map (fun v => v / r), comoving := some true }

/-- `convert_to_physical`, objects.py:1458-1505 (without `units`). -/
noncomputable def Arr.convertToPhysical (x : Arr) : Except Err Arr :=
  match x.comoving with
  | none => .error .invalidConversion
  | some false => .ok x
  | some true => match x.factor with
    | .error e => .error e
    | .ok r => .ok { x with val := x.val.map (fun v => v * r), comoving := some false }

/-- `to_physical`, objects.py:1507-1547. -/
noncomputable def Arr.toPhysical (x : Arr) : Except Err Arr :=
  if x.vt = false ∧ x.comoving = some true then .error .invalidConversion else x.convertToPhysical

/-- `to_comoving`, objects.py:1549-1589. -/
noncomputable def Arr.toComoving (x : Arr) : Except Err Arr :=
  if x.vt = false ∧ x.comoving ≠ some false then .error .invalidConversion else x.convertToComoving

/-- `to(comoving=c)`, objects.py:1591-1676 (without `units`). -/
noncomputable def Arr.toFrame (x : Arr) (c : Option Bool) : Except Err Arr :=
  if c ≠ none ∧ x.vt = false ∧ c ≠ x.comoving then .error .invalidConversion
  else match c with
    | some true => x.convertToComoving
    | some false => x.convertToPhysical
    | none => .ok x

/-- `_verify_valid_transform_validity`, objects.py:139-165. -/
def Arr.verify (x : Arr) : Except Err Arr :=
  if x.comoving = none ∧ x.vt = true then .error .invalidConversion
  else if x.vt = false ∧ x.comoving = some true then .error .invalidConversion
  else .ok x

/-- The numbers in an operand. -/
def Opd.vals : Opd → List ℝ
  | .plain v => v
  | .cosmo x => x.val

/-- `getattr(arg, "cosmo_factor", None)`. -/
def Opd.cf : Opd → Option CF
  | .plain _ => none
  | .cosmo x => x.cf

/-- `getattr(arg, "valid_transform", True)`. -/
def Opd.vt : Opd → Bool
  | .plain _ => true
  | .cosmo x => x.vt

/-- The `comoving` of the arguments that have the attribute. -/
def flags : List Opd → List (Option Bool)
  | [] => []
  | .plain _ :: l => flags l
  | .cosmo x :: l => x.comoving :: flags l

/-- `[arg.to_comoving() if cm[0] and not cm[1] else arg for ...]`, _array_functions.py:939-946. -/
noncomputable def allToComoving : List Opd → Except Err (List Opd)
  | [] => .ok []
  | .plain v :: l => (allToComoving l).map (fun r => .plain v :: r)
  | .cosmo x :: l =>
    if x.comoving = some true then (allToComoving l).map (fun r => .cosmo x :: r)
    else match x.toComoving with
      | .error e => .error e
      | .ok y => (allToComoving l).map (fun r => .cosmo y :: r)

/-- `[arg.to_physical() if cm[0] and not cm[1] else arg for ...]`, _array_functions.py:949-956: it is the arguments that
are *not* comoving that are converted. -/
noncomputable def allToPhysical : List Opd → Except Err (List Opd)
  | [] => .ok []
  | .plain v :: l => (allToPhysical l).map (fun r => .plain v :: r)
  | .cosmo x :: l =>
    if x.comoving = some true then (allToPhysical l).map (fun r => .cosmo x :: r)
    else match x.toPhysical with
      | .error e => .error e
      | .ok y => (allToPhysical l).map (fun r => .cosmo y :: r)

/-- Some argument is a `cosmo_array` with `valid_transform` False, _array_functions.py:932-937. -/
def anyFixed : List Opd → Bool
  | [] => false
  | .plain _ :: l => anyFixed l
  | .cosmo x :: l => !x.vt || anyFixed l

/-- What `_prepare_array_func_args` returns. -/
structure Prepared where
  args : List Opd
  kw : List Opd
  cfs : List (Option CF)
  kwcfs : List (Option CF)
  comoving : Option Bool
  vt : Bool

/-- `_prepare_array_func_args`, _array_functions.py:846-977; `kw` are the keyword arguments. -/
noncomputable def prepare (defaultCm : Bool) (args kw : List Opd) : Except Err Prepared :=
  let cms := flags args ++ flags kw
  let done (a k : List Opd) (c : Option Bool) : Prepared :=
    { args := a, kw := k, cfs := args.map Opd.cf, kwcfs := kw.map Opd.cf, comoving := c,
      vt := (args.map Opd.vt ++ kw.map Opd.vt).all id }
  if cms = [] then .ok (done args kw none)
  else if ∀ c ∈ cms, c = some true then .ok (done args kw (some true))
  else if ∀ c ∈ cms, c = none then .ok (done args kw none)
  else if ∃ c ∈ cms, c = none then .error .value
  else if ∀ c ∈ cms, c = some false then .ok (done args kw (some false))
  else if defaultCm = true ∧ anyFixed args = false then
    match allToComoving args, allToComoving kw with
    | .ok a, .ok k => .ok (done a k (some true))
    | .error e, _ => .error e
    | _, .error e => .error e
  else
    match allToPhysical args, allToPhysical kw with
    | .ok a, .ok k => .ok (done a k (some false))
    | .error e, _ => .error e
    | _, .error e => .error e

/-- `functools.reduce` without an initial value. -/
def reduce1 {α : Type} (f : α → α → Except Err α) : List α → Except Err α
  | [] => .error .typeErr
  | x :: l => l.foldlM f x

/-- `__binary_multiply_cosmo_factor`, _array_functions.py:355-391. -/
noncomputable def mul2 (c1 c2 : Option CF) : Except Err (Option CF) :=
  match c1, c2 with
  | none, none => .ok none
  | none, some g => .ok (some g)
  | some f, none => .ok (some f)
  | some f, some g => (f.mul g).map some

/-- `__binary_preserve_cosmo_factor`, _array_functions.py:420-475. -/
noncomputable def preserve2 (c1 c2 : Option CF) : Except Err (Option CF) :=
  match c1, c2 with
  | none, none => .ok none
  | some f, none => .ok (some f)
  | none, some g => .ok (some g)
  | some f, some g => if f.same g then .ok (some f) else .error .value

/-- `_power_cosmo_factor` with a number as the power, _array_functions.py:478-529: the factor of the exponent, if it has
one, must have the value 1. -/
noncomputable def powerCF (c1 c2 : Option CF) (p : ℝ) : Except Err (Option CF) :=
  match c2.bind CF.aFactor with
  | some r => if r = 1 then .ok (c1.map (fun f => f.pow p)) else .error .value
  | none => .ok (c1.map (fun f => f.pow p))

/-- `_return_without_cosmo_factor` with two arguments, _array_functions.py:665-740; comparison with zero only silences a
warning (793-843). -/
noncomputable def without2 (c1 c2 : Option CF) : Except Err (Option CF) :=
  match c1, c2 with
  | some f, some g => if f.same g then .ok none else .error .value
  | _, _ => .ok none

/-- `_arctan2_cosmo_factor`, _array_functions.py:743-790. -/
noncomputable def arctan2CF (c1 c2 : Option CF) : Except Err (Option CF) :=
  match c1, c2 with
  | none, none => .ok none
  | none, some g => .ok (some ⟨some 0, g.sf⟩)
  | some f, none => .ok (some ⟨some 0, f.sf⟩)
  | some f, some g => if f.same g then .ok (some ⟨some 0, f.sf⟩) else .error .value

/-- `_passthrough_cosmo_factor`, _array_functions.py:623-662. Comparing `None` with a factor raises ValueError
(`cosmo_factor.__eq__`). -/
noncomputable def passthrough2 (c1 c2 : Option CF) : Except Err (Option CF) :=
  match c1, c2 with
  | c, none => .ok c
  | none, some _ => .error .value
  | some f, some g => if f.same g then .ok (some f) else .error .value

/-- The functions that compute the factor of a result. -/
inductive Handler
  | preserve
  | multiply
  | divide
  | passthrough
  | power
  | sqrt
  | square
  | cbrt
  | reciprocal
  | without
  | arctan2
  | comparison
  deriving DecidableEq, Repr

/-- The handlers applied to the factors of the arguments; `inputs` is used for the exponent of `power`, which must be a
single number here (numpy would make an array of factors from an array exponent). -/
noncomputable def handle (h : Handler) (cfs : List (Option CF)) (inputs : List Opd) : Except Err (Option CF) :=
  match h, cfs with
  | .preserve, l => reduce1 preserve2 l
  | .multiply, l => reduce1 mul2 l
  | .divide, [c, d] => match powerCF d none (-1) with
    | .ok d' => mul2 c d'
    | .error e => .error e
  | .passthrough, [c] => .ok c
  | .passthrough, [c, d] => passthrough2 c d
  | .power, [c, d] => match inputs with
    | [_, y] => match y.vals with
      | [p] => powerCF c d p
      | _ => .error .notImpl
    | _ => .error .value
  | .sqrt, [c] => powerCF c none (1 / 2)
  | .square, [c] => powerCF c none 2
  | .cbrt, [c] => powerCF c none (1 / 3)
  | .reciprocal, [c] => powerCF c none (-1)
  | .without, [_] => .ok none
  | .without, [c, d] => without2 c d
  | .arctan2, [c, d] => arctan2CF c d
  | .comparison, [c, d] => without2 c d
  | _, _ => .error .typeErr

/-- The ufuncs of `_cosmo_factor_ufunc_registry`, objects.py:982-1071. -/
inductive Ufunc
  | add | subtract | multiply | divide | logaddexp | logaddexp2 | floorDivide | negative | power | remainder | fmod
  | absolute | fabs | rint | sign | conj | exp | exp2 | log | log2 | log10 | expm1 | log1p | sqrt | square | cbrt
  | reciprocal | sin | cos | tan | sinh | cosh | tanh | arcsin | arccos | arctan | arctan2 | arcsinh | arccosh | arctanh
  | hypot | deg2rad | rad2deg | greater | greaterEqual | less | lessEqual | notEqual | equal | logicalAnd | logicalOr
  | logicalXor | logicalNot | maximum | minimum | fmax | fmin | isreal | iscomplex | isfinite | isinf | isnan | signbit
  | copysign | nextafter | modf | frexp | floor | ceil | trunc | spacing | positive | divmod | isnat | heaviside
  | onesLike | matmul | clip | vecdot
  deriving DecidableEq, Repr

/-- `_cosmo_factor_ufunc_registry`, objects.py:982-1071 (`true_divide` is `divide`, `mod` is `remainder`). -/
def registry : Ufunc → Handler
  | .add | .subtract | .remainder | .fmod | .hypot | .fmax | .fmin | .nextafter | .heaviside | .onesLike => .preserve
  | .multiply | .matmul | .vecdot => .multiply
  | .divide | .floorDivide => .divide
  | .power => .power
  | .sqrt => .sqrt
  | .square => .square
  | .cbrt => .cbrt
  | .reciprocal => .reciprocal
  | .arctan2 => .arctan2
  | .greater | .greaterEqual | .less | .lessEqual | .notEqual | .equal | .logicalAnd | .logicalOr | .logicalXor =>
    .comparison
  | .negative | .absolute | .fabs | .conj | .maximum | .minimum | .copysign | .modf | .floor | .ceil | .trunc | .spacing
  | .positive | .divmod | .clip => .passthrough
  | _ => .without

/-- `__array_ufunc__` with method `__call__`, objects.py:2152-2244: the arguments are brought to one frame, the factor is
computed, unyt/numpy evaluate the numbers (`num`) and the attributes are attached. -/
noncomputable def ufunc (u : Ufunc) (num : List (List ℝ) → Except Err (List ℝ)) (args : List Opd) : Except Err Arr :=
  match prepare true args [] with
  | .error e => .error e
  | .ok p => match handle (registry u) p.cfs args with
    | .error e => .error e
    | .ok c => match num (p.args.map Opd.vals) with
      | .error e => .error e
      | .ok v => .ok { val := v, comoving := p.comoving, cf := c, vt := p.vt }

/-- The same for ufuncs that return booleans, which carry no attributes. -/
noncomputable def ufuncBool {β : Type} (u : Ufunc) (num : List (List ℝ) → Except Err (List β)) (args : List Opd) :
    Except Err (List β) :=
  match prepare true args [] with
  | .error e => .error e
  | .ok p => match handle (registry u) p.cfs args with
    | .error e => .error e
    | .ok _ => num (p.args.map Opd.vals)

/-- Evaluation of a two-argument function on one-dimensional arrays with numpy broadcasting. -/
def bcast2 {β : Type} (f : ℝ → ℝ → β) (xs ys : List ℝ) : Except Err (List β) :=
  if xs.length = ys.length then .ok (List.zipWith f xs ys)
  else match xs, ys with
    | [x], ys => .ok (ys.map (fun y => f x y))
    | xs, [y] => .ok (xs.map (fun x => f x y))
    | _, _ => .error .value

/-- Numbers for a ufunc of one argument. -/
def num1 {β : Type} (f : ℝ → β) : List (List ℝ) → Except Err (List β)
  | [xs] => .ok (xs.map f)
  | _ => .error .typeErr

/-- Numbers for a ufunc of two arguments. -/
def num2 {β : Type} (f : ℝ → ℝ → β) : List (List ℝ) → Except Err (List β)
  | [xs, ys] => bcast2 f xs ys
  | _ => .error .typeErr

/-- `_default_oplist_wrapper`, _array_functions.py:1224-1274 (`concatenate`, `stack`, `hstack`, ...): only the factor of
the first element is used. -/
noncomputable def oplist (num : List (List ℝ) → Except Err (List ℝ)) (ops : List Opd) : Except Err Arr :=
  match prepare true ops [] with
  | .error e => .error e
  | .ok p => match reduce1 preserve2 (p.cfs.take 1) with
    | .error e => .error e
    | .ok c => match num (p.args.map Opd.vals) with
      | .error e => .error e
      | .ok v => .ok { val := v, comoving := p.comoving, cf := c, vt := p.vt }

/-- `cosmo_array(list, comoving=cm, cosmo_factor=cf, valid_transform=vt)` for a list of arrays or quantities,
objects.py:1211-1282. -/
noncomputable def newFromList (ops : List Opd) (cm : Option Bool) (cf : Option CF) (vt : Bool) : Except Err Arr :=
  match prepare (cm.getD true) ops [] with
  | .error e => .error e
  | .ok p =>
    let comoving := match cm with
      | none => p.comoving
      | some c => some c
    let factor := match cf with
      | some f => Except.ok (some f)
      | none => if p.cfs = [] then .ok none else reduce1 preserve2 p.cfs
    match factor with
    | .error e => .error e
    | .ok c => Arr.verify
        { val := (p.args.map Opd.vals).flatten, comoving := comoving, cf := some (c.getD CF.null),
          vt := if comoving ≠ none then vt else cm.isSome }

/-- `cosmo_array(x, comoving=cm, valid_transform=vt)` for a `cosmo_array` `x` without new factor arguments,
objects.py:1161-1209. The default of `valid_transform` is True. Comparing a factor that is `None` with `NULL_CF` raises. -/
noncomputable def newFromArr (x : Arr) (cm : Option Bool) (vt : Bool) : Except Err Arr :=
  if x.cf.isNone then .error .value else
  let converted := match cm with
    | some true => x.convertToComoving
    | some false => x.convertToPhysical
    | none => .ok x
  match converted with
  | .error e => .error e
  | .ok y => Arr.verify { y with vt := vt }

end Verif.Cosmo
