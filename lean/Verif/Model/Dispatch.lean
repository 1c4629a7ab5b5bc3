import Verif.Model.Basic

/-!
# Model of which function numpy calls, and of the class of what comes back

`cosmo_array.__array_function__` (swiftsimio/objects.py:2246-2309), the registry of `swiftsimio/_array_functions.py`
(980-1015) and the helpers that turn a result into a `cosmo_array` or a `cosmo_quantity` (131-305, 1018-1060).

numpy's part (the order in which the arguments are asked, `ndarray.__array_function__`) follows NEP 18. unyt's own
`__array_function__` is not in the repository: it is modelled as the method of objects.py with `unyt_array` for
`cosmo_array` and without the package's table, which is what objects.py:2278-2301 says it copies.
-/

namespace Verif.Dispatch
open Verif

/-- The classes that matter: `unyt_quantity` and `cosmo_array` derive from `unyt_array`, which derives from `ndarray`;
`cosmo_quantity` derives from `cosmo_array` and `unyt_quantity` (objects.py:908, 2369). `foreign n` is an unrelated class with
its own `__array_function__`. -/
inductive Cls where
  | ndarray | unytArray | unytQuantity | cosmoArray | cosmoQuantity
  | foreign (n : Nat)
deriving DecidableEq, Repr

/-- `issubclass(c, d)`. -/
def sub : Cls → Cls → Bool
  | .foreign n, .foreign m => n == m
  | .foreign _, _ => false
  | _, .foreign _ => false
  | _, .ndarray => true
  | .ndarray, _ => false
  | _, .unytArray => true
  | .unytArray, _ => false
  | .cosmoQuantity, _ => true
  | c, d => c == d

/-- What the three tables say about a function: unyt's list of functions it does not support, the package's table
`_HANDLED_FUNCTIONS` and unyt's. -/
structure Fn where
  unsupported : Bool
  package : Bool
  unyt : Bool
deriving DecidableEq, Repr

/-- Whose code runs. -/
inductive Impl where
  | package | unyt | numpy
  | foreign (n : Nat)
deriving DecidableEq, Repr

/-- `cosmo_array.__array_function__`, objects.py:2246-2309; `none` is `NotImplemented`. -/
def cosmoAF (f : Fn) (types : List Cls) : Option Impl :=
  if f.unsupported then none
  else if !(types.all (fun t => sub t .cosmoArray || t == .ndarray)) then none
  else if f.package then some .package
  else if f.unyt then some .unyt
  else some .numpy

/-- `unyt_array.__array_function__`. -/
def unytAF (f : Fn) (types : List Cls) : Option Impl :=
  if f.unsupported then none
  else if !(types.all (fun t => sub t .unytArray || t == .ndarray)) then none
  else if f.unyt then some .unyt
  else some .numpy

/-- `ndarray.__array_function__`: numpy's implementation if every class derives from `ndarray`. -/
def ndarrayAF (types : List Cls) : Option Impl :=
  if types.all (fun t => sub t .ndarray) then some .numpy else none

/-- The method of a class. `other n` says whether the class `foreign n` accepts the call. -/
def method (f : Fn) (other : Nat → List Cls → Bool) (types : List Cls) : Cls → Option Impl
  | .ndarray => ndarrayAF types
  | .unytArray => unytAF f types
  | .unytQuantity => unytAF f types
  | .cosmoArray => cosmoAF f types
  | .cosmoQuantity => cosmoAF f types
  | .foreign n => if other n types then some (.foreign n) else none

/-- One class is put before the first class it derives from, otherwise at the end (NEP 18). -/
def insert (c : Cls) : List Cls → List Cls
  | [] => [c]
  | d :: l => if sub c d then c :: d :: l else d :: insert c l

/-- The classes of the arguments, each once, in the order in which they are asked. -/
def collectFrom (acc : List Cls) : List Cls → List Cls
  | [] => acc
  | c :: l => collectFrom (if c ∈ acc then acc else insert c acc) l

def collect (args : List Cls) : List Cls := collectFrom [] args

/-- The first answer that is not `NotImplemented`; `TypeError` if there is none. -/
def ask (f : Fn) (other : Nat → List Cls → Bool) (types : List Cls) : List Cls → Except Err Impl
  | [] => .error .typeErr
  | c :: l => match method f other types c with
    | some i => .ok i
    | none => ask f other types l

/-- A call of a numpy function whose relevant arguments have the classes `args` (arguments without `__array_function__`,
such as Python numbers, do not count). -/
def call (f : Fn) (other : Nat → List Cls → Bool) (args : List Cls) : Except Err Impl :=
  if args.isEmpty then .ok .numpy else ask f other (collect args) (collect args)

/-! ## The registry -/

/-- `implements(numpy_function)(func)`, _array_functions.py:980-1015: an entry of a dictionary. -/
def implements {N F : Type} [DecidableEq N] (table : N → Option F) (name : N) (func : F) : N → Option F :=
  fun n => if n = name then some func else table n

/-- The registrations of a module, in order. -/
def registered {N F : Type} [DecidableEq N] (l : List (N × F)) : N → Option F :=
  l.foldl (fun t e => implements t e.1 e.2) (fun _ => none)

/-! ## Classes of results -/

/-- An array object: `V` its data, `A` the attributes of the package (`cosmo_factor`, `comoving`, `valid_transform`,
`compression`), which mean something only for the two classes of the package. -/
structure Obj (V A : Type) where
  cls : Cls
  shape : List Nat
  val : V
  attrs : A
deriving DecidableEq, Repr

/-- What a function returns: an array, a tuple, or something else. -/
inductive Res (V A : Type) where
  | arr (o : Obj V A)
  | other
  | tup (l : List (Res V A))

/-- `isinstance(o, cosmo_array)`. -/
def Obj.isCosmo {V A : Type} (o : Obj V A) : Bool := sub o.cls .cosmoArray

/-- `o.view(c)` for `c` of the package: `__array_finalize__`, objects.py:1284-1299, takes the attributes over if there are
any and sets the defaults `null` otherwise. -/
def view {V A : Type} (null : A) (c : Cls) (o : Obj V A) : Obj V A :=
  { o with cls := c, attrs := if o.isCosmo then o.attrs else null }

/-- `_promote_unyt_to_cosmo`, _array_functions.py:205-230, of an array. -/
def promoteObj {V A : Type} (null : A) (o : Obj V A) : Obj V A :=
  if sub o.cls .unytQuantity && !(sub o.cls .cosmoQuantity) then view null .cosmoQuantity o
  else if sub o.cls .unytArray && !(sub o.cls .cosmoArray) then view null .cosmoArray o
  else o

/-- `_ensure_array_or_quantity_matches_shape`, _array_functions.py:233-265, of an array. -/
def matchObj {V A : Type} (null : A) (o : Obj V A) : Obj V A :=
  if sub o.cls .cosmoArray && !(sub o.cls .cosmoQuantity) && o.shape.isEmpty then view null .cosmoQuantity o
  else if sub o.cls .cosmoQuantity && !o.shape.isEmpty then view null .cosmoArray o
  else o

/-- Both helpers of any result: what is not an array (a tuple in particular) is returned as it is. -/
def promoteMatch {V A : Type} (null : A) : Res V A → Res V A
  | .arr o => .arr (matchObj null (promoteObj null o))
  | r => r

/-- `_ensure_result_is_cosmo_array_or_quantity`, _array_functions.py:268-305. -/
def ensure {V A : Type} (null : A) : Res V A → Res V A
  | .tup l => .tup (l.map (promoteMatch null))
  | r => promoteMatch null r

/-- `_copy_cosmo_array_attributes_if_present`, _array_functions.py:131-168. -/
def copyAttrs {V A : Type} (src : Obj V A) : Res V A → Res V A
  | .arr o => if o.isCosmo && src.isCosmo then .arr { o with attrs := src.attrs } else .arr o
  | r => r

/-- `_propagate_cosmo_array_attributes_to_result`, _array_functions.py:171-202, of `unyt_array`'s method `raw`: `flatten`,
`ravel`, `transpose`, `copy`, ..., objects.py:1377-1392, 1406. -/
def propagated {V A : Type} (raw : Obj V A → Res V A) (x : Obj V A) : Res V A := copyAttrs x (raw x)

/-- `take`, `reshape`, `__getitem__`, objects.py:1393-1401, and `__round__` of a quantity, 2537-2539. -/
def ensured {V A : Type} (null : A) (raw : Obj V A → Res V A) (x : Obj V A) : Res V A :=
  copyAttrs x (ensure null (raw x))

/-- `squeeze`, objects.py:1403. -/
def squeezed {V A : Type} (null : A) (raw : Obj V A → Res V A) (x : Obj V A) : Res V A := ensure null (raw x)

/-- `cosmo_array.__mul__` by a unit, objects.py:2331-2340: the array is viewed as a plain unyt object first. `unit` is
`Unit.__mul__`. -/
def mulUnit {V A : Type} (null : A) (unit : Obj V A → Res V A) (x : Obj V A) : Res V A :=
  copyAttrs x (ensure null (unit { x with cls := if x.shape.isEmpty then .unytQuantity else .unytArray }))

/-- Attributes set on a result if it is of the package. -/
def attach {V A : Type} (a : A) : Res V A → Res V A
  | .arr o => if o.isCosmo then .arr { o with attrs := a } else .arr o
  | r => r

/-- The end of `__array_ufunc__`, objects.py:2211-2228, where `a` holds the attributes of the result. -/
def ufuncResult {V A : Type} (null a : A) (raw : Res V A) : Res V A :=
  match ensure null raw with
  | .tup l => .tup (l.map (attach a))
  | r => attach a r

/-- `_return_helper`, _array_functions.py:1018-1060, without `out`. -/
def returnHelper {V A : Type} (null a : A) : Res V A → Res V A
  | .arr o => attach a (.arr (promoteObj null o))
  | r => r

end Verif.Dispatch
