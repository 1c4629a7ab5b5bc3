import Verif.Model.CosmoFunctions
import Verif.Model.Names

/-!
# Model of the ways to pass arguments to wrapped functions (swiftsimio/_array_functions.py)

The wrappers take `*args` and `**kwargs` and look at the first positional arguments. Here are calls with keyword arguments and with an
`out` array. unyt's functions bind arguments to the names of numpy's parameters; units are left out.
-/

namespace Verif.Calls
open Verif Verif.Cosmo Verif.Names

/-- A call: positional arguments, keyword arguments other than `out`, and `out`. -/
structure Call where
  args : List Opd
  kws : List (Str × Opd)
  out : Option Opd := none

/-- All keyword arguments. -/
def Call.keywords (c : Call) : List Opd := c.kws.map Prod.snd ++ c.out.toList

/-- How Python binds the arguments of a function with parameters `params`: too many arguments, unknown keywords and two values for one
parameter are refused. -/
def bindTo {β γ : Type} (params : List Str) (g : (Str → Option β) → Except Err γ) (args : List β) (kws : List (Str × β)) : Except Err γ :=
  if params.length < args.length ∨ (∃ k ∈ kws.map Prod.fst, k ∉ params) ∨ ¬ (params.take args.length ++ kws.map Prod.fst).Nodup then
    .error .typeErr
  else g fun name => (params.zip args ++ kws).lookup name

/-- The result of a call, and `out` after the call. -/
structure Outcome where
  res : Arr
  out : Option Opd

/-- `out` after `_return_helper`, _array_functions.py:1011-1059: `written` says whether numpy got this array or a converted copy of it.
Its attributes are replaced in both cases. -/
def afterwards (res : Arr) (written : Bool) : Opd → Opd
  | .plain _ => .plain res.val
  | .cosmo o => .cosmo { res with val := if written then res.val else o.val }

/-- Whether the arguments are of both frames, which makes `_prepare_array_func_args` replace those that are not comoving by converted
copies, _array_functions.py:931-956. -/
def mixed (c : Call) : Bool := (flags (c.args ++ c.keywords)).contains (some true) && (flags (c.args ++ c.keywords)).contains (some false)

/-- Does numpy write to the array itself? -/
def writes (c : Call) : Opd → Bool
  | .plain _ => true
  | .cosmo o => !(mixed c && o.comoving != some true)

/-- `_default_unary_wrapper` (`n = 1`) and `_default_binary_wrapper` (`n = 2`), _array_functions.py:1063-1170, for a function with parameters
`params` that computes the numbers `g`: the handler gets `helper_result["cfs"][0]` and, if there are two, `helper_result["cfs"][1]`. numpy
refuses an `out` of another shape. -/
noncomputable def wrapped (n : Nat) (rule : List (Option CF) → Except Err (Option CF)) (params : List Str)
    (g : (Str → Option (List ℝ)) → Except Err (List ℝ)) (c : Call) : Except Err Outcome :=
  match prepare true c.args c.keywords with
  | .error e => .error e
  | .ok p => if c.args.length < n then .error .index else
    match rule (p.cfs.take n) with
    | .error e => .error e
    | .ok f => match bindTo params g (p.args.map Opd.vals) ((c.kws.map Prod.fst).zip (p.kw.map Opd.vals)) with
      | .error e => .error e
      | .ok v => if c.out.any (fun o => o.vals.length != v.length) then .error .value else
        let res : Arr := ⟨v, p.comoving, f, p.vt⟩
        .ok ⟨res, c.out.map fun o => afterwards res (writes c o) o⟩

/-- `_default_oplist_wrapper`, _array_functions.py:1224-1284, `np.concatenate(l, out=o)` and its relatives: the operands are prepared without
`out`, and `_return_helper` is not given `out`. unyt sets its units only. -/
noncomputable def joinOut (l : List Opd) (out : Opd) : Except Err Outcome :=
  match oplist (fun m => .ok m.flatten) l with
  | .error e => .error e
  | .ok z => if out.vals.length = z.val.length then
      .ok ⟨z, some (match out with | .plain _ => .plain z.val | .cosmo o => .cosmo { o with val := z.val })⟩ else .error .value

end Verif.Calls
