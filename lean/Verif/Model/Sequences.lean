import Verif.Model.CosmoFunctions

/-!
# Model of lists and tuples of quantities as arguments (swiftsimio/_array_functions.py, swiftsimio/objects.py)

A Python list has neither `comoving` nor `cosmo_factor`: `_prepare_array_func_args` leaves it as it is and gives no factor for it. unyt
makes an array with units of it (`_coerce_iterable_units`), or takes the two values of a range (`_sanitize_range`); both are trusted to
convert units only, which are left out here.
-/

namespace Verif.Sequences
open Verif Verif.Cosmo

/-- An argument: an array or bare numbers, or a list or tuple of arrays and quantities. -/
inductive Item
  | opd (o : Opd)
  | list (l : List Arr)

/-- What the argument is for `_prepare_array_func_args`, _array_functions.py:898-911, and unyt: the attributes of the elements of a list
are not looked at, `getattr(arg, "cosmo_factor", None)`. -/
def Item.seen : Item → Opd
  | .opd o => o
  | .list l => .plain (l.map Arr.val).flatten

/-- `__array_ufunc__`, objects.py:2152-2244, with lists among the arguments. -/
noncomputable def ufuncOf (u : Ufunc) (num : List (List ℝ) → Except Err (List ℝ)) (args : List Item) : Except Err Arr :=
  ufunc u num (args.map Item.seen)

/-- The edges of `n` bins of the same width, numpy's `linspace`. -/
noncomputable def uniform (n : Nat) (lo hi : ℝ) : List ℝ := (List.range (n + 1)).map fun i : Nat => lo + (hi - lo) * i / n

/-- Does the argument have units for unyt? A range of bare numbers is refused by `_sanitize_range`. -/
def Item.hasUnits : Item → Bool
  | .opd (.plain _) => false
  | _ => true

/-- numpy's edges for a number of bins and a range: it must not be reversed, and a range of no width is extended by one half on each
side. -/
noncomputable def rangeEdges (n : Nat) (lo hi : ℝ) : Except Err (List ℝ) :=
  if n = 0 ∨ hi < lo then .error .value
  else if lo = hi then .ok (uniform n (lo - 1 / 2) (hi + 1 / 2)) else .ok (uniform n lo hi)

/-- `np.histogram(x, bins=n, range=r)` without weights and density, _array_functions.py:1337-1364: the counts and the edges. The factor
of the range is not looked at. -/
noncomputable def histogramRange (x : Arr) (n : Nat) (r : Item) : Except Err (List ℝ × Arr) :=
  match prepare true [.cosmo x] [r.seen] with
  | .error e => .error e
  | .ok p => if r.hasUnits = false then .error .typeErr else
    match p.args, p.kw with
    | [y], [b] => match b.vals with
      | [lo, hi] => match rangeEdges n lo hi with
        | .error e => .error e
        | .ok edges => .ok (histCounts y.vals (y.vals.map fun _ => 1) edges, ⟨edges, p.comoving, x.cf, p.vt⟩)
      | _ => .error .value
    | _, _ => .error .runtime

end Verif.Sequences
