import Verif.Model.Mask
import Verif.Spec.Rows
import Mathlib.Data.Int.Cast.Lemmas

/-!
# Specification of mask histories

What a sequence of mask calls should select, said with predicates on row numbers and without the mask's own
representations (ranges, booleans, cell masks).
-/

namespace Verif.Spec
open Verif Verif.Mask

variable {K : Type} [Field K] [LinearOrder K] {m : Nat}

/-- The upper end of a requested interval: an inverted interval runs through the periodic boundary. -/
def wrapUpper (L lower upper : K) : K := if upper < lower then upper + L else upper

/-- Along one axis the open interval overlaps some periodic copy of the cell, or is longer than the box. -/
def MeetsAxis (L lower upper lo hi : K) : Prop :=
  |upper - lower| > L ∨ ∃ j : ℤ, lower < hi + (j : K) * L ∧ lo + (j : K) * L < wrapUpper L lower upper

/-- The requested box overlaps some periodic copy of the cell. -/
def Meets (box : Fin 3 → K) (reg : Fin 3 → K × K) (c : Cell K) : Prop :=
  ∀ d, MeetsAxis (box d) (reg d).1 (reg d).2 (c.lo d) (c.hi d)

/-- The region a user means by three rows, each `None` (the whole axis) or `[lower, upper]`. -/
def RegionIs (box : Fin 3 → K) (rows : List (Option (List K))) (reg : Fin 3 → K × K) : Prop :=
  rows.length = 3 ∧ ∀ d : Fin 3,
    (rows[d.val]? = some none ∧ reg d = (0, box d)) ∨ rows[d.val]? = some (some [(reg d).1, (reg d).2])

/-- Both ends of every interval are within half a box of the box. -/
def InWindow (box : Fin 3 → K) (reg : Fin 3 → K × K) : Prop :=
  ∀ d, (-box d / 2 ≤ (reg d).1 ∧ (reg d).1 ≤ 3 * box d / 2) ∧ (-box d / 2 ≤ (reg d).2 ∧ (reg d).2 ≤ 3 * box d / 2)

/-- Row `i` belongs to cell `c`. -/
def Holds (c : Cell K) (i : Int) : Prop := c.offset ≤ i ∧ i < c.offset + c.count

/-- Row `i` of key `k` lies in a cell that meets the region. -/
def InRegion (f : File K m) (rows : List (Option (List K))) (k : Fin m) (i : Int) : Prop :=
  ∃ reg, RegionIs f.box rows reg ∧ ∃ c ∈ f.cells k, Holds c i ∧ Meets f.box reg c

/-- What the history so far amounts to: the last accepted constraint, the rows in the union of all requested regions,
the selected rows, and whether the mask is currently held as booleans. -/
structure Abs (m : Nat) where
  last : Option Kind
  region : Fin m → Int → Prop
  sel : Fin m → Int → Prop
  asBool : Prop

/-- A fresh mask selects every row. -/
def absInit (f : File K m) : Abs m where
  last := none
  region := fun k i => 0 ≤ i ∧ i < f.rows k
  sel := fun k i => 0 ≤ i ∧ i < f.rows k
  asBool := False

/-- Which calls are accepted. -/
def Accepts (f : File K m) (a : Abs m) : Op K → Prop
  | .spatial rows union => (∃ reg, RegionIs f.box rows reg ∧ InWindow f.box reg) ∧
      (a.last = none ∨ (a.last = some .spatial ∧ union = true))
  | .property g q _ _ => (∃ k, f.group g = some k) ∧ ∃ vals, f.field g q = some vals
  | .indices _ => a.last = none ∧ f.homogeneous = true
  | .index _ => a.last = none ∧ f.homogeneous = true
  | .toBool => True
  | .toRanges => True

/-- The effect of an accepted call. -/
def absApply (f : File K m) (a : Abs m) : Op K → Abs m
  | .spatial rows _ =>
    let reg : Fin m → Int → Prop := fun k i =>
      InRegion f rows k i ∨ (a.last = some .spatial ∧ a.region k i)
    { a with last := some .spatial, region := reg, sel := reg }
  | .property g q lo hi =>
    { a with
      last := some .property
      sel := fun k i => a.sel k i ∧ (f.group g = some k →
        ∃ vals v, f.field g q = some vals ∧ valueAt vals i = some v ∧ lo < v ∧ v ≤ hi)
      asBool := True }
  | .indices l => { a with last := some .indices, sel := fun _ i => i ∈ l }
  | .index j => { a with last := some .index, sel := fun _ i => i = j }
  | .toBool => { a with asBool := True }
  | .toRanges => { a with asBool := False }

/-- A refused call changes nothing, except that a refused property constraint has already converted the mask. -/
def absRefuse (a : Abs m) : Op K → Abs m
  | .property _ _ _ _ => { a with asBool := True }
  | _ => a

open Classical in
/-- One call. -/
noncomputable def absStep (f : File K m) (a : Abs m) (op : Op K) : Abs m :=
  if Accepts f a op then absApply f a op else absRefuse a op

/-- A history of calls on a fresh mask. -/
noncomputable def absRun (f : File K m) (ops : List (Op K)) : Abs m := ops.foldl (absStep f) (absInit f)

/-- The effect the code has: as `absApply`, except that a region added while the mask is held as booleans brings in no
row (it is only remembered for the next union made on ranges). -/
def builtApply (f : File K m) (a : Abs m) : Op K → Abs m
  | .spatial rows _ =>
    let reg : Fin m → Int → Prop := fun k i =>
      InRegion f rows k i ∨ (a.last = some .spatial ∧ a.region k i)
    { a with last := some .spatial, region := reg, sel := fun k i => reg k i ∧ (a.asBool → a.sel k i) }
  | op => absApply f a op

open Classical in
/-- One call as the code does it. -/
noncomputable def builtStep (f : File K m) (a : Abs m) (op : Op K) : Abs m :=
  if Accepts f a op then builtApply f a op else absRefuse a op

/-- A history of calls as the code does it. -/
noncomputable def builtRun (f : File K m) (ops : List (Op K)) : Abs m := ops.foldl (builtStep f) (absInit f)

/-- Cells (offset, count) one after the other, the first one starting at row `start` and the last one ending before row
`stop`. -/
def Contiguous : Int → Int → List (Int × Int) → Prop
  | start, stop, [] => start = stop
  | start, stop, c :: cs => c.1 = start ∧ 0 ≤ c.2 ∧ Contiguous (start + c.2) stop cs

/-- The (offset, count) table of a list of cells. -/
def table (cells : List (Cell K)) : List (Int × Int) := cells.map (fun c => (c.offset, c.count))

/-- A well-formed file: for every key the cells, in the order used by the mask, divide the rows into consecutive pieces
(possibly empty), cell bounding boxes stay within half a box of the box, and fields have one value per row. -/
structure WF (f : File K m) : Prop where
  box_pos : ∀ d, 0 < f.box d
  contiguous : ∀ k, Contiguous 0 (f.rows k) (table (f.cells k))
  near : ∀ k, ∀ c ∈ f.cells k, ∀ d, -f.box d / 2 ≤ c.lo d ∧ c.lo d ≤ c.hi d ∧ c.hi d ≤ 3 * f.box d / 2
  fields : ∀ g q k vals, f.group g = some k → f.field g q = some vals → vals.length = f.rows k

/-- Row indices given by the user exist in the file. -/
def IndicesOk (f : File K m) : Op K → Prop
  | .indices l => ∀ k, ∀ i ∈ l, 0 ≤ i ∧ i < f.rows k
  | .index i => ∀ k, 0 ≤ i ∧ i < f.rows k
  | _ => True

/-- The call adds a region to a mask that is held as booleans. -/
def UnionOnBool (a : Abs m) : Op K → Prop
  | .spatial _ union => a.last = some .spatial ∧ union = true ∧ a.asBool
  | _ => False

/-- A history without union on a boolean mask. -/
def NoUnionOnBool (f : File K m) : Abs m → List (Op K) → Prop
  | _, [] => True
  | a, op :: ops => ¬ UnionOnBool a op ∧ NoUnionOnBool f (absStep f a op) ops

/-- Row `i` is selected by a mask state. -/
def Selects (s : State m) (k : Fin m) (i : Int) : Prop :=
  match s.rep with
  | .ranges r => ∃ rg ∈ r k, rg.1 ≤ i ∧ i < rg.2
  | .bools b => 0 ≤ i ∧ (b k)[i.toNat]? = some true

end Verif.Spec
