import Verif.Model.ShapedFormulas
import Verif.Spec.Formulas

/-!
# What a formula of arrays with several dimensions means

An array is a shape and a number for each tuple of indices. There are no positions in memory here.
-/

namespace Verif.Spec
open Verif Verif.Cosmo Verif.Formulas

/-- An array: its shape and its entries. -/
structure NumberTable where
  shape : List Nat
  entry : List Nat → ℝ

/-- All tuples of indices of an array with the shape; the last index varies fastest. -/
def tuples : List Nat → List (List Nat)
  | [] => [[]]
  | n :: s => (List.range n).flatMap fun i => (tuples s).map fun l => i :: l

/-- The entries in this order. -/
noncomputable def NumberTable.values (t : NumberTable) : List ℝ := (tuples t.shape).map t.entry

/-- The array of a list of values. -/
noncomputable def tableOf (s : List Nat) (v : List ℝ) : NumberTable := ⟨s, fun l => (((tuples s).zip v).lookup l).getD 0⟩

/-- The length of the dimension `d`, counted from the last one; missing dimensions have length one. -/
def lengthOf (s : List Nat) (d : Nat) : Nat := s.reverse.getD d 1

/-- Two shapes can be broadcast: dimensions are counted from the last one, and have the same length unless one of them is one. -/
def Fit (s t : List Nat) : Prop := ∀ d, lengthOf s d = lengthOf t d ∨ lengthOf s d = 1 ∨ lengthOf t d = 1

/-- The shape of the result. -/
def fitted (s t : List Nat) : List Nat :=
  (List.range (max s.length t.length)).reverse.map fun d => if lengthOf s d = 1 then lengthOf t d else lengthOf s d

/-- The indices in an array with the shape `s` for the indices of the result: the last ones, and zero in dimensions of length one. -/
def own (s : List Nat) (l : List Nat) : List Nat :=
  List.zipWith (fun n i => if n = 1 then 0 else i) s (l.drop (l.length - s.length))

open Classical in
/-- An operation on two arrays. -/
noncomputable def NumberTable.zip (f : ℝ → ℝ → ℝ) (x y : NumberTable) : Except Err NumberTable :=
  if Fit x.shape y.shape then .ok ⟨fitted x.shape y.shape, fun l => f (x.entry (own x.shape l)) (y.entry (own y.shape l))⟩ else .error .value

/-- The formula of arrays of numbers. Conversions mean nothing here. -/
noncomputable def shapedMeaning (vals : Nat → NumberTable) : Shaped.Expr → Except Err NumberTable
  | .var i => .ok (vals i)
  | .nums s v => .ok (tableOf s v)
  | .two f e e' => (shapedMeaning vals e).bind fun x => (shapedMeaning vals e').bind fun y => x.zip (numbers2 f) y
  | .one f e => (shapedMeaning vals e).map fun x => ⟨x.shape, fun l => numbers1 f (x.entry l)⟩
  | .pow e q => (shapedMeaning vals e).map fun x => ⟨x.shape, fun l => x.entry l ^ q⟩
  | .total g e => (shapedMeaning vals e).map fun x => ⟨[], fun _ => g x.values⟩
  | .reduce g k e => (shapedMeaning vals e).bind fun x => match x.shape[k]? with
      | none => .error .index
      | some n => .ok ⟨x.shape.take k ++ x.shape.drop (k + 1), fun l => g ((List.range n).map fun j => x.entry (l.take k ++ j :: l.drop k))⟩
  | .select j k e => (shapedMeaning vals e).bind fun x => match x.shape[k]? with
      | none => .error .index
      | some n => if j < n then .ok ⟨x.shape.take k ++ x.shape.drop (k + 1), fun l => x.entry (l.take k ++ j :: l.drop k)⟩ else .error .index
  | .take js k e => (shapedMeaning vals e).bind fun x => match x.shape[k]? with
      | none => .error .index
      | some n => if ∀ j ∈ js, j < n then .ok ⟨x.shape.take k ++ js.length :: x.shape.drop (k + 1),
          fun l => x.entry (l.take k ++ js.getD (l.getD k 0) 0 :: l.drop (k + 1))⟩ else .error .index
  | .newaxis k e => (shapedMeaning vals e).bind fun x =>
      if k ≤ x.shape.length then .ok ⟨x.shape.take k ++ 1 :: x.shape.drop k, fun l => x.entry (l.take k ++ l.drop (k + 1))⟩ else .error .index
  | .reshape s e => (shapedMeaning vals e).bind fun x =>
      if (tuples s).length = (tuples x.shape).length then .ok (tableOf s x.values) else .error .value
  | .transpose e => (shapedMeaning vals e).map fun x => ⟨x.shape.reverse, fun l => x.entry l.reverse⟩
  | .physical e => shapedMeaning vals e
  | .comoving e => shapedMeaning vals e

/-- There is no array with a cosmology in the formula. -/
def ShapedBare : Shaped.Expr → Prop
  | .var _ => False
  | .nums _ _ => True
  | .two _ s t => ShapedBare s ∧ ShapedBare t
  | .one _ s => ShapedBare s
  | .pow s _ => ShapedBare s
  | .total _ s => ShapedBare s
  | .reduce _ _ s => ShapedBare s
  | .select _ _ s => ShapedBare s
  | .take _ _ s => ShapedBare s
  | .newaxis _ s => ShapedBare s
  | .reshape _ s => ShapedBare s
  | .transpose s => ShapedBare s
  | .physical s => ShapedBare s
  | .comoving s => ShapedBare s

/-- A common positive factor goes through the reduction: sums, means, medians, extrema, standard deviations, norms. -/
def ScalesThrough (g : List ℝ → ℝ) : Prop := ∀ (s : ℝ) (l : List ℝ), 0 < s → g (l.map (· * s)) = g l * s

/-- The formula scales as `a^k` if its variables `i` scale as `a^ks i`, as in `Dimension`. -/
inductive ShapedDimension (ks : Nat → ℝ) : Shaped.Expr → ℝ → Prop
  | var (i : Nat) : ShapedDimension ks (.var i) (ks i)
  | nums (s : List Nat) (v : List ℝ) (h : v.length = (tuples s).length) : ShapedDimension ks (.nums s v) 0
  | sum {f : Bin} {s t : Shaped.Expr} {k : ℝ} (hf : f ∈ [Bin.add, .subtract, .fmax, .fmin, .hypot, .remainder]) (hs : ShapedDimension ks s k)
      (ht : ShapedDimension ks t k) : ShapedDimension ks (.two f s t) k
  | extremum {f : Bin} {s t : Shaped.Expr} {k : ℝ} (hf : f ∈ [Bin.maximum, .minimum]) (hs : ShapedDimension ks s k) (ht : ShapedDimension ks t k)
      (hb : ShapedBare s → ShapedBare t) : ShapedDimension ks (.two f s t) k
  | mul {s t : Shaped.Expr} {k l : ℝ} (hs : ShapedDimension ks s k) (ht : ShapedDimension ks t l) : ShapedDimension ks (.two .multiply s t) (k + l)
  | div {s t : Shaped.Expr} {k l : ℝ} (hs : ShapedDimension ks s k) (ht : ShapedDimension ks t l) : ShapedDimension ks (.two .divide s t) (k - l)
  | same {f : Un} {s : Shaped.Expr} {k : ℝ} (hf : f ∈ [Un.negative, .absolute]) (hs : ShapedDimension ks s k) : ShapedDimension ks (.one f s) k
  | sqrt {s : Shaped.Expr} {k : ℝ} (hs : ShapedDimension ks s k) : ShapedDimension ks (.one .sqrt s) (k / 2)
  | square {s : Shaped.Expr} {k : ℝ} (hs : ShapedDimension ks s k) : ShapedDimension ks (.one .square s) (2 * k)
  | cbrt {s : Shaped.Expr} {k : ℝ} (hs : ShapedDimension ks s k) : ShapedDimension ks (.one .cbrt s) (k / 3)
  | reciprocal {s : Shaped.Expr} {k : ℝ} (hs : ShapedDimension ks s k) : ShapedDimension ks (.one .reciprocal s) (-k)
  | pow {s : Shaped.Expr} {k : ℝ} (hs : ShapedDimension ks s k) (q : ℝ) : ShapedDimension ks (.pow s q) (k * q)
  | total {s : Shaped.Expr} {k : ℝ} {g : List ℝ → ℝ} (hg : ScalesThrough g) (hs : ShapedDimension ks s k) : ShapedDimension ks (.total g s) k
  | reduce {s : Shaped.Expr} {k : ℝ} {g : List ℝ → ℝ} (hg : ScalesThrough g) (d : Nat) (hs : ShapedDimension ks s k) : ShapedDimension ks (.reduce g d s) k
  | select {s : Shaped.Expr} {k : ℝ} (j d : Nat) (hs : ShapedDimension ks s k) : ShapedDimension ks (.select j d s) k
  | take {s : Shaped.Expr} {k : ℝ} (js : List Nat) (d : Nat) (hs : ShapedDimension ks s k) : ShapedDimension ks (.take js d s) k
  | newaxis {s : Shaped.Expr} {k : ℝ} (d : Nat) (hs : ShapedDimension ks s k) : ShapedDimension ks (.newaxis d s) k
  | reshape {s : Shaped.Expr} {k : ℝ} (t : List Nat) (hs : ShapedDimension ks s k) : ShapedDimension ks (.reshape t s) k
  | transpose {s : Shaped.Expr} {k : ℝ} (hs : ShapedDimension ks s k) : ShapedDimension ks (.transpose s) k
  | physical {s : Shaped.Expr} {k : ℝ} (hs : ShapedDimension ks s k) (hb : ¬ ShapedBare s) : ShapedDimension ks (.physical s) k
  | comoving {s : Shaped.Expr} {k : ℝ} (hs : ShapedDimension ks s k) (hb : ¬ ShapedBare s) : ShapedDimension ks (.comoving s) k

end Verif.Spec
