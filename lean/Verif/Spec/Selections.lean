import Verif.Model.Selections
import Verif.Spec.ShapedFormulas
import Verif.Spec.Programs

/-!
# What conditions, selections and scripts mean

A condition is true or false for each tuple of indices. A selection has one entry for each tuple for which it is true, in the order of the
tuples. There are no positions in memory, frames or factors here.
-/

namespace Verif.Spec
open Verif Verif.Cosmo Verif.Selections

/-- Which tuples of indices of an array with the shape fulfil a condition. -/
structure FlagTable where
  shape : List Nat
  holds : List Nat → Prop

open Classical in
/-- The tuples for which the condition holds. -/
noncomputable def FlagTable.selected (b : FlagTable) : List (List Nat) := (tuples b.shape).filter fun l => b.holds l

open Classical in
/-- Two conditions, or a relation of two arrays: broadcasting as for operations on two arrays. -/
noncomputable def related (s t : List Nat) (h : List Nat → List Nat → Prop) : Except Err FlagTable :=
  if Fit s t then .ok ⟨fitted s t, fun l => h (own s l) (own t l)⟩ else .error .value

/-- What a condition means. -/
noncomputable def condMeaning (vals : Nat → NumberTable) : Cond → Except Err FlagTable
  | .cmp c s t => (shapedMeaning vals s).bind fun x => (shapedMeaning vals t).bind fun y =>
      related x.shape y.shape fun l m => relation c (x.entry l) (y.entry m)
  | .and c d => (condMeaning vals c).bind fun x => (condMeaning vals d).bind fun y => related x.shape y.shape fun l m => x.holds l ∧ y.holds m
  | .or c d => (condMeaning vals c).bind fun x => (condMeaning vals d).bind fun y => related x.shape y.shape fun l m => x.holds l ∨ y.holds m
  | .not c => (condMeaning vals c).map fun x => ⟨x.shape, fun l => ¬ x.holds l⟩

open Classical in
/-- `x[b]`: the entries at the selected tuples. -/
noncomputable def NumberTable.select (x : NumberTable) (b : FlagTable) : Except Err NumberTable :=
  if b.shape <+: x.shape then .ok ⟨b.selected.length :: x.shape.drop b.shape.length,
    fun l => x.entry (b.selected.getD (l.headD 0) [] ++ l.tail)⟩ else .error .index

open Classical in
/-- `np.where(b, x, y)`. -/
noncomputable def FlagTable.choose (b : FlagTable) (x y : NumberTable) : Except Err NumberTable :=
  if Fit x.shape y.shape ∧ Fit b.shape (fitted x.shape y.shape) then .ok ⟨fitted b.shape (fitted x.shape y.shape),
    fun l => if b.holds (own b.shape l) then x.entry (own x.shape l) else y.entry (own y.shape l)⟩ else .error .value

/-- What a line means. -/
noncomputable def stepMeaning (vals : Nat → NumberTable) : Step → Except Err NumberTable
  | .formula e => shapedMeaning vals e
  | .select e c => (shapedMeaning vals e).bind fun x => (condMeaning vals c).bind fun b => x.select b
  | .choose c e e' => (condMeaning vals c).bind fun b => (shapedMeaning vals e).bind fun x => (shapedMeaning vals e').bind fun y => b.choose x y

/-- What a script means: variables are shapes with the entries in order. -/
noncomputable def scriptMeaning : List (Nat × Step) → (Nat → List Nat × List ℝ) → Except Err (Nat → List Nat × List ℝ)
  | [], s => .ok s
  | (i, d) :: l, s => (stepMeaning (fun j => tableOf (s j).1 (s j).2) d).bind fun t => scriptMeaning l (Function.update s i (t.shape, t.values))

/-- The formula scales as `a^k`, or is a bare array of zeros, which scales in any way. -/
inductive ScalesAs (ks : Nat → ℝ) : Shaped.Expr → ℝ → Prop
  | formula {e : Shaped.Expr} {k : ℝ} (h : ShapedDimension ks e k) : ScalesAs ks e k
  | zeros (s : List Nat) (k : ℝ) : ScalesAs ks (.nums s (List.replicate (tuples s).length 0)) k

/-- Both sides of every comparison scale alike. -/
inductive CondScales (ks : Nat → ℝ) : Cond → Prop
  | cmp (c : Programs.Cmp) {s t : Shaped.Expr} {k : ℝ} (hs : ScalesAs ks s k) (ht : ScalesAs ks t k) : CondScales ks (.cmp c s t)
  | and {c d : Cond} (hc : CondScales ks c) (hd : CondScales ks d) : CondScales ks (.and c d)
  | or {c d : Cond} (hc : CondScales ks c) (hd : CondScales ks d) : CondScales ks (.or c d)
  | not {c : Cond} (hc : CondScales ks c) : CondScales ks (.not c)

/-- The line gives an array that scales as `a^k`. -/
inductive StepScales (ks : Nat → ℝ) : Step → ℝ → Prop
  | formula {e : Shaped.Expr} {k : ℝ} (h : ShapedDimension ks e k) (hb : ¬ ShapedBare e) : StepScales ks (.formula e) k
  | select {e : Shaped.Expr} {k : ℝ} {c : Cond} (h : ShapedDimension ks e k) (hb : ¬ ShapedBare e) (hc : CondScales ks c) :
      StepScales ks (.select e c) k
  | choose {e e' : Shaped.Expr} {k : ℝ} {c : Cond} (hc : CondScales ks c) (h : ScalesAs ks e k) (h' : ScalesAs ks e' k)
      (hb : ¬ (ShapedBare e ∧ ShapedBare e')) : StepScales ks (.choose c e e') k

/-- A script that turns variables that scale as `a^ks i` into variables that scale as `a^ls i`. -/
inductive ScriptScales : (Nat → ℝ) → List (Nat × Step) → (Nat → ℝ) → Prop
  | nil (ks : Nat → ℝ) : ScriptScales ks [] ks
  | cons {ks ls : Nat → ℝ} {i : Nat} {d : Step} {k : ℝ} {l : List (Nat × Step)} (h : StepScales ks d k)
      (hl : ScriptScales (Function.update ks i k) l ls) : ScriptScales ks ((i, d) :: l) ls

end Verif.Spec
