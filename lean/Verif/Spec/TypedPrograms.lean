import Verif.Spec.UnitPrograms

/-!
# A check of programs before they run: exponents, dimensions and shapes

Every variable has one exponent of the scale factor, one dimension and (for the last check) one length in all of the program. The checks
read the text of the program only.
-/

namespace Verif.Spec
open Verif Verif.Cosmo Verif.Formulas Verif.UnitFormulas Verif.UnitPrograms

variable {D : Type} [AddCommGroup D] [Module ℝ D]

/-- The formula is an array with the exponent `k` and the dimensions `d`. -/
def HasType (ks : Nat → ℝ) (ds : Nat → D) (e : UExpr D) (k : ℝ) (d : D) : Prop :=
  ¬ Bare (ofAmounts e) ∧ Dimension ks (ofAmounts e) k ∧ Measures ds e d

/-- Both sides have the same exponent and the same dimensions, and these are not trivial. -/
def ConditionChecks (ks : Nat → ℝ) (ds : Nat → D) (c : Cond D) : Prop :=
  ∃ k d, d ≠ 0 ∧ HasType ks ds c.left k d ∧ HasType ks ds c.right k d

/-- What is assigned to a variable or written into its array has its exponent and its dimensions; conversions in place are to units with
the dimensions of the variable. -/
def TypeChecks (ks : Nat → ℝ) (ds : Nat → D) : Stmt D → Prop
  | .skip => True
  | .assign x e => HasType ks ds e (ks x) (ds x)
  | .into x e => HasType ks ds e (ks x) (ds x)
  | .convert _ v x => ∀ u ∈ v, 0 < u.size ∧ u.dim = ds x
  | .seq p q => TypeChecks ks ds p ∧ TypeChecks ks ds q
  | .ite c p q => ConditionChecks ks ds c ∧ TypeChecks ks ds p ∧ TypeChecks ks ds q
  | .while c p => ConditionChecks ks ds c ∧ TypeChecks ks ds p
  | .attempt p q => TypeChecks ks ds p ∧ TypeChecks ks ds q

/-- Arrays of the lengths `m` and `n` are broadcast to the length `r`. -/
def Broadcasts (m n r : Nat) : Prop := (m = n ∧ r = m) ∨ (m = 1 ∧ r = n) ∨ (n = 1 ∧ r = m)

/-- The formula has the length `m` if its variables `i` have the lengths `ms i`. -/
inductive HasLength (ms : Nat → Nat) : UExpr D → Nat → Prop
  | var (i : Nat) : HasLength ms (.var i) (ms i)
  | nums (v : List ℝ) : HasLength ms (.nums v) v.length
  | two {f : Bin} {s t : UExpr D} {m n r : Nat} (hs : HasLength ms s m) (ht : HasLength ms t n) (h : Broadcasts m n r) : HasLength ms (.two f s t) r
  | one {f : Un} {s : UExpr D} {m : Nat} (hs : HasLength ms s m) : HasLength ms (.one f s) m
  | pow {q : ℝ} {s : UExpr D} {m : Nat} (hs : HasLength ms s m) : HasLength ms (.pow s q) m
  | whole {f : List ℝ → List ℝ} {s : UExpr D} {m r : Nat} (hs : HasLength ms s m) (hf : ∀ l : List ℝ, l.length = m → (f l).length = r) :
      HasLength ms (.whole f s) r
  | physical {s : UExpr D} {m : Nat} (hs : HasLength ms s m) : HasLength ms (.physical s) m
  | comoving {s : UExpr D} {m : Nat} (hs : HasLength ms s m) : HasLength ms (.comoving s) m
  | convert {u : U D} {s : UExpr D} {m : Nat} (hs : HasLength ms s m) : HasLength ms (.convert u s) m
  | times {u : U D} {s : UExpr D} {m : Nat} (hs : HasLength ms s m) : HasLength ms (.times u s) m

/-- What is assigned to a variable or written into its array has its length; both sides of a comparison can be broadcast. -/
def LengthsCheck (ms : Nat → Nat) : Stmt D → Prop
  | .skip => True
  | .assign x e => HasLength ms e (ms x)
  | .into x e => HasLength ms e (ms x)
  | .convert _ _ _ => True
  | .seq p q => LengthsCheck ms p ∧ LengthsCheck ms q
  | .ite c p q => (∃ m n r, HasLength ms c.left m ∧ HasLength ms c.right n ∧ Broadcasts m n r) ∧ LengthsCheck ms p ∧ LengthsCheck ms q
  | .while c p => (∃ m n r, HasLength ms c.left m ∧ HasLength ms c.right n ∧ Broadcasts m n r) ∧ LengthsCheck ms p
  | .attempt p q => LengthsCheck ms p ∧ LengthsCheck ms q

/-- There is no loop in the program. -/
def LoopFree : Stmt D → Prop
  | .skip => True
  | .assign _ _ => True
  | .into _ _ => True
  | .convert _ _ _ => True
  | .seq p q => LoopFree p ∧ LoopFree q
  | .ite _ p q => LoopFree p ∧ LoopFree q
  | .while _ _ => False
  | .attempt p q => LoopFree p ∧ LoopFree q

/-- At scale factor `a` the arrays of all variables have the exponents and dimensions that the check assumes, in whatever frames and
units; all names are of arrays that have been made. -/
structure TypedState (a : ℝ) (ks : Nat → ℝ) (ds : Nat → D) (s : State D) : Prop where
  conv : ∀ i, Conv a (ks i) (s.env i).1
  size : ∀ i, 0 < (s.env i).2.size
  dims : ∀ i, (s.env i).2.dim = ds i
  made : ∀ i, s.vars i < s.next

end Verif.Spec
