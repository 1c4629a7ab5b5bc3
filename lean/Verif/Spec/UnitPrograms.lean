import Verif.Model.UnitPrograms
import Verif.Spec.UnitFormulas

/-!
# What a program with units means: the same program with physical amounts, exponents and dimensions, without frames and units
-/

namespace Verif.Spec
open Verif Verif.Cosmo Verif.Formulas Verif.UnitFormulas Verif.UnitPrograms
open Verif.Programs (Cmp)

variable {D : Type} [AddCommGroup D] [Module ℝ D]

/-- Which object a variable names; the exponent, the dimensions and the physical amounts (in base units) of each object; the next free
place. -/
structure Account (D : Type) where
  vars : Nat → Nat
  exps : Nat → ℝ
  dims : Nat → D
  nums : Nat → List ℝ
  next : Nat

/-- The amounts of the variables. -/
def Account.vals (σ : Account D) (i : Nat) : List ℝ := σ.nums (σ.vars i)

/-- The formula scales with the exponent `k` and has the dimensions `d`. -/
def Suits (σ : Account D) (e : UExpr D) (k : ℝ) (d : D) : Prop :=
  Dimension (fun i => σ.exps (σ.vars i)) (ofAmounts e) k ∧ Measures (fun i => σ.dims (σ.vars i)) e d

/-- The formula has these amounts, not all zero. -/
def Nonzero (σ : Account D) (e : UExpr D) : Prop := ∃ v, meaning σ.vals (ofAmounts e) = .ok v ∧ ∃ q ∈ v, q ≠ 0

/-- The factors `a^k` and `a^l` differ by more than `np.isclose` allows. -/
def Far (a k l : ℝ) : Prop := 1e-8 + 1e-6 * |a ^ l| < |a ^ k - a ^ l|

/-- The formula is an array with exponent `k` that has amounts. -/
def HasAmounts (σ : Account D) (e : UExpr D) (k : ℝ) : Prop :=
  ¬ Bare (ofAmounts e) ∧ (∃ d, Suits σ e k d) ∧ ∃ v, meaning σ.vals (ofAmounts e) = .ok v

/-- The formula is refused at scale factor `a`: its amounts are (shapes that do not fit); or one of its steps is a sum of amounts with
different dimensions, a sum of arrays that scale differently or a conversion to a unit with other dimensions. Parts of a formula are
evaluated from the left to the right. -/
inductive Fails (a : ℝ) (σ : Account D) : UExpr D → Err → Prop
  | numbers {e : UExpr D} {k : ℝ} {d : D} {err : Err} (hd : Suits σ e k d) (he : meaning σ.vals (ofAmounts e) = .error err) : Fails a σ e err
  | sum {f : Bin} {s t : UExpr D} {k l : ℝ} {c d : D} (hf : f ∉ [Bin.multiply, .divide]) (hs : Suits σ s k c) (ht : Suits σ t l d)
      (hcd : c ≠ d) (ns : Nonzero σ s) (nt : Nonzero σ t) : Fails a σ (.two f s t) .value
  | factor {f : Bin} {s t : UExpr D} {k l : ℝ} (hf : f ∉ [Bin.multiply, .divide]) (hs : HasAmounts σ s k) (ht : HasAmounts σ t l)
      (hkl : Far a k l) : Fails a σ (.two f s t) .value
  | unit {u : U D} {s : UExpr D} {k : ℝ} {d : D} {v : List ℝ} (hs : Suits σ s k d) (hb : ¬ Bare (ofAmounts s))
      (hv : meaning σ.vals (ofAmounts s) = .ok v) (hu : u.dim ≠ d) : Fails a σ (.convert u s) .value
  | left {f : Bin} {s t : UExpr D} {err : Err} (hs : Fails a σ s err) : Fails a σ (.two f s t) err
  | right {f : Bin} {s t : UExpr D} {k : ℝ} {d : D} {v : List ℝ} {err : Err} (hd : Suits σ s k d) (hv : meaning σ.vals (ofAmounts s) = .ok v)
      (ht : Fails a σ t err) : Fails a σ (.two f s t) err
  | one {f : Un} {s : UExpr D} {err : Err} (hs : Fails a σ s err) : Fails a σ (.one f s) err
  | pow {q : ℝ} {s : UExpr D} {err : Err} (hs : Fails a σ s err) : Fails a σ (.pow s q) err
  | whole {f : List ℝ → List ℝ} {s : UExpr D} {err : Err} (hs : Fails a σ s err) : Fails a σ (.whole f s) err
  | physical {s : UExpr D} {err : Err} (hs : Fails a σ s err) : Fails a σ (.physical s) err
  | comoving {s : UExpr D} {err : Err} (hs : Fails a σ s err) : Fails a σ (.comoving s) err
  | convert {u : U D} {s : UExpr D} {err : Err} (hs : Fails a σ s err) : Fails a σ (.convert u s) err
  | times {u : U D} {s : UExpr D} {err : Err} (hs : Fails a σ s err) : Fails a σ (.times u s) err

/-- A comparison of two amounts. -/
def amountRelation : Cmp → ℝ → ℝ → Prop
  | .less, p, q => p < q
  | .lessEqual, p, q => p ≤ q
  | .greater, p, q => q < p
  | .greaterEqual, p, q => q ≤ p
  | .equal, p, q => p = q
  | .notEqual, p, q => p ≠ q

/-- The outcome of a comparison: that of the amounts if both sides scale alike and have the same dimensions; a refusal if they have
different ones, if they scale differently or if a side is refused. -/
inductive Ruling (a : ℝ) (σ : Account D) (c : Cond D) : Except Err Prop → Prop
  | alike {k : ℝ} {d : D} (h0 : d ≠ 0) (hl : Suits σ c.left k d) (hr : Suits σ c.right k d) : Ruling a σ c
      (((meaning σ.vals (ofAmounts c.left)).bind fun v => (meaning σ.vals (ofAmounts c.right)).bind fun w =>
        bcast2 (amountRelation c.cmp) v w).map fun l => if c.all then ∀ b ∈ l, b else ∃ b ∈ l, b)
  | refused {k l : ℝ} {d d' : D} (h0 : d ≠ 0) (h0' : d' ≠ 0) (hd : d ≠ d') (hl : Suits σ c.left k d) (hr : Suits σ c.right l d')
      (nl : Nonzero σ c.left) (nr : Nonzero σ c.right) : Ruling a σ c (.error .value)
  | factor {k l : ℝ} (hl : HasAmounts σ c.left k) (hr : HasAmounts σ c.right l) (hkl : Far a k l) : Ruling a σ c (.error .value)
  | left {err : Err} (hl : Fails a σ c.left err) : Ruling a σ c (.error err)
  | right {k : ℝ} {d : D} {v : List ℝ} {err : Err} (hd : Suits σ c.left k d) (hv : meaning σ.vals (ofAmounts c.left) = .ok v)
      (hr : Fails a σ c.right err) : Ruling a σ c (.error err)

/-- `Performs a strict σ p o σ'`: at scale factor `a`, with amounts, exponents and dimensions, `p` leads from `σ` to `σ'`. All formulas on the way scale and have
dimensions or are refused; if `strict`, no conversion in place is refused. -/
inductive Performs (a : ℝ) (strict : Bool) : Account D → Stmt D → Option Err → Account D → Prop
  | skip (σ : Account D) : Performs a strict σ .skip none σ
  | name (σ : Account D) (x y : Nat) : Performs a strict σ (.assign x (.var y)) none { σ with vars := Function.update σ.vars x (σ.vars y) }
  | assign (σ : Account D) (x : Nat) (e : UExpr D) (k : ℝ) (d : D) (v : List ℝ) (hv : ∀ y, e ≠ .var y) (hd : Suits σ e k d) (hb : ¬ Bare (ofAmounts e))
      (he : meaning σ.vals (ofAmounts e) = .ok v) :
      Performs a strict σ (.assign x e) none
        ⟨Function.update σ.vars x σ.next, Function.update σ.exps σ.next k, Function.update σ.dims σ.next d,
          Function.update σ.nums σ.next v, σ.next + 1⟩
  | assignErr (σ : Account D) (x : Nat) (e : UExpr D) (err : Err) (he : Fails a σ e err) :
      Performs a strict σ (.assign x e) (some err) σ
  | into (σ : Account D) (x : Nat) (e : UExpr D) (k : ℝ) (d : D) (v : List ℝ) (hd : Suits σ e k d) (hb : ¬ Bare (ofAmounts e))
      (he : meaning σ.vals (ofAmounts e) = .ok v) (hl : v.length = (σ.vals x).length) :
      Performs a strict σ (.into x e) none
        ⟨σ.vars, Function.update σ.exps (σ.vars x) k, Function.update σ.dims (σ.vars x) d, Function.update σ.nums (σ.vars x) v, σ.next⟩
  | intoShape (σ : Account D) (x : Nat) (e : UExpr D) (k : ℝ) (d : D) (v : List ℝ) (hd : Suits σ e k d) (hb : ¬ Bare (ofAmounts e))
      (he : meaning σ.vals (ofAmounts e) = .ok v) (hl : v.length ≠ (σ.vals x).length) : Performs a strict σ (.into x e) (some .value) σ
  | intoErr (σ : Account D) (x : Nat) (e : UExpr D) (err : Err) (he : Fails a σ e err) :
      Performs a strict σ (.into x e) (some err) σ
  | convert (σ : Account D) (b : Option Bool) (v : Option (U D)) (x : Nat) (hu : ∀ u ∈ v, 0 < u.size ∧ u.dim = σ.dims (σ.vars x)) :
      Performs a strict σ (.convert b v x) none σ
  | convertErr (σ : Account D) (b : Option Bool) (u : U D) (x : Nat) (hs : strict = false) (hu : u.dim ≠ σ.dims (σ.vars x)) :
      Performs a strict σ (.convert b (some u) x) (some .value) σ
  | seq (σ τ υ : Account D) (p q : Stmt D) (o : Option Err) (h1 : Performs a strict σ p none τ) (h2 : Performs a strict τ q o υ) : Performs a strict σ (.seq p q) o υ
  | seqErr (σ τ : Account D) (p q : Stmt D) (err : Err) (h1 : Performs a strict σ p (some err) τ) : Performs a strict σ (.seq p q) (some err) τ
  | iteErr (σ : Account D) (c : Cond D) (p q : Stmt D) (err : Err) (hc : Ruling a σ c (.error err)) :
      Performs a strict σ (.ite c p q) (some err) σ
  | iteTrue (σ τ : Account D) (c : Cond D) (p q : Stmt D) (o : Option Err) (b : Prop) (hc : Ruling a σ c (.ok b)) (hb : b)
      (h1 : Performs a strict σ p o τ) : Performs a strict σ (.ite c p q) o τ
  | iteFalse (σ τ : Account D) (c : Cond D) (p q : Stmt D) (o : Option Err) (b : Prop) (hc : Ruling a σ c (.ok b)) (hb : ¬ b)
      (h1 : Performs a strict σ q o τ) : Performs a strict σ (.ite c p q) o τ
  | whileErr (σ : Account D) (c : Cond D) (p : Stmt D) (err : Err) (hc : Ruling a σ c (.error err)) :
      Performs a strict σ (.while c p) (some err) σ
  | whileDone (σ : Account D) (c : Cond D) (p : Stmt D) (b : Prop) (hc : Ruling a σ c (.ok b)) (hb : ¬ b) :
      Performs a strict σ (.while c p) none σ
  | whileStep (σ τ υ : Account D) (c : Cond D) (p : Stmt D) (o : Option Err) (b : Prop) (hc : Ruling a σ c (.ok b)) (hb : b)
      (h1 : Performs a strict σ p none τ) (h2 : Performs a strict τ (.while c p) o υ) : Performs a strict σ (.while c p) o υ
  | whileStop (σ τ : Account D) (c : Cond D) (p : Stmt D) (err : Err) (b : Prop) (hc : Ruling a σ c (.ok b)) (hb : b)
      (h1 : Performs a strict σ p (some err) τ) : Performs a strict σ (.while c p) (some err) τ
  | attempt (σ τ : Account D) (p q : Stmt D) (h1 : Performs a strict σ p none τ) : Performs a strict σ (.attempt p q) none τ
  | rescue (σ τ υ : Account D) (p q : Stmt D) (err : Err) (o : Option Err) (h1 : Performs a strict σ p (some err) τ) (h2 : Performs a strict τ q o υ) :
      Performs a strict σ (.attempt p q) o υ

/-- The arrays of `s`, each in whatever frame and unit, mean the amounts, exponents and dimensions of `σ` at scale factor `a`. -/
structure Balances (a : ℝ) (s : State D) (σ : Account D) : Prop where
  vars : s.vars = σ.vars
  next : s.next = σ.next
  conv : ∀ l, Conv a (σ.exps l) (s.heap l).1
  size : ∀ l, 0 < (s.heap l).2.size
  dims : ∀ l, (s.heap l).2.dim = σ.dims l
  amts : ∀ l, amounts (s.heap l) = σ.nums l

/-- The program without its conversions in place. -/
def withoutConversions : Stmt D → Stmt D
  | .skip => .skip
  | .assign x e => .assign x e
  | .into x e => .into x e
  | .convert _ _ _ => .skip
  | .seq p q => .seq (withoutConversions p) (withoutConversions q)
  | .ite c p q => .ite c (withoutConversions p) (withoutConversions q)
  | .while c p => .while c (withoutConversions p)
  | .attempt p q => .attempt (withoutConversions p) (withoutConversions q)

/-- The program has no in-place operations, output arrays and conversions in place. -/
def OnlyNew : Stmt D → Prop
  | .skip => True
  | .assign _ _ => True
  | .into _ _ => False
  | .convert _ _ _ => False
  | .seq p q => OnlyNew p ∧ OnlyNew q
  | .ite _ p q => OnlyNew p ∧ OnlyNew q
  | .while _ p => OnlyNew p
  | .attempt p q => OnlyNew p ∧ OnlyNew q

end Verif.Spec
