import Verif.Model.Programs
import Verif.Spec.Formulas

/-!
# What a program means: the same program with physical numbers and exponents, without frames
-/

namespace Verif.Spec
open Verif Verif.Cosmo Verif.Formulas Verif.Programs

/-- Which object a variable names; the exponent and the physical numbers of each object; the next free place. -/
structure Ledger where
  vars : Nat → Nat
  exps : Nat → ℝ
  nums : Nat → List ℝ
  next : Nat

/-- The exponents of the variables. -/
def Ledger.dims (σ : Ledger) (i : Nat) : ℝ := σ.exps (σ.vars i)

/-- The numbers of the variables. -/
def Ledger.vals (σ : Ledger) (i : Nat) : List ℝ := σ.nums (σ.vars i)

/-- A comparison of two numbers. -/
def relation : Cmp → ℝ → ℝ → Prop
  | .less, p, q => p < q
  | .lessEqual, p, q => ¬ q < p
  | .greater, p, q => q < p
  | .greaterEqual, p, q => ¬ p < q
  | .equal, p, q => p = q
  | .notEqual, p, q => ¬ p = q

/-- The two sides of a comparison are arrays that scale alike. -/
def Comparable (σ : Ledger) (c : Cond) : Prop :=
  ∃ k, Dimension σ.dims c.left k ∧ Dimension σ.dims c.right k ∧ ¬ Bare c.left ∧ ¬ Bare c.right

/-- The outcome of a comparison of numbers. -/
def Outcome (σ : Ledger) (c : Cond) (r : Except Err Prop) : Prop :=
  r = ((meaning σ.vals c.left).bind fun v => (meaning σ.vals c.right).bind fun w => bcast2 (relation c.cmp) v w).map
    fun l => if c.all then ∀ b ∈ l, b else ∃ b ∈ l, b

/-- `Computes σ p o σ'`: with numbers and exponents, `p` leads from `σ` to `σ'`, and all formulas on the way scale. -/
inductive Computes : Ledger → Stmt → Option Err → Ledger → Prop
  | skip (σ : Ledger) : Computes σ .skip none σ
  | name (σ : Ledger) (x y : Nat) : Computes σ (.assign x (.var y)) none { σ with vars := Function.update σ.vars x (σ.vars y) }
  | assign (σ : Ledger) (x : Nat) (e : Expr) (k : ℝ) (v : List ℝ) (hv : ∀ y, e ≠ .var y) (hd : Dimension σ.dims e k) (hb : ¬ Bare e)
      (he : meaning σ.vals e = .ok v) :
      Computes σ (.assign x e) none
        ⟨Function.update σ.vars x σ.next, Function.update σ.exps σ.next k, Function.update σ.nums σ.next v, σ.next + 1⟩
  | assignErr (σ : Ledger) (x : Nat) (e : Expr) (k : ℝ) (err : Err) (hd : Dimension σ.dims e k) (he : meaning σ.vals e = .error err) :
      Computes σ (.assign x e) (some err) σ
  | into (σ : Ledger) (x : Nat) (e : Expr) (k : ℝ) (v : List ℝ) (hd : Dimension σ.dims e k) (hb : ¬ Bare e)
      (he : meaning σ.vals e = .ok v) (hl : v.length = (σ.vals x).length) :
      Computes σ (.into x e) none
        { σ with exps := Function.update σ.exps (σ.vars x) k, nums := Function.update σ.nums (σ.vars x) v }
  | intoShape (σ : Ledger) (x : Nat) (e : Expr) (k : ℝ) (v : List ℝ) (hd : Dimension σ.dims e k) (hb : ¬ Bare e)
      (he : meaning σ.vals e = .ok v) (hl : v.length ≠ (σ.vals x).length) : Computes σ (.into x e) (some .value) σ
  | intoErr (σ : Ledger) (x : Nat) (e : Expr) (k : ℝ) (err : Err) (hd : Dimension σ.dims e k) (he : meaning σ.vals e = .error err) :
      Computes σ (.into x e) (some err) σ
  | convert (σ : Ledger) (b : Bool) (x : Nat) : Computes σ (.convert b x) none σ
  | seq (σ τ υ : Ledger) (p q : Stmt) (o : Option Err) (h1 : Computes σ p none τ) (h2 : Computes τ q o υ) : Computes σ (.seq p q) o υ
  | seqErr (σ τ : Ledger) (p q : Stmt) (err : Err) (h1 : Computes σ p (some err) τ) : Computes σ (.seq p q) (some err) τ
  | iteErr (σ : Ledger) (c : Cond) (p q : Stmt) (err : Err) (hd : Comparable σ c) (hc : Outcome σ c (.error err)) :
      Computes σ (.ite c p q) (some err) σ
  | iteTrue (σ τ : Ledger) (c : Cond) (p q : Stmt) (o : Option Err) (b : Prop) (hd : Comparable σ c) (hc : Outcome σ c (.ok b)) (hb : b)
      (h1 : Computes σ p o τ) : Computes σ (.ite c p q) o τ
  | iteFalse (σ τ : Ledger) (c : Cond) (p q : Stmt) (o : Option Err) (b : Prop) (hd : Comparable σ c) (hc : Outcome σ c (.ok b)) (hb : ¬ b)
      (h1 : Computes σ q o τ) : Computes σ (.ite c p q) o τ
  | whileErr (σ : Ledger) (c : Cond) (p : Stmt) (err : Err) (hd : Comparable σ c) (hc : Outcome σ c (.error err)) :
      Computes σ (.while c p) (some err) σ
  | whileDone (σ : Ledger) (c : Cond) (p : Stmt) (b : Prop) (hd : Comparable σ c) (hc : Outcome σ c (.ok b)) (hb : ¬ b) :
      Computes σ (.while c p) none σ
  | whileStep (σ τ υ : Ledger) (c : Cond) (p : Stmt) (o : Option Err) (b : Prop) (hd : Comparable σ c) (hc : Outcome σ c (.ok b)) (hb : b)
      (h1 : Computes σ p none τ) (h2 : Computes τ (.while c p) o υ) : Computes σ (.while c p) o υ
  | whileStop (σ τ : Ledger) (c : Cond) (p : Stmt) (err : Err) (b : Prop) (hd : Comparable σ c) (hc : Outcome σ c (.ok b)) (hb : b)
      (h1 : Computes σ p (some err) τ) : Computes σ (.while c p) (some err) τ
  | attempt (σ τ : Ledger) (p q : Stmt) (h1 : Computes σ p none τ) : Computes σ (.attempt p q) none τ
  | rescue (σ τ υ : Ledger) (p q : Stmt) (err : Err) (o : Option Err) (h1 : Computes σ p (some err) τ) (h2 : Computes τ q o υ) :
      Computes σ (.attempt p q) o υ

/-- The arrays of `s`, each in whatever frame, mean the numbers and exponents of `σ` at scale factor `a`. -/
structure Tallies (a : ℝ) (s : State) (σ : Ledger) : Prop where
  vars : s.vars = σ.vars
  next : s.next = σ.next
  conv : ∀ l, Conv a (σ.exps l) (s.heap l)
  phys : ∀ l, (s.heap l).phys = σ.nums l

/-- The program without its conversions in place. -/
def unconverted : Stmt → Stmt
  | .skip => .skip
  | .assign x e => .assign x e
  | .into x e => .into x e
  | .convert _ _ => .skip
  | .seq p q => .seq (unconverted p) (unconverted q)
  | .ite c p q => .ite c (unconverted p) (unconverted q)
  | .while c p => .while c (unconverted p)
  | .attempt p q => .attempt (unconverted p) (unconverted q)

/-- The program has no in-place operations and output arrays. -/
def NoInto : Stmt → Prop
  | .skip => True
  | .assign _ _ => True
  | .into _ _ => False
  | .convert _ _ => True
  | .seq p q => NoInto p ∧ NoInto q
  | .ite _ p q => NoInto p ∧ NoInto q
  | .while _ p => NoInto p
  | .attempt p q => NoInto p ∧ NoInto q

/-- The program has no conversions in place. -/
def NoConvert : Stmt → Prop
  | .skip => True
  | .assign _ _ => True
  | .into _ _ => True
  | .convert _ _ => False
  | .seq p q => NoConvert p ∧ NoConvert q
  | .ite _ p q => NoConvert p ∧ NoConvert q
  | .while _ p => NoConvert p
  | .attempt p q => NoConvert p ∧ NoConvert q

end Verif.Spec
