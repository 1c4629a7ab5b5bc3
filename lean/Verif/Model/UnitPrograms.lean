import Verif.Model.UnitFormulas
import Verif.Model.Programs

/-!
# Programs with `cosmo_array`s that have units (swiftsimio/objects.py)

As `Model/Programs.lean`, with the units of `Model/UnitFormulas.lean`. In-place operations and output arrays take the unit that unyt
computes. In-place conversions may change the unit, the frame or both.
-/

namespace Verif.UnitPrograms
open Verif Verif.Cosmo Verif.Formulas Verif.UnitFormulas
open Verif.Programs (Cmp)

variable {D : Type} [AddCommGroup D] [Module ℝ D]

/-- `np.all(s < t)` or `np.any(s < t)` and so on. -/
structure Cond (D : Type) where
  (cmp : Cmp) (left right : UExpr D) (all : Bool)

/-- What a program does. -/
inductive Stmt (D : Type)
  /-- `pass` -/
  | skip
  /-- `x = e` -/
  | assign (x : Nat) (e : UExpr D)
  /-- `x += e` (that is `np.add(x, e, out=x)`), `np.multiply(s, t, out=x)`, ...: the outermost part of the formula is the operation -/
  | into (x : Nat) (e : UExpr D)
  /-- `x.convert_to_units(unit)`, `x.convert_to_physical(unit)` or `x.convert_to_comoving(unit)`; the unit may be left out -/
  | convert (physical : Option Bool) (unit : Option (U D)) (x : Nat)
  | seq (p q : Stmt D)
  | ite (c : Cond D) (p q : Stmt D)
  | while (c : Cond D) (p : Stmt D)
  /-- `try: p` and `except: q` -/
  | attempt (p q : Stmt D)

/-- Which object a variable names, the arrays, and the next free place. -/
structure State (D : Type) where
  vars : Nat → Nat
  heap : Nat → Arr × U D
  next : Nat

/-- The array that a variable names. -/
def State.env (s : State D) (i : Nat) : Arr × U D := s.heap (s.vars i)

/-- The result of a formula becomes a new object, named `x`. -/
def State.new (s : State D) (x : Nat) (z : Arr × U D) : State D :=
  ⟨Function.update s.vars x s.next, Function.update s.heap s.next z, s.next + 1⟩

/-- The object named `x` becomes `z`: numbers and attributes. -/
def State.store (s : State D) (x : Nat) (z : Arr × U D) : State D := { s with heap := Function.update s.heap (s.vars x) z }

/-- The test of a branch or loop. -/
noncomputable def test (env : Nat → Arr × U D) (c : Cond D) : Except Err Prop :=
  (compareU c.cmp.ufunc c.cmp.rel env c.left c.right).map fun l => if c.all then ∀ b ∈ l, b else ∃ b ∈ l, b

open Classical in
/-- `self.convert_to_units(units)` of unyt: the array afterwards and the exception. -/
noncomputable def unitIn : Option (U D) → Arr × U D → (Arr × U D) × Option Err
  | none, x => (x, none)
  | some u, x => if x.2.dim ≠ u.dim then (x, some .value) else ((propagate (List.map (· * (x.2.size / u.size))) x.1, u), none)

/-- `convert_to_physical(units)` and `convert_to_comoving(units)`, objects.py:1446-1456 and 1494-1505: first the unit, then the frame. -/
noncomputable def convertIn (b : Option Bool) (v : Option (U D)) (x : Arr × U D) : (Arr × U D) × Option Err :=
  match unitIn v x, b with
  | (y, some e), _ => (y, some e)
  | (y, none), none => (y, none)
  | (y, none), some c => match (if c then y.1.convertToPhysical else y.1.convertToComoving) with
    | .ok z => ((z, y.2), none)
    | .error e => (y, some e)

/-- `Runs s p o s'`: in the state `s` the program `p` ends in the state `s'`, with an exception if `o` is one. In-place operations and
output arrays are `__array_ufunc__` with `out`, objects.py:2188-2244 (see `Memory.ufuncOut`: an output of another shape is refused and
an exception leaves it alone). -/
inductive Runs : State D → Stmt D → Option Err → State D → Prop
  | skip (s : State D) : Runs s .skip none s
  | name (s : State D) (x y : Nat) : Runs s (.assign x (.var y)) none { s with vars := Function.update s.vars x (s.vars y) }
  | assign (s : State D) (x : Nat) (e : UExpr D) (z : Arr × U D) (hv : ∀ y, e ≠ .var y) (he : evalU s.env e = .ok (.cosmo z.1, z.2)) :
      Runs s (.assign x e) none (s.new x z)
  | assignErr (s : State D) (x : Nat) (e : UExpr D) (err : Err) (he : evalU s.env e = .error err) : Runs s (.assign x e) (some err) s
  | into (s : State D) (x : Nat) (e : UExpr D) (z : Arr × U D) (he : evalU s.env e = .ok (.cosmo z.1, z.2))
      (hl : z.1.val.length = (s.env x).1.val.length) : Runs s (.into x e) none (s.store x z)
  | intoShape (s : State D) (x : Nat) (e : UExpr D) (z : Arr × U D) (he : evalU s.env e = .ok (.cosmo z.1, z.2))
      (hl : z.1.val.length ≠ (s.env x).1.val.length) : Runs s (.into x e) (some .value) s
  | intoErr (s : State D) (x : Nat) (e : UExpr D) (err : Err) (he : evalU s.env e = .error err) : Runs s (.into x e) (some err) s
  | convert (s : State D) (b : Option Bool) (v : Option (U D)) (x : Nat) :
      Runs s (.convert b v x) (convertIn b v (s.env x)).2 (s.store x (convertIn b v (s.env x)).1)
  | seq (s t u : State D) (p q : Stmt D) (o : Option Err) (h1 : Runs s p none t) (h2 : Runs t q o u) : Runs s (.seq p q) o u
  | seqErr (s t : State D) (p q : Stmt D) (err : Err) (h1 : Runs s p (some err) t) : Runs s (.seq p q) (some err) t
  | iteErr (s : State D) (c : Cond D) (p q : Stmt D) (err : Err) (hc : test s.env c = .error err) : Runs s (.ite c p q) (some err) s
  | iteTrue (s t : State D) (c : Cond D) (p q : Stmt D) (o : Option Err) (b : Prop) (hc : test s.env c = .ok b) (hb : b)
      (h1 : Runs s p o t) : Runs s (.ite c p q) o t
  | iteFalse (s t : State D) (c : Cond D) (p q : Stmt D) (o : Option Err) (b : Prop) (hc : test s.env c = .ok b) (hb : ¬ b)
      (h1 : Runs s q o t) : Runs s (.ite c p q) o t
  | whileErr (s : State D) (c : Cond D) (p : Stmt D) (err : Err) (hc : test s.env c = .error err) : Runs s (.while c p) (some err) s
  | whileDone (s : State D) (c : Cond D) (p : Stmt D) (b : Prop) (hc : test s.env c = .ok b) (hb : ¬ b) : Runs s (.while c p) none s
  | whileStep (s t u : State D) (c : Cond D) (p : Stmt D) (o : Option Err) (b : Prop) (hc : test s.env c = .ok b) (hb : b)
      (h1 : Runs s p none t) (h2 : Runs t (.while c p) o u) : Runs s (.while c p) o u
  | whileStop (s t : State D) (c : Cond D) (p : Stmt D) (err : Err) (b : Prop) (hc : test s.env c = .ok b) (hb : b)
      (h1 : Runs s p (some err) t) : Runs s (.while c p) (some err) t
  | attempt (s t : State D) (p q : Stmt D) (h1 : Runs s p none t) : Runs s (.attempt p q) none t
  | rescue (s t u : State D) (p q : Stmt D) (err : Err) (o : Option Err) (h1 : Runs s p (some err) t) (h2 : Runs t q o u) :
      Runs s (.attempt p q) o u

end Verif.UnitPrograms
