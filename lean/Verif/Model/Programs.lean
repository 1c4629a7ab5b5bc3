import Verif.Model.Formulas

/-!
# Programs: assignments, in-place operations, conversions, branches and loops with `cosmo_array`s (swiftsimio/objects.py)

Variables are names of objects, as in Python: `y = x` gives the same array a second name. All arrays have memory of their own;
functions of whole arrays in formulas return copies here (views are in `Model/Memory.lean`). Names that are not bound and bare arrays as
variables are left out.
-/

namespace Verif.Programs
open Verif Verif.Cosmo Verif.Formulas

/-- Comparisons. -/
inductive Cmp
  | less | lessEqual | greater | greaterEqual | equal | notEqual
  deriving DecidableEq, Repr

/-- The ufunc, objects.py:1006-1011. -/
def Cmp.ufunc : Cmp → Ufunc
  | .less => .less
  | .lessEqual => .lessEqual
  | .greater => .greater
  | .greaterEqual => .greaterEqual
  | .equal => .equal
  | .notEqual => .notEqual

/-- What it says about two numbers. -/
def Cmp.rel : Cmp → ℝ → ℝ → Prop
  | .less => fun p q => p < q
  | .lessEqual => fun p q => p ≤ q
  | .greater => fun p q => p > q
  | .greaterEqual => fun p q => p ≥ q
  | .equal => fun p q => p = q
  | .notEqual => fun p q => p ≠ q

/-- `np.all(s < t)` or `np.any(s < t)` and so on. -/
structure Cond where
  (cmp : Cmp) (left right : Expr) (all : Bool)

/-- What a program does. -/
inductive Stmt
  /-- `pass` -/
  | skip
  /-- `x = e` -/
  | assign (x : Nat) (e : Expr)
  /-- `x += e` (that is `np.add(x, e, out=x)`), `np.multiply(s, t, out=x)`, ...: the outermost part of the formula is the operation -/
  | into (x : Nat) (e : Expr)
  /-- `x.convert_to_physical()` or `x.convert_to_comoving()` -/
  | convert (physical : Bool) (x : Nat)
  | seq (p q : Stmt)
  | ite (c : Cond) (p q : Stmt)
  | while (c : Cond) (p : Stmt)
  /-- `try: p` and `except: q` -/
  | attempt (p q : Stmt)

/-- Which object a variable names, the arrays, and the next free place. -/
structure State where
  vars : Nat → Nat
  heap : Nat → Arr
  next : Nat

/-- The array that a variable names. -/
def State.env (s : State) (i : Nat) : Arr := s.heap (s.vars i)

/-- The result of a formula becomes a new object, named `x`. -/
def State.new (s : State) (x : Nat) (z : Arr) : State :=
  ⟨Function.update s.vars x s.next, Function.update s.heap s.next z, s.next + 1⟩

/-- The object named `x` becomes `z`: numbers and attributes. -/
def State.store (s : State) (x : Nat) (z : Arr) : State := { s with heap := Function.update s.heap (s.vars x) z }

/-- The test of a branch or loop. -/
noncomputable def test (env : Nat → Arr) (c : Cond) : Except Err Prop :=
  (Formulas.compare c.cmp.ufunc c.cmp.rel env c.left c.right).map fun l => if c.all then ∀ b ∈ l, b else ∃ b ∈ l, b

/-- `Runs s p o s'`: in the state `s` the program `p` ends in the state `s'`, with an exception if `o` is one. In-place operations and
output arrays are `__array_ufunc__` with `out`, objects.py:2188-2244 (see `Memory.ufuncOut`: an output of another shape is refused and
an exception leaves it alone); conversions are objects.py:1437-1506. -/
inductive Runs : State → Stmt → Option Err → State → Prop
  | skip (s : State) : Runs s .skip none s
  | name (s : State) (x y : Nat) : Runs s (.assign x (.var y)) none { s with vars := Function.update s.vars x (s.vars y) }
  | assign (s : State) (x : Nat) (e : Expr) (z : Arr) (hv : ∀ y, e ≠ .var y) (he : eval s.env e = .ok (.cosmo z)) :
      Runs s (.assign x e) none (s.new x z)
  | assignErr (s : State) (x : Nat) (e : Expr) (err : Err) (he : eval s.env e = .error err) : Runs s (.assign x e) (some err) s
  | into (s : State) (x : Nat) (e : Expr) (z : Arr) (he : eval s.env e = .ok (.cosmo z))
      (hl : z.val.length = (s.env x).val.length) : Runs s (.into x e) none (s.store x z)
  | intoShape (s : State) (x : Nat) (e : Expr) (z : Arr) (he : eval s.env e = .ok (.cosmo z))
      (hl : z.val.length ≠ (s.env x).val.length) : Runs s (.into x e) (some .value) s
  | intoErr (s : State) (x : Nat) (e : Expr) (err : Err) (he : eval s.env e = .error err) : Runs s (.into x e) (some err) s
  | convert (s : State) (b : Bool) (x : Nat) (z : Arr)
      (he : (if b then (s.env x).convertToPhysical else (s.env x).convertToComoving) = .ok z) :
      Runs s (.convert b x) none (s.store x z)
  | convertErr (s : State) (b : Bool) (x : Nat) (err : Err)
      (he : (if b then (s.env x).convertToPhysical else (s.env x).convertToComoving) = .error err) :
      Runs s (.convert b x) (some err) s
  | seq (s t u : State) (p q : Stmt) (o : Option Err) (h1 : Runs s p none t) (h2 : Runs t q o u) : Runs s (.seq p q) o u
  | seqErr (s t : State) (p q : Stmt) (err : Err) (h1 : Runs s p (some err) t) : Runs s (.seq p q) (some err) t
  | iteErr (s : State) (c : Cond) (p q : Stmt) (err : Err) (hc : test s.env c = .error err) : Runs s (.ite c p q) (some err) s
  | iteTrue (s t : State) (c : Cond) (p q : Stmt) (o : Option Err) (b : Prop) (hc : test s.env c = .ok b) (hb : b)
      (h1 : Runs s p o t) : Runs s (.ite c p q) o t
  | iteFalse (s t : State) (c : Cond) (p q : Stmt) (o : Option Err) (b : Prop) (hc : test s.env c = .ok b) (hb : ¬ b)
      (h1 : Runs s q o t) : Runs s (.ite c p q) o t
  | whileErr (s : State) (c : Cond) (p : Stmt) (err : Err) (hc : test s.env c = .error err) : Runs s (.while c p) (some err) s
  | whileDone (s : State) (c : Cond) (p : Stmt) (b : Prop) (hc : test s.env c = .ok b) (hb : ¬ b) : Runs s (.while c p) none s
  | whileStep (s t u : State) (c : Cond) (p : Stmt) (o : Option Err) (b : Prop) (hc : test s.env c = .ok b) (hb : b)
      (h1 : Runs s p none t) (h2 : Runs t (.while c p) o u) : Runs s (.while c p) o u
  | whileStop (s t : State) (c : Cond) (p : Stmt) (err : Err) (b : Prop) (hc : test s.env c = .ok b) (hb : b)
      (h1 : Runs s p (some err) t) : Runs s (.while c p) (some err) t
  | attempt (s t : State) (p q : Stmt) (h1 : Runs s p none t) : Runs s (.attempt p q) none t
  | rescue (s t u : State) (p q : Stmt) (err : Err) (o : Option Err) (h1 : Runs s p (some err) t) (h2 : Runs t q o u) :
      Runs s (.attempt p q) o u

end Verif.Programs
