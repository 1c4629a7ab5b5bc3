import Verif.Model.Attributes

/-!
# Model of the expressions of factors that were computed (swiftsimio/objects.py, swiftsimio/snapshot_writer.py)

`Model/Cosmo.lean` has the exponent of `a` in a factor as a number. Here are the expressions that sympy keeps. The symbol `a`
(objects.py:136) is declared without assumptions, so `(a**2)**0.5` is not `a`. A float that is a whole number is treated as the integer,
and powers of the same root are not joined in products.
-/

namespace Verif.Powers
open Verif Verif.Cosmo Verif.Attributes

/-- An expression: `a**k` (which is 1 for `k = 0` and `a` for `k = 1`), a power of an expression that is not a power of `a`, or a
product. -/
inductive Sym
  | atom (k : ℝ)
  | nest (s : Sym) (p : ℝ)
  | prod (s t : Sym)

/-- Is the number whole? -/
def Whole (p : ℝ) : Prop := ∃ n : ℤ, p = n

open Classical in
/-- `expr * expr` (objects.py:488): powers of `a` are joined, factors 1 left out. -/
noncomputable def Sym.mul (s t : Sym) : Sym :=
  match s, t with
  | .atom k, .atom l => .atom (k + l)
  | .atom k, t => if k = 0 then t else .prod (.atom k) t
  | s, .atom l => if l = 0 then s else .prod s (.atom l)
  | s, t => .prod s t

open Classical in
/-- `Pow(b, e)` of sympy for an expression that is not joined with the exponent: `b**0` is 1 and `b**1` is `b`. -/
noncomputable def Sym.root (b : Sym) (e : ℝ) : Sym := if e = 0 then .atom 0 else if e = 1 then b else .nest b e

open Classical in
/-- `expr**p` (objects.py:652), `Pow._eval_power` of sympy for a symbol without assumptions: `(b**e)**p` is `b**(e*p)` for an integer
`p`, and for `e` between -1 and 1 (not -1); a whole power of a product is the product of the powers. -/
noncomputable def Sym.pow (s : Sym) (p : ℝ) : Sym :=
  match s with
  | .atom k => if Whole p ∨ |k| < 1 ∨ k = 1 then .atom (k * p) else .nest (.atom k) p
  | .nest b e => if Whole p ∨ |e| < 1 ∨ e = 1 then b.root (e * p) else .nest (.nest b e) p
  | .prod s t => if Whole p then (s.pow p).mul (t.pow p) else .nest (.prod s t) p

/-- `float(getattr(field.cosmo_factor.expr, "exp", 1.0))`, snapshot_writer.py:274-276: the outermost exponent. Numbers, symbols and
products have no `exp`. -/
noncomputable def Sym.exp : Sym → ℝ
  | .atom k => exponentOf k
  | .nest _ p => p
  | .prod _ _ => 1

/-- The number `expr.subs(a, scale_factor)`, objects.py:343. -/
noncomputable def Sym.at (x : ℝ) : Sym → ℝ
  | .atom k => x ^ k
  | .nest s p => s.at x ^ p
  | .prod s t => s.at x * t.at x

/-- A field whose factor has this expression as it is written: the attributes and the numbers, snapshot_writer.py:233-280. -/
noncomputable def writeSym (dims : Exps) (s : Sym) (v : List ℝ) : Attrs × List ℝ := (⟨dims, some s.exp, none, none⟩, v)

end Verif.Powers
