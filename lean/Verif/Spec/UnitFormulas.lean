import Verif.Model.UnitFormulas
import Verif.Spec.Formulas

/-!
# What a formula of arrays with units means: the formula of the physical amounts in base units
-/

namespace Verif.Spec
open Verif Verif.Cosmo Verif.Formulas Verif.UnitFormulas

variable {D : Type} [AddCommGroup D] [Module ℝ D]

/-- The amounts that an array stands for: its physical values in base units. -/
noncomputable def amounts (x : Arr × U D) : List ℝ := x.1.phys.map (fun v => v * x.2.size)

/-- The same for values that may be bare numbers. -/
noncomputable def valueAmounts (x : Opd × U D) : List ℝ := x.1.phys.map (fun v => v * x.2.size)

/-- The formula of the amounts: conversions of units do nothing, products with units are products with their sizes. -/
def ofAmounts : UExpr D → Expr
  | .var i => .var i
  | .nums v => .nums v
  | .two f s t => .two f (ofAmounts s) (ofAmounts t)
  | .one f s => .one f (ofAmounts s)
  | .pow s q => .pow (ofAmounts s) q
  | .whole f s => .whole f (ofAmounts s)
  | .physical s => .physical (ofAmounts s)
  | .comoving s => .comoving (ofAmounts s)
  | .convert _ s => ofAmounts s
  | .times u s => .two .multiply (ofAmounts s) (.nums [u.size])

/-- The formula has the dimensions `d` if its variables `i` have the dimensions `ds i`. -/
inductive Measures (ds : Nat → D) : UExpr D → D → Prop
  | var (i : Nat) : Measures ds (.var i) (ds i)
  | nums (v : List ℝ) : Measures ds (.nums v) 0
  | like {f : Bin} {s t : UExpr D} {d : D} (hf : f ∉ [Bin.multiply, .divide]) (hs : Measures ds s d) (ht : Measures ds t d) :
      Measures ds (.two f s t) d
  | mul {s t : UExpr D} {c d : D} (hs : Measures ds s c) (ht : Measures ds t d) : Measures ds (.two .multiply s t) (c + d)
  | div {s t : UExpr D} {c d : D} (hs : Measures ds s c) (ht : Measures ds t d) : Measures ds (.two .divide s t) (c - d)
  | same {f : Un} {s : UExpr D} {d : D} (hf : f ∈ [Un.negative, .absolute]) (hs : Measures ds s d) : Measures ds (.one f s) d
  | sqrt {s : UExpr D} {d : D} (hs : Measures ds s d) : Measures ds (.one .sqrt s) ((1 / 2 : ℝ) • d)
  | square {s : UExpr D} {d : D} (hs : Measures ds s d) : Measures ds (.one .square s) (d + d)
  | cbrt {s : UExpr D} {d : D} (hs : Measures ds s d) : Measures ds (.one .cbrt s) ((1 / 3 : ℝ) • d)
  | reciprocal {s : UExpr D} {d : D} (hs : Measures ds s d) : Measures ds (.one .reciprocal s) (-d)
  | pow {s : UExpr D} {d : D} (hs : Measures ds s d) (q : ℝ) : Measures ds (.pow s q) (q • d)
  | whole {s : UExpr D} {d : D} {f : List ℝ → List ℝ} (hf : Homogeneous f) (hs : Measures ds s d) : Measures ds (.whole f s) d
  | physical {s : UExpr D} {d : D} (hs : Measures ds s d) : Measures ds (.physical s) d
  | comoving {s : UExpr D} {d : D} (hs : Measures ds s d) : Measures ds (.comoving s) d
  | convert {u : U D} {s : UExpr D} (hu : 0 < u.size) (hs : Measures ds s u.dim) (hb : ¬ Bare (ofAmounts s)) : Measures ds (.convert u s) u.dim
  | times {u : U D} {s : UExpr D} {d : D} (hu : 0 < u.size) (hs : Measures ds s d) (hb : ¬ Bare (ofAmounts s)) :
      Measures ds (.times u s) (d + u.dim)

end Verif.Spec
