import Verif.Model.Constructors
import Verif.Spec.Cosmo

/-! What an array must be: with an unknown frame it is not convertible, and comoving arrays are convertible. -/

namespace Verif.Cosmo

/-- Frame and convertibility agree. -/
def Consistent (x : Arr) : Prop := (x.comoving = none → x.vt = false) ∧ (x.comoving = some true → x.vt = true)

/-- The factor that the arguments describe, if they describe one without contradiction. -/
inductive Describes : Option CF → Option ℝ → Option ℝ → Option CF → Prop
  | nothing : Describes none none none none
  | factor (f : CF) : Describes (some f) none none (some f)
  | numbers (a k : ℝ) : Describes none (some a) (some k) (some ⟨some k, some a⟩)
  | both (f : CF) (sf : Option ℝ) (k : ℝ) (h : CF.same ⟨some k, sf⟩ f) : Describes (some f) sf (some k) (some f)

end Verif.Cosmo
