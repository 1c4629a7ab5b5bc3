import Verif.Model.ArraySets

/-!
# Sets as sorted lists, and insertion points
-/

namespace Verif.Spec

/-- `r` lists the numbers with the property `S`, each once, in increasing order. -/
def SortedSet (r : List ℝ) (S : ℝ → Prop) : Prop := r.Pairwise (· < ·) ∧ ∀ t, t ∈ r ↔ S t

/-- `i` is where `t` can be put into `l` before anything that is not smaller. -/
def InsertionPoint (l : List ℝ) (t : ℝ) (i : ℕ) : Prop :=
  i ≤ l.length ∧ (∀ j, (h : j < l.length) → (l[j] < t ↔ j < i))

end Verif.Spec
