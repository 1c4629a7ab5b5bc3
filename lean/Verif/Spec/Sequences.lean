import Verif.Model.Sequences
import Verif.Spec.Cosmo

/-!
# Specification of lists of quantities as arguments and of ranges of histograms
-/

namespace Verif.Spec
open Verif Verif.Cosmo Verif.Sequences

/-- An argument given as a list, and as an array made from the list. -/
def GivenBoth (l : List Arr) (z : Arr) : Prop := newFromList (l.map .cosmo) none none true = .ok z

/-- `n` bins of the same width between `lo` and `hi`: the edges, and how many of the values are in each bin, the last one of which has its
upper edge too. -/
structure EvenBins (n : Nat) (lo hi : ℝ) (values : List ℝ) (counts edges : List ℝ) : Prop where
  edges_length : edges.length = n + 1
  edge : ∀ i : Nat, i ≤ n → edges[i]? = some (lo + (hi - lo) * i / n)
  counts_length : counts.length = n
  inner : ∀ (i : Nat) (e f : ℝ), i + 1 < n → edges[i]? = some e → edges[i + 1]? = some f →
    counts[i]? = some ((values.countP fun v => decide (e ≤ v ∧ v < f) : Nat) : ℝ)
  last : ∀ (i : Nat) (e f : ℝ), i + 1 = n → edges[i]? = some e → edges[i + 1]? = some f →
    counts[i]? = some ((values.countP fun v => decide (e ≤ v ∧ v ≤ f) : Nat) : ℝ)

end Verif.Spec
