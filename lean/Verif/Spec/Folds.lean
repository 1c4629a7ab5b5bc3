import Mathlib.Analysis.SpecialFunctions.Pow.Real

/-!
# Which folding a bin is taken from
-/

namespace Verif.Spec

/-- Spectra of several foldings in the same `bins` bins: number of waves and mean wave number, by folding and bin; the first
and the last folding; the least number of waves wanted from other foldings than the first; the highest wave number of each
folding, and the fraction of it that is trusted. -/
structure Sampling where
  bins : Nat
  counts : ℤ → Nat → Nat
  k : ℤ → Nat → ℝ
  first : ℤ
  final : ℤ
  minimal : ℤ
  limit : ℤ → ℝ
  fraction : Option ℝ

/-- Bin `i` of folding `f` has enough waves. -/
def Sampling.Enough (s : Sampling) (f : ℤ) (i : Nat) : Prop :=
  if f = s.first then 0 < s.counts f i else s.minimal < s.counts f i

/-- Bin `i` of folding `f` is below the trusted wave numbers. -/
def Sampling.Below (s : Sampling) (f : ℤ) (i : Nat) : Prop :=
  match s.fraction with
  | none => s.k f i < s.limit f
  | some a => s.k f i < a * s.limit f ∧ ∃ j < s.bins, s.Enough f j ∧ s.k f i < a * s.k f j

/-- Bin `i` of folding `f` may be used. -/
def Sampling.Usable (s : Sampling) (f : ℤ) (i : Nat) : Prop :=
  0 < s.counts f i ∧ s.Enough f i ∧ (f ≠ s.final → s.Below f i)

/-- Among the foldings `fs`, `f` has the most waves in bin `i`, and is the lowest of those with as many. -/
def Sampling.Best (s : Sampling) (fs : List ℤ) (f : ℤ) (i : Nat) : Prop :=
  f ∈ fs ∧ s.Usable f i ∧ ∀ g ∈ fs, s.Usable g i → s.counts g i < s.counts f i ∨ (s.counts g i = s.counts f i ∧ f ≤ g)

end Verif.Spec
