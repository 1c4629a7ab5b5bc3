import Mathlib.Tactic.NormNum
import Mathlib.Data.Rat.Floor
import Verif.Model.Neutrinos
import Verif.Props.Frame

/-!
# C46: neutrino species
-/

set_option linter.unusedSectionVars false

namespace Verif.Props
open Verif Verif.Scatter Verif.Neutrinos

variable {K : Type} [Field K] [LinearOrder K] [IsStrictOrderedRing K] [FloorRing K]

/-- All species of a model: each massive one as often as its degeneracy says, then the massless ones. -/
def species : List (K × Nat) → Nat → List K
  | [], 0 => []
  | [], n + 1 => 0 :: species [] n
  | (_, 0) :: rest, n => species rest n
  | (m, d + 1) :: rest, n => m :: species ((m, d) :: rest) n
termination_by l n => (l.length, (l.map Prod.snd).sum + n)
decreasing_by all_goals simp_wf; first | (right; omega) | (left; omega)

private theorem species_massless (n : Nat) : species ([] : List (K × Nat)) n = List.replicate n 0 := by
  induction n with
  | zero => rw [species]; rfl
  | succ n ih => rw [species, ih, List.replicate_succ]

private theorem species_eq (sp : List (K × Nat)) (n : Nat) :
    species sp n = sp.flatMap (fun s => List.replicate s.2 s.1) ++ List.replicate n 0 := by
  induction sp with
  | nil => rw [species_massless]; rfl
  | cons s rest ih =>
    obtain ⟨m, d⟩ := s
    induction d with
    | zero => rw [species, ih]; simp
    | succ d ihd => rw [species, ihd]; simp [List.replicate_succ]

/-- There is one entry for every species. -/
theorem c46_length (sp : List (K × Nat)) (n : Nat) : (species sp n).length = (sp.map Prod.snd).sum + n := by
  rw [species_eq]
  simp

private theorem trunc_nat (d : Nat) : trunc (d : K) = d := by
  unfold trunc
  rw [if_pos (by positivity)]
  exact Int.floor_natCast d

private theorem trunc_floor {v : K} (h : 0 ≤ v) : trunc v = ⌊v⌋ := if_pos h

private theorem foldl_append {α : Type} (ls : List (List α)) (acc : List α) : ls.foldl (· ++ ·) acc = acc ++ ls.flatten := by
  induction ls generalizing acc with
  | nil => simp
  | cons l ls ih => simp [ih]

/-- C46. With a whole degeneracy for every mass the model is accepted exactly when the whole part of `N_eff` is the number of
massive species plus the whole part of `N_ur`. The result then lists all species. -/
theorem c46_species {nEff nUr : K} (h1 : 0 ≤ nEff) (h2 : 0 ≤ nUr) (sp : List (K × Nat)) :
    toAstropy nEff nUr (sp.map Prod.fst) (sp.map fun s => (s.2 : K)) =
      if ⌊nEff⌋.toNat = (sp.map Prod.snd).sum + ⌊nUr⌋.toNat then .ok (species sp ⌊nUr⌋.toNat) else .error .attribute := by
  have ha : ((sp.map fun s => (s.2 : K)).all fun d => decide (d = (trunc d : K))) = true := by
    simp [trunc_nat]
  have hs : ((sp.map fun s => (s.2 : K)).map trunc).sum = (((sp.map Prod.snd).sum : Nat) : Int) := by
    rw [List.map_map]
    induction sp with
    | nil => rfl
    | cons s sp ih => simp only [List.map_cons, List.sum_cons, Function.comp_def, trunc_nat] at ih ⊢; rw [ih (by simp [trunc_nat])]; push_cast; rfl
  have hz : ((sp.map Prod.fst).zip (sp.map fun s => (s.2 : K))).map (fun p => List.replicate (trunc p.2).toNat p.1) =
      sp.map fun s => List.replicate s.2 s.1 := by
    rw [List.zip_map', List.map_map]
    apply List.map_congr_left
    intro s _
    simp [trunc_nat]
  have f1 := Int.floor_nonneg.2 h1
  have f2 := Int.floor_nonneg.2 h2
  unfold toAstropy
  rw [ha, hs, hz, foldl_append, List.nil_append, trunc_floor h1, trunc_floor h2, species_eq, List.flatMap]
  simp only [Bool.not_true, Bool.false_eq_true, if_false]
  by_cases h : ⌊nEff⌋.toNat = (sp.map Prod.snd).sum + ⌊nUr⌋.toNat
  · rw [if_neg (by omega), if_pos h]
  · rw [if_pos (by omega), if_neg h]

/-- C46. Fractional degeneracies are refused. -/
theorem c46_fraction (nEff nUr : K) (masses deg : List K) (d : K) (hd : d ∈ deg) (hf : ∀ k : Int, d ≠ k) :
    toAstropy nEff nUr masses deg = .error .attribute := by
  unfold toAstropy
  rw [if_pos]
  rw [Bool.not_eq_true', List.all_eq_false]
  exact ⟨d, hd, by simpa using hf _⟩

/-- C46. A header without neutrinos gives the three massless species. -/
theorem c46_default : fromHeader (K := K) none none none none = .ok [0, 0, 0] := by
  have h := c46_species (K := K) (nEff := 304 / 100) (nUr := 304 / 100) (by positivity) (by positivity) [(0, 0)]
  have hf : ⌊(304 / 100 : K)⌋ = 3 := by rw [Int.floor_eq_iff]; norm_num
  rw [hf] at h
  simpa [fromHeader, species] using h

/-- C46 fails when there are fewer masses than degeneracies: species are left out without notice. -/
theorem c46_missing_mass_fails : toAstropy (3 : ℚ) 0 [1 / 10] [1, 2] = .ok [1 / 10] := by decide +kernel

/-- C46 fails for negative degeneracies, which only count in the comparison: four species for `N_eff = 3`. -/
theorem c46_negative_fails : toAstropy (3 : ℚ) 1 [1 / 10, 2 / 10] [3, -1] = .ok [1 / 10, 1 / 10, 1 / 10, 0] := by decide +kernel

/-- C46 fails for fractional numbers of massless species: two and nine tenths of them become two, and the sum is not compared. -/
theorem c46_fraction_lost_fails : toAstropy (31 / 10 : ℚ) (29 / 10) [1 / 10] [1] = .ok [1 / 10, 0, 0] := by decide +kernel

example : toAstropy (3046 / 1000 : ℚ) (1 / 1000) [1 / 100, 5 / 100] [2, 1] = .ok [1 / 100, 1 / 100, 5 / 100] := by decide +kernel

end Verif.Props
