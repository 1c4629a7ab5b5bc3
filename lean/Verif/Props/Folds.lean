import Mathlib.Tactic.FieldSimp
import Mathlib.Tactic.Ring
import Mathlib.Tactic.Linarith
import Mathlib.Tactic.Positivity
import Verif.Model.Folds
import Verif.Props.Spectrum
import Verif.Spec.Folds

/-!
# C63: spectra of several foldings (`swiftsimio/visualisation/power_spectrum.py`)
-/

noncomputable section

namespace Verif.Props
open Verif Verif.Spec Verif.Spectrum Verif.Folds

/-- The call of `deposition_to_power_spectrum` for the folding `f`. -/
def spectrumAt (deps : List (ℤ × Grid)) (cross : Option (List (ℤ × Grid))) (box : ℝ × ℝ × ℝ) (e : List ℝ) (shot : Option ℝ)
    (f : ℤ) : Except Err Result :=
  match deps.lookup f, cross with
  | none, _ => .error .key
  | some d, none => toSpectrum d none box f (some e) shot
  | some d, some cs => match cs.lookup f with
    | none => .error .key
    | some c => toSpectrum d (some c) box f (some e) shot

/-- The number of cells along a side of the deposition for the folding `f`. -/
def cellsAt (deps : List (ℤ × Grid)) (f : ℤ) : Nat := ((deps.lookup f).map fun d => d.1.headD 0).getD 0

/-- What the spectra `sp` say, with the highest wave number `2 ^ f * n / L` of `n` cells across the shortest side. -/
def samplingOf (deps : List (ℤ × Grid)) (box : ℝ × ℝ × ℝ) (n : Nat) (o : Options) (minimal first final : ℤ)
    (sp : ℤ → Result) : Sampling where
  bins := n
  counts := fun f => (sp f).counts
  k := fun f => (sp f).wavenumbers
  first := first
  final := final
  minimal := minimal
  limit := fun f => 2 ^ f * cellsAt deps f / min box.1 (min box.2.1 box.2.2)
  fraction := o.cutoffFraction

private theorem shape_cube {d : Grid} {c : Option Grid} {box : ℝ × ℝ × ℝ} {f : ℤ} {e : Option (List ℝ)} {shot : Option ℝ} {r : Result}
    (h : toSpectrum d c box f e shot = .ok r) : ∃ n, d.1 = [n, n, n] := by
  by_contra hcon
  have := (c62_refused d.1 d.2 box f e shot).1 (fun n hn => hcon ⟨n, hn⟩) c
  rw [show (d.1, d.2) = d from rfl, h] at this
  cases this

private theorem bins_eq {d : Grid} {c : Option Grid} {box : ℝ × ℝ × ℝ} {f : ℤ} {e : List ℝ} {shot : Option ℝ} {r : Result}
    (h : toSpectrum d c box f (some e) shot = .ok r) : r.bins = e.length - 1 := by
  obtain ⟨n, hn⟩ := shape_cube h
  unfold toSpectrum at h
  rw [hn] at h
  rcases c with - | c
  · by_cases hp : e.Pairwise (· ≤ ·)
    · simp [pure, Except.pure, hp] at h
      rw [← h]
    · simp [bind, Except.bind, throw, throwThe, MonadExceptOf.throw, hp] at h
  · by_cases hc : c.1 = [n, n, n]
    · by_cases hp : e.Pairwise (· ≤ ·)
      · simp [pure, Except.pure, hp, hc] at h
        rw [← h]
      · simp [bind, Except.bind, throw, throwThe, MonadExceptOf.throw, hp, hc] at h
    · simp [bind, Except.bind, throw, throwThe, MonadExceptOf.throw, hc] at h

private theorem foldl_max (xs : List ℝ) (x : ℝ) : x ≤ xs.foldl max x ∧ (∀ y ∈ xs, y ≤ xs.foldl max x) ∧
    (xs.foldl max x = x ∨ xs.foldl max x ∈ xs) := by
  induction xs generalizing x with
  | nil => simp
  | cons y ys ih =>
    obtain ⟨h1, h2, h3⟩ := ih (max x y)
    simp only [List.foldl_cons]
    refine ⟨(le_max_left x y).trans h1, ?_, ?_⟩
    · intro z hz
      rcases List.mem_cons.1 hz with rfl | hz
      · exact (le_max_right x z).trans h1
      · exact h2 z hz
    · rcases h3 with h3 | h3
      · rcases max_choice x y with h | h
        · left; rw [h3, h]
        · right; rw [h3, h]; simp
      · right; exact List.mem_cons_of_mem _ h3

private theorem maxOver_ok {n : Nat} {use : Nat → Bool} {w : Nat → ℝ} {m : ℝ} (h : maxOver n use w = .ok m) :
    (∃ j < n, use j = true ∧ m = w j) ∧ ∀ j < n, use j = true → w j ≤ m := by
  unfold maxOver at h
  split at h
  · cases h
  · rename_i x xs heq
    cases h
    obtain ⟨h1, h2, h3⟩ := foldl_max xs x
    have hm : ∀ y, y ∈ x :: xs ↔ ∃ j < n, use j = true ∧ w j = y := by
      intro y
      rw [← heq]
      simp [and_assoc]
    constructor
    · have : xs.foldl max x ∈ x :: xs := by
        rcases h3 with h3 | h3
        · rw [h3]; simp
        · exact List.mem_cons_of_mem _ h3
      obtain ⟨j, hj, hu, hw⟩ := (hm _).1 this
      exact ⟨j, hj, hu, hw.symm⟩
    · intro j hj hu
      have : w j ∈ x :: xs := (hm _).2 ⟨j, hj, hu, rfl⟩
      rcases List.mem_cons.1 this with h | h
      · rw [h]; exact h1
      · exact h2 _ h

private theorem spectrum_ok {deps : List (ℤ × Grid)} {cross : Option (List (ℤ × Grid))} {box : ℝ × ℝ × ℝ} {e : List ℝ} {o : Options}
    {f : ℤ} {d : Grid} {r : Result} (h : Folds.spectrum deps cross box e o f = .ok (d, r)) :
    deps.lookup f = some d ∧ spectrumAt deps cross box e o.shotNoise f = .ok r ∧ r.bins = e.length - 1 ∧
      ∃ n, d.1 = [n, n, n] := by
  unfold Folds.spectrum at h
  unfold spectrumAt
  cases hd : deps.lookup f with
  | none => simp [hd, throw, throwThe, MonadExceptOf.throw] at h
  | some d' =>
    cases cross with
    | none =>
      simp only [hd, bind, Except.bind, pure, Except.pure] at h
      split at h
      · cases h
      · rename_i v hv
        cases h
        exact ⟨rfl, hv, bins_eq hv, shape_cube hv⟩
    | some cs =>
      cases hc : cs.lookup f with
      | none => simp [hd, hc, throw, throwThe, MonadExceptOf.throw] at h
      | some c =>
        simp only [hd, hc, bind, Except.bind, pure, Except.pure] at h
        split at h
        · cases h
        · rename_i v hv
          cases h
          exact ⟨rfl, by simpa [hc] using hv, bins_eq hv, shape_cube hv⟩

private theorem use_iff {deps : List (ℤ × Grid)} {box : ℝ × ℝ × ℝ} {o : Options} {first final f : ℤ} {n : Nat} {d : Grid} {r : Result}
    {use : Nat → Bool} (ha : ∀ a ∈ o.cutoffFraction, 0 ≤ a) (hd : deps.lookup f = some d) (hs : ∃ m, d.1 = [m, m, m])
    (hn : r.bins = n) (h : useBins d box o first final r f = .ok use) (sp : ℤ → Result) (hsp : sp f = r) :
    (f ≠ first → o.minimalModes ≠ none) ∧ ∀ minimal, (f ≠ first → o.minimalModes = some minimal) → ∀ i,
      (0 < r.counts i ∧ use i = true) ↔ (samplingOf deps box n o minimal first final sp).Usable f i := by
  unfold useBins at h
  cases ht : threshold o first f with
  | error e => rw [ht] at h; cases h
  | ok t =>
    have hmin : (f ≠ first → o.minimalModes ≠ none) ∧ ∀ minimal, (f ≠ first → o.minimalModes = some minimal) →
        t = if f = first then 0 else minimal := by
      unfold threshold at ht
      by_cases hf : f = first
      · simp [hf, pure, Except.pure] at ht
        simp [hf, ht]
      · rw [if_pos hf] at ht
        cases hm : o.minimalModes with
        | none => rw [hm] at ht; cases ht
        | some m =>
          rw [hm] at ht
          cases ht
          simp [hf]
    refine ⟨hmin.1, ?_⟩
    intro minimal hm
    have ht' := hmin.2 minimal hm
    have henough : ∀ j, (t < (r.counts j : ℤ)) ↔ (samplingOf deps box n o minimal first final sp).Enough f j := by
      intro j
      unfold Sampling.Enough samplingOf
      simp only [hsp, ht']
      by_cases hf : f = first
      · simp [hf]
      · simp [hf]
    rw [ht] at h
    simp only [bind, Except.bind] at h
    intro i
    unfold Sampling.Usable
    have hcnt : (samplingOf deps box n o minimal first final sp).counts f i = r.counts i := by simp [samplingOf, hsp]
    have hfin : (samplingOf deps box n o minimal first final sp).final = final := rfl
    rw [hcnt, hfin, ← henough]
    by_cases hff : f = final
    · rw [if_neg (by simpa using hff)] at h
      cases h
      simp [hff]
    · rw [if_pos hff] at h
      cases hc : cutoff d box o r (fun i => decide (t < (r.counts i : ℤ))) f with
      | error e => rw [hc] at h; cases h
      | ok c =>
        rw [hc] at h
        cases h
        have hbelow : r.wavenumbers i < c ↔ (samplingOf deps box n o minimal first final sp).Below f i := by
          obtain ⟨m, hm⟩ := hs
          have hshape : (d.1.foldl min (d.1.headD 0) : ℕ) = cellsAt deps f := by simp [cellsAt, hd, hm]
          unfold cutoff at hc
          rw [hshape] at hc
          unfold Sampling.Below
          have e1 : (samplingOf deps box n o minimal first final sp).fraction = o.cutoffFraction := rfl
          have e2 : (samplingOf deps box n o minimal first final sp).limit f = 2 ^ f * cellsAt deps f / min box.1 (min box.2.1 box.2.2) := rfl
          have e3 : (samplingOf deps box n o minimal first final sp).k f = r.wavenumbers := by simp [samplingOf, hsp]
          have e4 : (samplingOf deps box n o minimal first final sp).bins = n := rfl
          rw [e1, e2, e3, e4]
          cases hq : o.cutoffFraction with
          | none =>
            rw [hq] at hc
            cases hc
            exact Iff.rfl
          | some a =>
            have ha0 : 0 ≤ a := ha a (by rw [hq]; rfl)
            rw [hq] at hc
            simp only [bind, Except.bind] at hc
            split at hc
            · cases hc
            · rename_i v hv
              cases hc
              obtain ⟨⟨j, hj, hu, hw⟩, hmax⟩ := maxOver_ok hv
              simp only
              rw [lt_min_iff, and_comm]
              refine and_congr Iff.rfl ?_
              constructor
              · intro h
                exact ⟨j, by omega, (henough j).1 (by simpa using hu), by rw [← hw]; exact h⟩
              · rintro ⟨l, hl, he, hlt⟩
                refine hlt.trans_le (mul_le_mul_of_nonneg_left (hmax l (by omega) ?_) ha0)
                simpa using (henough l).2 he
        rw [← hbelow]
        simp [hff]

/-- what is known after the foldings `fs` -/
private def Inv (m : Sampling) (sp : ℤ → Result) (c0 : Nat → ℝ) (fs : List ℤ) (s : State) (i : Nat) : Prop :=
  ((∀ f ∈ fs, ¬m.Usable f i) ∧ s.counts i = 0 ∧ s.power i = 0 ∧ s.centres i = c0 i ∧ s.tracker i = 1) ∨
  ∃ f, m.Best fs f i ∧ s.counts i = m.counts f i ∧ s.power i = (sp f).power i ∧ s.centres i = (sp f).wavenumbers i ∧
    s.tracker i = 2 ^ f

private theorem inv_step {m : Sampling} {sp : ℤ → Result} {c0 : Nat → ℝ} {fs : List ℤ} {s : State} {i : Nat} {f : ℤ}
    (hm : m.counts = fun f => (sp f).counts) (hlt : ∀ g ∈ fs, g ≤ f) (use : Nat → Bool)
    (hu : (0 < (sp f).counts i ∧ use i = true) ↔ m.Usable f i) (h : Inv m sp c0 fs s i) :
    Inv m sp c0 (fs ++ [f]) (update s (sp f) use f) i := by
  have hc : ∀ g, m.counts g i = (sp g).counts i := fun g => by rw [hm]
  by_cases hp : s.counts i < (sp f).counts i ∧ use i = true
  · have hU : m.Usable f i := hu.1 ⟨by omega, hp.2⟩
    right
    have e : (decide (s.counts i < (sp f).counts i) && use i) = true := by simp [hp]
    refine ⟨f, ⟨by simp, hU, ?_⟩, ?_⟩
    · intro g hg hug
      rcases List.mem_append.1 hg with hg | hg
      · left
        rcases h with ⟨h1, _⟩ | ⟨b, ⟨_, _, h1⟩, h2, _⟩
        · exact absurd hug (h1 g hg)
        · rw [hc]
          have := h1 g hg hug
          rw [hc] at h2
          simp only [hc] at this ⊢
          omega
      · rw [List.mem_singleton] at hg
        subst hg
        right
        exact ⟨rfl, le_refl _⟩
    · simp only [update, e, if_true, hc, and_self]
  · have e : (decide (s.counts i < (sp f).counts i) && use i) = false := by
      rw [Bool.eq_false_iff]
      simpa using hp
    have hle : m.Usable f i → (sp f).counts i ≤ s.counts i := by
      intro hU
      by_contra hcon
      exact hp ⟨by omega, (hu.2 hU).2⟩
    have e1 : (update s (sp f) use f).counts i = s.counts i := by simp only [update, e]; rfl
    have e2 : (update s (sp f) use f).power i = s.power i := by simp only [update, e]; rfl
    have e3 : (update s (sp f) use f).centres i = s.centres i := by simp only [update, e]; rfl
    have e4 : (update s (sp f) use f).tracker i = s.tracker i := by simp only [update, e]; rfl
    unfold Inv
    rw [e1, e2, e3, e4]
    rcases h with ⟨h1, h2⟩ | ⟨b, ⟨hb, hub, h1⟩, h2⟩
    · left
      refine ⟨?_, h2⟩
      intro g hg hug
      rcases List.mem_append.1 hg with hg | hg
      · exact h1 g hg hug
      · rw [List.mem_singleton] at hg
        subst hg
        have := hle hug
        have := hug.1
        rw [hc] at this
        omega
    · right
      refine ⟨b, ⟨List.mem_append_left _ hb, hub, ?_⟩, h2⟩
      intro g hg hug
      rcases List.mem_append.1 hg with hg | hg
      · exact h1 g hg hug
      · rw [List.mem_singleton] at hg
        subst hg
        have h3 := hle hug
        have h4 := h2.1
        have := hlt b hb
        simp only [hc] at h4 ⊢
        omega

private theorem loop_ok {deps : List (ℤ × Grid)} {cross : Option (List (ℤ × Grid))} {box : ℝ × ℝ × ℝ} {e : List ℝ} {o : Options}
    {first final : ℤ} (ha : ∀ a ∈ o.cutoffFraction, 0 ≤ a) (minimal : ℤ) (hmin : ∀ m ∈ o.minimalModes, m = minimal)
    (sp : ℤ → Result) (hsp : ∀ f r, spectrumAt deps cross box e o.shotNoise f = .ok r → sp f = r) (c0 : Nat → ℝ)
    (l : List ℤ) : ∀ (fs : List ℤ) (s s' : State), (fs ++ l).Pairwise (· ≤ ·) →
      (∀ i, Inv (samplingOf deps box (e.length - 1) o minimal first final sp) sp c0 fs s i) →
      l.foldlM (step deps cross box e o first final) s = .ok s' →
      (∀ i, Inv (samplingOf deps box (e.length - 1) o minimal first final sp) sp c0 (fs ++ l) s' i) ∧
      (∀ f ∈ l, spectrumAt deps cross box e o.shotNoise f = .ok (sp f)) ∧ (∀ f ∈ l, f ≠ first → o.minimalModes ≠ none) ∧
      (l ≠ [] → o.transition = "simple") := by
  induction l with
  | nil =>
    intro fs s s' _ hi h
    cases h
    simpa using hi
  | cons f l ih =>
    intro fs s s' hs hi h
    rw [List.foldlM_cons] at h
    cases h1 : step deps cross box e o first final s f with
    | error err => rw [h1] at h; cases h
    | ok s1 =>
      rw [h1] at h
      have h : l.foldlM (step deps cross box e o first final) s1 = .ok s' := h
      unfold step at h1
      cases h2 : Folds.spectrum deps cross box e o f with
      | error err => rw [h2] at h1; cases h1
      | ok dr =>
        obtain ⟨d, r⟩ := dr
        rw [h2] at h1
        simp only [bind, Except.bind] at h1
        cases h3 : useBins d box o first final r f with
        | error err => rw [h3] at h1; cases h1
        | ok use =>
          rw [h3] at h1
          dsimp only at h1
          by_cases ht : o.transition = "simple"
          · rw [if_pos ht] at h1
            cases h1
            obtain ⟨hd, hr, hb, hsh⟩ := spectrum_ok h2
            have hspf := hsp f r hr
            obtain ⟨hu1, hu2⟩ := use_iff (n := e.length - 1) ha hd hsh hb h3 sp hspf
            have hm : f ≠ first → o.minimalModes = some minimal := by
              intro hf
              cases hq : o.minimalModes with
              | none => exact absurd hq (hu1 hf)
              | some m => rw [hmin m (by rw [hq]; rfl)]
            have hi' : ∀ i, Inv (samplingOf deps box (e.length - 1) o minimal first final sp) sp c0 (fs ++ [f]) (update s r use f) i := by
              intro i
              rw [← hspf]
              refine inv_step rfl ?_ use ?_ (hi i)
              · intro g hg
                have := (List.pairwise_append.1 hs).2.2 g hg f (by simp)
                exact this
              · rw [hspf]
                exact hu2 minimal hm i
            have hs' : (fs ++ [f] ++ l).Pairwise (· ≤ ·) := by simpa using hs
            obtain ⟨k1, k2, k3, _⟩ := ih (fs ++ [f]) _ s' hs' hi' h
            refine ⟨by simpa using k1, ?_, ?_, fun _ => ht⟩
            · intro g hg
              rcases List.mem_cons.1 hg with rfl | hg
              · rw [hr, hspf]
              · exact k2 g hg
            · intro g hg
              rcases List.mem_cons.1 hg with rfl | hg
              · exact hu1
              · exact k3 g hg
          · rw [if_neg ht] at h1
            cases h1

private theorem getLast_ge {l : List ℤ} (hs : l.Pairwise (· ≤ ·)) (hne : l ≠ []) : ∀ f ∈ l, f ≤ l.getLast hne := by
  intro f hf
  obtain ⟨i, hi, rfl⟩ := List.getElem_of_mem hf
  rw [List.getLast_eq_getElem]
  rcases Nat.lt_or_ge i (l.length - 1) with h | h
  · exact List.pairwise_iff_getElem.1 hs i (l.length - 1) hi (by omega) h
  · have : i = l.length - 1 := by omega
    subst this
    exact le_refl _

/-- what a successful call has gone through -/
private theorem merge_ok {deps : List (ℤ × Grid)} {cross : Option (List (ℤ × Grid))} {box : ℝ × ℝ × ℝ} {boxExponent : ℤ} {n : Nat}
    {range : Option (ℝ × ℝ)} {log : Bool} {o : Options} {m : Merged}
    (h : merge deps box boxExponent n cross range log o = .ok m) :
    (∀ cs ∈ cross, ∀ f, f ∈ deps.map Prod.fst ↔ f ∈ cs.map Prod.fst) ∧
    ∃ rg, range = some rg ∧ m.edges = edges log rg n ∧ m.label = -(3 * boxExponent) ∧
      ∃ first rest, (deps.map Prod.fst).insertionSort (· ≤ ·) = first :: rest ∧
        ∃ s, (first :: rest).foldlM (step deps cross box m.edges o first ((first :: rest).getLast (by simp)))
          { centres := Folds.centre m.edges, power := fun _ => 0, tracker := fun _ => 1, counts := fun _ => 0 } = .ok s ∧
          m.centres = s.centres ∧ m.power = s.power ∧ m.tracker = s.tracker := by
  have key : ∀ (hc : ∀ cs ∈ cross, ∀ f, f ∈ deps.map Prod.fst ↔ f ∈ cs.map Prod.fst), merge deps box boxExponent n cross range log o =
      match range with
      | none => .error .notImpl
      | some rg => match (deps.map Prod.fst).insertionSort (· ≤ ·) with
        | [] => .error .value
        | first :: rest => do
          let s ← (first :: rest).foldlM (step deps cross box (edges log rg n) o first ((first :: rest).getLast (by simp)))
            { centres := Folds.centre (edges log rg n), power := fun _ => 0, tracker := fun _ => 1, counts := fun _ => 0 }
          return { edges := edges log rg n, centres := s.centres, power := s.power, tracker := s.tracker, label := -(3 * boxExponent) } := by
    intro hc
    unfold merge
    cases cross with
    | none => cases range <;> rfl
    | some cs =>
      have := hc cs rfl
      simp only [this, implies_true, not_true_eq_false, if_false]
      cases range <;> rfl
  have hc : ∀ cs ∈ cross, ∀ f, f ∈ deps.map Prod.fst ↔ f ∈ cs.map Prod.fst := by
    intro cs hcs
    by_contra hcon
    have hcs' : cross = some cs := hcs
    unfold merge at h
    rw [hcs'] at h
    simp only [hcon, not_false_eq_true, if_true] at h
    cases h
  refine ⟨hc, ?_⟩
  rw [key hc] at h
  cases range with
  | none => cases h
  | some rg =>
    dsimp only at h
    split at h
    · cases h
    · rename_i first rest heq
      simp only [bind, Except.bind] at h
      split at h
      · cases h
      · rename_i s hs
        cases h
        exact ⟨rg, rfl, rfl, rfl, first, rest, heq, s, hs, rfl, rfl, rfl⟩

/-- C63. In each bin the power, the mean wave number and the tracker are those of one folding: among the foldings that may be
used there the one with the most waves, and the lowest of those with as many. Bins where no folding may be used have power
zero, the middle of the bin and the tracker of an unfolded box. -/
theorem c63_best (deps : List (ℤ × Grid)) (cross : Option (List (ℤ × Grid))) (box : ℝ × ℝ × ℝ) (boxExponent : ℤ) (n : Nat)
    (range : Option (ℝ × ℝ)) (log : Bool) (o : Options) (ha : ∀ a ∈ o.cutoffFraction, 0 ≤ a) (m : Merged)
    (h : merge deps box boxExponent n cross range log o = .ok m) :
    ∃ (first final : ℤ) (sp : ℤ → Result), IsLeast {f | f ∈ deps.map Prod.fst} first ∧ IsGreatest {f | f ∈ deps.map Prod.fst} final ∧
      (∀ f ∈ deps.map Prod.fst, spectrumAt deps cross box m.edges o.shotNoise f = .ok (sp f)) ∧
      ∀ i < n,
        ((∀ f ∈ deps.map Prod.fst, ¬(samplingOf deps box n o (o.minimalModes.getD 0) first final sp).Usable f i) ∧
          m.power i = 0 ∧ (∃ a b, m.edges[i]? = some a ∧ m.edges[i + 1]? = some b ∧ m.centres i = (a + b) / 2) ∧ m.tracker i = 1) ∨
        ∃ f, (samplingOf deps box n o (o.minimalModes.getD 0) first final sp).Best (deps.map Prod.fst) f i ∧
          m.power i = (sp f).power i ∧ m.centres i = (sp f).wavenumbers i ∧ m.tracker i = 2 ^ f := by
  obtain ⟨_, rg, hrg, he, _, first, rest, hsort, s, hs, e1, e2, e3⟩ := merge_ok h
  have hperm : (first :: rest).Perm (deps.map Prod.fst) := hsort ▸ List.perm_insertionSort _ _
  have hsorted : (first :: rest).Pairwise (· ≤ ·) := hsort ▸ List.pairwise_insertionSort _ _
  have hmem : ∀ f, f ∈ deps.map Prod.fst ↔ f ∈ first :: rest := fun f => hperm.mem_iff.symm
  let sp : ℤ → Result := fun f => match spectrumAt deps cross box m.edges o.shotNoise f with
    | .ok r => r
    | .error _ => ⟨0, fun _ => 0, fun _ => 0, fun _ => 0⟩
  have hlen : m.edges.length = n + 1 := by
    rw [he]
    unfold edges logEdges linEdges
    cases log <;> simp
  obtain ⟨k1, k2, _, _⟩ := loop_ok ha (o.minimalModes.getD 0) (by intro m hm; rw [Option.mem_def] at hm; rw [hm]; rfl) sp
    (by intro f r hr; simp only [sp, hr]) (Folds.centre m.edges) (first :: rest) [] _ s (by simpa using hsorted)
    (by intro i; left; simp) hs
  refine ⟨first, (first :: rest).getLast (by simp), sp, ⟨?_, ?_⟩, ⟨?_, ?_⟩, ?_, ?_⟩
  · exact (hmem _).2 (by simp)
  · intro f hf
    rcases List.mem_cons.1 ((hmem f).1 hf) with rfl | hf
    · exact le_refl _
    · exact (List.pairwise_cons.1 hsorted).1 f hf
  · exact (hmem _).2 (List.getLast_mem _)
  · intro f hf
    exact getLast_ge hsorted (by simp) f ((hmem f).1 hf)
  · intro f hf
    exact k2 f ((hmem f).1 hf)
  · intro i hi
    have := k1 i
    rw [hlen, Nat.add_sub_cancel, List.nil_append] at this
    rcases this with ⟨h1, _, h2, h3, h4⟩ | ⟨f, ⟨hf, hu, hb⟩, _, h2, h3, h4⟩
    · left
      refine ⟨fun f hf => h1 f ((hmem f).1 hf), by rw [e2, h2], ?_, by rw [e3, h4]⟩
      have hi1 : i < m.edges.length := by omega
      have hi2 : i + 1 < m.edges.length := by omega
      refine ⟨m.edges[i], m.edges[i + 1], List.getElem?_eq_getElem _, List.getElem?_eq_getElem _, ?_⟩
      rw [e1, h3]
      unfold Folds.centre
      simp only [List.getD_eq_getElem?_getD, List.getElem?_eq_getElem hi1, List.getElem?_eq_getElem hi2, Option.getD_some]
      ring
    · right
      exact ⟨f, ⟨(hmem f).2 hf, hu, fun g hg hug => hb g ((hmem g).1 hg) hug⟩, by rw [e2, h2], by rw [e1, h3], by rw [e3, h4]⟩

/-! ## Edges, order, refusals -/

private theorem edges_get {log : Bool} {rg : ℝ × ℝ} {n i : Nat} (hi : i ≤ n) : (edges log rg n)[i]? = some
    (if log then min rg.1 rg.2 * (max rg.1 rg.2 / min rg.1 rg.2) ^ ((i : ℝ) / n)
      else min rg.1 rg.2 + i * ((max rg.1 rg.2 - min rg.1 rg.2) / n)) := by
  have : i < n + 1 := by omega
  unfold edges logEdges linEdges
  cases log <;> simp [this]

/-- C63. The bins go from the lower to the upper end of the range, in whichever order they are given, in equal steps or, for
ranges above zero, in equal ratios. -/
theorem c63_edges (deps : List (ℤ × Grid)) (cross : Option (List (ℤ × Grid))) (box : ℝ × ℝ × ℝ) (boxExponent : ℤ) {n : Nat} (hn : 0 < n)
    (lo hi : ℝ) (log : Bool) (o : Options) (m : Merged) (h : merge deps box boxExponent n cross (some (lo, hi)) log o = .ok m) :
    m.edges.length = n + 1 ∧
    ((log = true → 0 < min lo hi) → m.edges[0]? = some (min lo hi) ∧ m.edges[n]? = some (max lo hi)) ∧
    (log = false → ∀ i < n, ∃ a b, m.edges[i]? = some a ∧ m.edges[i + 1]? = some b ∧ b - a = (max lo hi - min lo hi) / n) ∧
    (log = true → 0 < min lo hi → ∃ q : ℝ, 1 ≤ q ∧ q ^ n = max lo hi / min lo hi ∧
      ∀ i < n, ∃ a b, m.edges[i]? = some a ∧ m.edges[i + 1]? = some b ∧ b = q * a) := by
  obtain ⟨_, rg, hrg, he, _⟩ := merge_ok h
  cases hrg
  have hn' : (n : ℝ) ≠ 0 := by exact_mod_cast hn.ne'
  rw [he]
  refine ⟨?_, ?_, ?_, ?_⟩
  · unfold edges logEdges linEdges
    cases log <;> simp
  · intro hpos
    rw [edges_get (Nat.zero_le n), edges_get (le_refl n)]
    cases log
    · simp only [Bool.false_eq_true, if_false]
      constructor
      · simp
      · congr 1; field_simp; ring
    · have := hpos rfl
      simp only [if_true]
      constructor
      · simp
      · rw [div_self hn', Real.rpow_one]
        congr 1; field_simp
  · rintro rfl i hi
    refine ⟨_, _, edges_get (by omega), edges_get (by omega), ?_⟩
    simp only [Bool.false_eq_true, if_false]
    push_cast
    ring
  · rintro rfl hpos
    have hmax : 0 < max lo hi := hpos.trans_le (min_le_max)
    have hq : 1 ≤ max lo hi / min lo hi := (one_le_div hpos).2 min_le_max
    refine ⟨(max lo hi / min lo hi) ^ ((1 : ℝ) / n), Real.one_le_rpow hq (by positivity), ?_, ?_⟩
    · rw [← Real.rpow_natCast, ← Real.rpow_mul (by positivity), one_div, inv_mul_cancel₀ hn', Real.rpow_one]
    · intro i hi
      refine ⟨_, _, edges_get (by omega), edges_get (by omega), ?_⟩
      simp only [if_true]
      have : ((i + 1 : ℕ) : ℝ) / n = 1 / n + i / n := by push_cast; ring
      rw [this, Real.rpow_add (by positivity)]
      ring

private theorem lookup_perm {α : Type} {l l' : List (ℤ × α)} (hp : l.Perm l') (hd : (l.map Prod.fst).Nodup) (f : ℤ) :
    l.lookup f = l'.lookup f := by
  induction hp with
  | nil => rfl
  | cons x _ ih =>
    obtain ⟨k, v⟩ := x
    simp only [List.map_cons, List.nodup_cons] at hd
    simp only [List.lookup_cons, ih hd.2]
  | swap x y l =>
    obtain ⟨k, v⟩ := x
    obtain ⟨k', v'⟩ := y
    simp only [List.map_cons, List.nodup_cons, List.mem_cons, not_or] at hd
    simp only [List.lookup_cons]
    by_cases h1 : f = k <;> by_cases h2 : f = k'
    · exact absurd (h2 ▸ h1) hd.1.1
    · simp [h1, beq_eq_false_iff_ne.2 (Ne.symm hd.1.1)]
    · simp [h2, beq_eq_false_iff_ne.2 hd.1.1]
    · simp [beq_eq_false_iff_ne.2 h1, beq_eq_false_iff_ne.2 h2]
  | trans h1 _ ih1 ih2 => rw [ih1 hd, ih2 ((h1.map Prod.fst).nodup_iff.1 hd)]

/-- C63. The order of the entries of the dictionaries does not matter. -/
theorem c63_order {deps deps' : List (ℤ × Grid)} {cs cs' : List (ℤ × Grid)} (hp : deps.Perm deps') (hc : cs.Perm cs')
    (hd : (deps.map Prod.fst).Nodup) (hdc : (cs.map Prod.fst).Nodup) (box : ℝ × ℝ × ℝ) (boxExponent : ℤ) (n : Nat) (range : Option (ℝ × ℝ))
    (log : Bool) (o : Options) :
    merge deps box boxExponent n none range log o = merge deps' box boxExponent n none range log o ∧
    merge deps box boxExponent n (some cs) range log o = merge deps' box boxExponent n (some cs') range log o := by
  have h1 : ∀ f, deps.lookup f = deps'.lookup f := lookup_perm hp hd
  have h2 : ∀ f, cs.lookup f = cs'.lookup f := lookup_perm hc hdc
  have h3 : (deps.map Prod.fst).insertionSort (· ≤ ·) = (deps'.map Prod.fst).insertionSort (· ≤ ·) := by
    apply List.Perm.eq_of_pairwise' (r := (· ≤ ·)) (List.pairwise_insertionSort _ _) (List.pairwise_insertionSort _ _)
    exact (List.perm_insertionSort _ _).trans ((hp.map Prod.fst).trans (List.perm_insertionSort _ _).symm)
  have h4 : ∀ f, f ∈ deps.map Prod.fst ↔ f ∈ deps'.map Prod.fst := fun f => (hp.map Prod.fst).mem_iff
  have h5 : ∀ f, f ∈ cs.map Prod.fst ↔ f ∈ cs'.map Prod.fst := fun f => (hc.map Prod.fst).mem_iff
  have h6 : ∀ e first final, step deps none box e o first final = step deps' none box e o first final := by
    intro e first final
    funext s f
    unfold step Folds.spectrum
    simp only [h1]
  have h7 : ∀ e first final, step deps (some cs) box e o first final = step deps' (some cs') box e o first final := by
    intro e first final
    funext s f
    unfold step Folds.spectrum
    simp only [h1, h2]
  constructor
  · unfold merge
    simp only [h3, h6]
  · unfold merge
    simp only [h3, h7]
    have hiff : (∀ f, f ∈ deps.map Prod.fst ↔ f ∈ cs.map Prod.fst) ↔ ∀ f, f ∈ deps'.map Prod.fst ↔ f ∈ cs'.map Prod.fst :=
      forall_congr' fun f => by rw [h4, h5]
    by_cases h : ∀ f, f ∈ deps.map Prod.fst ↔ f ∈ cs.map Prod.fst
    · rw [if_neg (not_not.2 h), if_neg (not_not.2 (hiff.1 h))]
    · rw [if_pos h, if_pos (fun h' => h (hiff.2 h'))]

/-- C63. Dictionaries with different foldings and a missing range are refused. -/
theorem c63_refused (deps : List (ℤ × Grid)) (box : ℝ × ℝ × ℝ) (boxExponent : ℤ) (n : Nat) (log : Bool) (o : Options) :
    (∀ cs : List (ℤ × Grid), ∀ range, (¬∀ f, f ∈ deps.map Prod.fst ↔ f ∈ cs.map Prod.fst) →
      merge deps box boxExponent n (some cs) range log o = .error .value) ∧
    merge deps box boxExponent n none none log o = .error .notImpl ∧
    ∀ cross rg m, merge deps box boxExponent n cross (some rg) log o = .ok m →
      deps ≠ [] ∧ o.transition = "simple" ∧ ((∃ f ∈ deps.map Prod.fst, ∃ g ∈ deps.map Prod.fst, f ≠ g) → o.minimalModes ≠ none) := by
  refine ⟨?_, rfl, ?_⟩
  · intro cs range h
    unfold merge
    simp only [h, not_false_eq_true, if_true]
    rfl
  · intro cross rg m h
    obtain ⟨_, rg', _, _, _, first, rest, hsort, s, hs, _⟩ := merge_ok h
    have hperm : (first :: rest).Perm (deps.map Prod.fst) := hsort ▸ List.perm_insertionSort _ _
    have hsorted : (first :: rest).Pairwise (· ≤ ·) := hsort ▸ List.pairwise_insertionSort _ _
    -- the fraction does not matter here, so the loop is looked at directly
    have key : ∀ (l : List ℤ) (s s' : State) (final : ℤ),
        l.foldlM (step deps cross box m.edges o first final) s = .ok s' →
        (l ≠ [] → o.transition = "simple") ∧ ∀ f ∈ l, f ≠ first → o.minimalModes ≠ none := by
      intro l
      induction l with
      | nil => intros; simp
      | cons f l ih =>
        intro s s' final h
        rw [List.foldlM_cons] at h
        cases h1 : step deps cross box m.edges o first final s f with
        | error err => rw [h1] at h; cases h
        | ok s1 =>
          rw [h1] at h
          have h : l.foldlM (step deps cross box m.edges o first final) s1 = .ok s' := h
          obtain ⟨_, k2⟩ := ih s1 s' final h
          unfold step at h1
          simp only [bind, Except.bind] at h1
          split at h1
          · cases h1
          · split at h1
            · cases h1
            · rename_i use hu
              by_cases ht : o.transition = "simple"
              · refine ⟨fun _ => ht, ?_⟩
                intro g hg hne hnone
                rcases List.mem_cons.1 hg with rfl | hg
                · unfold useBins threshold at hu
                  simp only [hne, ne_eq, not_false_eq_true, if_true, hnone] at hu
                  cases hu
                · exact k2 g hg hne hnone
              · rw [if_neg ht] at h1
                cases h1
    obtain ⟨k1, k2⟩ := key _ _ _ _ hs
    refine ⟨?_, k1 (by simp), ?_⟩
    · rintro rfl
      simp at hperm
    · rintro ⟨f, hf, g, hg, hfg⟩
      have hf' := hperm.mem_iff.2 hf
      have hg' := hperm.mem_iff.2 hg
      by_cases h1 : f = first
      · exact k2 g hg' (fun h => hfg (h1.trans h.symm))
      · exact k2 f hf' h1

/-- C63. Without a cutoff fraction the call succeeds whenever the spectrum of each folding does. -/
theorem c63_succeeds (deps : List (ℤ × Grid)) (cross : Option (List (ℤ × Grid))) (box : ℝ × ℝ × ℝ) (boxExponent : ℤ) (n : Nat)
    (rg : ℝ × ℝ) (log : Bool) (o : Options) (hd : deps ≠ [])
    (hc : ∀ cs ∈ cross, ∀ f, f ∈ deps.map Prod.fst ↔ f ∈ cs.map Prod.fst) (ht : o.transition = "simple") (hm : o.minimalModes ≠ none)
    (hf : o.cutoffFraction = none)
    (hs : ∀ f ∈ deps.map Prod.fst, ∃ r, spectrumAt deps cross box (edges log rg n) o.shotNoise f = .ok r) :
    ∃ m, merge deps box boxExponent n cross (some rg) log o = .ok m := by
  have hstep : ∀ first final s, ∀ f ∈ deps.map Prod.fst, ∃ s', step deps cross box (edges log rg n) o first final s f = .ok s' := by
    intro first final s f hfm
    obtain ⟨r, hr⟩ := hs f hfm
    have h1 : ∃ d, Folds.spectrum deps cross box (edges log rg n) o f = .ok (d, r) := by
      unfold spectrumAt at hr
      unfold Folds.spectrum
      cases hl : deps.lookup f with
      | none => rw [hl] at hr; cases hr
      | some d =>
        rw [hl] at hr
        cases cross with
        | none =>
          dsimp only at hr
          exact ⟨d, by simp only [bind, Except.bind, hr]; rfl⟩
        | some cs =>
          dsimp only at hr
          cases hl2 : cs.lookup f with
          | none => rw [hl2] at hr; cases hr
          | some c =>
            rw [hl2] at hr
            dsimp only at hr
            exact ⟨d, by simp only [bind, Except.bind, hl2, hr]; rfl⟩
    obtain ⟨d, h1⟩ := h1
    have h2 : ∃ use, useBins d box o first final r f = .ok use := by
      have : ∃ t, threshold o first f = .ok t := by
        unfold threshold
        cases hq : o.minimalModes with
        | none => exact absurd hq hm
        | some m => by_cases h : f = first <;> simp [h, pure, Except.pure]
      obtain ⟨t, ht⟩ := this
      unfold useBins cutoff
      simp only [ht, bind, Except.bind, hf, pure, Except.pure]
      split <;> exact ⟨_, rfl⟩
    obtain ⟨use, h2⟩ := h2
    refine ⟨update s r use f, ?_⟩
    unfold step
    simp only [h1, h2, bind, Except.bind, ht, if_true]
    rfl
  have hfold : ∀ first final (l : List ℤ), (∀ f ∈ l, f ∈ deps.map Prod.fst) → ∀ s, ∃ s',
      l.foldlM (step deps cross box (edges log rg n) o first final) s = .ok s' := by
    intro first final l
    induction l with
    | nil => intro _ s; exact ⟨s, rfl⟩
    | cons f l ih =>
      intro hl s
      obtain ⟨s1, h1⟩ := hstep first final s f (hl f (by simp))
      obtain ⟨s2, h2⟩ := ih (fun g hg => hl g (List.mem_cons_of_mem _ hg)) s1
      exact ⟨s2, by rw [List.foldlM_cons, h1]; exact h2⟩
  unfold merge
  cases hsort : (deps.map Prod.fst).insertionSort (· ≤ ·) with
  | nil =>
    have hperm := List.perm_insertionSort (· ≤ ·) (deps.map Prod.fst)
    rw [hsort] at hperm
    have := hperm.length_eq
    simp at this
    exact absurd this.symm (by simpa using hd)
  | cons first rest =>
    have hperm := List.perm_insertionSort (· ≤ ·) (deps.map Prod.fst)
    rw [hsort] at hperm
    obtain ⟨s, hs⟩ := hfold first ((first :: rest).getLast (by simp)) (first :: rest) (fun f hf => hperm.mem_iff.1 hf)
      { centres := Folds.centre (edges log rg n), power := fun _ => 0, tracker := fun _ => 1, counts := fun _ => 0 }
    cases cross with
    | none =>
      simp only [bind, Except.bind, hs]
      exact ⟨_, rfl⟩
    | some cs =>
      have := hc cs rfl
      simp only [this, implies_true, not_true_eq_false, if_false, bind, Except.bind, hs]
      exact ⟨_, rfl⟩

/-- C63, cutoff fraction: if the lowest of several foldings has no wave in any bin, as for a range above the wave numbers of
the unfolded grid, the call fails, although the other foldings may have waves there. -/
theorem c63_unsampled_fails (deps : List (ℤ × Grid)) (cross : Option (List (ℤ × Grid))) (box : ℝ × ℝ × ℝ) (boxExponent : ℤ) (n : Nat)
    (rg : ℝ × ℝ) (log : Bool) (o : Options) (first : ℤ) (hfirst : IsLeast {f | f ∈ deps.map Prod.fst} first) (g : ℤ) (hg : g ∈ deps.map Prod.fst) (hne : g ≠ first)
    (ha : o.cutoffFraction ≠ none) (r : Result) (hr : spectrumAt deps cross box (edges log rg n) o.shotNoise first = .ok r)
    (h0 : ∀ i < n, r.counts i = 0) : ∀ m, merge deps box boxExponent n cross (some rg) log o ≠ .ok m := by
  intro m h
  obtain ⟨_, rg', hrg, he, _, first', rest, hsort, s, hs, _⟩ := merge_ok h
  cases hrg
  have hperm : (first' :: rest).Perm (deps.map Prod.fst) := hsort ▸ List.perm_insertionSort _ _
  have hsorted : (first' :: rest).Pairwise (· ≤ ·) := hsort ▸ List.pairwise_insertionSort _ _
  have hff : first' = first := by
    apply le_antisymm
    · rcases List.mem_cons.1 (hperm.mem_iff.2 hfirst.1) with h | h
      · exact h.ge
      · exact (List.pairwise_cons.1 hsorted).1 _ h
    · exact hfirst.2 (hperm.mem_iff.1 (by simp))
  subst hff
  have hfinal : first' ≠ (first' :: rest).getLast (by simp) := by
    intro hcon
    have h1 := getLast_ge hsorted (by simp) g (hperm.mem_iff.2 hg)
    rw [← hcon] at h1
    exact hne (le_antisymm h1 (hfirst.2 hg))
  rw [List.foldlM_cons] at hs
  cases h1 : step deps cross box m.edges o first' ((first' :: rest).getLast (by simp))
      { centres := Folds.centre m.edges, power := fun _ => 0, tracker := fun _ => 1, counts := fun _ => 0 } first' with
  | error err => rw [h1] at hs; cases hs
  | ok s1 =>
    unfold step at h1
    cases h2 : Folds.spectrum deps cross box m.edges o first' with
    | error err => rw [h2] at h1; cases h1
    | ok dr =>
      obtain ⟨d, r'⟩ := dr
      obtain ⟨_, hr', hb, _⟩ := spectrum_ok h2
      rw [he, hr] at hr'
      cases hr'
      rw [h2] at h1
      have hbins : r.bins = n := by
        rw [hb, he]
        unfold edges logEdges linEdges
        cases log <;> simp
      have hu : useBins d box o first' ((first' :: rest).getLast (by simp)) r first' = .error .value := by
        unfold useBins threshold
        have : (List.range n).filter (fun i => decide ((0 : ℤ) < (r.counts i : ℤ))) = [] := by
          rw [List.filter_eq_nil_iff]
          intro i hi
          rw [h0 i (List.mem_range.1 hi)]
          simp
        cases hq : o.cutoffFraction with
        | none => exact absurd hq ha
        | some a =>
          simp only [ne_eq, not_true_eq_false, if_false, pure, Except.pure, bind, Except.bind, hfinal, not_false_eq_true, if_true,
            cutoff, hq, maxOver, hbins, this, List.map_nil]
          rfl
      simp only [bind, Except.bind, hu] at h1
      cases h1

/-- C63, scale factor: comoving lengths become physical ones by the factor `a`, so powers, which are volumes, by `a ^ 3`. The
label on the result makes it `a ^ (-3)`. -/
theorem c63_label_fails (deps : List (ℤ × Grid)) (cross : Option (List (ℤ × Grid))) (box : ℝ × ℝ × ℝ) (n : Nat)
    (range : Option (ℝ × ℝ)) (log : Bool) (o : Options) (m : Merged) (h : merge deps box 1 n cross range log o = .ok m)
    {a : ℝ} (ha : 0 < a) (ha1 : a ≠ 1) (i : Nat) (hp : m.power i ≠ 0) : m.power i * a ^ m.label ≠ m.power i * a ^ (3 : ℤ) := by
  obtain ⟨_, _, _, _, hl, _⟩ := merge_ok h
  rw [hl]
  intro hcon
  have h1 := mul_left_cancel₀ hp hcon
  have h2 := (zpow_right_inj₀ ha ha1).1 h1
  norm_num at h2

/-! ## Examples -/

private def plain : Options := { minimalModes := some 0, cutoffFraction := none, transition := "simple", shotNoise := none }

private theorem point_ok (f : ℤ) (e : List ℝ) (he : e.Pairwise (· ≤ ·)) :
    ∃ r, toSpectrum ([2, 2, 2], point) none (1, 1, 1) f (some e) none = .ok r := by
  obtain ⟨r, hr, _⟩ := c62_spectrum_partial (n := 2) (by norm_num) (L := 1) one_pos point (by rw [point_mean]; norm_num) none (by simp) f
    (some e) (by simpa using he) none
  exact ⟨r, hr⟩

private theorem pair_edges : edges false (16, 1) 1 = [1, 16] := by
  have h : List.range 2 = [0, 1] := rfl
  simp [edges, linEdges, h]

/-- Two foldings of one deposition, given in decreasing order. -/
example : ∃ m, merge [(1, [2, 2, 2], point), (0, [2, 2, 2], point)] (1, 1, 1) 1 1 none (some (16, 1)) false plain = .ok m := by
  refine c63_succeeds _ _ _ _ _ _ _ _ (by simp) (by simp) rfl (by simp [plain]) rfl ?_
  rw [pair_edges]
  intro f hf
  simp at hf
  rcases hf with rfl | rfl
  · exact point_ok 1 [1, 16] (by simp)
  · exact point_ok 0 [1, 16] (by simp)

/-- One folding: the bin has a power, and its label is wrong. -/
example : ∃ m, merge [(0, [2, 2, 2], point)] (1, 1, 1) 1 1 none (some (16, 1)) false plain = .ok m ∧
    m.power 0 * (1 / 2 : ℝ) ^ m.label ≠ m.power 0 * (1 / 2 : ℝ) ^ (3 : ℤ) := by
  have hspec : ∀ f ∈ [((0 : ℤ), (([2, 2, 2], point) : Grid))].map Prod.fst, ∃ r,
      spectrumAt [((0 : ℤ), (([2, 2, 2], point) : Grid))] none (1, 1, 1) (edges false (16, 1) 1) plain.shotNoise f = .ok r := by
    rw [pair_edges]
    intro f hf
    simp at hf
    subst hf
    exact point_ok 0 [1, 16] (by simp)
  obtain ⟨m, hm⟩ := c63_succeeds [((0 : ℤ), (([2, 2, 2], point) : Grid))] none (1, 1, 1) 1 1 (16, 1) false plain (by simp) (by simp) rfl
    (by simp [plain]) rfl hspec
  refine ⟨m, hm, c63_label_fails _ _ _ _ _ _ _ _ hm (by norm_num) (by norm_num) 0 ?_⟩
  obtain ⟨_, rg, hrg, hedges, _⟩ := merge_ok hm
  cases hrg
  rw [pair_edges] at hedges
  obtain ⟨first, final, sp, h1, h2, h3, h4⟩ := c63_best _ _ _ _ _ _ _ _ (by simp [plain]) _ hm
  have hf1 : first = 0 := by simpa using h1.1
  have hf2 : final = 0 := by simpa using h2.1
  subst hf1 hf2
  have hr : toSpectrum ([2, 2, 2], point) none (1, 1, 1) 0 (some [1, 16]) none = .ok (sp 0) := by
    have := h3 0 (by simp)
    rw [hedges] at this
    exact this
  have htot := c62_total (n := 2) (by norm_num) one_pos point (by rw [point_mean]; norm_num) 0 [1, 16] (by simp) rfl rfl (by simp)
    point_waves none _ hr
  rw [point_contrast, bins_eq hr] at htot
  norm_num [shotNoise] at htot
  have hc : (sp 0).counts 0 ≠ 0 := by
    intro h
    rw [h] at htot
    norm_num at htot
  have hp : (sp 0).power 0 ≠ 0 := by
    intro h
    rw [h] at htot
    norm_num at htot
  rcases h4 0 (by norm_num) with ⟨hno, _⟩ | ⟨f, ⟨hf, _⟩, hpow, _⟩
  · exact absurd ⟨Nat.pos_of_ne_zero hc, by simp [Sampling.Enough, samplingOf, Nat.pos_of_ne_zero hc], by simp [samplingOf]⟩ (hno 0 (by simp))
  · have : f = 0 := by simpa using hf
    subst this
    rw [hpow]
    exact hp

/-- A range above the waves of the unfolded grid. -/
example : ∀ m, merge [(0, [2, 2, 2], point), (4, [2, 2, 2], point)] (1, 1, 1) 1 1 none (some (100, 200)) false
    { plain with cutoffFraction := some (1 / 2) } ≠ .ok m := by
  have he : edges false (100, 200) 1 = [100, 200] := by
    have h : List.range 2 = [0, 1] := rfl
    simp [edges, linEdges, h]
    norm_num
  obtain ⟨r, hr, hb, hi⟩ := c62_spectrum_partial (n := 2) (by norm_num) (L := 1) one_pos point (by rw [point_mean]; norm_num) none
    (by simp) 0 (some [100, 200]) (by simp; norm_num) none
  refine c63_unsampled_fails _ none _ _ _ _ _ _ 0 ⟨by simp, ?_⟩ 4 (by simp) (by norm_num) (by simp) r (by rw [he]; exact hr) ?_
  · intro f hf
    simp at hf
    omega
  · intro i hlt
    have hb' : r.bins = 1 := hb
    rw [(hi i (by omega)).1, Finset.card_eq_zero]
    have hi0 : i = 0 := by omega
    subst hi0
    classical
    unfold wavesIn
    rw [Finset.filter_eq_empty_iff]
    rintro k hk ⟨a, b, h1, h2, h3, _⟩
    have h1' : (100 : ℝ) = a := Option.some.inj h1
    by_cases hk0 : k = (0, 0, 0)
    · subst hk0
      have : waveNumber (1 / 2 ^ (0 : ℤ)) (0, 0, 0) = 0 := by simp [waveNumber]
      linarith
    · linarith [(point_waves k hk hk0).2]

end Verif.Props
