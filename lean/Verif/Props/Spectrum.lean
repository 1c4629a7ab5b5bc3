import Mathlib.Algebra.Field.GeomSum
import Mathlib.Algebra.BigOperators.Field
import Mathlib.Tactic.LinearCombination
import Mathlib.Tactic.FieldSimp
import Mathlib.Tactic.Ring
import Mathlib.Tactic.Linarith
import Mathlib.Tactic.Positivity
import Verif.Model.Spectrum
import Verif.Props.Power
import Verif.Spec.Spectrum

/-!
# C62: power spectrum of a deposition (`swiftsimio/visualisation/power_spectrum.py`)
-/

noncomputable section

namespace Verif.Props
open Verif Verif.Spec Verif.Spectrum

/-! ## Waves -/

private def root (n : Nat) (t : ℤ) : ℂ := Complex.exp (-(2 * Real.pi * Complex.I * (t : ℂ) / n))

private theorem root_add (n : Nat) (s t : ℤ) : root n (s + t) = root n s * root n t := by
  unfold root
  rw [← Complex.exp_add]
  congr 1
  push_cast
  ring

private theorem root_eq_one_iff {n : Nat} (hn : 0 < n) (t : ℤ) : root n t = 1 ↔ (n : ℤ) ∣ t := by
  have hn' : (n : ℂ) ≠ 0 := by exact_mod_cast hn.ne'
  unfold root
  rw [Complex.exp_eq_one_iff]
  constructor
  · rintro ⟨m, hm⟩
    refine ⟨-m, ?_⟩
    have h1 : (2 * Real.pi * Complex.I : ℂ) ≠ 0 := Complex.two_pi_I_ne_zero
    have h2 : (t : ℂ) = (n : ℂ) * (-m : ℂ) := by
      field_simp at hm
      have : (2 * Real.pi * Complex.I) * (t : ℂ) = (2 * Real.pi * Complex.I) * ((n : ℂ) * (-m : ℂ)) := by
        linear_combination (2 * Real.pi * Complex.I) * (-1 : ℂ) * hm
      exact mul_left_cancel₀ h1 this
    exact_mod_cast h2
  · rintro ⟨m, rfl⟩
    refine ⟨-m, ?_⟩
    push_cast
    field_simp

private theorem root_conj (n : Nat) (t : ℤ) : (starRingEnd ℂ) (root n t) = root n (-t) := by
  have h : ∀ s : ℤ, -(2 * Real.pi * Complex.I * (s : ℂ) / n) = ((-(2 * Real.pi * s / n) : ℝ) : ℂ) * Complex.I := by
    intro s; push_cast; ring
  unfold root
  rw [← Complex.exp_conj, h, h]
  rw [map_mul, Complex.conj_ofReal, Complex.conj_I]
  congr 1
  push_cast
  ring

private theorem root_norm (n : Nat) (t : ℤ) : ‖root n t‖ = 1 := by
  unfold root
  have : -(2 * Real.pi * Complex.I * (t : ℂ) / n) = ((-(2 * Real.pi * t / n) : ℝ) : ℂ) * Complex.I := by
    push_cast; ring
  rw [this, Complex.norm_exp_ofReal_mul_I]

private theorem root_pow (n : Nat) (d : ℤ) (j : Nat) : root n d ^ j = root n (j * d) := by
  unfold root
  rw [← Complex.exp_nat_mul]
  congr 1
  push_cast
  ring

private theorem sum_axis {α : Type} [AddCommMonoid α] (n : Nat) (f : ℤ → α) :
    ∑ x ∈ axis n, f x = ∑ j ∈ Finset.range n, f (j : ℤ) := by
  unfold axis
  symm
  apply Finset.sum_bij (fun (j : ℕ) _ => (j : ℤ))
  · intro j hj; simp at hj ⊢; exact hj
  · intro a _ b _ h; exact_mod_cast h
  · intro x hx
    simp at hx
    exact ⟨x.toNat, by simp; omega, by omega⟩
  · intro j _; rfl

/-- waves are orthogonal -/
private theorem root_sum {n : Nat} (hn : 0 < n) (d : ℤ) :
    ∑ k ∈ axis n, root n (k * d) = if (n : ℤ) ∣ d then (n : ℂ) else 0 := by
  rw [sum_axis]
  have h : ∀ j ∈ Finset.range n, root n ((j : ℤ) * d) = root n d ^ j := fun j _ => (root_pow n d j).symm
  rw [Finset.sum_congr rfl h]
  split
  · rename_i hd
    rw [(root_eq_one_iff hn d).2 hd]
    simp
  · rename_i hd
    have h1 : root n d ≠ 1 := fun h => hd ((root_eq_one_iff hn d).1 h)
    rw [geom_sum_eq h1, root_pow, (root_eq_one_iff hn _).2 (Dvd.intro _ rfl), sub_self, zero_div]

/-! ## Order of the frequencies -/

/-- the number of periods at index `i` of the transform -/
private def freq (n : Nat) (i : ℤ) : ℤ := if i < (((n : ℤ) - 1) / 2 + 1) then i else i - n

private theorem mem_waves1 {n : Nat} {k : ℤ} : k ∈ waves1 n ↔ -(n : ℤ) ≤ 2 * k ∧ 2 * k < n := by
  simp only [waves1, Finset.mem_filter, Finset.mem_Icc]
  omega

private theorem mem_axis {n : Nat} {k : ℤ} : k ∈ axis n ↔ 0 ≤ k ∧ k < n := by simp [axis]

private theorem sum_freq {α : Type} [AddCommMonoid α] (n : Nat) (g : ℤ → α) :
    ∑ i ∈ axis n, g (freq n i) = ∑ k ∈ waves1 n, g k := by
  apply Finset.sum_bij (fun i _ => freq n i)
  · intro i hi
    rw [mem_axis] at hi
    rw [mem_waves1]
    unfold freq
    split <;> omega
  · intro a ha b hb h
    rw [mem_axis] at ha hb
    unfold freq at h
    split at h <;> split at h <;> omega
  · intro k hk
    rw [mem_waves1] at hk
    by_cases h0 : 0 ≤ k
    · refine ⟨k, by rw [mem_axis]; omega, ?_⟩
      unfold freq
      rw [if_pos (by omega)]
    · refine ⟨k + n, by rw [mem_axis]; omega, ?_⟩
      unfold freq
      rw [if_neg (by omega)]
      omega
  · intro i _; rfl

private theorem freq_dvd (n : Nat) (i : ℤ) : (n : ℤ) ∣ freq n i - i := by
  unfold freq
  split
  · simp
  · exact ⟨-1, by ring⟩

private theorem total_freq {α : Type} [AddCommMonoid α] (n : Nat) (g : ℤ × ℤ × ℤ → α) :
    total n (fun q => g (freq n q.1, freq n q.2.1, freq n q.2.2)) = ∑ k ∈ waves n, g k := by
  unfold total waves
  rw [Finset.sum_product, ← sum_freq]
  apply Finset.sum_congr rfl
  intro x _
  rw [Finset.sum_product, ← sum_freq]
  apply Finset.sum_congr rfl
  intro y _
  rw [← sum_freq]

private theorem total_cells {α : Type} [AddCommMonoid α] (n : Nat) (g : ℤ × ℤ × ℤ → α) :
    total n g = ∑ c ∈ gridCells n, g c := by
  unfold total gridCells axis
  rw [Finset.sum_product]
  apply Finset.sum_congr rfl
  intro x _
  rw [Finset.sum_product]

/-! ## The transform -/

private theorem wave_eq (n : Nat) (k c : ℤ × ℤ × ℤ) :
    wave n k c = root n (k.1 * c.1) * root n (k.2.1 * c.2.1) * root n (k.2.2 * c.2.2) := by
  rw [← root_add, ← root_add]
  rfl

private theorem fft1_eq (n : Nat) (f : ℤ → ℂ) (k : ℤ) : fft1 n f k = ∑ x ∈ axis n, f x * root n (k * x) := by
  unfold fft1 root
  apply Finset.sum_congr rfl
  intro x _
  congr 2
  push_cast
  ring

private theorem fftn_eq (n : Nat) (f : ℤ × ℤ × ℤ → ℂ) (q : ℤ × ℤ × ℤ) :
    fftn n f q = ∑ c ∈ gridCells n, f c * wave n q c := by
  rw [← total_cells]
  unfold fftn total
  simp only [fft1_eq, Finset.sum_mul]
  have h1 : ∀ z, (∑ y ∈ axis n, ∑ x ∈ axis n, f (x, y, z) * root n (q.1 * x) * root n (q.2.1 * y) * root n (q.2.2 * z)) =
      ∑ x ∈ axis n, ∑ y ∈ axis n, f (x, y, z) * wave n q (x, y, z) := by
    intro z
    rw [Finset.sum_comm]
    apply Finset.sum_congr rfl
    intro x _
    apply Finset.sum_congr rfl
    intro y _
    rw [wave_eq]
    ring
  simp only [h1]
  rw [Finset.sum_comm]
  apply Finset.sum_congr rfl
  intro x _
  rw [Finset.sum_comm]

private theorem root_mod {n : Nat} (hn : 0 < n) {a b : ℤ} (h : (n : ℤ) ∣ a - b) (x : ℤ) :
    root n (a * x) = root n (b * x) := by
  have : a * x = b * x + (a - b) * x := by ring
  rw [this, root_add, (root_eq_one_iff hn _).2 (h.mul_right x), mul_one]

private theorem wave_freq {n : Nat} (hn : 0 < n) (q c : ℤ × ℤ × ℤ) :
    wave n (freq n q.1, freq n q.2.1, freq n q.2.2) c = wave n q c := by
  rw [wave_eq, wave_eq, root_mod hn (freq_dvd n q.1), root_mod hn (freq_dvd n q.2.1), root_mod hn (freq_dvd n q.2.2)]

private theorem mean_eq (n : Nat) (d : ℤ × ℤ × ℤ → ℝ) : mean n d = gridMean n d := by
  unfold mean gridMean
  rw [total_cells]
  congr 1
  ring

private theorem overdensity_eq {n : Nat} {d : ℤ × ℤ × ℤ → ℝ} (hd : gridMean n d ≠ 0) (c : ℤ × ℤ × ℤ) :
    overdensity n d c = contrast n d c := by
  unfold overdensity contrast
  rw [mean_eq]
  field_simp

private theorem transform_eq {n : Nat} (hn : 0 < n) {d : ℤ × ℤ × ℤ → ℝ} (hd : gridMean n d ≠ 0) (q : ℤ × ℤ × ℤ) :
    transform n d q = mode n (fun c => (contrast n d c : ℂ)) (freq n q.1, freq n q.2.1, freq n q.2.2) := by
  unfold transform mode
  rw [fftn_eq, Finset.sum_div]
  apply Finset.sum_congr rfl
  intro c _
  rw [overdensity_eq hd, wave_freq hn]
  push_cast
  ring

private theorem kfreq_eq {n : Nat} (hn : 0 < n) (dk : ℝ) (i : ℤ) : kfreq n dk i = freq n i * dk := by
  have hn' : (n : ℝ) ≠ 0 := by exact_mod_cast hn.ne'
  unfold kfreq freq
  rcases eq_or_ne dk 0 with rfl | h
  · simp
  · field_simp

private theorem knrm_eq {n : Nat} (hn : 0 < n) (l : ℝ) (q : ℤ × ℤ × ℤ) :
    knrm n (2 * Real.pi / l) q = waveNumber l (freq n q.1, freq n q.2.1, freq n q.2.2) := by
  unfold knrm waveNumber
  simp only [kfreq_eq hn]
  congr 1
  ring

private theorem inBin_eq {bins : List ℝ} {i : Nat} (hi : i < bins.length - 1) (v : ℝ) :
    inBin bins i v ↔ InBin bins i v := by
  have h1 : i < bins.length := by omega
  have h2 : i + 1 < bins.length := by omega
  unfold inBin InBin
  simp only [List.getD_eq_getElem?_getD, List.getElem?_eq_getElem h1, List.getElem?_eq_getElem h2, Option.getD_some,
    Option.some.injEq]
  constructor
  · rintro ⟨h3, h4⟩
    exact ⟨_, _, rfl, rfl, h3, h4.imp id fun h => ⟨h.1.symm, h.2⟩⟩
  · rintro ⟨a, b, rfl, rfl, h3, h4⟩
    exact ⟨h3, h4.imp id fun h => ⟨h.1.symm, h.2⟩⟩

private theorem histogram_eq {α : Type} [AddCommMonoid α] {n : Nat} (hn : 0 < n) (l : ℝ) {bins : List ℝ} {i : Nat}
    (hi : i < bins.length - 1) (w : ℤ × ℤ × ℤ → α) (v : ℤ × ℤ × ℤ → α)
    (hw : ∀ q, w q = v (freq n q.1, freq n q.2.1, freq n q.2.2)) :
    histogram n (2 * Real.pi / l) bins w i = ∑ k ∈ wavesIn n l bins i, v k := by
  unfold histogram wavesIn
  rw [Finset.sum_filter, ← total_freq]
  congr 1
  funext q
  have hb := inBin_eq hi (knrm n (2 * Real.pi / l) q)
  rw [knrm_eq hn] at hb ⊢
  by_cases h : InBin bins i (waveNumber l (freq n q.1, freq n q.2.1, freq n q.2.2))
  · rw [if_pos (hb.2 h), if_pos h, hw]
  · rw [if_neg (fun h' => h (hb.1 h')), if_neg h]

/-! ## The spectrum -/

private theorem toSpectrum_ok (n : Nat) (d : ℤ × ℤ × ℤ → ℝ) (cross : Option (ℤ × ℤ × ℤ → ℝ)) (box : ℝ × ℝ × ℝ) (folding : ℤ)
    (wb : Option (List ℝ)) (shot : Option ℝ)
    (hb : (wb.getD (defaultBins n (2 * Real.pi / (box.1 / (2 : ℝ) ^ folding)))).Pairwise (· ≤ ·)) :
    toSpectrum ([n, n, n], d) (cross.map fun e => ([n, n, n], e)) box folding wb shot = .ok
      (let dk := 2 * Real.pi / (box.1 / (2 : ℝ) ^ folding)
       let kbins := wb.getD (defaultBins n dk)
       let counts := histogram n dk kbins fun _ => (1 : ℕ)
       let divisor := fun i => if counts i = 0 then 1 else counts i
       { bins := kbins.length - 1
         wavenumbers := fun i => histogram n dk kbins (knrm n dk) i / divisor i
         power := fun i => (if counts i = 0 then 0 else
           histogram n dk kbins (amplitudes n d cross (box.1 / (2 : ℝ) ^ folding)) i) * ((2 : ℝ) ^ folding) ^ 3 / divisor i -
             (match shot with
              | some s => box.1 * box.2.1 * box.2.2 / s
              | none => box.1 * box.2.1 * box.2.2 * 0)
         counts := counts }) := by
  unfold toSpectrum
  cases cross <;> cases shot <;> simp [hb, pure, Except.pure]

private theorem defaultBins_sorted (n : Nat) {dk : ℝ} (hdk : 0 ≤ dk) : (defaultBins n dk).Pairwise (· ≤ ·) := by
  unfold defaultBins
  rw [List.pairwise_map]
  apply List.pairwise_lt_range.imp
  intro a b h
  have : (a : ℝ) ≤ b := by exact_mod_cast h.le
  exact mul_le_mul_of_nonneg_right (by linarith) hdk

/-- The edges that are used for a cube of side `l`: the given ones or whole numbers of periods and a half. -/
def edgesOf (n : Nat) (l : ℝ) (wb : Option (List ℝ)) : List ℝ :=
  wb.getD ((List.range (n / 2 + 1)).map fun i : Nat => ((i : ℝ) + 1 / 2) * (2 * Real.pi / l))

private theorem edges_eq (n : Nat) (l : ℝ) (wb : Option (List ℝ)) : wb.getD (defaultBins n (2 * Real.pi / l)) = edgesOf n l wb := by
  unfold edgesOf defaultBins
  congr 2
  funext i
  ring

private theorem edges_sorted (n : Nat) {l : ℝ} (hl : 0 ≤ l) {wb : Option (List ℝ)} (h : ∀ b ∈ wb, b.Pairwise (· ≤ ·)) :
    (edgesOf n l wb).Pairwise (· ≤ ·) := by
  cases wb with
  | none =>
    rw [← edges_eq]
    exact defaultBins_sorted n (by have := Real.pi_pos; positivity)
  | some b => exact h b rfl

/-- The shot noise in a box of volume `v`. -/
def shotNoise (v : ℝ) : Option ℝ → ℝ
  | some s => v / s
  | none => 0

/-- C62. For a cubic box and depositions that do not vanish in the mean, each bin holds the number of waves in it, their
mean wave number and the mean of the product of the amplitudes of the two density contrasts, times the volume of the box
and less the shot noise; bins without waves hold zeros less the shot noise. The full statement would be for every box; see
`c62_not_cubic_fails`. -/
theorem c62_spectrum_partial {n : Nat} (hn : 0 < n) {L : ℝ} (hL : 0 < L) (d : ℤ × ℤ × ℤ → ℝ) (hd : gridMean n d ≠ 0)
    (cross : Option (ℤ × ℤ × ℤ → ℝ)) (hc : ∀ e ∈ cross, gridMean n e ≠ 0) (folding : ℤ) (wb : Option (List ℝ))
    (hb : ∀ b ∈ wb, b.Pairwise (· ≤ ·)) (shot : Option ℝ) :
    ∃ r, toSpectrum ([n, n, n], d) (cross.map fun e => ([n, n, n], e)) (L, L, L) folding wb shot = .ok r ∧
      r.bins = (edgesOf n (L / 2 ^ folding) wb).length - 1 ∧ ∀ i < r.bins,
        r.counts i = (wavesIn n (L / 2 ^ folding) (edgesOf n (L / 2 ^ folding) wb) i).card ∧
        r.wavenumbers i = (∑ k ∈ wavesIn n (L / 2 ^ folding) (edgesOf n (L / 2 ^ folding) wb) i,
          waveNumber (L / 2 ^ folding) k) / r.counts i ∧
        r.power i = L ^ 3 * ((∑ k ∈ wavesIn n (L / 2 ^ folding) (edgesOf n (L / 2 ^ folding) wb) i,
          crossPower n d (cross.getD d) k) / r.counts i) - shotNoise (L ^ 3) shot := by
  have hf : (0 : ℝ) < 2 ^ folding := by positivity
  have hl : 0 < L / (2 : ℝ) ^ folding := by positivity
  have hs := edges_sorted n hl.le hb
  rw [← edges_eq] at hs
  refine ⟨_, toSpectrum_ok n d cross (L, L, L) folding wb shot hs, ?_⟩
  dsimp only
  rw [edges_eq]
  refine ⟨rfl, fun i hi => ?_⟩
  have hcount : histogram n (2 * Real.pi / (L / 2 ^ folding)) (edgesOf n (L / 2 ^ folding) wb) (fun _ => (1 : ℕ)) i =
      (wavesIn n (L / 2 ^ folding) (edgesOf n (L / 2 ^ folding) wb) i).card := by
    rw [histogram_eq hn _ hi _ (fun _ => 1) (fun _ => rfl)]
    simp
  have hk := histogram_eq hn (L / 2 ^ folding) hi (knrm n (2 * Real.pi / (L / 2 ^ folding))) (waveNumber (L / 2 ^ folding))
    (fun q => knrm_eq hn _ q)
  have hce : gridMean n (cross.getD d) ≠ 0 := by
    cases cross with
    | none => exact hd
    | some e => exact hc e rfl
  have ha := histogram_eq hn (L / 2 ^ folding) hi (amplitudes n d cross (L / 2 ^ folding))
    (fun k => crossPower n d (cross.getD d) k * (L / 2 ^ folding) ^ 3)
    (fun q => by unfold amplitudes crossPower; rw [transform_eq hn hd, transform_eq hn hce])
  rw [hcount, hk, ha]
  refine ⟨rfl, ?_, ?_⟩
  · by_cases h0 : (wavesIn n (L / 2 ^ folding) (edgesOf n (L / 2 ^ folding) wb) i).card = 0
    · rw [Finset.card_eq_zero] at h0
      simp [h0]
    · rw [if_neg h0]
  · have hsn : (match shot with
        | some s => L * L * L / s
        | none => L * L * L * 0) = shotNoise (L ^ 3) shot := by
      cases shot
      · simp [shotNoise]
      · simp only [shotNoise]; congr 1; ring
    rw [hsn]
    by_cases h0 : (wavesIn n (L / 2 ^ folding) (edgesOf n (L / 2 ^ folding) wb) i).card = 0
    · rw [Finset.card_eq_zero] at h0
      simp [h0]
    · rw [if_neg h0, if_neg h0, ← Finset.sum_mul]
      field_simp

/-- C62. Depositions that are not cubes, and second depositions of another shape, are refused. -/
theorem c62_refused (shape : List Nat) (d : ℤ × ℤ × ℤ → ℝ) (box : ℝ × ℝ × ℝ) (folding : ℤ) (wb : Option (List ℝ))
    (shot : Option ℝ) :
    ((∀ n, shape ≠ [n, n, n]) → ∀ cross, toSpectrum (shape, d) cross box folding wb shot = .error .value) ∧
    (∀ n, shape = [n, n, n] → ∀ c, c.1 ≠ shape → toSpectrum (shape, d) (some c) box folding wb shot = .error .assertion) := by
  constructor
  · intro h cross
    unfold toSpectrum
    split
    · rename_i a b c heq
      dsimp only at heq
      subst heq
      have : (decide (a = b) && decide (b = c)) = false := by
        rw [Bool.and_eq_false_iff]
        by_contra hcon
        simp only [decide_eq_false_iff_not, not_or, not_not] at hcon
        obtain ⟨rfl, rfl⟩ := hcon
        exact h a rfl
      simp [this, bind, Except.bind, throw, throwThe, MonadExceptOf.throw]
    · rfl
  · rintro n rfl c hc
    unfold toSpectrum
    simp [hc, bind, Except.bind, throw, throwThe, MonadExceptOf.throw]

/-! ## Amplitudes and contrast -/

private theorem waves1_root {n : Nat} (hn : 0 < n) {a b : ℤ} (ha : 0 ≤ a ∧ a < n) (hb : 0 ≤ b ∧ b < n) :
    ∑ k ∈ waves1 n, root n (k * (a - b)) = if a = b then (n : ℂ) else 0 := by
  rw [← sum_freq, Finset.sum_congr rfl fun i _ => root_mod hn (freq_dvd n i) (a - b), root_sum hn]
  have : (n : ℤ) ∣ a - b ↔ a = b := by
    constructor
    · intro h
      have := Int.eq_zero_of_abs_lt_dvd h (by rw [abs_lt]; omega)
      omega
    · rintro rfl; simp
  simp only [this]

private theorem mem_gridCells {n : Nat} {c : ℤ × ℤ × ℤ} :
    c ∈ gridCells n ↔ (0 ≤ c.1 ∧ c.1 < n) ∧ (0 ≤ c.2.1 ∧ c.2.1 < n) ∧ 0 ≤ c.2.2 ∧ c.2.2 < n := by
  simp [gridCells]

private theorem wave_orth {n : Nat} (hn : 0 < n) {c e : ℤ × ℤ × ℤ} (hc : c ∈ gridCells n) (he : e ∈ gridCells n) :
    ∑ k ∈ waves n, wave n k c * (starRingEnd ℂ) (wave n k e) = if c = e then (n : ℂ) ^ 3 else 0 := by
  rw [mem_gridCells] at hc he
  have h1 : ∀ k : ℤ × ℤ × ℤ, wave n k c * (starRingEnd ℂ) (wave n k e) =
      root n (k.1 * (c.1 - e.1)) * (root n (k.2.1 * (c.2.1 - e.2.1)) * root n (k.2.2 * (c.2.2 - e.2.2))) := by
    intro k
    have h : ∀ x y z : ℤ, root n (x * (y - z)) = root n (x * y) * root n (-(x * z)) := fun x y z => by
      rw [← root_add]; congr 1; ring
    simp only [wave_eq, map_mul, root_conj, h]
    ring
  simp only [h1]
  unfold waves
  rw [Finset.sum_product]
  simp only [← Finset.mul_sum]
  rw [← Finset.sum_mul, Finset.sum_product]
  simp only [← Finset.mul_sum]
  rw [← Finset.sum_mul, waves1_root hn hc.1 he.1, waves1_root hn hc.2.1 he.2.1, waves1_root hn hc.2.2 he.2.2]
  by_cases h : c = e
  · subst h; simp; ring
  · rw [if_neg h]
    have : ¬(c.1 = e.1 ∧ c.2.1 = e.2.1 ∧ c.2.2 = e.2.2) := fun ⟨a, b, c'⟩ => h (Prod.ext a (Prod.ext b c'))
    by_cases h2 : c.1 = e.1 <;> by_cases h3 : c.2.1 = e.2.1 <;> by_cases h4 : c.2.2 = e.2.2 <;> simp_all

/-- sum of the products of the amplitudes of all waves -/
private theorem parseval {n : Nat} (hn : 0 < n) (f g : ℤ × ℤ × ℤ → ℂ) :
    ∑ k ∈ waves n, mode n f k * (starRingEnd ℂ) (mode n g k) =
      (∑ c ∈ gridCells n, f c * (starRingEnd ℂ) (g c)) / (n : ℂ) ^ 3 := by
  have hn' : (n : ℂ) ≠ 0 := by exact_mod_cast hn.ne'
  have h1 : ∀ k, mode n f k * (starRingEnd ℂ) (mode n g k) =
      (∑ c ∈ gridCells n, ∑ e ∈ gridCells n, f c * (starRingEnd ℂ) (g e) * (wave n k c * (starRingEnd ℂ) (wave n k e))) /
        (n : ℂ) ^ 6 := by
    intro k
    unfold mode
    rw [map_div₀, map_sum, map_pow, map_natCast, div_mul_div_comm, Finset.sum_mul_sum, ← pow_add]
    congr 1
    apply Finset.sum_congr rfl
    intro c _
    apply Finset.sum_congr rfl
    intro e _
    rw [map_mul]
    ring
  simp only [h1]
  rw [← Finset.sum_div, Finset.sum_comm]
  have h2 : ∀ c ∈ gridCells n, (∑ k ∈ waves n, ∑ e ∈ gridCells n,
      f c * (starRingEnd ℂ) (g e) * (wave n k c * (starRingEnd ℂ) (wave n k e))) =
      f c * (starRingEnd ℂ) (g c) * (n : ℂ) ^ 3 := by
    intro c hc
    rw [Finset.sum_comm]
    have h3 : ∀ e ∈ gridCells n, (∑ k ∈ waves n, f c * (starRingEnd ℂ) (g e) * (wave n k c * (starRingEnd ℂ) (wave n k e))) =
        if c = e then f c * (starRingEnd ℂ) (g e) * (n : ℂ) ^ 3 else 0 := by
      intro e he
      rw [← Finset.mul_sum, wave_orth hn hc he]
      split <;> simp
    rw [Finset.sum_congr rfl h3, Finset.sum_ite_eq]
    simp [hc]
  rw [Finset.sum_congr rfl h2, ← Finset.sum_mul]
  field_simp

/-- the auto spectrum is the cross spectrum with itself -/
theorem crossPower_self (n : Nat) (d : ℤ × ℤ × ℤ → ℝ) (k : ℤ × ℤ × ℤ) : crossPower n d d k = autoPower n d k := by
  unfold crossPower autoPower
  rw [Complex.mul_conj, Complex.ofReal_re, Complex.normSq_eq_norm_sq]

/-- the products of the amplitudes of all waves add up to the mean product of the contrasts -/
private theorem sum_crossPower {n : Nat} (hn : 0 < n) (d e : ℤ × ℤ × ℤ → ℝ) :
    ∑ k ∈ waves n, crossPower n d e k = (∑ c ∈ gridCells n, contrast n d c * contrast n e c) / (n : ℝ) ^ 3 := by
  unfold crossPower
  rw [← Complex.re_sum, parseval hn]
  have : (∑ c ∈ gridCells n, (contrast n d c : ℂ) * (starRingEnd ℂ) (contrast n e c : ℂ)) / (n : ℂ) ^ 3 =
      (((∑ c ∈ gridCells n, contrast n d c * contrast n e c) / (n : ℝ) ^ 3 : ℝ) : ℂ) := by
    push_cast
    congr 1
    apply Finset.sum_congr rfl
    intro c _
    rw [Complex.conj_ofReal]
  rw [this, Complex.ofReal_re]

private theorem card_cells (n : Nat) : (gridCells n).card = n ^ 3 := by
  unfold gridCells
  simp
  ring

/-- the mean contrast vanishes, and with it the wave of infinite length -/
private theorem crossPower_zero {n : Nat} (hn : 0 < n) {d e : ℤ × ℤ × ℤ → ℝ} (hd : gridMean n d ≠ 0) :
    crossPower n d e (0, 0, 0) = 0 := by
  have hn' : (n : ℝ) ≠ 0 := by exact_mod_cast hn.ne'
  have h : mode n (fun c => (contrast n d c : ℂ)) (0, 0, 0) = 0 := by
    unfold mode
    have h1 : ∀ c, wave n (0, 0, 0) c = 1 := fun c => by unfold wave; simp
    simp only [h1, mul_one]
    rw [← Complex.ofReal_sum]
    have h2 : ∑ c ∈ gridCells n, contrast n d c = 0 := by
      unfold contrast
      rw [Finset.sum_sub_distrib, ← Finset.sum_div]
      have : ∑ c ∈ gridCells n, d c = gridMean n d * (n : ℝ) ^ 3 := by unfold gridMean; field_simp
      rw [this, mul_div_assoc, mul_comm, div_mul_cancel₀ _ hd]
      simp [card_cells]
    rw [h2]
    simp
  unfold crossPower
  rw [h]
  simp

/-! ## Bins -/

/-- every number between the first and the last edge is in one bin -/
private theorem exists_unique_bin {edges : List ℝ} (hs : edges.Pairwise (· ≤ ·)) {v a b : ℝ} (ha : edges.head? = some a)
    (hb : edges.getLast? = some b) (h1 : a ≤ v) (h2 : v ≤ b) (hl : 2 ≤ edges.length) :
    ∃ i < edges.length - 1, InBin edges i v ∧ ∀ j < edges.length - 1, InBin edges j v → j = i := by
  have hmono : ∀ i j (hi : i < edges.length) (hj : j < edges.length), i ≤ j → edges[i] ≤ edges[j] := by
    intro i j hi hj hij
    rcases hij.eq_or_lt with rfl | h
    · rfl
    · exact List.pairwise_iff_getElem.1 hs i j hi hj h
  have hget : ∀ i (hi : i < edges.length), edges[i]? = some edges[i] := fun i hi => List.getElem?_eq_getElem hi
  have ha' : edges[0] = a := by
    rw [List.head?_eq_getElem?, hget 0 (by omega)] at ha
    exact Option.some.inj ha
  have hb' : edges[edges.length - 1] = b := by
    rw [List.getLast?_eq_getElem?, hget (edges.length - 1) (by omega)] at hb
    exact Option.some.inj hb
  have hcase : ∀ i (hi : i + 1 < edges.length), InBin edges i v ↔
      edges[i] ≤ v ∧ (v < edges[i + 1] ∨ (edges.length = i + 2 ∧ v = edges[i + 1])) := by
    intro i hi
    unfold InBin
    rw [hget i (by omega), hget (i + 1) hi]
    constructor
    · rintro ⟨x, y, hx, hy, h⟩
      cases hx; cases hy
      exact h
    · intro h
      exact ⟨_, _, rfl, rfl, h⟩
  have huniq : ∀ i j, i + 1 < edges.length → j + 1 < edges.length → i < j → InBin edges i v → InBin edges j v → False := by
    intro i j hi hj hij h3 h4
    rw [hcase i hi] at h3
    rw [hcase j hj] at h4
    have := hmono (i + 1) j hi (by omega) (by omega)
    rcases h3.2 with h5 | h5
    · linarith [h4.1]
    · omega
  have hex : ∃ i < edges.length - 1, InBin edges i v := by
    by_cases hlast : v = b
    · by_cases hlt : edges[edges.length - 2] ≤ v
      · refine ⟨edges.length - 2, by omega, (hcase _ (by omega)).2 ⟨hlt, Or.inr ⟨by omega, ?_⟩⟩⟩
        have e : edges.length - 2 + 1 = edges.length - 1 := by omega
        simp only [e, hb', hlast]
      · exfalso
        have := hmono (edges.length - 2) (edges.length - 1) (by omega) (by omega) (by omega)
        rw [hb', ← hlast] at this
        exact hlt this
    · have hv : v < b := lt_of_le_of_ne h2 hlast
      have hP : ∃ m, ∃ h : m < edges.length, v < edges[m] := ⟨edges.length - 1, by omega, by rw [hb']; exact hv⟩
      classical
      let m := Nat.find hP
      obtain ⟨hm, hvm⟩ := Nat.find_spec hP
      have hm0 : m ≠ 0 := by
        intro h0
        have : v < edges[0] := by
          have := hvm
          simp only [show Nat.find hP = 0 from h0] at this
          exact this
        linarith
      have hmin : edges[m - 1]'(by omega) ≤ v := by
        by_contra hcon
        exact Nat.find_min hP (show m - 1 < Nat.find hP from by change m - 1 < m; omega) ⟨by omega, not_le.1 hcon⟩
      refine ⟨m - 1, by omega, (hcase _ (by omega)).2 ⟨hmin, Or.inl ?_⟩⟩
      have e : m - 1 + 1 = m := by omega
      simp only [e]
      exact hvm
  obtain ⟨i, hi, hbin⟩ := hex
  refine ⟨i, hi, hbin, fun j hj hbj => ?_⟩
  rcases lt_trichotomy i j with h | h | h
  · exact (huniq i j (by omega) (by omega) h hbin hbj).elim
  · exact h.symm
  · exact (huniq j i (by omega) (by omega) h hbj hbin).elim

private theorem sum_bins {n : Nat} {l : ℝ} {edges : List ℝ} (hs : edges.Pairwise (· ≤ ·)) {a b : ℝ}
    (ha : edges.head? = some a) (hb : edges.getLast? = some b) (hl : 2 ≤ edges.length)
    (hcov : ∀ k ∈ waves n, k ≠ (0, 0, 0) → a ≤ waveNumber l k ∧ waveNumber l k ≤ b) (g : ℤ × ℤ × ℤ → ℝ) (h0 : g (0, 0, 0) = 0) :
    ∑ i ∈ Finset.range (edges.length - 1), ∑ k ∈ wavesIn n l edges i, g k = ∑ k ∈ waves n, g k := by
  classical
  unfold wavesIn
  simp only [Finset.sum_filter]
  rw [Finset.sum_comm]
  apply Finset.sum_congr rfl
  intro k hk
  by_cases hk0 : k = (0, 0, 0)
  · subst hk0; simp [h0]
  · obtain ⟨h1, h2⟩ := hcov k hk hk0
    obtain ⟨i, hi, hbin, huniq⟩ := exists_unique_bin hs ha hb h1 h2 hl
    rw [Finset.sum_eq_single i]
    · rw [if_pos hbin]
    · intro j hj hji
      rw [Finset.mem_range] at hj
      rw [if_neg fun h => hji (huniq j hj h)]
    · intro h
      exact absurd (Finset.mem_range.2 hi) h

/-- C62. If the bins reach over all waves, the powers with the shot noise added back, weighted with the numbers of waves,
add up to the volume of the box times the mean square of the density contrast, for every folding. -/
theorem c62_total {n : Nat} (hn : 0 < n) {L : ℝ} (hL : 0 < L) (d : ℤ × ℤ × ℤ → ℝ) (hd : gridMean n d ≠ 0) (folding : ℤ)
    (edges : List ℝ) (hs : edges.Pairwise (· ≤ ·)) {a b : ℝ} (ha : edges.head? = some a) (hb : edges.getLast? = some b)
    (hl : 2 ≤ edges.length)
    (hcov : ∀ k ∈ waves n, k ≠ (0, 0, 0) → a ≤ waveNumber (L / 2 ^ folding) k ∧ waveNumber (L / 2 ^ folding) k ≤ b)
    (shot : Option ℝ) (r : Result) (hr : toSpectrum ([n, n, n], d) none (L, L, L) folding (some edges) shot = .ok r) :
    ∑ i ∈ Finset.range r.bins, r.counts i * (r.power i + shotNoise (L ^ 3) shot) =
      L ^ 3 * ((∑ c ∈ gridCells n, contrast n d c ^ 2) / (n : ℝ) ^ 3) := by
  obtain ⟨r', hr', hbins, hi⟩ := c62_spectrum_partial hn hL d hd none (by simp) folding (some edges) (by simpa using hs) shot
  have : r' = r := by
    rw [Option.map_none] at hr'
    rw [hr'] at hr
    exact Except.ok.inj hr
  subst this
  have he : edgesOf n (L / 2 ^ folding) (some edges) = edges := rfl
  rw [he] at hbins hi
  have h1 : ∀ i ∈ Finset.range r'.bins, (r'.counts i : ℝ) * (r'.power i + shotNoise (L ^ 3) shot) =
      L ^ 3 * ∑ k ∈ wavesIn n (L / 2 ^ folding) edges i, autoPower n d k := by
    intro i hir
    obtain ⟨h2, _, h4⟩ := hi i (Finset.mem_range.1 hir)
    rw [h4, sub_add_cancel, Option.getD_none]
    simp only [crossPower_self]
    by_cases h0 : r'.counts i = 0
    · rw [h0] at h2
      rw [Finset.card_eq_zero.1 h2.symm]
      simp
    · have : (r'.counts i : ℝ) ≠ 0 := by exact_mod_cast h0
      field_simp
  rw [Finset.sum_congr rfl h1, ← Finset.mul_sum, hbins, sum_bins hs ha hb hl hcov (autoPower n d)
    (by rw [← crossPower_self, crossPower_zero hn hd])]
  simp only [← crossPower_self]
  rw [sum_crossPower hn]
  simp only [pow_two]

/-- C62. The powers of one deposition, with the shot noise added back, are not negative, and the mean wave number of a bin
with waves is between the edges of the bin. -/
theorem c62_range {n : Nat} (hn : 0 < n) {L : ℝ} (hL : 0 < L) (d : ℤ × ℤ × ℤ → ℝ) (hd : gridMean n d ≠ 0) (folding : ℤ)
    (wb : Option (List ℝ)) (hb : ∀ b ∈ wb, b.Pairwise (· ≤ ·)) (shot : Option ℝ) (r : Result)
    (hr : toSpectrum ([n, n, n], d) none (L, L, L) folding wb shot = .ok r) (i : Nat) (hi : i < r.bins) :
    -shotNoise (L ^ 3) shot ≤ r.power i ∧ (r.counts i ≠ 0 → ∃ a b, (edgesOf n (L / 2 ^ folding) wb)[i]? = some a ∧
      (edgesOf n (L / 2 ^ folding) wb)[i + 1]? = some b ∧ a ≤ r.wavenumbers i ∧ r.wavenumbers i ≤ b) := by
  obtain ⟨r', hr', hbins, h⟩ := c62_spectrum_partial hn hL d hd none (by simp) folding wb hb shot
  have : r' = r := by
    rw [Option.map_none] at hr'
    rw [hr'] at hr
    exact Except.ok.inj hr
  subst this
  obtain ⟨h1, h2, h3⟩ := h i hi
  constructor
  · rw [h3, Option.getD_none]
    simp only [crossPower_self]
    have : 0 ≤ ∑ k ∈ wavesIn n (L / 2 ^ folding) (edgesOf n (L / 2 ^ folding) wb) i, autoPower n d k :=
      Finset.sum_nonneg fun k _ => by unfold autoPower; positivity
    have : 0 ≤ L ^ 3 * ((∑ k ∈ wavesIn n (L / 2 ^ folding) (edgesOf n (L / 2 ^ folding) wb) i, autoPower n d k) /
      r'.counts i) := by positivity
    linarith
  · intro h0
    have hlen : i + 1 < (edgesOf n (L / 2 ^ folding) wb).length := by omega
    refine ⟨_, _, List.getElem?_eq_getElem (by omega), List.getElem?_eq_getElem hlen, ?_⟩
    have hc : (0 : ℝ) < r'.counts i := by exact_mod_cast Nat.pos_of_ne_zero h0
    have hin : ∀ k ∈ wavesIn n (L / 2 ^ folding) (edgesOf n (L / 2 ^ folding) wb) i,
        (edgesOf n (L / 2 ^ folding) wb)[i] ≤ waveNumber (L / 2 ^ folding) k ∧
        waveNumber (L / 2 ^ folding) k ≤ (edgesOf n (L / 2 ^ folding) wb)[i + 1] := by
      intro k hk
      classical
      unfold wavesIn at hk
      obtain ⟨a, b, ha, hb, h4, h5⟩ := (Finset.mem_filter.1 hk).2
      rw [List.getElem?_eq_getElem (by omega)] at ha
      rw [List.getElem?_eq_getElem hlen] at hb
      cases ha; cases hb
      exact ⟨h4, by rcases h5 with h5 | h5; exacts [h5.le, h5.2.le]⟩
    rw [h2, le_div_iff₀ hc, div_le_iff₀ hc]
    constructor
    · calc _ = ∑ k ∈ wavesIn n (L / 2 ^ folding) (edgesOf n (L / 2 ^ folding) wb) i, (edgesOf n (L / 2 ^ folding) wb)[i] := by
            rw [Finset.sum_const, ← h1, nsmul_eq_mul, mul_comm]
        _ ≤ _ := Finset.sum_le_sum fun k hk => (hin k hk).1
    · calc _ ≤ ∑ k ∈ wavesIn n (L / 2 ^ folding) (edgesOf n (L / 2 ^ folding) wb) i, (edgesOf n (L / 2 ^ folding) wb)[i + 1] :=
            Finset.sum_le_sum fun k hk => (hin k hk).2
        _ = _ := by rw [Finset.sum_const, ← h1, nsmul_eq_mul, mul_comm]

/-- C62. The default bins hold the waves whose number of periods is nearest to `1`, `2`, …; there are no ties. -/
theorem c62_default (n : Nat) {l : ℝ} (hl : 0 < l) (i : Nat) (hi : i < n / 2) (k : ℤ × ℤ × ℤ) :
    InBin (edgesOf n l none) i (waveNumber l k) ↔
      (2 * (i : ℤ) + 1) ^ 2 ≤ 4 * (k.1 ^ 2 + k.2.1 ^ 2 + k.2.2 ^ 2) ∧ 4 * (k.1 ^ 2 + k.2.1 ^ 2 + k.2.2 ^ 2) < (2 * (i : ℤ) + 3) ^ 2 := by
  have hpi := Real.pi_pos
  have hw : waveNumber l k = Real.sqrt ((k.1 ^ 2 + k.2.1 ^ 2 + k.2.2 ^ 2 : ℤ) : ℝ) * (2 * Real.pi / l) := by
    unfold waveNumber
    have h0 : 0 ≤ 2 * Real.pi / l := by positivity
    have h1 : (2 * Real.pi * k.1 / l) ^ 2 + (2 * Real.pi * k.2.1 / l) ^ 2 + (2 * Real.pi * k.2.2 / l) ^ 2 =
        ((k.1 ^ 2 + k.2.1 ^ 2 + k.2.2 ^ 2 : ℤ) : ℝ) * (2 * Real.pi / l) ^ 2 := by push_cast; ring
    rw [h1, Real.sqrt_mul' _ (by positivity), Real.sqrt_sq h0]
  have hedge : ∀ j, j < n / 2 + 1 → (edgesOf n l none)[j]? = some (((1 / 2 : ℝ) + j) * (2 * Real.pi / l)) := by
    intro j hj
    rw [← edges_eq]
    simp [defaultBins, hj]
  have hpos : (0 : ℝ) < 2 * Real.pi / l := by positivity
  generalize hN : k.1 ^ 2 + k.2.1 ^ 2 + k.2.2 ^ 2 = N at *
  have hN0 : 0 ≤ N := by rw [← hN]; positivity
  have hle : ((1 / 2 : ℝ) + i) * (2 * Real.pi / l) ≤ Real.sqrt (N : ℝ) * (2 * Real.pi / l) ↔ (2 * (i : ℤ) + 1) ^ 2 ≤ 4 * N := by
    rw [mul_le_mul_iff_left₀ hpos, Real.le_sqrt' (by positivity)]
    have : ((1 / 2 : ℝ) + i) ^ 2 = ((2 * (i : ℤ) + 1) ^ 2 : ℤ) / 4 := by push_cast; ring
    rw [this, div_le_iff₀ (by norm_num), mul_comm (N : ℝ)]
    exact_mod_cast Iff.rfl
  have hlt : Real.sqrt (N : ℝ) * (2 * Real.pi / l) < ((1 / 2 : ℝ) + (i + 1 : ℕ)) * (2 * Real.pi / l) ↔ 4 * N < (2 * (i : ℤ) + 3) ^ 2 := by
    rw [mul_lt_mul_iff_left₀ hpos, Real.sqrt_lt' (by positivity)]
    have : ((1 / 2 : ℝ) + (i + 1 : ℕ)) ^ 2 = ((2 * (i : ℤ) + 3) ^ 2 : ℤ) / 4 := by push_cast; ring
    rw [this, lt_div_iff₀ (by norm_num), mul_comm (N : ℝ)]
    exact_mod_cast Iff.rfl
  have hne : Real.sqrt (N : ℝ) * (2 * Real.pi / l) ≠ ((1 / 2 : ℝ) + (i + 1 : ℕ)) * (2 * Real.pi / l) := by
    intro h
    have h1 := mul_right_cancel₀ hpos.ne' h
    have h2 : (N : ℝ) = ((1 / 2 : ℝ) + (i + 1 : ℕ)) ^ 2 := by rw [← h1, Real.sq_sqrt (by exact_mod_cast hN0)]
    have h3 : ((4 * N : ℤ) : ℝ) = (((2 * (i : ℤ) + 3) ^ 2 : ℤ) : ℝ) := by push_cast; rw [h2]; push_cast; ring
    have h4 : 4 * N = (2 * (i : ℤ) + 3) ^ 2 := by exact_mod_cast h3
    have : 4 * N = 4 * ((i : ℤ) ^ 2 + 3 * i + 2) + 1 := by rw [h4]; ring
    omega
  unfold InBin
  rw [hedge i (by omega), hedge (i + 1) (by omega), hw]
  constructor
  · rintro ⟨a, b, ha, hb, h1, h2⟩
    cases ha; cases hb
    refine ⟨hle.1 h1, ?_⟩
    rcases h2 with h2 | h2
    · exact hlt.1 h2
    · exact absurd h2.2 hne
  · rintro ⟨h1, h2⟩
    exact ⟨_, _, rfl, rfl, hle.2 h1, Or.inl (hlt.2 h2)⟩

/-! ## What the spectrum does not depend on -/

private theorem contrast_scale (n : Nat) {a : ℝ} (ha : a ≠ 0) (d : ℤ × ℤ × ℤ → ℝ) :
    contrast n (fun c => a * d c) = contrast n d := by
  funext c
  unfold contrast gridMean
  rw [← Finset.mul_sum, mul_div_assoc a (∑ c ∈ gridCells n, d c), mul_div_mul_left _ _ ha]

/-- the cells of the grid, moved along the periodic grid -/
private theorem sum_shift {α : Type} [AddCommMonoid α] {n : Nat} (hn : 0 < n) (s : ℤ × ℤ × ℤ) (g : ℤ × ℤ × ℤ → α) :
    ∑ c ∈ gridCells n, g ((c.1 + s.1) % n, (c.2.1 + s.2.1) % n, (c.2.2 + s.2.2) % n) = ∑ c ∈ gridCells n, g c := by
  have hn' : (0 : ℤ) < n := by exact_mod_cast hn
  have h1 : ∀ x t : ℤ, 0 ≤ (x + t) % n ∧ (x + t) % n < n := fun x t => ⟨Int.emod_nonneg _ hn'.ne', Int.emod_lt_of_pos _ hn'⟩
  have h2 : ∀ x t : ℤ, 0 ≤ x → x < n → ((x - t) % n + t) % n = x := fun x t ha hb => by
    rw [Int.emod_add_emod, sub_add_cancel, Int.emod_eq_of_lt ha hb]
  have h3 : ∀ x t : ℤ, 0 ≤ x → x < n → ((x + t) % n - t) % n = x := fun x t ha hb => by
    rw [Int.emod_sub_emod, add_sub_cancel_right, Int.emod_eq_of_lt ha hb]
  refine Finset.sum_bij' (fun c _ => ((c.1 + s.1) % (n : ℤ), (c.2.1 + s.2.1) % (n : ℤ), (c.2.2 + s.2.2) % (n : ℤ)))
    (fun c _ => ((c.1 - s.1) % (n : ℤ), (c.2.1 - s.2.1) % (n : ℤ), (c.2.2 - s.2.2) % (n : ℤ))) ?_ ?_ ?_ ?_ ?_
  · intro c _
    rw [mem_gridCells]
    exact ⟨h1 _ _, h1 _ _, h1 _ _⟩
  · intro c _
    rw [mem_gridCells]
    simp only [sub_eq_add_neg]
    exact ⟨h1 _ _, h1 _ _, h1 _ _⟩
  · intro c hc
    rw [mem_gridCells] at hc
    simp only [h3 _ _ hc.1.1 hc.1.2, h3 _ _ hc.2.1.1 hc.2.1.2, h3 _ _ hc.2.2.1 hc.2.2.2]
  · intro c hc
    rw [mem_gridCells] at hc
    simp only [h2 _ _ hc.1.1 hc.1.2, h2 _ _ hc.2.1.1 hc.2.1.2, h2 _ _ hc.2.2.1 hc.2.2.2]
  · intro c _; rfl

/-- A deposition moved along the periodic grid. -/
def moved (n : Nat) (s : ℤ × ℤ × ℤ) (d : ℤ × ℤ × ℤ → ℝ) (c : ℤ × ℤ × ℤ) : ℝ :=
  d ((c.1 + s.1) % n, (c.2.1 + s.2.1) % n, (c.2.2 + s.2.2) % n)

private theorem gridMean_moved {n : Nat} (hn : 0 < n) (s : ℤ × ℤ × ℤ) (d : ℤ × ℤ × ℤ → ℝ) :
    gridMean n (moved n s d) = gridMean n d := by
  unfold gridMean moved
  rw [sum_shift hn s d]

private theorem root_mod' {n : Nat} (hn : 0 < n) (k x t : ℤ) : root n (k * ((x + t) % n)) = root n (k * x) * root n (k * t) := by
  rw [← root_add, ← mul_add, mul_comm k, mul_comm k]
  exact root_mod hn (by rw [← Int.modEq_iff_dvd]; exact (Int.mod_modEq _ _).symm) k

private theorem mode_moved {n : Nat} (hn : 0 < n) (s : ℤ × ℤ × ℤ) (d : ℤ × ℤ × ℤ → ℝ) (k : ℤ × ℤ × ℤ) :
    mode n (fun c => (contrast n (moved n s d) c : ℂ)) k * wave n k s = mode n (fun c => (contrast n d c : ℂ)) k := by
  unfold mode
  rw [← sum_shift hn s (fun c => (contrast n d c : ℂ) * wave n k c), div_mul_eq_mul_div, Finset.sum_mul]
  congr 1
  apply Finset.sum_congr rfl
  intro c _
  have h1 : contrast n (moved n s d) c = contrast n d ((c.1 + s.1) % n, (c.2.1 + s.2.1) % n, (c.2.2 + s.2.2) % n) := by
    unfold contrast
    rw [gridMean_moved hn]
    rfl
  dsimp only
  rw [h1]
  simp only [wave_eq, root_mod' hn]
  ring

private theorem crossPower_moved {n : Nat} (hn : 0 < n) (s : ℤ × ℤ × ℤ) (d e : ℤ × ℤ × ℤ → ℝ) (k : ℤ × ℤ × ℤ) :
    crossPower n (moved n s d) (moved n s e) k = crossPower n d e k := by
  unfold crossPower
  rw [← mode_moved hn s d, ← mode_moved hn s e, map_mul]
  have : wave n k s * (starRingEnd ℂ) (wave n k s) = 1 := by
    rw [wave_eq, Complex.mul_conj, Complex.normSq_eq_norm_sq, norm_mul, norm_mul, root_norm, root_norm, root_norm]
    simp
  congr 1
  linear_combination (-(mode n (fun c => (contrast n (moved n s d) c : ℂ)) k *
    (starRingEnd ℂ) (mode n (fun c => (contrast n (moved n s e) c : ℂ)) k))) * this

/-- equal products of amplitudes give equal spectra -/
private theorem same_result {n : Nat} (hn : 0 < n) (d e d' e' : ℤ × ℤ × ℤ → ℝ) (hd : gridMean n d ≠ 0) (he : gridMean n e ≠ 0)
    (hd' : gridMean n d' ≠ 0) (he' : gridMean n e' ≠ 0) (h : ∀ k, crossPower n d' e' k = crossPower n d e k)
    (box : ℝ × ℝ × ℝ) (folding : ℤ) (wb : Option (List ℝ)) (shot : Option ℝ) :
    toSpectrum ([n, n, n], d') (some ([n, n, n], e')) box folding wb shot =
      toSpectrum ([n, n, n], d) (some ([n, n, n], e)) box folding wb shot := by
  have : amplitudes n d' (some e') = amplitudes n d (some e) := by
    funext l q
    have h1 : ∀ (a b : ℤ × ℤ × ℤ → ℝ), gridMean n a ≠ 0 → gridMean n b ≠ 0 → amplitudes n a (some b) l q =
        crossPower n a b (freq n q.1, freq n q.2.1, freq n q.2.2) * l ^ 3 := by
      intro a b ha hb
      unfold amplitudes crossPower
      rw [Option.getD_some, transform_eq hn ha, transform_eq hn hb]
    rw [h1 d' e' hd' he', h1 d e hd he, h]
  unfold toSpectrum
  simp only [Option.map_some, this]

private theorem cross_self (n : Nat) (d : ℤ × ℤ × ℤ → ℝ) (box : ℝ × ℝ × ℝ) (folding : ℤ) (wb : Option (List ℝ)) (shot : Option ℝ) :
    toSpectrum ([n, n, n], d) none box folding wb shot = toSpectrum ([n, n, n], d) (some ([n, n, n], d)) box folding wb shot := by
  unfold toSpectrum
  simp only [Option.map_some, Option.map_none]
  have : amplitudes n d none = amplitudes n d (some d) := rfl
  rw [this]
  simp [pure, Except.pure, bind, Except.bind]

/-- C62. The spectrum of one deposition is the one with itself as second deposition. -/
theorem c62_auto (n : Nat) (d : ℤ × ℤ × ℤ → ℝ) (box : ℝ × ℝ × ℝ) (folding : ℤ) (wb : Option (List ℝ)) (shot : Option ℝ) :
    toSpectrum ([n, n, n], d) none box folding wb shot = toSpectrum ([n, n, n], d) (some ([n, n, n], d)) box folding wb shot :=
  cross_self n d box folding wb shot

/-- C62. The spectrum does not depend on the units of the depositions, nor on the origin of the periodic grid, nor on which
of two depositions is the first. -/
theorem c62_invariant {n : Nat} (hn : 0 < n) (d e : ℤ × ℤ × ℤ → ℝ) (hd : gridMean n d ≠ 0) (he : gridMean n e ≠ 0)
    (box : ℝ × ℝ × ℝ) (folding : ℤ) (wb : Option (List ℝ)) (shot : Option ℝ) :
    (∀ a b : ℝ, a ≠ 0 → b ≠ 0 →
      toSpectrum ([n, n, n], fun c => a * d c) (some ([n, n, n], fun c => b * e c)) box folding wb shot =
        toSpectrum ([n, n, n], d) (some ([n, n, n], e)) box folding wb shot) ∧
    (∀ s, toSpectrum ([n, n, n], moved n s d) (some ([n, n, n], moved n s e)) box folding wb shot =
        toSpectrum ([n, n, n], d) (some ([n, n, n], e)) box folding wb shot) ∧
    toSpectrum ([n, n, n], e) (some ([n, n, n], d)) box folding wb shot =
      toSpectrum ([n, n, n], d) (some ([n, n, n], e)) box folding wb shot := by
  have hm : ∀ (a : ℝ) (f : ℤ × ℤ × ℤ → ℝ), gridMean n (fun c => a * f c) = a * gridMean n f := by
    intro a f
    unfold gridMean
    rw [← Finset.mul_sum, mul_div_assoc]
  refine ⟨?_, ?_, ?_⟩
  · intro a b ha hb
    refine same_result hn _ _ _ _ hd he (by rw [hm]; exact mul_ne_zero ha hd) (by rw [hm]; exact mul_ne_zero hb he) ?_ ..
    intro k
    unfold crossPower
    rw [contrast_scale n ha, contrast_scale n hb]
  · intro s
    refine same_result hn _ _ _ _ hd he (by rw [gridMean_moved hn]; exact hd) (by rw [gridMean_moved hn]; exact he) ?_ ..
    exact crossPower_moved hn s d e
  · refine same_result hn _ _ _ _ hd he he hd ?_ ..
    intro k
    unfold crossPower
    rw [← Complex.conj_re, map_mul, Complex.conj_conj, mul_comm]

/-- C62. Only the first length of the box is looked at, apart from the shot noise. -/
theorem c62_first_length (d : List Nat × (ℤ × ℤ × ℤ → ℝ)) (cross : Option (List Nat × (ℤ × ℤ × ℤ → ℝ))) (bx by_ bz : ℝ)
    (folding : ℤ) (wb : Option (List ℝ)) :
    toSpectrum d cross (bx, by_, bz) folding wb none = toSpectrum d cross (bx, bx, bx) folding wb none := by
  unfold toSpectrum
  simp only [mul_zero]

/-- C62, boxes that are not cubes: the powers, weighted with the numbers of waves, add up to the volume of the box times the
mean square of the contrast for no such deposition. -/
theorem c62_not_cubic_fails {n : Nat} (hn : 0 < n) {bx by_ bz : ℝ} (hx : 0 < bx) (hbox : by_ * bz ≠ bx ^ 2)
    (d : ℤ × ℤ × ℤ → ℝ) (hd : gridMean n d ≠ 0) (hc : ∃ c ∈ gridCells n, contrast n d c ≠ 0) (folding : ℤ)
    (edges : List ℝ) (hs : edges.Pairwise (· ≤ ·)) {a b : ℝ} (ha : edges.head? = some a) (hb : edges.getLast? = some b)
    (hl : 2 ≤ edges.length)
    (hcov : ∀ k ∈ waves n, k ≠ (0, 0, 0) → a ≤ waveNumber (bx / 2 ^ folding) k ∧ waveNumber (bx / 2 ^ folding) k ≤ b)
    (r : Result) (hr : toSpectrum ([n, n, n], d) none (bx, by_, bz) folding (some edges) none = .ok r) :
    ∑ i ∈ Finset.range r.bins, r.counts i * r.power i ≠
      bx * by_ * bz * ((∑ c ∈ gridCells n, contrast n d c ^ 2) / (n : ℝ) ^ 3) := by
  rw [c62_first_length] at hr
  have h := c62_total hn hx d hd folding edges hs ha hb hl hcov none r hr
  simp only [shotNoise, add_zero] at h
  rw [h]
  have hpos : 0 < (∑ c ∈ gridCells n, contrast n d c ^ 2) / (n : ℝ) ^ 3 := by
    obtain ⟨c, hc1, hc2⟩ := hc
    have : 0 < ∑ c ∈ gridCells n, contrast n d c ^ 2 :=
      Finset.sum_pos' (fun _ _ => sq_nonneg _) ⟨c, hc1, by positivity⟩
    have : (0 : ℝ) < n := by exact_mod_cast hn
    positivity
  intro h2
  have h3 := mul_right_cancel₀ hpos.ne' h2
  apply hbox
  have : bx * (by_ * bz) = bx * bx ^ 2 := by rw [← mul_assoc, ← h3]; ring
  exact mul_left_cancel₀ hx.ne' this

/-! ## Folding -/

theorem wave_sum {n : Nat} (hn : 0 < n) (k : ℤ × ℤ × ℤ) :
    ∑ c ∈ gridCells n, wave n k c = if (n : ℤ) ∣ k.1 ∧ (n : ℤ) ∣ k.2.1 ∧ (n : ℤ) ∣ k.2.2 then (n : ℂ) ^ 3 else 0 := by
  have h := fun x => root_sum hn x
  simp only [wave_eq, mul_assoc]
  unfold gridCells
  rw [Finset.sum_product]
  simp only [← Finset.mul_sum]
  rw [← Finset.sum_mul, Finset.sum_product]
  simp only [← Finset.mul_sum]
  rw [← Finset.sum_mul]
  have h1 : ∀ x : ℤ, ∑ i ∈ Finset.Ico 0 (n : ℤ), root n (x * i) = if (n : ℤ) ∣ x then (n : ℂ) else 0 := by
    intro x
    rw [← root_sum hn x]
    apply Finset.sum_congr rfl
    intro i _
    rw [mul_comm]
  rw [h1, h1, h1]
  by_cases a1 : (n : ℤ) ∣ k.1 <;> by_cases a2 : (n : ℤ) ∣ k.2.1 <;> by_cases a3 : (n : ℤ) ∣ k.2.2 <;> simp [a1, a2, a3]
  ring

/-- The cell of the folded grid. -/
private def foldCell (n : Nat) (c : ℤ × ℤ × ℤ) : ℤ × ℤ × ℤ := (c.1 % n, c.2.1 % n, c.2.2 % n)

private theorem foldCell_mem {n : Nat} (hn : 0 < n) (c : ℤ × ℤ × ℤ) : foldCell n c ∈ gridCells n := by
  have hn' : (0 : ℤ) < n := by exact_mod_cast hn
  have h1 : ∀ x : ℤ, 0 ≤ x % n ∧ x % n < n := fun x => ⟨Int.emod_nonneg _ hn'.ne', Int.emod_lt_of_pos _ hn'⟩
  rw [mem_gridCells]
  exact ⟨h1 _, h1 _, h1 _⟩

private theorem root_fold {n f : Nat} (hn : 0 < n) (hf : 0 < f) (k x : ℤ) : root n (k * (x % n)) = root (f * n) (f * k * x) := by
  have h1 : root n (k * (x % n)) = root n (k * x) := by
    rw [mul_comm k, mul_comm k]
    exact root_mod hn (by rw [← Int.modEq_iff_dvd]; exact (Int.mod_modEq _ _).symm) k
  rw [h1]
  unfold root
  have : (f : ℂ) ≠ 0 := by exact_mod_cast hf.ne'
  have : (n : ℂ) ≠ 0 := by exact_mod_cast hn.ne'
  congr 1
  push_cast
  field_simp

private theorem wave_fold {n f : Nat} (hn : 0 < n) (hf : 0 < f) (k c : ℤ × ℤ × ℤ) :
    wave n k (foldCell n c) = wave (f * n) (f * k.1, f * k.2.1, f * k.2.2) c := by
  simp only [wave_eq, foldCell, root_fold hn hf]

/-- A grid whose cells are sums over the cells of a finer grid that are laid on top of each other has the amplitudes of the
finer grid at `f` times the number of periods. -/
private theorem mode_fold {n f : Nat} (hn : 0 < n) (hf : 0 < f) (d fine : ℤ × ℤ × ℤ → ℝ)
    (h : ∀ q, d q = ∑ c ∈ gridCells (f * n) with foldCell n c = q, fine c) (k : ℤ × ℤ × ℤ) :
    mode n (fun c => (contrast n d c : ℂ)) k =
      mode (f * n) (fun c => (contrast (f * n) fine c : ℂ)) (f * k.1, f * k.2.1, f * k.2.2) := by
  have hf' : (f : ℝ) ≠ 0 := by exact_mod_cast hf.ne'
  have hn' : (n : ℝ) ≠ 0 := by exact_mod_cast hn.ne'
  have hfc : (f : ℂ) ≠ 0 := by exact_mod_cast hf.ne'
  have hnc : (n : ℂ) ≠ 0 := by exact_mod_cast hn.ne'
  have hmaps : ∀ c ∈ gridCells (f * n), foldCell n c ∈ gridCells n := fun c _ => foldCell_mem hn c
  have hmean : gridMean n d = f ^ 3 * gridMean (f * n) fine := by
    unfold gridMean
    simp only [h]
    rw [Finset.sum_fiberwise_of_maps_to hmaps]
    push_cast
    field_simp
  have hlin : ∀ (m : Nat) (g : ℤ × ℤ × ℤ → ℝ) (k : ℤ × ℤ × ℤ), mode m (fun c => (contrast m g c : ℂ)) k =
      ((∑ c ∈ gridCells m, (g c : ℂ) * wave m k c) / (gridMean m g : ℂ) - ∑ c ∈ gridCells m, wave m k c) / (m : ℂ) ^ 3 := by
    intro m g k
    unfold mode contrast
    congr 1
    rw [Finset.sum_div, ← Finset.sum_sub_distrib]
    apply Finset.sum_congr rfl
    intro c _
    push_cast
    ring
  rw [hlin, hlin, hmean, wave_sum hn, wave_sum (Nat.mul_pos hf hn)]
  have h1 : ∑ c ∈ gridCells n, (d c : ℂ) * wave n k c =
      ∑ c ∈ gridCells (f * n), (fine c : ℂ) * wave (f * n) (f * k.1, f * k.2.1, f * k.2.2) c := by
    rw [← Finset.sum_fiberwise_of_maps_to hmaps]
    apply Finset.sum_congr rfl
    intro q _
    rw [h q]
    push_cast
    rw [Finset.sum_mul]
    apply Finset.sum_congr rfl
    intro c hc
    rw [← (Finset.mem_filter.1 hc).2, wave_fold hn hf]
  have h2 : ∀ x : ℤ, ((f * n : ℕ) : ℤ) ∣ f * x ↔ (n : ℤ) ∣ x := by
    intro x
    push_cast
    exact mul_dvd_mul_iff_left (by exact_mod_cast hf.ne')
  rw [h1]
  simp only [h2]
  generalize ∑ c ∈ gridCells (f * n), (fine c : ℂ) * wave (f * n) (f * k.1, f * k.2.1, f * k.2.2) c = S
  generalize gridMean (f * n) fine = M
  by_cases hM : (M : ℂ) = 0
  · push_cast
    rw [hM]
    split
    · simp
      field_simp
    · simp
  · push_cast
    split <;> field_simp
    simp

open Classical in
/-- C62. The spectrum of particles folded `F` times: the powers are those of the grid of the whole box with `2 ^ F` times as
many cells along each side, at `2 ^ F` times the numbers of periods. -/
theorem c62_folding {n F : Nat} (hn : 0 < n) {L : ℝ} (hL : 0 < L) (ps : List (Scatter.Part ℝ))
    (hm : (ps.map fun p => p.m).sum ≠ 0) (wb : Option (List ℝ)) (hb : ∀ b ∈ wb, b.Pairwise (· ≤ ·)) (shot : Option ℝ) :
    ∃ out fine r, Power.deposit n ((2 : ℝ) ^ F) L L L ps = .ok out ∧ Power.deposit (2 ^ F * n) 1 L L L ps = .ok fine ∧
      toSpectrum ([n, n, n], out) none (L, L, L) F wb shot = .ok r ∧ ∀ i < r.bins,
        r.counts i = ((waves n).filter fun k =>
          InBin (edgesOf n (L / 2 ^ F) wb) i (waveNumber L (2 ^ F * k.1, 2 ^ F * k.2.1, 2 ^ F * k.2.2))).card ∧
        r.power i = L ^ 3 * ((∑ k ∈ (waves n).filter fun k =>
            InBin (edgesOf n (L / 2 ^ F) wb) i (waveNumber L (2 ^ F * k.1, 2 ^ F * k.2.1, 2 ^ F * k.2.2)),
          autoPower (2 ^ F * n) fine (2 ^ F * k.1, 2 ^ F * k.2.1, 2 ^ F * k.2.2)) / r.counts i) - shotNoise (L ^ 3) shot := by
  have hf : 0 < 2 ^ F := by positivity
  obtain ⟨out, fine, h1, h2, h3⟩ := c43_folding hn hf hL hL hL ps
  push_cast at h1
  have hF : (0 : ℝ) < 2 ^ F := by positivity
  have hn' : (0 : ℝ) < n := by exact_mod_cast hn
  have htot := c42_total hn hF hL hL hL ps out h1
  have hmean : gridMean n out ≠ 0 := by
    intro h0
    unfold gridMean at h0
    rw [div_eq_zero_iff] at h0
    rcases h0 with h0 | h0
    · have : ∑ q ∈ cells n, out q = 0 := h0
      rw [this, zero_mul] at htot
      exact hm htot.symm
    · exact absurd h0 (by positivity)
  obtain ⟨r, hr, _, hi⟩ := c62_spectrum_partial hn hL out hmean none (by simp) F wb hb shot
  simp only [zpow_natCast] at hi
  have hw : ∀ k, waveNumber (L / 2 ^ F) k = waveNumber L (2 ^ F * k.1, 2 ^ F * k.2.1, 2 ^ F * k.2.2) := by
    intro k
    unfold waveNumber
    congr 1
    push_cast
    field_simp
  have hp : ∀ k, crossPower n out out k = autoPower (2 ^ F * n) fine (2 ^ F * k.1, 2 ^ F * k.2.1, 2 ^ F * k.2.2) := by
    intro k
    have := mode_fold hn hf out fine (fun q => h3 q) k
    push_cast at this
    rw [crossPower_self]
    unfold autoPower
    rw [this]
  refine ⟨out, fine, r, h1, h2, hr, ?_⟩
  intro i hir
  obtain ⟨a1, _, a3⟩ := hi i hir
  have hset : wavesIn n (L / 2 ^ F) (edgesOf n (L / 2 ^ F) wb) i = (waves n).filter fun k =>
      InBin (edgesOf n (L / 2 ^ F) wb) i (waveNumber L (2 ^ F * k.1, 2 ^ F * k.2.1, 2 ^ F * k.2.2)) := by
    unfold wavesIn
    apply Finset.filter_congr
    intro k _
    rw [hw]
  rw [hset] at a1 a3
  refine ⟨a1, ?_⟩
  rw [a3, Option.getD_none]
  simp only [hp]

/-! ## Examples -/

/-- All of the mass in one of eight cells. -/
def point (c : ℤ × ℤ × ℤ) : ℝ := if c = (0, 0, 0) then 8 else 0

theorem point_mean : gridMean 2 point = 1 := by
  unfold gridMean point
  rw [Finset.sum_ite_eq', if_pos (by rw [mem_gridCells]; simp)]
  norm_num

theorem point_waves : ∀ k ∈ waves 2, k ≠ (0, 0, 0) →
    1 ≤ waveNumber (1 / 2 ^ (0 : ℤ)) k ∧ waveNumber (1 / 2 ^ (0 : ℤ)) k ≤ 16 := by
  intro k hk h0
  obtain ⟨x, y, z⟩ := k
  simp only [waves, Finset.mem_product, mem_waves1] at hk
  have hx : x = -1 ∨ x = 0 := by omega
  have hy : y = -1 ∨ y = 0 := by omega
  have hz : z = -1 ∨ z = 0 := by omega
  have hp := Real.two_le_pi
  have hq := Real.pi_le_four
  have hs : 4 ≤ Real.pi ^ 2 ∧ Real.pi ^ 2 ≤ 16 := by constructor <;> nlinarith
  have key : 1 ≤ x ^ 2 + y ^ 2 + z ^ 2 ∧ x ^ 2 + y ^ 2 + z ^ 2 ≤ 3 := by
    rcases hx with rfl | rfl <;> rcases hy with rfl | rfl <;> rcases hz with rfl | rfl <;> first | exact absurd rfl h0 | norm_num
  have e : (2 * Real.pi * (x : ℝ) / (1 / 2 ^ (0 : ℤ))) ^ 2 + (2 * Real.pi * (y : ℝ) / (1 / 2 ^ (0 : ℤ))) ^ 2 +
      (2 * Real.pi * (z : ℝ) / (1 / 2 ^ (0 : ℤ))) ^ 2 = 4 * Real.pi ^ 2 * ((x ^ 2 + y ^ 2 + z ^ 2 : ℤ) : ℝ) := by
    push_cast; simp; ring
  have k1 : (1 : ℝ) ≤ ((x ^ 2 + y ^ 2 + z ^ 2 : ℤ) : ℝ) := by exact_mod_cast key.1
  have k2 : ((x ^ 2 + y ^ 2 + z ^ 2 : ℤ) : ℝ) ≤ 3 := by exact_mod_cast key.2
  unfold waveNumber
  dsimp only
  rw [e]
  constructor
  · rw [Real.le_sqrt' (by norm_num)]
    nlinarith
  · rw [Real.sqrt_le_left (by norm_num)]
    nlinarith

theorem point_contrast : ∑ c ∈ gridCells 2, contrast 2 point c ^ 2 = 56 := by
  unfold contrast
  rw [point_mean]
  have h : ∀ c ∈ gridCells 2, (point c / 1 - 1) ^ 2 = 1 + if c = (0, 0, 0) then (48 : ℝ) else 0 := by
    intro c _
    unfold point
    split <;> norm_num
  rw [Finset.sum_congr rfl h, Finset.sum_add_distrib, Finset.sum_ite_eq', if_pos (by rw [mem_gridCells]; simp), Finset.sum_const,
    card_cells]
  norm_num

/-- Seven of the eight waves have amplitude one. -/
example (shot : Option ℝ) : ∃ r, toSpectrum ([2, 2, 2], point) none (1, 1, 1) 0 (some [1, 16]) shot = .ok r ∧
    ∑ i ∈ Finset.range r.bins, r.counts i * (r.power i + shotNoise (1 ^ 3) shot) = 7 := by
  obtain ⟨r, hr, _⟩ := c62_spectrum_partial (n := 2) (by norm_num) (L := 1) one_pos point (by rw [point_mean]; norm_num) none (by simp) 0
    (some [1, 16]) (by simp) shot
  refine ⟨r, hr, ?_⟩
  rw [c62_total (by norm_num) one_pos point (by rw [point_mean]; norm_num) 0 [1, 16] (by simp) rfl rfl (by simp)
    point_waves shot r hr, point_contrast]
  norm_num

/-- In a box twice as wide the volume is twice as large, but the powers are the same. -/
example : ∃ r, toSpectrum ([2, 2, 2], point) none (1, 2, 1) 0 (some [1, 16]) none = .ok r ∧
    ∑ i ∈ Finset.range r.bins, r.counts i * r.power i ≠ 1 * 2 * 1 * ((∑ c ∈ gridCells 2, contrast 2 point c ^ 2) / (2 : ℕ) ^ 3) := by
  obtain ⟨r, hr, _⟩ := c62_spectrum_partial (n := 2) (by norm_num) (L := 1) one_pos point (by rw [point_mean]; norm_num) none (by simp) 0
    (some [1, 16]) (by simp) none
  rw [Option.map_none, ← c62_first_length _ _ 1 2 1] at hr
  refine ⟨r, hr, ?_⟩
  exact c62_not_cubic_fails (by norm_num) one_pos (by norm_num) point (by rw [point_mean]; norm_num)
    ⟨(0, 0, 0), by rw [mem_gridCells]; simp, by unfold contrast; rw [point_mean]; norm_num [point]⟩ 0 [1, 16] (by simp)
    rfl rfl (by simp) point_waves r hr

/-- Two particles, folded twice. -/
example : ∃ out fine r, Power.deposit 2 ((2 : ℝ) ^ 2) 1 1 1 [⟨1 / 3, 1 / 3, 0, 1, 0⟩, ⟨1 / 5, 2 / 3, 0, 2, 0⟩] = .ok out ∧
    Power.deposit (2 ^ 2 * 2) (1 : ℝ) 1 1 1 [⟨1 / 3, 1 / 3, 0, 1, 0⟩, ⟨1 / 5, 2 / 3, 0, 2, 0⟩] = .ok fine ∧
    toSpectrum ([2, 2, 2], out) none (1, 1, 1) (2 : ℕ) none none = .ok r := by
  obtain ⟨out, fine, r, h1, h2, h3, _⟩ := c62_folding (n := 2) (F := 2) (by norm_num) (L := 1) one_pos
    [⟨1 / 3, 1 / 3, 0, 1, 0⟩, ⟨1 / 5, 2 / 3, 0, 2, 0⟩] (by simp; norm_num) none (by simp) none
  exact ⟨out, fine, r, h1, h2, h3⟩

/-- A wave with one period along the diagonal of a face is in the first of the default bins. -/
example : InBin (edgesOf 8 1 none) 0 (waveNumber 1 (1, 1, 0)) := (c62_default 8 one_pos 0 (by norm_num) (1, 1, 0)).2 (by norm_num)

end Verif.Props
