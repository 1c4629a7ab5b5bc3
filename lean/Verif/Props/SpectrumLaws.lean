import Verif.Spec.SpectrumLaws
import Verif.Props.Spectrum

/-!
# C112: laws that relate power spectra of particles (`swiftsimio/visualisation/power_spectrum.py`)
-/

noncomputable section

namespace Verif.Props
open Verif Verif.Spec Verif.Spectrum Verif.Scatter

/-- The program: `render_to_deposit` for particles in a cubic box with comoving coordinates and masses, then
`deposition_to_power_spectrum`. -/
def spectrumOf (n : Nat) (folding : ℤ) (L : ℝ) (ps : List (Scatter.Part ℝ)) (wb : Option (List ℝ)) (shot : Option ℝ) :
    Except Err Result := do
  let d ← Power.renderToDeposit 1 (L, L, L) true true true 0 n folding ps
  toSpectrum ([n, n, n], d.grid) none (L, L, L) folding wb shot

/-- The same with the particles `qs` as the second deposition. -/
def crossSpectrumOf (n : Nat) (folding : ℤ) (L : ℝ) (ps qs : List (Scatter.Part ℝ)) (wb : Option (List ℝ)) (shot : Option ℝ) :
    Except Err Result := do
  let d ← Power.renderToDeposit 1 (L, L, L) true true true 0 n folding ps
  let e ← Power.renderToDeposit 1 (L, L, L) true true true 0 n folding qs
  toSpectrum ([n, n, n], d.grid) (some ([n, n, n], e.grid)) (L, L, L) folding wb shot

private theorem folded_cell {L f : ℝ} {n : Nat} (hn : 0 < n) (hw : 0 < L / (f * n)) {i : ℤ} (hi : 0 ≤ i ∧ i < n) (v : ℝ) :
    Folded L f n i v ↔ i = ⌊v / (L / (f * n))⌋ % n := by
  have hn' : (0 : ℤ) < n := by exact_mod_cast hn
  have hj : ∀ j : ℤ, ((i + n * j) * (L / (f * n)) ≤ v ∧ v < (i + n * j + 1) * (L / (f * n))) ↔
      ⌊v / (L / (f * n))⌋ = i + n * j := by
    intro j
    rw [Int.floor_eq_iff, le_div_iff₀ hw, div_lt_iff₀ hw]
    push_cast
    rfl
  unfold Folded
  simp only [hj]
  constructor
  · rintro ⟨j, h⟩
    rw [h, Int.add_mul_emod_self_left, Int.emod_eq_of_lt hi.1 hi.2]
  · intro h
    refine ⟨⌊v / (L / (f * n))⌋ / n, ?_⟩
    rw [h]
    exact (Int.emod_add_mul_ediv _ _).symm

private theorem mem_grid {n : Nat} {c : ℤ × ℤ × ℤ} :
    c ∈ gridCells n ↔ (0 ≤ c.1 ∧ c.1 < n) ∧ (0 ≤ c.2.1 ∧ c.2.1 < n) ∧ 0 ≤ c.2.2 ∧ c.2.2 < n := by
  simp [gridCells]

/-- The cell on the periodic grid. -/
private def wrap (n : Nat) (c : ℤ × ℤ × ℤ) : ℤ × ℤ × ℤ := (c.1 % n, c.2.1 % n, c.2.2 % n)

private theorem wrap_mem {n : Nat} (hn : 0 < n) (c : ℤ × ℤ × ℤ) : wrap n c ∈ gridCells n := by
  have hn' : (0 : ℤ) < n := by exact_mod_cast hn
  have h1 : ∀ x : ℤ, 0 ≤ x % n ∧ x % n < n := fun x => ⟨Int.emod_nonneg _ hn'.ne', Int.emod_lt_of_pos _ hn'⟩
  rw [mem_grid]
  exact ⟨h1 _, h1 _, h1 _⟩

private theorem wave_congr {n : Nat} (hn : 0 < n) {k l c e : ℤ × ℤ × ℤ}
    (h : (n : ℤ) ∣ (k.1 * c.1 + k.2.1 * c.2.1 + k.2.2 * c.2.2) - (l.1 * e.1 + l.2.1 * e.2.1 + l.2.2 * e.2.2)) :
    wave n k c = wave n l e := by
  obtain ⟨j, hj⟩ := h
  have hn' : (n : ℂ) ≠ 0 := by exact_mod_cast hn.ne'
  unfold wave
  have e1 : (k.1 * c.1 + k.2.1 * c.2.1 + k.2.2 * c.2.2 : ℤ) = (l.1 * e.1 + l.2.1 * e.2.1 + l.2.2 * e.2.2) + n * j := by omega
  rw [e1]
  rw [Complex.exp_eq_exp_iff_exists_int]
  refine ⟨-j, ?_⟩
  push_cast
  field_simp
  ring

private theorem wave_wrap {n : Nat} (hn : 0 < n) (k c : ℤ × ℤ × ℤ) : wave n k (wrap n c) = wave n k c := by
  apply wave_congr hn
  have h : ∀ x : ℤ, (n : ℤ) ∣ x % n - x := fun x => by
    rw [← Int.modEq_iff_dvd]; exact (Int.mod_modEq _ _).symm
  have e : (k.1 * (wrap n c).1 + k.2.1 * (wrap n c).2.1 + k.2.2 * (wrap n c).2.2) - (k.1 * c.1 + k.2.1 * c.2.1 + k.2.2 * c.2.2) =
      k.1 * (c.1 % n - c.1) + k.2.1 * (c.2.1 % n - c.2.1) + k.2.2 * (c.2.2 % n - c.2.2) := by
    simp only [wrap]; ring
  rw [e]
  exact dvd_add (dvd_add (Dvd.dvd.mul_left (h _) _) (Dvd.dvd.mul_left (h _) _)) (Dvd.dvd.mul_left (h _) _)

private theorem wave_mul (n : Nat) (k c e : ℤ × ℤ × ℤ) : wave n k (c.1 + e.1, c.2.1 + e.2.1, c.2.2 + e.2.2) = wave n k c * wave n k e := by
  unfold wave
  rw [← Complex.exp_add]
  congr 1
  push_cast
  ring

private theorem wave_norm (n : Nat) (k c : ℤ × ℤ × ℤ) : ‖wave n k c‖ = 1 := by
  unfold wave
  have : -(2 * Real.pi * Complex.I * ((k.1 * c.1 + k.2.1 * c.2.1 + k.2.2 * c.2.2 : ℤ) : ℂ) / n) =
      ((-(2 * Real.pi * (k.1 * c.1 + k.2.1 * c.2.1 + k.2.2 * c.2.2 : ℤ) / n) : ℝ) : ℂ) * Complex.I := by
    push_cast; ring
  rw [this, Complex.norm_exp_ofReal_mul_I]

private theorem wave_conj (n : Nat) (k c : ℤ × ℤ × ℤ) : wave n k c * (starRingEnd ℂ) (wave n k c) = 1 := by
  rw [Complex.mul_conj, Complex.normSq_eq_norm_sq, wave_norm]
  simp

/-- the grid of the particles and its sums -/
private theorem render_ok {n : Nat} (hn : 0 < n) (folding : ℤ) {L : ℝ} (hL : 0 < L) (ps : List (Scatter.Part ℝ)) :
    ∃ d, Power.renderToDeposit 1 (L, L, L) true true true 0 n folding ps = .ok d ∧
      ∀ g : ℤ × ℤ × ℤ → ℂ, ∑ c ∈ gridCells n, (d.grid c : ℂ) * g c =
        ((2 : ℂ) ^ folding * n) ^ 3 * (ps.map fun p => (p.m : ℂ) * g (wrap n (cellOf (L / (2 ^ folding * n)) p))).sum := by
  classical
  have hf : (0 : ℝ) < 2 ^ folding := by positivity
  have hn' : (0 : ℝ) < n := by exact_mod_cast hn
  have hw : 0 < L / ((2 : ℝ) ^ folding * n) := by positivity
  obtain ⟨out, h1, h2⟩ := c42_cells hn hf hL hL hL ps
  refine ⟨⟨out, 1 / (L * L * L), true, 0 - 3⟩, ?_, ?_⟩
  · unfold Power.renderToDeposit
    simp only [h1]
    rfl
  · intro g
    have h3 : ∀ c ∈ gridCells n, out c = (ps.map fun p => if wrap n (cellOf (L / (2 ^ folding * n)) p) = c then
        p.m * (2 ^ folding * n) ^ 3 else 0).sum := by
      intro c hc
      rw [mem_grid] at hc
      rw [h2 c hc.1 hc.2.1 hc.2.2]
      congr 1
      apply List.map_congr_left
      intro p _
      have e : Folded3 (L, L, L) (2 ^ folding) n c p.x p.y p.z ↔ wrap n (cellOf (L / (2 ^ folding * n)) p) = c := by
        unfold Folded3
        rw [folded_cell hn hw hc.1, folded_cell hn hw hc.2.1, folded_cell hn hw hc.2.2]
        unfold wrap cellOf
        constructor
        · rintro ⟨a, b, c'⟩
          exact Prod.ext a.symm (Prod.ext b.symm c'.symm)
        · rintro rfl
          exact ⟨rfl, rfl, rfl⟩
      simp only [e]
      split
      · field_simp
      · rfl
    dsimp only
    rw [Finset.sum_congr rfl fun c hc => by rw [h3 c hc]]
    clear h1 h2 h3
    induction ps with
    | nil => simp
    | cons p ps ih =>
      simp only [List.map_cons, List.sum_cons]
      simp only [Complex.ofReal_add, add_mul, Finset.sum_add_distrib, mul_add]
      rw [ih]
      congr 1
      have e : ∀ c ∈ gridCells n, ((if wrap n (cellOf (L / (2 ^ folding * n)) p) = c then
          p.m * ((2 : ℝ) ^ folding * n) ^ 3 else 0 : ℝ) : ℂ) * g c =
          if wrap n (cellOf (L / (2 ^ folding * n)) p) = c then (p.m : ℂ) * ((2 : ℂ) ^ folding * n) ^ 3 * g c else 0 := by
        intro c _
        split <;> simp
      rw [Finset.sum_congr rfl e, Finset.sum_ite_eq, if_pos (wrap_mem hn _)]
      ring

private theorem cast_mass (ps : List (Scatter.Part ℝ)) : ((massOf ps : ℝ) : ℂ) = (ps.map fun p => (p.m : ℂ)).sum := by
  unfold massOf
  induction ps with
  | nil => simp
  | cons p ps ih => simp only [List.map_cons, List.sum_cons]; push_cast; rw [ih]

private theorem wave_zero (n : Nat) (c : ℤ × ℤ × ℤ) : wave n (0, 0, 0) c = 1 := by simp [wave]

private theorem waves_zero {n : Nat} (hn : 0 < n) {k : ℤ × ℤ × ℤ} (hk : k ∈ waves n) :
    ((n : ℤ) ∣ k.1 ∧ (n : ℤ) ∣ k.2.1 ∧ (n : ℤ) ∣ k.2.2) ↔ k = (0, 0, 0) := by
  have h1 : ∀ x ∈ waves1 n, ((n : ℤ) ∣ x ↔ x = 0) := by
    intro x hx
    simp only [waves1, Finset.mem_filter, Finset.mem_Icc] at hx
    constructor
    · intro h
      exact Int.eq_zero_of_abs_lt_dvd h (by rw [abs_lt]; omega)
    · rintro rfl; simp
  simp only [waves, Finset.mem_product] at hk
  rw [h1 _ hk.1, h1 _ hk.2.1, h1 _ hk.2.2]
  constructor
  · rintro ⟨a, b, c⟩
    exact Prod.ext a (Prod.ext b c)
  · rintro rfl
    exact ⟨rfl, rfl, rfl⟩

/-- the modes of the grid are those of the particles -/
private theorem grid_mode {n : Nat} (hn : 0 < n) {folding : ℤ} {L : ℝ} {ps : List (Scatter.Part ℝ)} (hm : massOf ps ≠ 0)
    {d : ℤ × ℤ × ℤ → ℝ} (hd : ∀ g : ℤ × ℤ × ℤ → ℂ, ∑ c ∈ gridCells n, (d c : ℂ) * g c =
        ((2 : ℂ) ^ folding * n) ^ 3 * (ps.map fun p => (p.m : ℂ) * g (wrap n (cellOf (L / (2 ^ folding * n)) p))).sum) :
    gridMean n d ≠ 0 ∧ ∀ k ∈ waves n, mode n (fun c => (contrast n d c : ℂ)) k =
      if k = (0, 0, 0) then 0 else massMode n (L / (2 ^ folding * n)) ps k := by
  have hnc : (n : ℂ) ≠ 0 := by exact_mod_cast hn.ne'
  have hf : ((2 : ℂ) ^ folding) ≠ 0 := zpow_ne_zero _ (by norm_num)
  have hmc : ((massOf ps : ℝ) : ℂ) ≠ 0 := by exact_mod_cast hm
  have hmean : ((gridMean n d : ℝ) : ℂ) = ((2 : ℂ) ^ folding) ^ 3 * (massOf ps : ℝ) := by
    have h := hd (fun _ => 1)
    simp only [mul_one] at h
    unfold gridMean
    push_cast
    rw [h, cast_mass]
    field_simp
  have hne : gridMean n d ≠ 0 := by
    intro h0
    rw [h0] at hmean
    exact mul_ne_zero (pow_ne_zero _ hf) hmc (by rw [← hmean]; simp)
  refine ⟨hne, fun k hk => ?_⟩
  have hw := hd (fun c => wave n k c)
  simp only [wave_wrap hn] at hw
  have hlin : mode n (fun c => (contrast n d c : ℂ)) k =
      ((∑ c ∈ gridCells n, (d c : ℂ) * wave n k c) / (gridMean n d : ℂ) - ∑ c ∈ gridCells n, wave n k c) / (n : ℂ) ^ 3 := by
    unfold mode contrast
    congr 1
    rw [Finset.sum_div, ← Finset.sum_sub_distrib]
    apply Finset.sum_congr rfl
    intro c _
    push_cast
    ring
  rw [hlin, hw, hmean, wave_sum hn, if_congr (waves_zero hn hk) rfl rfl]
  split
  · rename_i h0
    subst h0
    simp only [wave_zero, mul_one]
    rw [← cast_mass]
    field_simp
    ring
  · unfold massMode
    field_simp
    ring

/-- C112. The spectrum of two lists of particles in each bin: the number of waves, their mean wave number and the mean product of
the amplitudes of the particles, times the volume of the box and less the shot noise. -/
theorem c112_particles {n : Nat} (hn : 0 < n) (folding : ℤ) {L : ℝ} (hL : 0 < L) (ps qs : List (Scatter.Part ℝ))
    (hp : massOf ps ≠ 0) (hq : massOf qs ≠ 0) (wb : Option (List ℝ)) (hb : ∀ b ∈ wb, b.Pairwise (· ≤ ·)) (shot : Option ℝ) :
    ∃ r, crossSpectrumOf n folding L ps qs wb shot = .ok r ∧
      r.bins = (edgesOf n (L / 2 ^ folding) wb).length - 1 ∧ ∀ i < r.bins,
        r.counts i = (wavesIn n (L / 2 ^ folding) (edgesOf n (L / 2 ^ folding) wb) i).card ∧
        r.wavenumbers i = (∑ k ∈ wavesIn n (L / 2 ^ folding) (edgesOf n (L / 2 ^ folding) wb) i,
          waveNumber (L / 2 ^ folding) k) / r.counts i ∧
        r.power i = L ^ 3 * ((∑ k ∈ wavesIn n (L / 2 ^ folding) (edgesOf n (L / 2 ^ folding) wb) i,
          pairPower n (L / (2 ^ folding * n)) ps qs k) / r.counts i) - shotNoise (L ^ 3) shot := by
  obtain ⟨d, h1, h2⟩ := render_ok hn folding hL ps
  obtain ⟨e, h3, h4⟩ := render_ok hn folding hL qs
  obtain ⟨hd, hdm⟩ := grid_mode hn hp h2
  obtain ⟨he, hem⟩ := grid_mode hn hq h4
  obtain ⟨r, hr, hbins, hi⟩ := c62_spectrum_partial hn hL d.grid hd (some e.grid) (by simpa using he) folding wb hb shot
  refine ⟨r, ?_, hbins, fun i hir => ?_⟩
  · unfold crossSpectrumOf
    rw [h1, h3]
    exact hr
  · obtain ⟨a1, a2, a3⟩ := hi i hir
    refine ⟨a1, a2, ?_⟩
    rw [a3]
    congr 3
    apply Finset.sum_congr rfl
    intro k hk
    have hk : k ∈ waves n := by
      classical
      unfold wavesIn at hk
      exact (Finset.mem_filter.1 hk).1
    unfold crossPower pairPower
    rw [Option.getD_some, hdm k hk, hem k hk]
    split <;> simp

/-- C112. The spectrum of one list of particles is the one with itself. -/
theorem c112_auto (n : Nat) (folding : ℤ) (L : ℝ) (ps : List (Scatter.Part ℝ)) (wb : Option (List ℝ)) (shot : Option ℝ) :
    spectrumOf n folding L ps wb shot = crossSpectrumOf n folding L ps ps wb shot := by
  unfold spectrumOf crossSpectrumOf
  cases Power.renderToDeposit 1 (L, L, L) true true true 0 n folding ps with
  | error e => rfl
  | ok d => exact c62_auto n d.grid (L, L, L) folding wb shot

/-- Two calls succeed and give the same numbers. -/
def SameSpectrum (x y : Except Err Result) : Prop :=
  ∃ r s, x = .ok r ∧ y = .ok s ∧ r.bins = s.bins ∧ ∀ i < r.bins, r.counts i = s.counts i ∧ r.wavenumbers i = s.wavenumbers i ∧
    r.power i = s.power i

/-- spectra with the same sums of products are the same -/
private theorem same_of {n : Nat} (hn : 0 < n) (folding : ℤ) {L : ℝ} (hL : 0 < L) {ps qs ps' qs' : List (Scatter.Part ℝ)}
    (hp : massOf ps ≠ 0) (hq : massOf qs ≠ 0) (hp' : massOf ps' ≠ 0) (hq' : massOf qs' ≠ 0) (wb : Option (List ℝ))
    (hb : ∀ b ∈ wb, b.Pairwise (· ≤ ·)) (shot : Option ℝ)
    (h : ∀ i, ∑ k ∈ wavesIn n (L / 2 ^ folding) (edgesOf n (L / 2 ^ folding) wb) i, pairPower n (L / (2 ^ folding * n)) ps' qs' k =
      ∑ k ∈ wavesIn n (L / 2 ^ folding) (edgesOf n (L / 2 ^ folding) wb) i, pairPower n (L / (2 ^ folding * n)) ps qs k) :
    SameSpectrum (crossSpectrumOf n folding L ps' qs' wb shot) (crossSpectrumOf n folding L ps qs wb shot) := by
  obtain ⟨r, hr, hbr, hir⟩ := c112_particles hn folding hL ps qs hp hq wb hb shot
  obtain ⟨s, hs, hbs, his⟩ := c112_particles hn folding hL ps' qs' hp' hq' wb hb shot
  refine ⟨s, r, hs, hr, by rw [hbs, hbr], fun i hi => ?_⟩
  obtain ⟨a1, a2, a3⟩ := his i hi
  obtain ⟨b1, b2, b3⟩ := hir i (by rw [hbr, ← hbs]; exact hi)
  have e : s.counts i = r.counts i := by rw [a1, b1]
  exact ⟨e, by rw [a2, b2, e], by rw [a3, b3, e, h]⟩

/-- C112. The order of the particles, the unit of their masses and which list is the first do not matter. -/
theorem c112_order {n : Nat} (hn : 0 < n) (folding : ℤ) {L : ℝ} (hL : 0 < L) (ps qs : List (Scatter.Part ℝ))
    (hp : massOf ps ≠ 0) (hq : massOf qs ≠ 0) (wb : Option (List ℝ)) (hb : ∀ b ∈ wb, b.Pairwise (· ≤ ·)) (shot : Option ℝ) :
    (∀ ps' qs', ps'.Perm ps → qs'.Perm qs →
      SameSpectrum (crossSpectrumOf n folding L ps' qs' wb shot) (crossSpectrumOf n folding L ps qs wb shot)) ∧
    (∀ a b : ℝ, a ≠ 0 → b ≠ 0 → SameSpectrum (crossSpectrumOf n folding L (ps.map fun p => { p with m := a * p.m })
      (qs.map fun p => { p with m := b * p.m }) wb shot) (crossSpectrumOf n folding L ps qs wb shot)) ∧
    SameSpectrum (crossSpectrumOf n folding L qs ps wb shot) (crossSpectrumOf n folding L ps qs wb shot) := by
  have hmass : ∀ (a : ℝ) (l : List (Scatter.Part ℝ)), massOf (l.map fun p => { p with m := a * p.m }) = a * massOf l := by
    intro a l
    unfold massOf
    rw [List.map_map, ← List.sum_map_mul_left]
    rfl
  have hmode : ∀ (a : ℝ) (l : List (Scatter.Part ℝ)), a ≠ 0 → ∀ k,
      massMode n (L / (2 ^ folding * n)) (l.map fun p => { p with m := a * p.m }) k = massMode n (L / (2 ^ folding * n)) l k := by
    intro a l ha k
    unfold massMode
    rw [hmass, List.map_map]
    have : (l.map ((fun p => (p.m : ℂ) * wave n k (cellOf (L / (2 ^ folding * n)) p)) ∘ fun p => { p with m := a * p.m })).sum =
        (a : ℂ) * (l.map fun p => (p.m : ℂ) * wave n k (cellOf (L / (2 ^ folding * n)) p)).sum := by
      rw [← List.sum_map_mul_left]
      congr 1
      apply List.map_congr_left
      intro p _
      simp only [Function.comp_def, cellOf]
      push_cast
      ring
    rw [this]
    push_cast
    exact mul_div_mul_left _ _ (by exact_mod_cast ha)
  refine ⟨fun ps' qs' h1 h2 => ?_, fun a b ha hb' => ?_, ?_⟩
  · have hm : ∀ {l l' : List (Scatter.Part ℝ)}, l'.Perm l → massOf l' = massOf l ∧
        ∀ k, massMode n (L / (2 ^ folding * n)) l' k = massMode n (L / (2 ^ folding * n)) l k := by
      intro l l' h
      have e : massOf l' = massOf l := (h.map _).sum_eq
      refine ⟨e, fun k => ?_⟩
      unfold massMode
      rw [e, (h.map _).sum_eq]
    refine same_of hn folding hL hp hq (by rw [(hm h1).1]; exact hp) (by rw [(hm h2).1]; exact hq) wb hb shot fun i => ?_
    simp only [pairPower, (hm h1).2, (hm h2).2]
  · refine same_of hn folding hL hp hq (by rw [hmass]; exact mul_ne_zero ha hp) (by rw [hmass]; exact mul_ne_zero hb' hq) wb hb shot
      fun i => ?_
    simp only [pairPower, hmode a ps ha, hmode b qs hb']
  · refine same_of hn folding hL hp hq hq hp wb hb shot fun i => ?_
    apply Finset.sum_congr rfl
    intro k _
    unfold pairPower
    split
    · rfl
    · rw [← Complex.conj_re, map_mul, Complex.conj_conj, mul_comm]

/-- A particle moved by whole numbers of cells of width `w`. -/
def movedBy (w : ℝ) (s : ℤ × ℤ × ℤ) (p : Scatter.Part ℝ) : Scatter.Part ℝ :=
  { p with x := p.x + s.1 * w, y := p.y + s.2.1 * w, z := p.z + s.2.2 * w }

private theorem cellOf_moved {w : ℝ} (hw : 0 < w) (s : ℤ × ℤ × ℤ) (p : Scatter.Part ℝ) :
    cellOf w (movedBy w s p) = ((cellOf w p).1 + s.1, (cellOf w p).2.1 + s.2.1, (cellOf w p).2.2 + s.2.2) := by
  unfold cellOf movedBy
  have h : ∀ (x : ℝ) (t : ℤ), ⌊(x + t * w) / w⌋ = ⌊x / w⌋ + t := by
    intro x t
    rw [add_div, mul_div_cancel_right₀ _ hw.ne', Int.floor_add_intCast]
  simp only [h]

/-- C112. Moving all particles by the same whole numbers of cells does not change the spectrum, nor does moving each of them by
its own whole numbers of periods. -/
theorem c112_moved {n : Nat} (hn : 0 < n) (folding : ℤ) {L : ℝ} (hL : 0 < L) (ps qs : List (Scatter.Part ℝ))
    (hp : massOf ps ≠ 0) (hq : massOf qs ≠ 0) (wb : Option (List ℝ)) (hb : ∀ b ∈ wb, b.Pairwise (· ≤ ·)) (shot : Option ℝ) :
    (∀ s, SameSpectrum (crossSpectrumOf n folding L (ps.map (movedBy (L / (2 ^ folding * n)) s))
      (qs.map (movedBy (L / (2 ^ folding * n)) s)) wb shot) (crossSpectrumOf n folding L ps qs wb shot)) ∧
    (∀ f g : Scatter.Part ℝ → ℤ × ℤ × ℤ, SameSpectrum (crossSpectrumOf n folding L (ps.map fun p => movedBy (L / 2 ^ folding) (f p) p)
      (qs.map fun p => movedBy (L / 2 ^ folding) (g p) p) wb shot) (crossSpectrumOf n folding L ps qs wb shot)) := by
  have hn' : (0 : ℝ) < n := by exact_mod_cast hn
  have hf : (0 : ℝ) < 2 ^ folding := by positivity
  have hw : 0 < L / ((2 : ℝ) ^ folding * n) := by positivity
  have hmass : ∀ (g : Scatter.Part ℝ → Scatter.Part ℝ), (∀ p, (g p).m = p.m) → ∀ l : List (Scatter.Part ℝ), massOf (l.map g) = massOf l := by
    intro g hg l
    unfold massOf
    rw [List.map_map]
    congr 1
    apply List.map_congr_left
    intro p _
    exact hg p
  constructor
  · intro s
    have hm := hmass (movedBy (L / (2 ^ folding * n)) s) (fun _ => rfl)
    have hmode : ∀ l k, massMode n (L / (2 ^ folding * n)) (l.map (movedBy (L / (2 ^ folding * n)) s)) k =
        massMode n (L / (2 ^ folding * n)) l k * wave n k s := by
      intro l k
      unfold massMode
      rw [hm, List.map_map, div_mul_eq_mul_div, ← List.sum_map_mul_right]
      congr 2
      apply List.map_congr_left
      intro p _
      simp only [Function.comp_def]
      rw [cellOf_moved hw, wave_mul]
      simp only [movedBy]
      ring
    refine same_of hn folding hL hp hq (by rw [hm]; exact hp) (by rw [hm]; exact hq) wb hb shot fun i => ?_
    apply Finset.sum_congr rfl
    intro k _
    unfold pairPower
    rw [hmode, hmode, map_mul]
    congr 2
    linear_combination (massMode n (L / (2 ^ folding * n)) ps k * (starRingEnd ℂ) (massMode n (L / (2 ^ folding * n)) qs k)) *
      wave_conj n k s
  · intro f g
    have hmode : ∀ (f : Scatter.Part ℝ → ℤ × ℤ × ℤ) l k, massMode n (L / (2 ^ folding * n))
        (l.map fun p => movedBy (L / 2 ^ folding) (f p) p) k = massMode n (L / (2 ^ folding * n)) l k := by
      intro f l k
      unfold massMode
      rw [hmass (fun p => movedBy (L / 2 ^ folding) (f p) p) (fun _ => rfl), List.map_map]
      congr 2
      apply List.map_congr_left
      intro p _
      simp only [Function.comp_def]
      have e : movedBy (L / 2 ^ folding) (f p) p = movedBy (L / (2 ^ folding * n)) (n * (f p).1, n * (f p).2.1, n * (f p).2.2) p := by
        unfold movedBy
        push_cast
        have : L / 2 ^ folding = n * (L / ((2 : ℝ) ^ folding * n)) := by field_simp
        rw [this]
        simp only [Scatter.Part.mk.injEq, and_true]
        refine ⟨by ring, by ring, by ring⟩
      rw [e, cellOf_moved hw]
      have : (movedBy (L / (2 ^ folding * n)) (n * (f p).1, n * (f p).2.1, n * (f p).2.2) p).m = p.m := rfl
      rw [this]
      congr 1
      apply wave_congr hn
      refine ⟨k.1 * (f p).1 + k.2.1 * (f p).2.1 + k.2.2 * (f p).2.2, ?_⟩
      ring
    refine same_of hn folding hL hp hq (by rw [hmass (fun p => movedBy (L / 2 ^ folding) (f p) p) (fun _ => rfl)]; exact hp)
      (by rw [hmass (fun p => movedBy (L / 2 ^ folding) (g p) p) (fun _ => rfl)]; exact hq) wb hb shot fun i => ?_
    simp only [pairPower, hmode]

/-- A permutation of the waves that keeps the wave numbers keeps the sums over bins. -/
private theorem sum_waves {n : Nat} {l : ℝ} (e : List ℝ) (i : Nat) (σ τ : ℤ × ℤ × ℤ → ℤ × ℤ × ℤ) (hσ : ∀ k ∈ waves n, σ k ∈ waves n)
    (hτ : ∀ k ∈ waves n, τ k ∈ waves n) (h1 : ∀ k ∈ waves n, τ (σ k) = k) (h2 : ∀ k ∈ waves n, σ (τ k) = k)
    (hw : ∀ k ∈ waves n, waveNumber l (σ k) = waveNumber l k) (f : ℤ × ℤ × ℤ → ℝ) :
    ∑ k ∈ wavesIn n l e i, f (σ k) = ∑ k ∈ wavesIn n l e i, f k := by
  classical
  have hin : ∀ k, k ∈ wavesIn n l e i ↔ k ∈ waves n ∧ InBin e i (waveNumber l k) := by
    intro k
    unfold wavesIn
    rw [Finset.mem_filter]
  refine Finset.sum_bij' (fun k _ => σ k) (fun k _ => τ k) ?_ ?_ ?_ ?_ ?_
  · intro k hk
    rw [hin] at hk ⊢
    exact ⟨hσ k hk.1, by rw [hw k hk.1]; exact hk.2⟩
  · intro k hk
    rw [hin] at hk ⊢
    refine ⟨hτ k hk.1, ?_⟩
    rw [← hw _ (hτ k hk.1), h2 k hk.1]
    exact hk.2
  · intro k hk
    exact h1 k ((hin k).1 hk).1
  · intro k hk
    exact h2 k ((hin k).1 hk).1
  · intro k _
    rfl

/-- C112. Exchanging the axes does not change the spectrum. The two exchanges make all orders of the axes. -/
theorem c112_axes {n : Nat} (hn : 0 < n) (folding : ℤ) {L : ℝ} (hL : 0 < L) (ps qs : List (Scatter.Part ℝ))
    (hp : massOf ps ≠ 0) (hq : massOf qs ≠ 0) (wb : Option (List ℝ)) (hb : ∀ b ∈ wb, b.Pairwise (· ≤ ·)) (shot : Option ℝ) :
    SameSpectrum (crossSpectrumOf n folding L (ps.map fun p => { p with x := p.y, y := p.x })
      (qs.map fun p => { p with x := p.y, y := p.x }) wb shot) (crossSpectrumOf n folding L ps qs wb shot) ∧
    SameSpectrum (crossSpectrumOf n folding L (ps.map fun p => { p with y := p.z, z := p.y })
      (qs.map fun p => { p with y := p.z, z := p.y }) wb shot) (crossSpectrumOf n folding L ps qs wb shot) := by
  have hmass : ∀ (g : Scatter.Part ℝ → Scatter.Part ℝ), (∀ p, (g p).m = p.m) → ∀ l : List (Scatter.Part ℝ), massOf (l.map g) = massOf l := by
    intro g hg l
    unfold massOf
    rw [List.map_map]
    congr 1
    apply List.map_congr_left
    intro p _
    exact hg p
  have key : ∀ (g : Scatter.Part ℝ → Scatter.Part ℝ) (σ : ℤ × ℤ × ℤ → ℤ × ℤ × ℤ), (∀ p, (g p).m = p.m) → (∀ k, σ (σ k) = k) →
      (∀ k ∈ waves n, σ k ∈ waves n) → (∀ l k, waveNumber l (σ k) = waveNumber l k) → (∀ k, σ k = (0, 0, 0) ↔ k = (0, 0, 0)) →
      (∀ w p k, wave n k (cellOf w (g p)) = wave n (σ k) (cellOf w p)) →
      SameSpectrum (crossSpectrumOf n folding L (ps.map g) (qs.map g) wb shot) (crossSpectrumOf n folding L ps qs wb shot) := by
    intro g σ hg hσσ hσ hw h0 hc
    have hmode : ∀ l k, massMode n (L / (2 ^ folding * n)) (l.map g) k = massMode n (L / (2 ^ folding * n)) l (σ k) := by
      intro l k
      unfold massMode
      rw [hmass g hg, List.map_map]
      congr 2
      apply List.map_congr_left
      intro p _
      simp only [Function.comp_def]
      rw [hg, hc]
    refine same_of hn folding hL hp hq (by rw [hmass g hg]; exact hp) (by rw [hmass g hg]; exact hq) wb hb shot fun i => ?_
    rw [← sum_waves _ i σ σ hσ hσ (fun k _ => hσσ k) (fun k _ => hσσ k) (fun k _ => hw _ k)
      (pairPower n (L / (2 ^ folding * n)) ps qs)]
    apply Finset.sum_congr rfl
    intro k _
    unfold pairPower
    rw [hmode, hmode]
    simp only [h0]
  constructor
  · refine key _ (fun k => (k.2.1, k.1, k.2.2)) (fun _ => rfl) (fun _ => rfl) ?_ ?_ ?_ ?_
    · intro k hk
      simp only [waves, Finset.mem_product] at hk ⊢
      exact ⟨hk.2.1, hk.1, hk.2.2⟩
    · intro l k
      unfold waveNumber
      dsimp only
      congr 1
      ring
    · intro k
      simp only [Prod.ext_iff]
      tauto
    · intro w p k
      unfold wave cellOf
      dsimp only
      congr 5
      ring
  · refine key _ (fun k => (k.1, k.2.2, k.2.1)) (fun _ => rfl) (fun _ => rfl) ?_ ?_ ?_ ?_
    · intro k hk
      simp only [waves, Finset.mem_product] at hk ⊢
      exact ⟨hk.1, hk.2.2, hk.2.1⟩
    · intro l k
      unfold waveNumber
      dsimp only
      congr 1
      ring
    · intro k
      simp only [Prod.ext_iff]
      tauto
    · intro w p k
      unfold wave cellOf
      dsimp only
      congr 5
      ring

/-- C112. Mirror images of particles that are not on a face between two cells have the same spectrum. With `c112_axes` this is true
for every axis. -/
theorem c112_mirrored {n : Nat} (hn : 0 < n) (folding : ℤ) {L : ℝ} (hL : 0 < L) (ps qs : List (Scatter.Part ℝ))
    (hp : massOf ps ≠ 0) (hq : massOf qs ≠ 0) (hx : ∀ p ∈ ps ++ qs, ∀ j : ℤ, p.x ≠ j * (L / (2 ^ folding * n)))
    (wb : Option (List ℝ)) (hb : ∀ b ∈ wb, b.Pairwise (· ≤ ·)) (shot : Option ℝ) :
    SameSpectrum (crossSpectrumOf n folding L (ps.map fun p => { p with x := -p.x }) (qs.map fun p => { p with x := -p.x }) wb shot)
      (crossSpectrumOf n folding L ps qs wb shot) := by
  have hn' : (0 : ℝ) < n := by exact_mod_cast hn
  have hw : 0 < L / ((2 : ℝ) ^ folding * n) := by positivity
  have hmass : ∀ l : List (Scatter.Part ℝ), massOf (l.map fun p => { p with x := -p.x }) = massOf l := by
    intro l
    unfold massOf
    rw [List.map_map]
    rfl
  let σ : ℤ × ℤ × ℤ → ℤ × ℤ × ℤ := fun k => if 2 * k.1 = -(n : ℤ) then k else (-k.1, k.2.1, k.2.2)
  have hσσ : ∀ k ∈ waves n, σ (σ k) = k := by
    intro k hk
    simp only [waves, waves1, Finset.mem_product, Finset.mem_filter, Finset.mem_Icc] at hk
    by_cases h : 2 * k.1 = -(n : ℤ)
    · simp only [σ, if_pos h]
    · have h2 : ¬ 2 * -k.1 = -(n : ℤ) := by omega
      simp only [σ, if_neg h, if_neg h2, neg_neg]
  have hσ : ∀ k ∈ waves n, σ k ∈ waves n := by
    intro k hk
    dsimp only [σ]
    split
    · exact hk
    · simp only [waves, waves1, Finset.mem_product, Finset.mem_filter, Finset.mem_Icc] at hk ⊢
      omega
  have h0 : ∀ k, σ k = (0, 0, 0) ↔ k = (0, 0, 0) := by
    intro k
    dsimp only [σ]
    split
    · rfl
    · simp [Prod.ext_iff]
  have hcell : ∀ p : Scatter.Part ℝ, (∀ j : ℤ, p.x ≠ j * (L / (2 ^ folding * n))) → ∀ k,
      wave n k (cellOf (L / (2 ^ folding * n)) { p with x := -p.x }) =
        wave n (σ k) (cellOf (L / (2 ^ folding * n)) p) * wave n k (-1, 0, 0) := by
    intro p hpx k
    have e : cellOf (L / (2 ^ folding * n)) { p with x := -p.x } =
        (-(cellOf (L / (2 ^ folding * n)) p).1 + -1, (cellOf (L / (2 ^ folding * n)) p).2.1 + 0,
          (cellOf (L / (2 ^ folding * n)) p).2.2 + 0) := by
      unfold cellOf
      dsimp only
      rw [add_zero, add_zero, Prod.mk.injEq]
      refine ⟨?_, rfl⟩
      have h1 : (⌊p.x / (L / (2 ^ folding * n))⌋ : ℝ) ≠ p.x / (L / (2 ^ folding * n)) := by
        intro h
        exact hpx _ (by rw [h, div_mul_cancel₀ _ hw.ne'])
      have h2 := Int.floor_le (p.x / (L / (2 ^ folding * n)))
      have h3 := Int.lt_floor_add_one (p.x / (L / (2 ^ folding * n)))
      have h4 := lt_of_le_of_ne h2 h1
      rw [Int.floor_eq_iff, neg_div]
      push_cast
      constructor <;> linarith
    rw [e]
    have := wave_mul n k (-(cellOf (L / (2 ^ folding * n)) p).1, (cellOf (L / (2 ^ folding * n)) p).2) (-1, 0, 0)
    dsimp only at this
    rw [this]
    congr 1
    apply wave_congr hn
    dsimp only [σ]
    split
    · rename_i h
      refine ⟨(cellOf (L / (2 ^ folding * n)) p).1, ?_⟩
      linear_combination (-(cellOf (L / (2 ^ folding * n)) p).1) * h
    · refine ⟨0, ?_⟩
      ring
  have hmode : ∀ l : List (Scatter.Part ℝ), (∀ p ∈ l, ∀ j : ℤ, p.x ≠ j * (L / (2 ^ folding * n))) → ∀ k,
      massMode n (L / (2 ^ folding * n)) (l.map fun p => { p with x := -p.x }) k =
        massMode n (L / (2 ^ folding * n)) l (σ k) * wave n k (-1, 0, 0) := by
    intro l hl k
    unfold massMode
    rw [hmass, List.map_map, div_mul_eq_mul_div, ← List.sum_map_mul_right]
    congr 2
    apply List.map_congr_left
    intro p hpl
    simp only [Function.comp_def]
    rw [hcell p (hl p hpl)]
    ring
  refine same_of hn folding hL hp hq (by rw [hmass]; exact hp) (by rw [hmass]; exact hq) wb hb shot fun i => ?_
  rw [← sum_waves _ i σ σ hσ hσ hσσ hσσ (fun k _ => by
    dsimp only [σ]
    split
    · rfl
    · unfold waveNumber
      dsimp only
      push_cast
      congr 1
      ring) (pairPower n (L / (2 ^ folding * n)) ps qs)]
  apply Finset.sum_congr rfl
  intro k _
  unfold pairPower
  rw [hmode ps (fun p h => hx p (List.mem_append_left _ h)), hmode qs (fun p h => hx p (List.mem_append_right _ h)), map_mul]
  simp only [h0]
  congr 2
  linear_combination (massMode n (L / (2 ^ folding * n)) ps (σ k) * (starRingEnd ℂ) (massMode n (L / (2 ^ folding * n)) qs (σ k))) *
    wave_conj n k (-1, 0, 0)

/-- A particle with its place in a box `c` times as large. -/
def enlarged (c : ℝ) (p : Scatter.Part ℝ) : Scatter.Part ℝ := { p with x := c * p.x, y := c * p.y, z := c * p.z }

/-- C112. In another unit of length, `c` of which make the old one, the wave numbers are divided by `c` and the powers multiplied
by its cube. -/
theorem c112_lengths {n : Nat} (hn : 0 < n) (folding : ℤ) {L : ℝ} (hL : 0 < L) {c : ℝ} (hc : 0 < c) (ps qs : List (Scatter.Part ℝ))
    (hp : massOf ps ≠ 0) (hq : massOf qs ≠ 0) (wb : Option (List ℝ)) (hb : ∀ b ∈ wb, b.Pairwise (· ≤ ·)) (shot : Option ℝ) :
    ∃ r s, crossSpectrumOf n folding L ps qs wb shot = .ok r ∧
      crossSpectrumOf n folding (c * L) (ps.map (enlarged c)) (qs.map (enlarged c)) (wb.map fun b => b.map (· / c)) shot = .ok s ∧
      s.bins = r.bins ∧ ∀ i < r.bins, s.counts i = r.counts i ∧ s.wavenumbers i = r.wavenumbers i / c ∧
        s.power i = c ^ 3 * r.power i := by
  classical
  have hn' : (0 : ℝ) < n := by exact_mod_cast hn
  have hw : 0 < L / ((2 : ℝ) ^ folding * n) := by positivity
  have hl : 0 < L / (2 : ℝ) ^ folding := by positivity
  have hmass : ∀ l : List (Scatter.Part ℝ), massOf (l.map (enlarged c)) = massOf l := by
    intro l
    unfold massOf
    rw [List.map_map]
    rfl
  have hmode : ∀ l k, massMode n (c * L / (2 ^ folding * n)) (l.map (enlarged c)) k = massMode n (L / (2 ^ folding * n)) l k := by
    intro l k
    unfold massMode
    rw [hmass, List.map_map]
    congr 2
    apply List.map_congr_left
    intro p _
    have : cellOf (c * L / (2 ^ folding * n)) (enlarged c p) = cellOf (L / (2 ^ folding * n)) p := by
      unfold cellOf enlarged
      simp only [mul_div_assoc c L, mul_div_mul_left _ _ hc.ne']
    simp only [Function.comp_def, this]
    rfl
  have hb' : ∀ b ∈ wb.map fun b => b.map (· / c), b.Pairwise (· ≤ ·) := by
    intro b hbm
    obtain ⟨b', hb1, rfl⟩ := Option.mem_map.1 hbm
    rw [List.pairwise_map]
    exact (hb b' hb1).imp fun h => div_le_div_of_nonneg_right h hc.le
  obtain ⟨r, hr, hbr, hir⟩ := c112_particles hn folding hL ps qs hp hq wb hb shot
  obtain ⟨s, hs, hbs, his⟩ := c112_particles hn folding (mul_pos hc hL) (ps.map (enlarged c)) (qs.map (enlarged c))
    (by rw [hmass]; exact hp) (by rw [hmass]; exact hq) (wb.map fun b => b.map (· / c)) hb' shot
  have hedges : edgesOf n (c * L / 2 ^ folding) (wb.map fun b => b.map (· / c)) = (edgesOf n (L / 2 ^ folding) wb).map (· / c) := by
    unfold edgesOf
    cases wb with
    | some b => rfl
    | none =>
      simp only [Option.map_none, Option.getD_none, List.map_map]
      apply List.map_congr_left
      intro i _
      simp only [Function.comp_def]
      field_simp
  have hnum : ∀ k, waveNumber (c * L / 2 ^ folding) k = waveNumber (L / 2 ^ folding) k / c := by
    intro k
    unfold waveNumber
    have e : (2 * Real.pi * k.1 / (c * L / 2 ^ folding)) ^ 2 + (2 * Real.pi * k.2.1 / (c * L / 2 ^ folding)) ^ 2 +
        (2 * Real.pi * k.2.2 / (c * L / 2 ^ folding)) ^ 2 = ((2 * Real.pi * k.1 / (L / 2 ^ folding)) ^ 2 +
        (2 * Real.pi * k.2.1 / (L / 2 ^ folding)) ^ 2 + (2 * Real.pi * k.2.2 / (L / 2 ^ folding)) ^ 2) / c ^ 2 := by
      field_simp
    rw [e, Real.sqrt_div' _ (by positivity), Real.sqrt_sq hc.le]
  have hbin : ∀ (e : List ℝ) (i : Nat) (v : ℝ), InBin (e.map (· / c)) i (v / c) ↔ InBin e i v := by
    intro e i v
    unfold InBin
    simp only [List.getElem?_map, Option.map_eq_some_iff, List.length_map]
    constructor
    · rintro ⟨a, b, ⟨a', ha, rfl⟩, ⟨b', hb, rfl⟩, h1, h2⟩
      refine ⟨a', b', ha, hb, (div_le_div_iff_of_pos_right hc).1 h1, ?_⟩
      rcases h2 with h2 | ⟨h2, h3⟩
      · exact .inl ((div_lt_div_iff_of_pos_right hc).1 h2)
      · exact .inr ⟨h2, by rw [div_left_inj' hc.ne'] at h3; exact h3⟩
    · rintro ⟨a, b, ha, hb, h1, h2⟩
      refine ⟨_, _, ⟨a, ha, rfl⟩, ⟨b, hb, rfl⟩, (div_le_div_iff_of_pos_right hc).2 h1, ?_⟩
      rcases h2 with h2 | ⟨h2, h3⟩
      · exact .inl ((div_lt_div_iff_of_pos_right hc).2 h2)
      · exact .inr ⟨h2, by rw [h3]⟩
  have hset : ∀ i, wavesIn n (c * L / 2 ^ folding) (edgesOf n (c * L / 2 ^ folding) (wb.map fun b => b.map (· / c))) i =
      wavesIn n (L / 2 ^ folding) (edgesOf n (L / 2 ^ folding) wb) i := by
    intro i
    unfold wavesIn
    apply Finset.filter_congr
    intro k _
    rw [hedges, hnum, hbin]
  have hbins : s.bins = r.bins := by rw [hbs, hbr, hedges, List.length_map]
  refine ⟨r, s, hr, hs, hbins, fun i hi => ?_⟩
  obtain ⟨a1, a2, a3⟩ := his i (by rw [hbins]; exact hi)
  obtain ⟨b1, b2, b3⟩ := hir i hi
  have e : s.counts i = r.counts i := by rw [a1, b1, hset]
  refine ⟨e, ?_, ?_⟩
  · rw [a2, b2, e, hset]
    simp only [hnum]
    rw [← Finset.sum_div]
    ring
  · have e2 : ∀ k, pairPower n (c * L / (2 ^ folding * n)) (ps.map (enlarged c)) (qs.map (enlarged c)) k =
        pairPower n (L / (2 ^ folding * n)) ps qs k := by
      intro k
      unfold pairPower
      rw [hmode, hmode]
    have e3 : shotNoise ((c * L) ^ 3) shot = c ^ 3 * shotNoise (L ^ 3) shot := by
      cases shot with
      | none => simp [shotNoise]
      | some x => simp only [shotNoise]; ring
    rw [a3, b3, e, hset, e3]
    simp only [e2]
    ring

private theorem pairPower_self (n : Nat) (w : ℝ) (ps : List (Scatter.Part ℝ)) (k : ℤ × ℤ × ℤ) :
    pairPower n w ps ps k = (if k = (0, 0, 0) then 0 else ‖massMode n w ps k‖) ^ 2 := by
  unfold pairPower
  split
  · simp
  · rw [Complex.mul_conj, Complex.ofReal_re, Complex.normSq_eq_norm_sq]

private theorem pairPower_le (n : Nat) (w : ℝ) (ps qs : List (Scatter.Part ℝ)) (k : ℤ × ℤ × ℤ) :
    |pairPower n w ps qs k| ≤ (if k = (0, 0, 0) then 0 else ‖massMode n w ps k‖) * (if k = (0, 0, 0) then 0 else ‖massMode n w qs k‖) := by
  unfold pairPower
  split
  · simp
  · refine (Complex.abs_re_le_norm _).trans ?_
    rw [norm_mul, Complex.norm_conj]

/-- C112. With the shot noise added back, the square of the spectrum of two lists is at most the product of the spectra of each of
them. -/
theorem c112_product {n : Nat} (hn : 0 < n) (folding : ℤ) {L : ℝ} (hL : 0 < L) (ps qs : List (Scatter.Part ℝ))
    (hp : massOf ps ≠ 0) (hq : massOf qs ≠ 0) (wb : Option (List ℝ)) (hb : ∀ b ∈ wb, b.Pairwise (· ≤ ·)) (shot : Option ℝ) :
    ∃ r a b, crossSpectrumOf n folding L ps qs wb shot = .ok r ∧ spectrumOf n folding L ps wb shot = .ok a ∧
      spectrumOf n folding L qs wb shot = .ok b ∧ ∀ i < r.bins, (r.power i + shotNoise (L ^ 3) shot) ^ 2 ≤
        (a.power i + shotNoise (L ^ 3) shot) * (b.power i + shotNoise (L ^ 3) shot) := by
  obtain ⟨r, hr, hbr, hir⟩ := c112_particles hn folding hL ps qs hp hq wb hb shot
  obtain ⟨a, ha, hba, hia⟩ := c112_particles hn folding hL ps ps hp hp wb hb shot
  obtain ⟨b, hb1, hbb, hib⟩ := c112_particles hn folding hL qs qs hq hq wb hb shot
  refine ⟨r, a, b, hr, by rw [c112_auto]; exact ha, by rw [c112_auto]; exact hb1, fun i hi => ?_⟩
  obtain ⟨r1, -, r3⟩ := hir i hi
  obtain ⟨a1, -, a3⟩ := hia i (by rw [hba, ← hbr]; exact hi)
  obtain ⟨b1, -, b3⟩ := hib i (by rw [hbb, ← hbr]; exact hi)
  rw [r3, a3, b3, sub_add_cancel, sub_add_cancel, sub_add_cancel, a1, b1, r1]
  generalize (wavesIn n (L / 2 ^ folding) (edgesOf n (L / 2 ^ folding) wb) i) = S
  have h1 : (∑ k ∈ S, pairPower n (L / (2 ^ folding * n)) ps qs k) ^ 2 ≤
      (∑ k ∈ S, pairPower n (L / (2 ^ folding * n)) ps ps k) * ∑ k ∈ S, pairPower n (L / (2 ^ folding * n)) qs qs k := by
    simp only [pairPower_self]
    refine le_trans ?_ (Finset.sum_mul_sq_le_sq_mul_sq S _ _)
    refine sq_le_sq' ?_ ?_
    · refine (neg_le_neg (Finset.sum_le_sum fun k _ => pairPower_le _ _ ps qs k)).trans ?_
      rw [← Finset.sum_neg_distrib]
      exact Finset.sum_le_sum fun k _ => neg_abs_le _
    · exact Finset.sum_le_sum fun k _ => (le_abs_self _).trans (pairPower_le _ _ ps qs k)
  have e : ∀ x y : ℝ, L ^ 3 * (x / S.card) * (L ^ 3 * (y / S.card)) = (L ^ 3 / S.card) ^ 2 * (x * y) := by
    intro x y; ring
  have e' : ∀ x : ℝ, (L ^ 3 * (x / S.card)) ^ 2 = (L ^ 3 / S.card) ^ 2 * x ^ 2 := by
    intro x; ring
  rw [e, e']
  exact mul_le_mul_of_nonneg_left h1 (sq_nonneg _)

private theorem massMode_le (n : Nat) (w : ℝ) {ps : List (Scatter.Part ℝ)} (h : ∀ p ∈ ps, 0 ≤ p.m) (hp : massOf ps ≠ 0) (k : ℤ × ℤ × ℤ) :
    ‖massMode n w ps k‖ ≤ 1 := by
  have h1 : ∀ ps : List (Scatter.Part ℝ), (∀ p ∈ ps, 0 ≤ p.m) → 0 ≤ massOf ps ∧
      ‖(ps.map fun p => (p.m : ℂ) * wave n k (cellOf w p)).sum‖ ≤ massOf ps := by
    intro ps
    induction ps with
    | nil => intro _; simp [massOf]
    | cons p ps ih =>
      intro h
      obtain ⟨i1, i2⟩ := ih fun q hq => h q (List.mem_cons_of_mem _ hq)
      have hp := h p (by simp)
      unfold massOf at i1 i2 ⊢
      simp only [List.map_cons, List.sum_cons]
      refine ⟨by positivity, (norm_add_le _ _).trans ?_⟩
      rw [norm_mul, wave_norm, mul_one, Complex.norm_real, Real.norm_of_nonneg hp]
      linarith
  obtain ⟨h2, h3⟩ := h1 ps h
  unfold massMode
  rw [norm_div, Complex.norm_real, Real.norm_of_nonneg h2]
  exact div_le_one_of_le₀ h3 h2

/-- C112. Powers of particles with masses that are not negative are at most the volume of the box, with the shot noise added back. -/
theorem c112_at_most {n : Nat} (hn : 0 < n) (folding : ℤ) {L : ℝ} (hL : 0 < L) (ps qs : List (Scatter.Part ℝ))
    (hp : massOf ps ≠ 0) (hq : massOf qs ≠ 0) (hm : ∀ p ∈ ps ++ qs, 0 ≤ p.m) (wb : Option (List ℝ))
    (hb : ∀ b ∈ wb, b.Pairwise (· ≤ ·)) (shot : Option ℝ) :
    ∃ r, crossSpectrumOf n folding L ps qs wb shot = .ok r ∧ ∀ i < r.bins, |r.power i + shotNoise (L ^ 3) shot| ≤ L ^ 3 := by
  obtain ⟨r, hr, hbr, hir⟩ := c112_particles hn folding hL ps qs hp hq wb hb shot
  refine ⟨r, hr, fun i hi => ?_⟩
  obtain ⟨r1, -, r3⟩ := hir i hi
  rw [r3, sub_add_cancel, r1, abs_mul, abs_of_nonneg (by positivity), abs_div, Nat.abs_cast]
  generalize (wavesIn n (L / 2 ^ folding) (edgesOf n (L / 2 ^ folding) wb) i) = S
  have h1 : |∑ k ∈ S, pairPower n (L / (2 ^ folding * n)) ps qs k| ≤ S.card := by
    refine (Finset.abs_sum_le_sum_abs _ _).trans ?_
    have : (S.card : ℝ) = ∑ k ∈ S, (1 : ℝ) := by simp
    rw [this]
    refine Finset.sum_le_sum fun k _ => (pairPower_le _ _ ps qs k).trans ?_
    split
    · simp
    · exact mul_le_one₀ (massMode_le _ _ (fun p h => hm p (List.mem_append_left _ h)) hp k) (norm_nonneg _)
        (massMode_le _ _ (fun p h => hm p (List.mem_append_right _ h)) hq k)
  exact mul_le_of_le_one_right (by positivity) (div_le_one_of_le₀ h1 (by positivity))

/-- C112. If all of the mass of both lists is in the same cell, that bound is reached by every bin with waves that are not constant. -/
theorem c112_one_cell {n : Nat} (hn : 0 < n) (folding : ℤ) {L : ℝ} (hL : 0 < L) (ps qs : List (Scatter.Part ℝ))
    (hp : massOf ps ≠ 0) (hq : massOf qs ≠ 0) (c : ℤ × ℤ × ℤ) (hc : ∀ p ∈ ps ++ qs, cellOf (L / (2 ^ folding * n)) p = c)
    (wb : Option (List ℝ)) (hb : ∀ b ∈ wb, b.Pairwise (· ≤ ·)) (shot : Option ℝ) :
    ∃ r, crossSpectrumOf n folding L ps qs wb shot = .ok r ∧ ∀ i < r.bins, r.counts i ≠ 0 →
      (∀ a, (edgesOf n (L / 2 ^ folding) wb)[i]? = some a → 0 < a) → r.power i = L ^ 3 - shotNoise (L ^ 3) shot := by
  classical
  obtain ⟨r, hr, hbr, hir⟩ := c112_particles hn folding hL ps qs hp hq wb hb shot
  refine ⟨r, hr, fun i hi h0 ha => ?_⟩
  obtain ⟨r1, -, r3⟩ := hir i hi
  have hmode : ∀ l : List (Scatter.Part ℝ), massOf l ≠ 0 → (∀ p ∈ l, cellOf (L / (2 ^ folding * n)) p = c) → ∀ k,
      massMode n (L / (2 ^ folding * n)) l k = wave n k c := by
    intro l hl hlc k
    unfold massMode
    have : (l.map fun p => (p.m : ℂ) * wave n k (cellOf (L / (2 ^ folding * n)) p)).sum = (l.map fun p => (p.m : ℂ)).sum * wave n k c := by
      rw [← List.sum_map_mul_right]
      congr 1
      apply List.map_congr_left
      intro p hpl
      rw [hlc p hpl]
    rw [this, ← cast_mass, mul_comm, mul_div_assoc, div_self (by exact_mod_cast hl), mul_one]
  have hs : ∀ k ∈ wavesIn n (L / 2 ^ folding) (edgesOf n (L / 2 ^ folding) wb) i, pairPower n (L / (2 ^ folding * n)) ps qs k = 1 := by
    intro k hk
    unfold wavesIn at hk
    obtain ⟨a, b, ha1, -, h1, -⟩ := (Finset.mem_filter.1 hk).2
    have hk0 : k ≠ (0, 0, 0) := by
      rintro rfl
      have := ha a ha1
      have h2 : waveNumber (L / 2 ^ folding) (0, 0, 0) = 0 := by simp [waveNumber]
      rw [h2] at h1
      linarith
    unfold pairPower
    rw [if_neg hk0, hmode ps hp (fun p h => hc p (List.mem_append_left _ h)), hmode qs hq (fun p h => hc p (List.mem_append_right _ h)),
      wave_conj]
    rfl
  have hne : (r.counts i : ℝ) ≠ 0 := by exact_mod_cast h0
  rw [r3, Finset.sum_congr rfl hs, Finset.sum_const, ← r1, nsmul_eq_mul, mul_one, div_self hne, mul_one]

/-- C112. The spectrum of two lists of particles together with a third list is the mean of the spectra of each of them with the
third, weighted with their masses, for whatever shot noise. -/
theorem c112_together {n : Nat} (hn : 0 < n) (folding : ℤ) {L : ℝ} (hL : 0 < L) (ps ps' qs : List (Scatter.Part ℝ))
    (hp : massOf ps ≠ 0) (hp' : massOf ps' ≠ 0) (hpp : massOf ps + massOf ps' ≠ 0) (hq : massOf qs ≠ 0) (wb : Option (List ℝ))
    (hb : ∀ b ∈ wb, b.Pairwise (· ≤ ·)) (shot : Option ℝ) :
    ∃ r a b, crossSpectrumOf n folding L (ps ++ ps') qs wb shot = .ok r ∧ crossSpectrumOf n folding L ps qs wb shot = .ok a ∧
      crossSpectrumOf n folding L ps' qs wb shot = .ok b ∧ ∀ i < r.bins,
        r.power i = (massOf ps * a.power i + massOf ps' * b.power i) / (massOf ps + massOf ps') := by
  have hmass : massOf (ps ++ ps') = massOf ps + massOf ps' := by simp [massOf]
  obtain ⟨r, hr, hbr, hir⟩ := c112_particles hn folding hL (ps ++ ps') qs (by rw [hmass]; exact hpp) hq wb hb shot
  obtain ⟨a, ha, hba, hia⟩ := c112_particles hn folding hL ps qs hp hq wb hb shot
  obtain ⟨b, hb1, hbb, hib⟩ := c112_particles hn folding hL ps' qs hp' hq wb hb shot
  refine ⟨r, a, b, hr, ha, hb1, fun i hi => ?_⟩
  obtain ⟨r1, -, r3⟩ := hir i hi
  obtain ⟨a1, -, a3⟩ := hia i (by rw [hba, ← hbr]; exact hi)
  obtain ⟨b1, -, b3⟩ := hib i (by rw [hbb, ← hbr]; exact hi)
  have hmode : ∀ k, massMode n (L / (2 ^ folding * n)) (ps ++ ps') k = ((massOf ps / (massOf ps + massOf ps') : ℝ) : ℂ) *
      massMode n (L / (2 ^ folding * n)) ps k + ((massOf ps' / (massOf ps + massOf ps') : ℝ) : ℂ) *
      massMode n (L / (2 ^ folding * n)) ps' k := by
    intro k
    have h1 : ((massOf ps : ℝ) : ℂ) ≠ 0 := by exact_mod_cast hp
    have h2 : ((massOf ps' : ℝ) : ℂ) ≠ 0 := by exact_mod_cast hp'
    have h3 : ((massOf ps : ℝ) : ℂ) + (massOf ps' : ℝ) ≠ 0 := by exact_mod_cast hpp
    unfold massMode
    rw [hmass, List.map_append, List.sum_append]
    push_cast
    field_simp
  have hk : ∀ k, pairPower n (L / (2 ^ folding * n)) (ps ++ ps') qs k = massOf ps / (massOf ps + massOf ps') *
      pairPower n (L / (2 ^ folding * n)) ps qs k + massOf ps' / (massOf ps + massOf ps') * pairPower n (L / (2 ^ folding * n)) ps' qs k := by
    intro k
    unfold pairPower
    split
    · simp
    · rw [hmode, add_mul, mul_assoc, mul_assoc, Complex.add_re, Complex.re_ofReal_mul, Complex.re_ofReal_mul]
  simp only [hk, Finset.sum_add_distrib, ← Finset.mul_sum] at r3
  rw [r3, a3, b3, r1, a1, b1]
  field_simp
  ring

/-! ## Examples -/

/-- A cluster in one cell of a grid with two cells along each side. -/
def cluster : List (Scatter.Part ℝ) := [⟨1 / 4, 1 / 8, 0, 2, 0⟩, ⟨1 / 8, 1 / 3, 1 / 4, 3, 0⟩]

example : ∃ r, crossSpectrumOf 2 0 1 cluster cluster none (some 2) = .ok r ∧ ∀ i < r.bins, r.counts i ≠ 0 → r.power i = 1 / 2 := by
  obtain ⟨r, hr, h⟩ := c112_one_cell (n := 2) (by norm_num) 0 (L := 1) one_pos cluster cluster (by norm_num [massOf, cluster])
    (by norm_num [massOf, cluster]) (0, 0, 0) (by
      intro p hp
      simp only [cluster, List.cons_append, List.nil_append, List.mem_cons, List.not_mem_nil, or_false] at hp
      rcases hp with rfl | rfl | rfl | rfl <;> norm_num [cellOf, Int.floor_eq_iff]) none (by simp) (some 2)
  refine ⟨r, hr, fun i hi h0 => ?_⟩
  rw [h i hi h0]
  · norm_num [shotNoise]
  · intro a ha
    simp only [edgesOf, Option.getD_none, List.getElem?_map, Option.map_eq_some_iff] at ha
    obtain ⟨j, -, rfl⟩ := ha
    have := Real.pi_pos
    positivity

example : SameSpectrum (crossSpectrumOf 2 0 1 (cluster.map (movedBy (1 / (2 ^ (0 : ℤ) * (2 : ℕ))) (1, 0, 1)))
    (cluster.map (movedBy (1 / (2 ^ (0 : ℤ) * (2 : ℕ))) (1, 0, 1))) none none) (crossSpectrumOf 2 0 1 cluster cluster none none) :=
  (c112_moved (n := 2) (by norm_num) 0 (L := 1) one_pos cluster cluster (by norm_num [massOf, cluster])
    (by norm_num [massOf, cluster]) none (by simp) none).1 (1, 0, 1)

end Verif.Props
