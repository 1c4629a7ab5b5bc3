import Verif.Spec.Cosmology
import Verif.Props.Neutrinos
import Mathlib.Tactic.FieldSimp
import Mathlib.Tactic.Ring
import Mathlib.Tactic.Positivity
import Mathlib.Tactic.NormNum

/-!
# C66: the cosmology of a file
-/

namespace Verif.Props
open Verif Verif.Header Verif.Cosmology

private theorem bind_ok {α β : Type} (x : Except Err α) (f : α → Except Err β) (b : β) :
    (x >>= f) = .ok b ↔ ∃ a, x = .ok a ∧ f a = .ok b := by
  cases x with
  | error e => simp [bind, Except.bind]
  | ok a => simp [bind, Except.bind]

/-- What a successful call has read. -/
private theorem ok_iff (n : Nature) (time : ℝ) (cosmo : Dict (Raw ℝ)) (p : Astropy) :
    toAstropy n time cosmo = .ok p ↔ ∃ h ob ol or om w0 wa t ne ms ds nu m,
      required cosmo "H0 [internal units]" = .ok h ∧ required cosmo "Omega_b" = .ok ob ∧ required cosmo "Omega_lambda" = .ok ol ∧
      required cosmo "Omega_r" = .ok or ∧ required cosmo "Omega_m" = .ok om ∧ required cosmo "w_0" = .ok w0 ∧
      required cosmo "w_a" = .ok wa ∧ tcmb n cosmo (h / time) or = .ok t ∧ neff cosmo = .ok ne ∧
      Cosmology.species cosmo "M_nu_eV" = .ok ms ∧ Cosmology.species cosmo "deg_nu" = .ok ds ∧ nur cosmo = .ok nu ∧
      Neutrinos.toAstropy ne nu ms ds = .ok m ∧ p = ⟨h / time, om, ol, w0, wa, t, ob, ne, m⟩ := by
  simp only [toAstropy, bind_ok, pure, Except.pure, Except.ok.injEq]
  constructor
  · rintro ⟨h, h1, ob, h2, ol, h3, or, h4, om, h5, w0, h6, wa, h7, t, h8, ne, h9, ms, h10, ds, h11, nu, h12, m, h13, rfl⟩
    exact ⟨h, ob, ol, or, om, w0, wa, t, ne, ms, ds, nu, m, h1, h2, h3, h4, h5, h6, h7, h8, h9, h10, h11, h12, h13, rfl⟩
  · rintro ⟨h, ob, ol, or, om, w0, wa, t, ne, ms, ds, nu, m, h1, h2, h3, h4, h5, h6, h7, h8, h9, h10, h11, h12, h13, rfl⟩
    exact ⟨h, h1, ob, h2, ol, h3, or, h4, om, h5, w0, h6, wa, h7, t, h8, ne, h9, ms, h10, ds, h11, nu, h12, m, h13, rfl⟩

private theorem required_array {cosmo : Dict (Raw ℝ)} {k : String} {x y : ℝ} {l : List ℝ} (h : cosmo k = some (.array (x :: l)))
    (hy : required cosmo k = .ok y) : y = x := by
  simp [required, h, number, item] at hy
  exact hy.symm

/-- The densities and the equation of state are those of the file. -/
theorem c66_parameters (n : Nature) (time : ℝ) (cosmo : Dict (Raw ℝ)) (p : Astropy) (h : toAstropy n time cosmo = .ok p)
    (k : String) (g : Astropy → ℝ) (hk : (k, g) ∈ Spec.cosmologyTable) (x : ℝ) (l : List ℝ)
    (hx : cosmo k = some (.array (x :: l))) : g p = x := by
  obtain ⟨hh, ob, ol, or, om, w0, wa, t, ne, ms, ds, nu, m, h1, h2, h3, h4, h5, h6, h7, h8, h9, h10, h11, h12, h13, rfl⟩ :=
    (ok_iff n time cosmo p).1 h
  simp only [Spec.cosmologyTable, List.mem_cons, Prod.mk.injEq, List.not_mem_nil, or_false] at hk
  rcases hk with ⟨rfl, rfl⟩ | ⟨rfl, rfl⟩ | ⟨rfl, rfl⟩ | ⟨rfl, rfl⟩ | ⟨rfl, rfl⟩
  · exact required_array hx h5
  · exact required_array hx h3
  · exact required_array hx h2
  · exact required_array hx h6
  · exact required_array hx h7

/-- The constant of Hubble times the unit of time is the number of the file. -/
theorem c66_hubble (n : Nature) (time : ℝ) (ht : time ≠ 0) (cosmo : Dict (Raw ℝ)) (p : Astropy)
    (h : toAstropy n time cosmo = .ok p) (x : ℝ) (l : List ℝ) (hx : cosmo "H0 [internal units]" = some (.array (x :: l))) :
    p.H0 * time = x := by
  obtain ⟨hh, ob, ol, or, om, w0, wa, t, ne, ms, ds, nu, m, h1, h2, h3, h4, h5, h6, h7, h8, h9, h10, h11, h12, h13, rfl⟩ :=
    (ok_iff n time cosmo p).1 h
  rw [required_array hx h1]
  field_simp

/-- A temperature in the file is used, unless it is zero. -/
theorem c66_temperature (n : Nature) (time : ℝ) (cosmo : Dict (Raw ℝ)) (p : Astropy) (h : toAstropy n time cosmo = .ok p)
    (x : ℝ) (l : List ℝ) (hx : cosmo "T_CMB_0 [K]" = some (.array (x :: l))) (h0 : x ≠ 0) : p.Tcmb0 = x := by
  obtain ⟨hh, ob, ol, or, om, w0, wa, t, ne, ms, ds, nu, m, h1, h2, h3, h4, h5, h6, h7, h8, h9, h10, h11, h12, h13, rfl⟩ :=
    (ok_iff n time cosmo p).1 h
  simp only [tcmb, hx, number, item, List.getElem?_cons_zero, ne_eq, h0, not_false_eq_true, if_true, Except.ok.injEq] at h8
  exact h8.symm

private theorem photons_temperature (n : Nature) (hG : 0 < n.G) (hs : 0 < n.sigma) (hc : 0 < n.c) (H0 or : ℝ) (hH : H0 ≠ 0)
    (hr : 0 ≤ or) : Spec.photons n H0 (temperature n H0 or) = or := by
  have hpi := Real.pi_pos
  have h1 : 0 ≤ or * (critdensConst n * H0 ^ 2) / aBc2 n := by
    unfold critdensConst aBc2
    positivity
  have h4 : temperature n H0 or ^ 4 = or * (critdensConst n * H0 ^ 2) / aBc2 n := by
    unfold temperature
    rw [← Real.rpow_natCast, ← Real.rpow_mul h1]
    norm_num
  unfold Spec.photons Spec.criticalDensity
  rw [h4]
  unfold critdensConst aBc2
  field_simp

/-- Without temperature, or with zero, the temperature is that of photons with the density of radiation of the file. -/
theorem c66_inverse (n : Nature) (hG : 0 < n.G) (hs : 0 < n.sigma) (hc : 0 < n.c) (time : ℝ) (ht : time ≠ 0)
    (cosmo : Dict (Raw ℝ)) (p : Astropy) (h : toAstropy n time cosmo = .ok p)
    (hT : cosmo "T_CMB_0 [K]" = none ∨ cosmo "T_CMB_0 [K]" = some (.array []) ∨ ∃ l, cosmo "T_CMB_0 [K]" = some (.array (0 :: l)))
    (x r : ℝ) (l l' : List ℝ) (hx : cosmo "H0 [internal units]" = some (.array (x :: l))) (h0 : x ≠ 0)
    (hr : cosmo "Omega_r" = some (.array (r :: l'))) (hr0 : 0 ≤ r) : Spec.photons n p.H0 p.Tcmb0 = r ∧ 0 ≤ p.Tcmb0 := by
  obtain ⟨hh, ob, ol, or, om, w0, wa, t, ne, ms, ds, nu, m, h1, h2, h3, h4, h5, h6, h7, h8, h9, h10, h11, h12, h13, rfl⟩ :=
    (ok_iff n time cosmo p).1 h
  have e1 := required_array hx h1
  have e2 := required_array hr h4
  subst e1 e2
  have e3 : t = temperature n (hh / time) or := by
    rcases hT with hT | hT | ⟨l, hT⟩ <;> simp [tcmb, hT, number, item] at h8 <;> exact h8.symm
  subst e3
  refine ⟨photons_temperature n hG hs hc _ _ (by positivity) hr0, ?_⟩
  have hpi := Real.pi_pos
  unfold temperature critdensConst aBc2
  positivity

/-- The masses of neutrinos are those of C46 for the entries of the file, the effective number of species included. -/
theorem c66_neutrinos (n : Nature) (time : ℝ) (cosmo : Dict (Raw ℝ)) (p : Astropy) (h : toAstropy n time cosmo = .ok p) :
    (∀ x l, cosmo "N_eff" = some (.array (x :: l)) → p.Neff = x) ∧
    (cosmo "N_eff" = none → p.Neff = 304 / 100) ∧
    (∀ ms ds u, cosmo "M_nu_eV" = some (.array ms) → cosmo "deg_nu" = some (.array ds) → cosmo "N_ur" = some (.array [u]) →
      Neutrinos.toAstropy p.Neff u ms ds = .ok p.mNu) ∧
    (cosmo "M_nu_eV" = none → cosmo "deg_nu" = none → cosmo "N_ur" = none →
      Neutrinos.toAstropy p.Neff (304 / 100) [0] [0] = .ok p.mNu) := by
  obtain ⟨hh, ob, ol, or, om, w0, wa, t, ne, ms, ds, nu, m, h1, h2, h3, h4, h5, h6, h7, h8, h9, h10, h11, h12, h13, rfl⟩ :=
    (ok_iff n time cosmo p).1 h
  refine ⟨fun x l e => ?_, fun e => ?_, fun ms' ds' u e1 e2 e3 => ?_, fun e1 e2 e3 => ?_⟩
  · simp [neff, e, number, item] at h9
    exact h9.symm
  · simp [neff, e] at h9
    exact h9.symm
  · simp [Cosmology.species, e1, numbers] at h10
    simp [Cosmology.species, e2, numbers] at h11
    simp [nur, e3] at h12
    subst h10 h11 h12
    exact h13
  · simp [Cosmology.species, e1] at h10
    simp [Cosmology.species, e2] at h11
    simp [nur, e3] at h12
    subst h10 h11 h12
    exact h13

/-- A cosmology is made if all required entries are there, no temperature or a number, and the neutrinos are accepted. -/
theorem c66_succeeds (n : Nature) (time : ℝ) (cosmo : Dict (Raw ℝ))
    (hreq : ∀ k ∈ ["H0 [internal units]", "Omega_b", "Omega_lambda", "Omega_r", "Omega_m", "w_0", "w_a"],
      ∃ x l, cosmo k = some (.array (x :: l)))
    (hT : cosmo "T_CMB_0 [K]" = none ∨ ∃ l, cosmo "T_CMB_0 [K]" = some (.array l))
    (hn : ∃ ne nu ms ds m, neff cosmo = .ok ne ∧ nur cosmo = .ok nu ∧ Cosmology.species cosmo "M_nu_eV" = .ok ms ∧
      Cosmology.species cosmo "deg_nu" = .ok ds ∧ Neutrinos.toAstropy ne nu ms ds = .ok m) :
    ∃ p, toAstropy n time cosmo = .ok p := by
  have key : ∀ k ∈ ["H0 [internal units]", "Omega_b", "Omega_lambda", "Omega_r", "Omega_m", "w_0", "w_a"],
      ∃ x, required cosmo k = .ok x := by
    intro k hk
    obtain ⟨x, l, e⟩ := hreq k hk
    exact ⟨x, by simp [required, e, number, item]⟩
  obtain ⟨h, h1⟩ := key "H0 [internal units]" (by simp)
  obtain ⟨ob, h2⟩ := key "Omega_b" (by simp)
  obtain ⟨ol, h3⟩ := key "Omega_lambda" (by simp)
  obtain ⟨or, h4⟩ := key "Omega_r" (by simp)
  obtain ⟨om, h5⟩ := key "Omega_m" (by simp)
  obtain ⟨w0, h6⟩ := key "w_0" (by simp)
  obtain ⟨wa, h7⟩ := key "w_a" (by simp)
  obtain ⟨ne, nu, ms, ds, m, h9, h12, h10, h11, h13⟩ := hn
  have h8 : ∃ t, tcmb n cosmo (h / time) or = .ok t := by
    rcases hT with e | ⟨l, e⟩
    · exact ⟨temperature n (h / time) or, by simp only [tcmb, e]⟩
    · cases l with
      | nil => exact ⟨temperature n (h / time) or, by simp [tcmb, e, number, item]⟩
      | cons x l =>
        by_cases hx : x = 0
        · exact ⟨temperature n (h / time) or, by simp [tcmb, e, number, item, hx]⟩
        · exact ⟨x, by simp [tcmb, e, number, item, hx]⟩
  obtain ⟨t, h8⟩ := h8
  exact ⟨_, (ok_iff n time cosmo _).2
    ⟨h, ob, ol, or, om, w0, wa, t, ne, ms, ds, nu, m, h1, h2, h3, h4, h5, h6, h7, h8, h9, h10, h11, h12, h13, rfl⟩⟩

/-- Without one of the required entries there is no cosmology. -/
theorem c66_refused (n : Nature) (time : ℝ) (cosmo : Dict (Raw ℝ)) (k : String)
    (hk : k ∈ ["H0 [internal units]", "Omega_b", "Omega_lambda", "Omega_r", "Omega_m", "w_0", "w_a"]) (h : cosmo k = none)
    (p : Astropy) : toAstropy n time cosmo ≠ .ok p := by
  intro hp
  obtain ⟨hh, ob, ol, or, om, w0, wa, t, ne, ms, ds, nu, m, h1, h2, h3, h4, h5, h6, h7, -⟩ := (ok_iff n time cosmo p).1 hp
  have key : ∀ x, required cosmo k ≠ .ok x := by simp [required, h]
  simp only [List.mem_cons, List.not_mem_nil, or_false] at hk
  rcases hk with rfl | rfl | rfl | rfl | rfl | rfl | rfl
  · exact key _ h1
  · exact key _ h2
  · exact key _ h3
  · exact key _ h4
  · exact key _ h5
  · exact key _ h6
  · exact key _ h7

private theorem bind_err {α β : Type} {x : Except Err α} {f : α → Except Err β} {e : Err} (h : (x >>= f) = .error e) :
    x = .error e ∨ ∃ a, x = .ok a ∧ f a = .error e := by
  cases x with
  | error e' => exact .inl (by cases h; rfl)
  | ok a => exact .inr ⟨a, rfl, h⟩

private theorem number_key (r : Raw ℝ) : number r ≠ .error .key := by
  intro h
  unfold number at h
  cases r with
  | scalar x => cases h
  | array l => cases l <;> cases h
  | bytes l => cases l <;> cases h
  | text s => unfold item at h; dsimp only at h; split at h <;> split at * <;> simp_all
  | words l => cases l <;> cases h

private theorem required_key {cosmo : Dict (Raw ℝ)} {k : String} (h : required cosmo k = .error .key) : cosmo k = none := by
  unfold required at h
  split at h
  · exact absurd h (number_key _)
  · assumption

/-- A KeyError says that one of the required entries is missing, whatever is in the others; and if the required entries that are
there are numbers, that is what is raised. -/
theorem c66_missing (n : Nature) (time : ℝ) (cosmo : Dict (Raw ℝ)) :
    (toAstropy n time cosmo = .error .key →
      ∃ k ∈ ["H0 [internal units]", "Omega_b", "Omega_lambda", "Omega_r", "Omega_m", "w_0", "w_a"], cosmo k = none) ∧
    ((∀ k ∈ ["H0 [internal units]", "Omega_b", "Omega_lambda", "Omega_r", "Omega_m", "w_0", "w_a"],
        cosmo k = none ∨ ∃ x l, cosmo k = some (.array (x :: l))) →
      (∃ k ∈ ["H0 [internal units]", "Omega_b", "Omega_lambda", "Omega_r", "Omega_m", "w_0", "w_a"], cosmo k = none) →
      toAstropy n time cosmo = .error .key) := by
  constructor
  · intro h
    rcases bind_err h with h | ⟨a1, -, h⟩
    · exact ⟨_, by simp, required_key h⟩
    rcases bind_err h with h | ⟨a2, -, h⟩
    · exact ⟨"Omega_b", by simp, required_key h⟩
    rcases bind_err h with h | ⟨a3, -, h⟩
    · exact ⟨"Omega_lambda", by simp, required_key h⟩
    rcases bind_err h with h | ⟨a4, -, h⟩
    · exact ⟨"Omega_r", by simp, required_key h⟩
    rcases bind_err h with h | ⟨a5, -, h⟩
    · exact ⟨"Omega_m", by simp, required_key h⟩
    rcases bind_err h with h | ⟨a6, -, h⟩
    · exact ⟨"w_0", by simp, required_key h⟩
    rcases bind_err h with h | ⟨a7, -, h⟩
    · exact ⟨"w_a", by simp, required_key h⟩
    exfalso
    rcases bind_err h with h | ⟨a8, -, h⟩
    · unfold tcmb at h
      split at h
      · cases h
      · split at h
        · split at h <;> cases h
        · cases h
        · rename_i hn
          cases h
          exact number_key _ hn
    rcases bind_err h with h | ⟨a9, -, h⟩
    · unfold neff at h
      split at h
      · cases h
      · split at h
        · cases h
        · cases h
        · rename_i hn
          cases h
          exact number_key _ hn
    have sp : ∀ k, Cosmology.species cosmo k ≠ .error .key := by
      intro k h
      unfold Cosmology.species at h
      split at h
      · cases h
      · unfold numbers at h
        split at h <;> cases h
    rcases bind_err h with h | ⟨b1, -, h⟩
    · exact sp _ h
    rcases bind_err h with h | ⟨b2, -, h⟩
    · exact sp _ h
    rcases bind_err h with h | ⟨b3, -, h⟩
    · unfold nur at h
      split at h <;> cases h
    rcases bind_err h with h | ⟨b4, -, h⟩
    · unfold Neutrinos.toAstropy at h
      split at h
      · cases h
      · split at h <;> cases h
    · cases h
  · intro hall hex
    have key : ∀ k ∈ ["H0 [internal units]", "Omega_b", "Omega_lambda", "Omega_r", "Omega_m", "w_0", "w_a"],
        required cosmo k = .error .key ∨ cosmo k ≠ none ∧ ∃ x, required cosmo k = .ok x := by
      intro k hk
      rcases hall k hk with h | ⟨x, l, h⟩
      · exact .inl (by simp [required, h])
      · exact .inr ⟨by simp [h], x, by simp [required, h, number, item]⟩
    simp only [toAstropy]
    obtain h | ⟨n1, x1, h⟩ := key "H0 [internal units]" (by simp)
    · rw [h]; rfl
    rw [h]; dsimp only [bind, Except.bind]
    obtain h | ⟨n2, x2, h⟩ := key "Omega_b" (by simp)
    · rw [h]
    rw [h]; dsimp only
    obtain h | ⟨n3, x3, h⟩ := key "Omega_lambda" (by simp)
    · rw [h]
    rw [h]; dsimp only
    obtain h | ⟨n4, x4, h⟩ := key "Omega_r" (by simp)
    · rw [h]
    rw [h]; dsimp only
    obtain h | ⟨n5, x5, h⟩ := key "Omega_m" (by simp)
    · rw [h]
    rw [h]; dsimp only
    obtain h | ⟨n6, x6, h⟩ := key "w_0" (by simp)
    · rw [h]
    rw [h]; dsimp only
    obtain h | ⟨n7, x7, h⟩ := key "w_a" (by simp)
    · rw [h]
    obtain ⟨k, hk, h⟩ := hex
    simp only [List.mem_cons, List.not_mem_nil, or_false] at hk
    rcases hk with rfl | rfl | rfl | rfl | rfl | rfl | rfl <;> contradiction

/-- With a text in place of one of the required numbers there is no cosmology. -/
theorem c66_text_refused (n : Nature) (time : ℝ) (cosmo : Dict (Raw ℝ)) (k : String)
    (hk : k ∈ ["H0 [internal units]", "Omega_b", "Omega_lambda", "Omega_r", "Omega_m", "w_0", "w_a"]) (t : String) (h : cosmo k = some (.text t))
    (p : Astropy) : toAstropy n time cosmo ≠ .ok p := by
  intro hp
  obtain ⟨hh, ob, ol, or, om, w0, wa, t, ne, ms, ds, nu, m, h1, h2, h3, h4, h5, h6, h7, -⟩ := (ok_iff n time cosmo p).1 hp
  have key : ∀ x, required cosmo k ≠ .ok x := by
    intro x
    simp only [required, h, number, item]
    split
    · rename_i e
      split at e <;> cases e
    · simp
    · simp
  simp only [List.mem_cons, List.not_mem_nil, or_false] at hk
  rcases hk with rfl | rfl | rfl | rfl | rfl | rfl | rfl
  · exact key _ h1
  · exact key _ h2
  · exact key _ h3
  · exact key _ h4
  · exact key _ h5
  · exact key _ h6
  · exact key _ h7

/-- A file without temperature and with radiation: the radiation of the cosmology that astropy makes, photons and massless
neutrinos, is more than the radiation of the file, whatever the file says. The comment in the code calls the temperature an exact
inversion of what astropy does; it is that of the photons alone. -/
theorem c66_radiation_fails (n : Nature) (hG : 0 < n.G) (hs : 0 < n.sigma) (hc : 0 < n.c) (time : ℝ) (ht : time ≠ 0)
    (cosmo : Dict (Raw ℝ)) (p : Astropy) (h : toAstropy n time cosmo = .ok p) (hT : cosmo "T_CMB_0 [K]" = none)
    (x r : ℝ) (l l' : List ℝ) (hx : cosmo "H0 [internal units]" = some (.array (x :: l))) (h0 : x ≠ 0)
    (hr : cosmo "Omega_r" = some (.array (r :: l'))) (hr0 : 0 < r) (hN : cosmo "N_eff" = none) :
    r < Spec.radiation n p.H0 p.Tcmb0 p.Neff := by
  have e1 := (c66_inverse n hG hs hc time ht cosmo p h (.inl hT) x r l l' hx h0 hr hr0.le).1
  have e2 := (c66_neutrinos n time cosmo p h).2.1 hN
  unfold Spec.radiation
  rw [e1, e2]
  have : (0 : ℝ) < ((4 : ℝ) / 11) ^ ((4 : ℝ) / 3) := by positivity
  nlinarith [mul_pos hr0 this]

/-- An array of several effective numbers of relativistic species, or of none, is refused. -/
theorem c66_species_refused (n : Nature) (time : ℝ) (cosmo : Dict (Raw ℝ)) (l : List ℝ) (h : cosmo "N_ur" = some (.array l))
    (hl : l.length ≠ 1) (p : Astropy) : toAstropy n time cosmo ≠ .ok p := by
  intro hp
  obtain ⟨hh, ob, ol, or, om, w0, wa, t, ne, ms, ds, nu, m, -, -, -, -, -, -, -, -, -, -, -, h12, -⟩ := (ok_iff n time cosmo p).1 hp
  unfold nur at h12
  rw [h] at h12
  match l, hl, h12 with
  | [], _, h12 => cases h12
  | [_], hl, _ => exact hl rfl
  | _ :: _ :: _, _, h12 => cases h12

/-- What raises instead if the neutrinos cannot be used: TypeError, and not the KeyError of a missing entry. -/
theorem c66_species_kind (n : Nature) (time : ℝ) (cosmo : Dict (Raw ℝ)) (l : List ℝ) (h : cosmo "N_ur" = some (.array l)) (hl : l.length ≠ 1)
    (hreq : ∀ k ∈ ["H0 [internal units]", "Omega_b", "Omega_lambda", "Omega_r", "Omega_m", "w_0", "w_a"],
      ∃ x l, cosmo k = some (.array (x :: l)))
    (ho : ∀ k ∈ ["T_CMB_0 [K]", "N_eff", "M_nu_eV", "deg_nu"], cosmo k = none ∨ ∃ l, cosmo k = some (.array l)) :
    toAstropy n time cosmo = .error .typeErr := by
  have key : ∀ k ∈ ["H0 [internal units]", "Omega_b", "Omega_lambda", "Omega_r", "Omega_m", "w_0", "w_a"],
      ∃ x, required cosmo k = .ok x := by
    intro k hk
    obtain ⟨x, l, e⟩ := hreq k hk
    exact ⟨x, by simp [required, e, number, item]⟩
  obtain ⟨a1, h1⟩ := key "H0 [internal units]" (by simp)
  obtain ⟨a2, h2⟩ := key "Omega_b" (by simp)
  obtain ⟨a3, h3⟩ := key "Omega_lambda" (by simp)
  obtain ⟨a4, h4⟩ := key "Omega_r" (by simp)
  obtain ⟨a5, h5⟩ := key "Omega_m" (by simp)
  obtain ⟨a6, h6⟩ := key "w_0" (by simp)
  obtain ⟨a7, h7⟩ := key "w_a" (by simp)
  have h8 : ∃ t, tcmb n cosmo (a1 / time) a4 = .ok t := by
    rcases ho "T_CMB_0 [K]" (by simp) with e | ⟨l, e⟩
    · exact ⟨temperature n (a1 / time) a4, by simp only [tcmb, e]⟩
    · cases l with
      | nil => exact ⟨temperature n (a1 / time) a4, by simp [tcmb, e, number, item]⟩
      | cons x l =>
        by_cases hx : x = 0
        · exact ⟨temperature n (a1 / time) a4, by simp [tcmb, e, number, item, hx]⟩
        · exact ⟨x, by simp [tcmb, e, number, item, hx]⟩
  have h9 : ∃ x, neff cosmo = .ok x := by
    rcases ho "N_eff" (by simp) with e | ⟨l, e⟩
    · exact ⟨304 / 100, by simp only [neff, e]⟩
    · cases l with
      | nil => exact ⟨304 / 100, by simp [neff, e, number, item]⟩
      | cons x l => exact ⟨x, by simp [neff, e, number, item]⟩
  have h10 : ∀ k ∈ ["M_nu_eV", "deg_nu"], ∃ x, Cosmology.species cosmo k = .ok x := by
    intro k hk
    rcases ho k (by simp at hk ⊢; tauto) with e | ⟨l, e⟩
    · exact ⟨[0], by simp [Cosmology.species, e]⟩
    · exact ⟨l, by simp [Cosmology.species, e, numbers]⟩
  obtain ⟨t, h8⟩ := h8
  obtain ⟨ne, h9⟩ := h9
  obtain ⟨ms, h11⟩ := h10 "M_nu_eV" (by simp)
  obtain ⟨ds, h12⟩ := h10 "deg_nu" (by simp)
  have h13 : nur cosmo = .error .typeErr := by
    unfold nur
    rw [h]
    match l, hl with
    | [], _ => rfl
    | [_], hl => exact absurd rfl hl
    | _ :: _ :: _, _ => rfl
  simp only [toAstropy, h1, h2, h3, h4, h5, h6, h7, h9, h11, h12, h13, bind, Except.bind]
  rw [h8]

/-! A cosmology with radiation and without temperature, in units of 10 seconds. -/

private noncomputable def cosmoEx : Dict (Raw ℝ) := fun k =>
  if k = "H0 [internal units]" then some (.array [7]) else if k = "Omega_b" then some (.array [1 / 20])
  else if k = "Omega_lambda" then some (.array [7 / 10]) else if k = "Omega_r" then some (.array [1 / 10000])
  else if k = "Omega_m" then some (.array [3 / 10]) else if k = "w_0" then some (.array [-1])
  else if k = "w_a" then some (.array [0]) else none

example (n : Nature) : ∃ p, toAstropy n 10 cosmoEx = .ok p ∧ p.Om0 = 3 / 10 ∧ p.Ode0 = 7 / 10 ∧ p.H0 * 10 = 7 := by
  have hne : (Neutrinos.toAstropy (304 / 100 : ℝ) (304 / 100) [0] [0]) = .ok [0, 0, 0] := by
    have := c46_default (K := ℝ)
    simpa [Neutrinos.fromHeader] using this
  obtain ⟨p, hp⟩ := c66_succeeds n 10 cosmoEx (by
      intro k hk
      simp only [List.mem_cons, List.not_mem_nil, or_false] at hk
      rcases hk with rfl | rfl | rfl | rfl | rfl | rfl | rfl <;> simp [cosmoEx])
    (.inl (by simp [cosmoEx])) ⟨304 / 100, 304 / 100, [0], [0], [0, 0, 0], by simp [neff, cosmoEx], by simp [nur, cosmoEx],
      by simp [Cosmology.species, cosmoEx], by simp [Cosmology.species, cosmoEx], hne⟩
  refine ⟨p, hp, ?_, ?_, ?_⟩
  · exact c66_parameters n 10 cosmoEx p hp "Omega_m" Astropy.Om0 (by simp [Spec.cosmologyTable]) _ [] (by simp [cosmoEx])
  · exact c66_parameters n 10 cosmoEx p hp "Omega_lambda" Astropy.Ode0 (by simp [Spec.cosmologyTable]) _ [] (by simp [cosmoEx])
  · exact c66_hubble n 10 (by norm_num) cosmoEx p hp _ [] (by simp [cosmoEx])

example (n : Nature) : toAstropy n 10 (fun k => if k = "w_a" then none else cosmoEx k) = .error .key :=
  (c66_missing n 10 _).2 (by
      intro k hk
      simp only [List.mem_cons, List.not_mem_nil, or_false] at hk
      rcases hk with rfl | rfl | rfl | rfl | rfl | rfl | rfl <;> simp [cosmoEx])
    ⟨"w_a", by simp, by simp⟩

example (n : Nature) : toAstropy n 10 (fun k => if k = "N_ur" then some (.array [1, 2]) else cosmoEx k) = .error .typeErr :=
  c66_species_kind n 10 _ [1, 2] (by simp) (by simp) (by
      intro k hk
      simp only [List.mem_cons, List.not_mem_nil, or_false] at hk
      rcases hk with rfl | rfl | rfl | rfl | rfl | rfl | rfl <;> simp [cosmoEx])
    (by
      intro k hk
      simp only [List.mem_cons, List.not_mem_nil, or_false] at hk
      rcases hk with rfl | rfl | rfl | rfl <;> simp [cosmoEx])

end Verif.Props
