import Verif.Spec.Powers
import Verif.Lemmas.Cosmo

/-!
# The exponent that is written for factors that were computed (C104)
-/

namespace Verif.Props
open Verif Verif.Cosmo Verif.Attributes Verif.Powers
open Verif.Spec (scaling Rootless)

/-- C104: in memory all is well. Expressions scale as the model of C02 says: exponents add in products and are multiplied by powers. -/
theorem c104_scaling (s t : Sym) (p : ℝ) : scaling (s.pow p) = scaling s * p ∧ scaling (s.mul t) = scaling s + scaling t := by
  have hm : ∀ s t : Sym, scaling (s.mul t) = scaling s + scaling t := by
    intro s t
    cases s <;> cases t <;> simp only [Sym.mul] <;> (try split) <;> simp_all [scaling]
  have hr : ∀ (b : Sym) (e : ℝ), scaling (b.root e) = scaling b * e := by
    intro b e
    unfold Sym.root
    split
    · rename_i h; simp [scaling, h]
    · split
      · rename_i h; simp [h]
      · rfl
  refine ⟨?_, hm s t⟩
  induction s with
  | atom k => simp only [Sym.pow]; split <;> simp [scaling]
  | nest b e ih =>
    simp only [Sym.pow]
    split
    · rw [hr, scaling, mul_assoc]
    · rfl
  | prod s t ihs iht =>
    simp only [Sym.pow]
    split
    · rw [hm, ihs, iht, scaling, add_mul]
    · rfl

/-- C104: the factor by which numbers are converted is the power of the scale factor. -/
theorem c104_factor {x : ℝ} (hx : 0 < x) (s : Sym) : s.at x = x ^ scaling s := by
  induction s with
  | atom k => rfl
  | nest s p ih => rw [Sym.at, ih, scaling, Real.rpow_mul hx.le]
  | prod s t ih1 ih2 => rw [Sym.at, ih1, ih2, scaling, Real.rpow_add hx]

/-- Expressions without roots are powers of `a`. -/
private theorem rootless_atom {s : Sym} (h : Rootless s) : s = .atom (scaling s) := by
  induction h with
  | create k => rfl
  | @mul s t _ _ ih1 ih2 =>
    rw [(c104_scaling s t 0).2]
    conv_lhs => rw [ih1, ih2]
    rfl
  | @power s n _ ih =>
    rw [(c104_scaling s s n).1]
    conv_lhs => rw [ih]
    simp only [Sym.pow]
    rw [if_pos (.inl ⟨n, rfl⟩)]

/-- C104, the part that holds. Full statement: the exponent that is written is the exponent of `a` in the factor. It holds for factors that
come from `cosmo_factor.create` by products, quotients and whole powers, if they depend on `a` (C32 has what happens to the others). For
roots see `c104_root_fails`. -/
theorem c104_rootless_partial {s : Sym} (h : Rootless s) (h0 : scaling s ≠ 0) (dims : Exps) (v : List ℝ) :
    (writeSym dims s v).1.aScale = some (scaling s) := by
  have : s.exp = scaling s := by
    conv_lhs => rw [rootless_atom h]
    simp only [Sym.exp, exponentOf]
    split
    · rename_i h1
      rcases h1 with h1 | h1
      · exact absurd h1 h0
      · exact h1.symm
    · rfl
  simp [writeSym, this]

/-- C104 fails for every root of a factor `a**k` with `k ≥ 2`, `k ≤ -1` or another `k > 1`: the exponent of the root is written in place
of that of `a`. -/
theorem c104_root_fails {k p : ℝ} (hk : 1 < |k| ∨ k = -1) (hp : ¬ ∃ n : ℤ, p = n) (dims : Exps) (v : List ℝ) :
    (writeSym dims ((Sym.atom k).pow p) v).1.aScale = some p ∧ scaling ((Sym.atom k).pow p) = k * p ∧ k * p ≠ p := by
  have h1 : k ≠ 1 := by rintro rfl; rcases hk with hk | hk <;> norm_num at hk
  have h2 : ¬ |k| < 1 := by
    rcases hk with hk | rfl
    · exact not_lt.mpr hk.le
    · norm_num
  have hp0 : p ≠ 0 := fun h => hp ⟨0, by simp [h]⟩
  refine ⟨?_, (c104_scaling _ (.atom k) p).1, fun h => h1 (mul_right_cancel₀ hp0 (h.trans (one_mul p).symm))⟩
  have : (Sym.atom k).pow p = .nest (.atom k) p := by
    simp only [Sym.pow]
    rw [if_neg (by rintro (h | h | h); exacts [hp h, h2 h, h1 h])]
  simp [writeSym, this, Sym.exp]

/-- C104 fails for products with a root of a power: the exponent that is written is 1, whatever the powers. -/
theorem c104_product_fails {k p l : ℝ} (hk : 1 < |k| ∨ k = -1) (hp : ¬ ∃ n : ℤ, p = n) (hl : l ≠ 0) (dims : Exps) (v : List ℝ) :
    (writeSym dims (((Sym.atom k).pow p).mul (.atom l)) v).1.aScale = some 1 ∧ (writeSym dims ((Sym.atom l).mul ((Sym.atom k).pow p)) v).1.aScale = some 1 ∧
      scaling (((Sym.atom k).pow p).mul (.atom l)) = k * p + l := by
  have h1 : k ≠ 1 := by rintro rfl; rcases hk with hk | hk <;> norm_num at hk
  have h2 : ¬ |k| < 1 := by
    rcases hk with hk | rfl
    · exact not_lt.mpr hk.le
    · norm_num
  have e : (Sym.atom k).pow p = .nest (.atom k) p := by
    have h3 : ¬ (Whole p ∨ |k| < 1 ∨ k = 1) := by
      rintro (h | h | h)
      · exact hp h
      · exact h2 h
      · exact h1 h
    simp only [Sym.pow, if_neg h3]
  refine ⟨?_, ?_, by simp [e, Sym.mul, hl, scaling]⟩
  · simp [e, Sym.mul, hl, writeSym, Sym.exp]
  · simp [e, Sym.mul, hl, writeSym, Sym.exp]

example : (1 < |(3 : ℝ)| ∨ (3 : ℝ) = -1) ∧ (2 : ℝ) ≠ 0 ∧ (3 : ℝ) * (1 / 3) + 2 ≠ 1 := by norm_num

private theorem pow_root {k p : ℝ} (hk : 1 < |k| ∨ k = -1) (hp : ¬ ∃ n : ℤ, p = n) : (Sym.atom k).pow p = .nest (.atom k) p ∧ k ≠ 1 ∧ k ≠ 0 := by
  have h1 : k ≠ 1 := by rintro rfl; rcases hk with hk | hk <;> norm_num at hk
  have h0 : k ≠ 0 := by rintro rfl; rcases hk with hk | hk <;> norm_num at hk
  have h2 : ¬ |k| < 1 := by
    rcases hk with hk | rfl
    · exact not_lt.mpr hk.le
    · norm_num
  refine ⟨?_, h1, h0⟩
  simp only [Sym.pow]
  rw [if_neg (by rintro (h | h | h); exacts [hp h, h2 h, h1 h])]

/-- C104: a root that is undone by a power, as the square of the square root of an area, is written with the right exponent. -/
theorem c104_undone {k p q : ℝ} (hk : 1 < |k| ∨ k = -1) (hp : ¬ ∃ n : ℤ, p = n) (hq : (∃ n : ℤ, q = n) ∨ |p| < 1) (h : p * q = 1) (dims : Exps) (v : List ℝ) :
    (writeSym dims (((Sym.atom k).pow p).pow q) v).1.aScale = some (scaling (((Sym.atom k).pow p).pow q)) ∧ scaling (((Sym.atom k).pow p).pow q) = k := by
  obtain ⟨e, h1, h0⟩ := pow_root hk hp
  have : ((Sym.atom k).pow p).pow q = .atom k := by
    rw [e, Sym.pow, if_pos (by rcases hq with hq | hq; exacts [.inl hq, .inr (.inl hq)]), Sym.root, h]
    simp
  rw [this]
  simpa [writeSym, Sym.exp, exponentOf, scaling, h0] using Eq.symm

/-- C104 fails for other powers of a root: the product of both exponents is written, without that of `a` under the root, or the last exponent
alone if it is not whole and the first one is not between -1 and 1. -/
theorem c104_powers_fails {k p q : ℝ} (hk : 1 < |k| ∨ k = -1) (hp : ¬ ∃ n : ℤ, p = n) (hq0 : q ≠ 0) (h : p * q ≠ 1) (dims : Exps) (v : List ℝ) :
    ((∃ n : ℤ, q = n) ∨ |p| < 1 → (writeSym dims (((Sym.atom k).pow p).pow q) v).1.aScale = some (p * q) ∧
      scaling (((Sym.atom k).pow p).pow q) ≠ p * q) ∧
    (¬ ((∃ n : ℤ, q = n) ∨ |p| < 1) → (writeSym dims (((Sym.atom k).pow p).pow q) v).1.aScale = some q ∧
      (k * p ≠ 1 → scaling (((Sym.atom k).pow p).pow q) ≠ q)) := by
  obtain ⟨e, h1, h0⟩ := pow_root hk hp
  have hp0 : p ≠ 0 := fun h => hp ⟨0, by simp [h]⟩
  have hp1 : p ≠ 1 := fun h => hp ⟨1, by simp [h]⟩
  have hs : scaling (((Sym.atom k).pow p).pow q) = k * p * q := by rw [(c104_scaling _ (.atom 0) q).1, (c104_scaling _ (.atom 0) p).1]; rfl
  constructor
  · intro hq
    constructor
    · rw [e, Sym.pow, if_pos (by rcases hq with hq | hq; exacts [.inl hq, .inr (.inl hq)]), Sym.root, if_neg (mul_ne_zero hp0 hq0), if_neg h]
      rfl
    · rw [hs, mul_assoc]
      intro h2
      exact h1 (mul_right_cancel₀ (mul_ne_zero hp0 hq0) (h2.trans (one_mul _).symm))
  · intro hq
    constructor
    · rw [e, Sym.pow, if_neg (by rintro (h | h | h); exacts [hq (.inl h), hq (.inr h), hp1 h])]
      rfl
    · intro h2
      rw [hs]
      intro h3
      exact h2 (mul_right_cancel₀ hq0 (h3.trans (one_mul _).symm))

/-- C104 fails for powers of a product with a root: the exponent is that of the power if it is not whole, and 1 for whole powers that do not undo
the root. -/
theorem c104_product_powers_fails {k p l q : ℝ} (hk : 1 < |k| ∨ k = -1) (hp : ¬ ∃ n : ℤ, p = n) (hl : l ≠ 0) (dims : Exps) (v : List ℝ) :
    ((¬ ∃ n : ℤ, q = n) → (writeSym dims ((((Sym.atom k).pow p).mul (.atom l)).pow q) v).1.aScale = some q) ∧
    ((∃ n : ℤ, q = n) → q ≠ 0 → p * q ≠ 1 → (writeSym dims ((((Sym.atom k).pow p).mul (.atom l)).pow q) v).1.aScale = some 1) ∧
    ((∃ n : ℤ, q = n) → p * q = 1 → k + l * q ≠ 0 → (writeSym dims ((((Sym.atom k).pow p).mul (.atom l)).pow q) v).1.aScale = some (k + l * q)) ∧
    scaling ((((Sym.atom k).pow p).mul (.atom l)).pow q) = (k * p + l) * q := by
  obtain ⟨e, h1, h0⟩ := pow_root hk hp
  have hp0 : p ≠ 0 := fun h => hp ⟨0, by simp [h]⟩
  have em : ((Sym.atom k).pow p).mul (.atom l) = .prod (.nest (.atom k) p) (.atom l) := by
    rw [e]
    simp [Sym.mul, hl]
  refine ⟨fun hq => ?_, fun hq hq0 hpq => ?_, fun hq hpq hne => ?_, ?_⟩
  · rw [em, Sym.pow, if_neg (show ¬ Whole q from hq)]
    rfl
  · have hq' : Whole q := hq
    have : (Sym.prod (.nest (.atom k) p) (.atom l)).pow q = .prod (.nest (.atom k) (p * q)) (.atom (l * q)) := by
      simp only [Sym.pow, if_pos hq', if_pos (Or.inl hq' : Whole q ∨ _), Sym.root, if_neg (mul_ne_zero hp0 hq0), if_neg hpq]
      simp [Sym.mul, hl, hq0]
    rw [em, this]
    rfl
  · have hq' : Whole q := hq
    have : (Sym.prod (.nest (.atom k) p) (.atom l)).pow q = .atom (k + l * q) := by
      simp only [Sym.pow, if_pos hq', if_pos (Or.inl hq' : Whole q ∨ _), Sym.root, hpq]
      simp [Sym.mul]
    rw [em, this]
    simpa [writeSym, Sym.exp, exponentOf, hne] using Eq.symm
  · rw [(c104_scaling _ (.atom 0) q).1, (c104_scaling _ _ 0).2, (c104_scaling _ (.atom 0) p).1]
    rfl

/-- C104: products with a factor that does not depend on `a` are written like the other factor. The power zero of any factor does not depend on `a`;
the exponent 1 is written for it (C32). -/
theorem c104_unit (s : Sym) (dims : Exps) (v : List ℝ) :
    writeSym dims (s.mul (.atom 0)) v = writeSym dims s v ∧ writeSym dims ((Sym.atom 0).mul s) v = writeSym dims s v ∧
      writeSym dims (s.mul (s.pow 0)) v = writeSym dims s v ∧ (writeSym dims (s.pow 0) v).1.aScale = some 1 := by
  have h0 : s.pow 0 = .atom 0 := by
    have hw : Whole 0 := ⟨0, by simp⟩
    induction s with
    | atom k => simp [Sym.pow, hw]
    | nest b e ih => simp [Sym.pow, hw, Sym.root]
    | prod s t ihs iht => simp [Sym.pow, hw, ihs, iht, Sym.mul]
  have h1 : s.mul (.atom 0) = s := by cases s <;> simp [Sym.mul]
  have h2 : (Sym.atom 0).mul s = s := by cases s <;> simp [Sym.mul]
  rw [h0, h1, h2]
  exact ⟨rfl, rfl, rfl, by simp [writeSym, Sym.exp, exponentOf]⟩

/-- The square of the square root of an area, its fourth power, and the square of its product with a length. -/
example : (1 < |(2 : ℝ)| ∨ (2 : ℝ) = -1) ∧ (¬ ∃ n : ℤ, (1 / 2 : ℝ) = n) ∧ (∃ n : ℤ, (2 : ℝ) = n) ∧ (1 / 2 : ℝ) * 2 = 1 ∧ (1 / 2 : ℝ) * 4 ≠ 1 ∧
    (2 : ℝ) + 1 * 2 ≠ 0 := by
  refine ⟨by norm_num, ?_, ⟨2, by norm_num⟩, by norm_num, by norm_num, by norm_num⟩
  rintro ⟨n, hn⟩
  have h : (2 * n : ℝ) = 1 := by rw [← hn]; norm_num
  have : (2 * n : ℤ) = 1 := by exact_mod_cast h
  omega

/-- C104: what comes back. A field with comoving values `v` and a root for its factor is read with physical values that are wrong by the
factor `sf ^ (p - k * p)`. -/
theorem c104_reread {b : Base} {sf k p : ℝ} (hsf : 0 < sf) (hk : 1 < |k| ∨ k = -1) (hp : ¬ ∃ n : ℤ, p = n) (dims : Exps) (v : List ℝ) :
    (readField b sf (writeSym dims ((Sym.atom k).pow p) v)).arr.phys =
      (v.map fun x => x * ((Sym.atom k).pow p).at sf).map fun x => x * sf ^ (p - k * p) := by
  obtain ⟨h1, h2, _⟩ := c104_root_fails hk hp dims v
  have h3 : (readField b sf (writeSym dims ((Sym.atom k).pow p) v)).arr = ⟨v, some true, some ⟨some p, some sf⟩, true⟩ := by
    simp only [readField, h1]
    simp [writeSym, CF.create]
  rw [h3, c104_factor hsf, h2]
  simp only [Arr.phys, List.map_map]
  refine List.map_congr_left fun x _ => ?_
  simp only [Function.comp]
  rw [mul_assoc, ← Real.rpow_add hsf]
  congr 2
  ring

/-- C104 fails for smoothing lengths that are computed as the cube root of a volume: at a = 1/8 the comoving length 1 is the physical length
1/8, and the file says 1/2. -/
theorem c104_lengths_fails :
    ((Sym.atom 3).pow (1 / 3)).at (1 / 8) = 1 / 8 ∧
      (readField ⟨1, 1, 1, 1, 1⟩ (1 / 8) (writeSym ⟨0, 1, 0, 0, 0⟩ ((Sym.atom 3).pow (1 / 3)) [1])).arr.phys = [1 / 2] := by
  have hp : ¬ ∃ n : ℤ, (1 / 3 : ℝ) = n := by
    rintro ⟨n, hn⟩
    have : (3 * n : ℤ) = 1 := by
      have h : (3 * n : ℝ) = 1 := by rw [← hn]; norm_num
      exact_mod_cast h
    omega
  have hs : ((Sym.atom 3).pow (1 / 3)).at (1 / 8) = 1 / 8 := by
    rw [c104_factor (by norm_num), (c104_scaling _ (.atom 3) _).1]
    norm_num [scaling]
  refine ⟨hs, ?_⟩
  rw [c104_reread (by norm_num) (.inl (by norm_num)) hp, hs]
  have : ((1 : ℝ) / 8) ^ ((1 : ℝ) / 3 - 3 * (1 / 3)) = 4 := by
    have h8 : ((1 : ℝ) / 8) = 2 ^ (-3 : ℝ) := by
      rw [Real.rpow_neg (by norm_num)]; norm_num
    rw [h8, ← Real.rpow_mul (by norm_num)]
    norm_num
  simp only [List.map_cons, List.map_nil, this]
  norm_num

/-- Example: the square of a length divided by an area and by a time. -/
example : Rootless (((Sym.atom 1).pow (2 : ℤ)).mul ((Sym.atom 2).pow (-1 : ℤ)) |>.mul (.atom (-1))) ∧
    scaling (((Sym.atom 1).pow (2 : ℤ)).mul ((Sym.atom 2).pow (-1 : ℤ)) |>.mul (.atom (-1))) = -1 := by
  refine ⟨.mul (.mul (.power 2 (.create 1)) (.power (-1) (.create 2))) (.create _), ?_⟩
  rw [(c104_scaling _ _ 0).2, (c104_scaling _ _ 0).2, (c104_scaling _ (.atom 0) _).1, (c104_scaling _ (.atom 0) _).1]
  norm_num [scaling]

end Verif.Props
