import Verif.Model.WriterHeader
import Verif.Spec.Writer
import Mathlib.Tactic.NormNum
import Mathlib.Tactic.Linarith

/-!
# C69: smoothing lengths made by the snapshot writer
-/

namespace Verif.Props
open Verif Verif.WriterHeader Verif.Header
open Verif.Writer (Name required)
open Verif.Spec (needs)

private theorem noDiff_iff : ∀ l : List ℝ, noDiff l ↔ ∀ x ∈ l, ∀ y ∈ l, x = y
  | [] => by simp [noDiff]
  | [a] => by simp [noDiff]
  | a :: b :: l => by
    have ih := noDiff_iff (b :: l)
    have e : noDiff (a :: b :: l) ↔ b - a = 0 ∧ noDiff (b :: l) := by
      unfold noDiff
      simp only [List.tail_cons, List.zipWith_cons_cons, List.mem_cons, forall_eq_or_imp]
    rw [e, ih]
    constructor
    · rintro ⟨h1, h2⟩
      have hab : a = b := by linarith
      intro x hx y hy
      have key : ∀ z ∈ a :: b :: l, z = b := by
        intro z hz
        rcases List.mem_cons.mp hz with rfl | hz
        · exact hab
        · exact h2 z hz b (List.mem_cons_self ..)
      rw [key x hx, key y hy]
    · intro h
      refine ⟨?_, fun x hx y hy => h x (List.mem_cons_of_mem _ hx) y (List.mem_cons_of_mem _ hy)⟩
      rw [h b (by simp) a (by simp), sub_self]

private theorem needs_iff (t : Nat) : Name.smoothingLengths ∈ required t ↔ t = 0 ∨ t = 4 := by
  unfold required
  by_cases h0 : t = 0
  · simp [h0]
  · by_cases h4 : t = 4
    · simp [h4]
    · simp [h0, h4]

private theorem prod_same : ∀ (l : List ℝ) (a : ℝ), (∀ x ∈ l, x = a) → l.prod = a ^ l.length
  | [], _, _ => by simp
  | x :: l, a, h => by
    rw [List.prod_cons, h x (by simp), prod_same l a (fun y hy => h y (List.mem_cons_of_mem _ hy)), List.length_cons, pow_succ']

/-- In a box with equal sides the particles get one smoothing length each, all the same: `N` cubes with half that side fill the
box, that is, it is twice the mean distance of particles. -/
theorem c69_spacing (t : Nat) (ht : t = 0 ∨ t = 4) (c : Conf ℝ) (hd : c.box.length = c.dimension) (h0 : 0 < c.dimension)
    (hp : ∀ x ∈ c.box, 0 < x) (he : ∀ x ∈ c.box, ∀ y ∈ c.box, x = y) (n : Nat) (hn : 0 < n) :
    ∃ h : ℝ, generateSmoothing t c (some n) = .ok (List.replicate n h) ∧ 0 < h ∧ n * (h / 2) ^ c.dimension = c.box.prod := by
  unfold generateSmoothing
  rw [if_neg (by rw [not_not, needs_iff]; exact ht), if_neg (by rw [not_not, noDiff_iff]; exact he)]
  cases hb : c.box with
  | nil => rw [hb] at hd; simp at hd; omega
  | cons L l =>
    have hL : 0 < L := hp L (by rw [hb]; simp)
    have hn' : (0 : ℝ) < n := by exact_mod_cast hn
    have hr : (0 : ℝ) < (n : ℝ) ^ (1 / (c.dimension : ℝ)) := Real.rpow_pos_of_pos hn' _
    refine ⟨2 * (L / (n : ℝ) ^ (1 / (c.dimension : ℝ))), ?_, by positivity, ?_⟩
    · simp [List.map_replicate]
    · have h1 : (2 * (L / (n : ℝ) ^ (1 / (c.dimension : ℝ)))) / 2 = L / (n : ℝ) ^ (1 / (c.dimension : ℝ)) := by ring
      have h2 : ((n : ℝ) ^ (1 / (c.dimension : ℝ))) ^ c.dimension = n := by
        rw [one_div]
        exact Real.rpow_inv_natCast_pow hn'.le (by omega)
      rw [h1, div_pow, h2, prod_same (L :: l) L (fun x hx => he x (by rw [hb]; exact hx) L (by rw [hb]; simp)), ← hb, hd]
      field_simp

example : ∃ h : ℝ, generateSmoothing 0 ⟨[10, 10], 2, 1, none⟩ (some 25) = .ok (List.replicate 25 h) ∧ 0 < h ∧
    ((25 : Nat) : ℝ) * (h / 2) ^ 2 = ([10, 10] : List ℝ).prod :=
  c69_spacing 0 (.inl rfl) ⟨[10, 10], 2, 1, none⟩ rfl (by decide) (by simp) (by simp) 25 (by decide)

/-- Types without smoothing lengths, boxes with different sides and types without coordinates are refused. -/
theorem c69_refused (t : Nat) (c : Conf ℝ) (coords : Option Nat) :
    (.smoothingLengths ∉ needs t → generateSmoothing t c coords = .error .runtime) ∧
    (.smoothingLengths ∈ needs t → (∃ x ∈ c.box, ∃ y ∈ c.box, x ≠ y) → generateSmoothing t c coords = .error .value) ∧
    (.smoothingLengths ∈ needs t → (∀ x ∈ c.box, ∀ y ∈ c.box, x = y) → c.box ≠ [] → coords = none →
      generateSmoothing t c coords = .error .attribute) := by
  have hs : Name.smoothingLengths ∈ needs t ↔ Name.smoothingLengths ∈ required t := by
    rw [needs_iff]
    by_cases h0 : t = 0
    · simp [needs, h0]
    · by_cases h4 : t = 4
      · simp [needs, h4]
      · simp [needs, h0, h4]
  unfold generateSmoothing
  refine ⟨?_, ?_, ?_⟩
  · intro h
    rw [if_pos (fun h' => h (hs.mpr h'))]
  · rintro h ⟨x, hx, y, hy, hne⟩
    rw [if_neg (not_not.mpr (hs.mp h)), if_pos]
    rw [noDiff_iff]
    exact fun h' => hne (h' x hx y hy)
  · rintro h he hb rfl
    rw [if_neg (not_not.mpr (hs.mp h)), if_neg (by rw [not_not, noDiff_iff]; exact he)]
    cases hc : c.box with
    | nil => exact absurd hc hb
    | cons L l => rfl

example : generateSmoothing 1 ⟨[10, 10], 2, 1, none⟩ (some 25) = .error .runtime :=
  (c69_refused 1 _ _).1 (by decide)

example : generateSmoothing 4 ⟨[10, 20], 2, 1, none⟩ (some 25) = .error .value :=
  (c69_refused 4 _ _).2.1 (by decide) ⟨10, by simp, 20, by simp, by norm_num⟩

end Verif.Props
