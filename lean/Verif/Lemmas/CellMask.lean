import Verif.Spec.Mask
import Mathlib.Tactic.Linarith
import Mathlib.Tactic.Ring
import Mathlib.Tactic.FieldSimp
import Mathlib.Tactic.Push
import Mathlib.Tactic.FinCases
import Mathlib.Data.Fintype.Basic
import Mathlib.Data.Fintype.Card
import Mathlib.Algebra.Order.Ring.Cast

namespace Verif.Mask
open Verif Verif.Spec

variable {K : Type} [Field K] [LinearOrder K] {m : Nat}

/-! ### consecutive cells -/

theorem contiguous_le : ∀ (t : List (Int × Int)) (s n : Int), Contiguous s n t → s ≤ n
  | [], _, _, h => by rw [Contiguous] at h; omega
  | _ :: cs, _, _, h => by
    obtain ⟨h1, h2, h3⟩ := h
    have := contiguous_le cs _ _ h3
    omega

theorem contiguous_mem : ∀ (t : List (Int × Int)) (s n : Int), Contiguous s n t → ∀ c ∈ t,
    s ≤ c.1 ∧ 0 ≤ c.2 ∧ c.1 + c.2 ≤ n
  | [], _, _, _, c, hc => by simp at hc
  | c0 :: cs, s, n, h, c, hc => by
    obtain ⟨h1, h2, h3⟩ := h
    have hle := contiguous_le cs _ _ h3
    rcases List.mem_cons.mp hc with rfl | hc
    · exact ⟨by omega, h2, by omega⟩
    · have := contiguous_mem cs _ _ h3 c hc
      exact ⟨by omega, this.2.1, this.2.2⟩

theorem contiguous_sorted : ∀ (t : List (Int × Int)) (s n : Int), Contiguous s n t →
    t.Pairwise (fun a b => a.1 + a.2 ≤ b.1)
  | [], _, _, _ => List.Pairwise.nil
  | c0 :: cs, s, n, h => by
    obtain ⟨h1, h2, h3⟩ := h
    refine List.pairwise_cons.mpr ⟨fun b hb => ?_, contiguous_sorted cs _ _ h3⟩
    have := (contiguous_mem cs _ _ h3 b hb).1
    omega

theorem contiguous_cover : ∀ (t : List (Int × Int)) (s n : Int), Contiguous s n t → ∀ i : Int, s ≤ i → i < n →
    ∃ c ∈ t, c.1 ≤ i ∧ i < c.1 + c.2
  | [], _, _, h, i, h1, h2 => by rw [Contiguous] at h; omega
  | c0 :: cs, s, n, h, i, hs, hn => by
    obtain ⟨h1, h2, h3⟩ := h
    by_cases hi : i < s + c0.2
    · exact ⟨c0, by simp, by omega, by omega⟩
    · obtain ⟨c, hc, hh⟩ := contiguous_cover cs _ _ h3 i (by omega) hn
      exact ⟨c, by simp [hc], hh⟩

theorem _root_.Verif.Spec.WF.nonneg {f : File K m} (hf : WF f) (k : Fin m) (c : Cell K) (hc : c ∈ f.cells k) :
    0 ≤ c.offset ∧ 0 ≤ c.count ∧ c.offset + c.count ≤ f.rows k :=
  contiguous_mem _ _ _ (hf.contiguous k) (c.offset, c.count) (List.mem_map.mpr ⟨c, hc, rfl⟩)

theorem _root_.Verif.Spec.WF.sorted {f : File K m} (hf : WF f) (k : Fin m) :
    (f.cells k).Pairwise (fun a b => a.offset + a.count ≤ b.offset) :=
  List.pairwise_map.mp (contiguous_sorted _ _ _ (hf.contiguous k))

theorem _root_.Verif.Spec.WF.cover {f : File K m} (hf : WF f) (k : Fin m) (i : Int) (h0 : 0 ≤ i) (h1 : i < f.rows k) :
    ∃ c ∈ f.cells k, Holds c i := by
  obtain ⟨t, ht, hh⟩ := contiguous_cover _ _ _ (hf.contiguous k) i h0 h1
  obtain ⟨c, hc, rfl⟩ := List.mem_map.mp ht
  exact ⟨c, hc, hh⟩

theorem compress_map {β : Type} (p : β → Bool) : ∀ xs : List β, compress (xs.map p) xs = xs.filter p
  | [] => by simp [compress]
  | x :: xs => by
    have ih := compress_map p xs
    cases h : p x <;> simp [compress, h, ih]

theorem maskedAssign_map {β : Type} (p q : β → Bool) : ∀ xs : List β,
    maskedAssign (xs.map p) ((xs.filter p).map q) = xs.map (fun x => p x && q x)
  | [] => by simp [maskedAssign]
  | x :: xs => by
    have ih := maskedAssign_map p q xs
    cases h : p x <;> simp [maskedAssign, h, ih]

/-- what one axis of the loop decides for a cell -/
def keepsAxis (box : Fin 3 → K) (reg : Fin 3 → K × K) (d : Fin 3) (c : Cell K) : Bool :=
  if |(reg d).2 - (reg d).1| > box d then true
  else axisKeep (box d) (normaliseAxis (box d) (reg d).1 (reg d).2).1
    (normaliseAxis (box d) (reg d).1 (reg d).2).2 (c.lo d) (c.hi d)

theorem axisStep_map (box : Fin 3 → K) (reg : Fin 3 → K × K) (cells : List (Cell K)) (p : Cell K → Bool)
    (d : Fin 3) :
    axisStep box reg cells (cells.map p) d = cells.map (fun c => p c && keepsAxis box reg d c) := by
  unfold axisStep
  by_cases h : |(reg d).2 - (reg d).1| > box d
  · simp [h, keepsAxis]
  · simp only [h, if_false, keepsAxis]
    rw [compress_map, maskedAssign_map]

theorem cellMaskOf_eq (box : Fin 3 → K) (reg : Fin 3 → K × K) (cells : List (Cell K)) :
    cellMaskOf box reg cells =
      cells.map (fun c => keepsAxis box reg 0 c && keepsAxis box reg 1 c && keepsAxis box reg 2 c) := by
  unfold cellMaskOf
  have h : List.replicate cells.length true = cells.map (fun _ => true) := by simp
  rw [h]
  simp only [List.foldl_cons, List.foldl_nil]
  rw [axisStep_map, axisStep_map, axisStep_map]
  simp [Bool.and_assoc]

variable [IsStrictOrderedRing K]

theorem normalise_window {L lower upper : K} (hl : -L / 2 ≤ lower ∧ lower ≤ 3 * L / 2)
    (hu : -L / 2 ≤ upper ∧ upper ≤ 3 * L / 2) (hw : ¬ |upper - lower| > L) :
    -L / 2 ≤ (normaliseAxis L lower upper).1 ∧ (normaliseAxis L lower upper).2 ≤ 3 * L / 2 ∧
    (normaliseAxis L lower upper).1 ≤ (normaliseAxis L lower upper).2 := by
  have hw' := abs_le.mp (not_lt.mp hw)
  obtain ⟨hl1, hl2⟩ := hl
  obtain ⟨hu1, hu2⟩ := hu
  unfold normaliseAxis
  split_ifs with h1 h2 h3
  · dsimp only; refine ⟨by linarith, by linarith, by linarith⟩
  · dsimp only; refine ⟨by linarith, by linarith, by linarith⟩
  · exfalso; linarith
  · dsimp only; refine ⟨by linarith, by linarith, by linarith⟩

omit [IsStrictOrderedRing K] in
/-- the normalised interval is the requested one up to a whole number of boxes -/
theorem normalise_shift {L : K} (lower upper : K) :
    ∃ j : ℤ, (normaliseAxis L lower upper).1 = lower + (j : K) * L ∧
      (normaliseAxis L lower upper).2 = wrapUpper L lower upper + (j : K) * L := by
  unfold normaliseAxis wrapUpper
  by_cases h1 : upper < lower
  · simp only [h1, if_true]
    by_cases h2 : lower > L / 2
    · refine ⟨-1, ?_, ?_⟩ <;> simp [h2] <;> ring
    · have h3 : upper < L / 2 := lt_of_lt_of_le h1 (not_lt.mp h2)
      refine ⟨0, ?_, ?_⟩ <;> simp [h2, h3]
  · refine ⟨0, ?_, ?_⟩ <;> simp [h1]

omit [IsStrictOrderedRing K] in
theorem axisKeep_iff {L lower upper lo hi : K} :
    axisKeep L lower upper lo hi = true ↔
      ∃ j : ℤ, (j = -1 ∨ j = 0 ∨ j = 1) ∧ lower < hi + (j : K) * L ∧ lo + (j : K) * L < upper := by
  unfold axisKeep
  simp only [List.any_cons, List.any_nil, Bool.or_false, Bool.or_eq_true, Bool.and_eq_true, decide_eq_true_eq]
  constructor
  · rintro (h | h | h)
    · exact ⟨-1, by simp, by push_cast; exact h.1, by push_cast; exact h.2⟩
    · exact ⟨0, by simp, by push_cast; exact h.1, by push_cast; exact h.2⟩
    · exact ⟨1, by simp, by push_cast; exact h.1, by push_cast; exact h.2⟩
  · rintro ⟨j, (rfl | rfl | rfl), h1, h2⟩
    · left; push_cast at h1 h2; exact ⟨h1, h2⟩
    · right; left; push_cast at h1 h2; exact ⟨h1, h2⟩
    · right; right; push_cast at h1 h2; exact ⟨h1, h2⟩

theorem axisKeep_iff_any {L lower upper lo hi : K} (hL : 0 < L) (h1 : -L / 2 ≤ lower) (h2 : upper ≤ 3 * L / 2)
    (h3 : -L / 2 ≤ lo) (h4 : hi ≤ 3 * L / 2) :
    axisKeep L lower upper lo hi = true ↔
      ∃ j : ℤ, lower < hi + (j : K) * L ∧ lo + (j : K) * L < upper := by
  rw [axisKeep_iff]
  constructor
  · rintro ⟨j, _, h⟩; exact ⟨j, h⟩
  · rintro ⟨j, ha, hb⟩
    refine ⟨j, ?_, ha, hb⟩
    have hj1 : (-2 : K) < j := by
      by_contra hc
      have hc' : (j : K) * L ≤ -2 * L := mul_le_mul_of_nonneg_right (not_lt.mp hc) hL.le
      linarith
    have hj2 : (j : K) < 2 := by
      by_contra hc
      have hc' : 2 * L ≤ (j : K) * L := mul_le_mul_of_nonneg_right (not_lt.mp hc) hL.le
      linarith
    have hj1' : (-2 : ℤ) < j := by exact_mod_cast hj1
    have hj2' : j < (2 : ℤ) := by exact_mod_cast hj2
    omega

/-- one axis of the cell test, for a cell and an interval in the accepted window -/
theorem keepsAxis_iff (box : Fin 3 → K) (reg : Fin 3 → K × K) (d : Fin 3) (c : Cell K) (hL : 0 < box d)
    (hl : -box d / 2 ≤ (reg d).1 ∧ (reg d).1 ≤ 3 * box d / 2)
    (hu : -box d / 2 ≤ (reg d).2 ∧ (reg d).2 ≤ 3 * box d / 2)
    (hlo : -box d / 2 ≤ c.lo d) (hhi : c.hi d ≤ 3 * box d / 2) :
    keepsAxis box reg d c = true ↔ MeetsAxis (box d) (reg d).1 (reg d).2 (c.lo d) (c.hi d) := by
  unfold keepsAxis MeetsAxis
  by_cases hw : |(reg d).2 - (reg d).1| > box d
  · simp [hw]
  · obtain ⟨n1, n2, _⟩ := normalise_window hl hu hw
    obtain ⟨s, e1, e2⟩ := normalise_shift (L := box d) (reg d).1 (reg d).2
    rw [if_neg hw, axisKeep_iff_any hL n1 n2 hlo hhi, e1, e2]
    constructor
    · rintro ⟨j, ha, hb⟩
      right
      refine ⟨j - s, ?_, ?_⟩ <;> push_cast <;> linarith
    · rintro (h | ⟨j, ha, hb⟩)
      · exact absurd h hw
      · refine ⟨j + s, ?_, ?_⟩ <;> push_cast <;> linarith

omit [IsStrictOrderedRing K] in
theorem windowOk_iff (L lower upper : K) : windowOk L lower upper = true ↔
    (-L / 2 ≤ lower ∧ lower ≤ 3 * L / 2) ∧ (-L / 2 ≤ upper ∧ upper ≤ 3 * L / 2) := by
  unfold windowOk
  simp only [Bool.not_eq_true', Bool.or_eq_false_iff, decide_eq_false_iff_not, not_lt, gt_iff_lt]
  tauto

omit [IsStrictOrderedRing K] in
theorem regionOk_iff (box : Fin 3 → K) (reg : Fin 3 → K × K) : regionOk box reg = true ↔ InWindow box reg := by
  unfold regionOk InWindow
  simp only [List.all_cons, List.all_nil, Bool.and_true, Bool.and_eq_true, windowOk_iff]
  constructor
  · rintro ⟨h0, h1, h2⟩ d
    fin_cases d
    · exact h0
    · exact h1
    · exact h2
  · intro h; exact ⟨h 0, h 1, h 2⟩

/-- the cell mask of a region is the spec predicate on cells -/
theorem cellMask_meets (f : File K m) (hf : WF f) (reg : Fin 3 → K × K) (hr : InWindow f.box reg) (k : Fin m)
    (c : Cell K) (hc : c ∈ f.cells k) :
    (keepsAxis f.box reg 0 c && keepsAxis f.box reg 1 c && keepsAxis f.box reg 2 c) = true ↔ Meets f.box reg c := by
  have key : ∀ d, keepsAxis f.box reg d c = true ↔ MeetsAxis (f.box d) (reg d).1 (reg d).2 (c.lo d) (c.hi d) := by
    intro d
    exact keepsAxis_iff f.box reg d c (hf.box_pos d) (hr d).1 (hr d).2 (hf.near k c hc d).1 (hf.near k c hc d).2.2
  simp only [Bool.and_eq_true, key, Meets]
  constructor
  · rintro ⟨⟨h0, h1⟩, h2⟩ d
    fin_cases d
    · exact h0
    · exact h1
    · exact h2
  · intro h; exact ⟨⟨h 0, h 1⟩, h 2⟩

omit [IsStrictOrderedRing K] [LinearOrder K] in
theorem sanitizeRow_ok_iff (L : K) (r : Option (List K)) (v : K × K) :
    sanitizeRow L r = .ok v ↔ (r = none ∧ v = (0, L)) ∨ r = some [v.1, v.2] := by
  unfold sanitizeRow
  split
  · simp [eq_comm]
  · rename_i a b
    simp only [Except.ok.injEq, Option.some.injEq, List.cons.injEq, and_true]
    constructor
    · rintro rfl; simp
    · rintro (⟨h, _⟩ | ⟨h1, h2⟩)
      · cases h
      · ext <;> simp [*]
  · rename_i l h
    constructor
    · intro h'; cases h'
    · rintro (⟨h', _⟩ | h')
      · cases h'
      · cases h'; exact absurd rfl (h _ _)

omit [IsStrictOrderedRing K] in
theorem sanitize_ok_iff (box : Fin 3 → K) (rows : List (Option (List K))) (reg : Fin 3 → K × K) :
    sanitizeRegion box rows = .ok reg ↔ RegionIs box rows reg := by
  match rows with
  | [] => simp [sanitizeRegion, RegionIs]
  | [a] => simp [sanitizeRegion, RegionIs]
  | [a, b] => simp [sanitizeRegion, RegionIs]
  | a :: b :: c :: e :: l => simp [sanitizeRegion, RegionIs]
  | [rx, ry, rz] =>
    unfold sanitizeRegion RegionIs
    dsimp only
    constructor
    · intro h
      rcases hx : sanitizeRow (box 0) rx with _ | x
      · rw [hx] at h; cases h
      rcases hy : sanitizeRow (box 1) ry with _ | y
      · rw [hx, hy] at h; cases h
      rcases hz : sanitizeRow (box 2) rz with _ | z
      · rw [hx, hy, hz] at h; cases h
      rw [hx, hy, hz] at h
      have h' : (fun d : Fin 3 => if d = 0 then x else if d = 1 then y else z) = reg := by
        simpa [bind, Except.bind] using h
      subst h'
      refine ⟨rfl, fun d => ?_⟩
      rw [sanitizeRow_ok_iff] at hx hy hz
      fin_cases d
      · simpa using hx
      · simpa using hy
      · simpa using hz
    · rintro ⟨_, h⟩
      have hx : sanitizeRow (box 0) rx = .ok (reg 0) := by rw [sanitizeRow_ok_iff]; simpa using h 0
      have hy : sanitizeRow (box 1) ry = .ok (reg 1) := by rw [sanitizeRow_ok_iff]; simpa using h 1
      have hz : sanitizeRow (box 2) rz = .ok (reg 2) := by rw [sanitizeRow_ok_iff]; simpa using h 2
      rw [hx, hy, hz]
      simp only [bind, Except.bind]
      congr 1
      funext d
      fin_cases d <;> simp

end Verif.Mask
