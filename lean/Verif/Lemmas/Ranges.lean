import Verif.Lemmas.Chunks

/-! Helper lemmas for `ranges_from_array` and the coverage of chunk ranges. -/

namespace Verif.Accel
open Verif Verif.Spec

theorem rfaLoop_acc (vs : List Int) : ∀ (s t : Int) (out : List Rng),
    rfaLoop s t vs out = out ++ rfaLoop s t vs [] := by
  induction vs with
  | nil => intro s t out; simp [rfaLoop]
  | cons v vs ih =>
    intro s t out
    unfold rfaLoop
    split
    · rw [ih v v (out ++ _), ih v v ([] ++ _)]; simp
    · rw [ih s v out]

/-- `rfaLoop` without the accumulator. -/
theorem rfaLoop_cons (s t v : Int) (vs : List Int) :
    rfaLoop s t (v :: vs) [] =
      if v ≠ t + 1 then (s, t + 1) :: rfaLoop v v vs [] else rfaLoop s v vs [] := by
  rw [rfaLoop]
  split
  · rw [rfaLoop_acc]; rfl
  · rfl

theorem rowsOfRange_succ (s t : Int) (h : s ≤ t) : rowsOfRange (s, t + 1) = rowsOfRange (s, t) ++ [t] := by
  unfold rowsOfRange
  have : (t + 1 - s).toNat = (t - s).toNat + 1 := by omega
  simp only [this, List.range_succ, List.map_append, List.map_cons, List.map_nil]
  congr 2
  omega

theorem rowsOfRange_single (s : Int) : rowsOfRange (s, s + 1) = [s] := by
  rw [rowsOfRange_succ s s (Int.le_refl s), rowsOfRange_empty rfl, List.nil_append]

theorem rowsOf_rfaLoop (vs : List Int) : ∀ (s t : Int), s ≤ t →
    rowsOf (rfaLoop s t vs []) = rowsOfRange (s, t + 1) ++ vs := by
  induction vs with
  | nil => intro s t _; simp [rfaLoop, rowsOf]
  | cons v vs ih =>
    intro s t h
    rw [rfaLoop_cons]
    split
    · rw [rowsOf_cons, ih v v (Int.le_refl _), rowsOfRange_single]; simp
    · rename_i hv
      have hv : v = t + 1 := by omega
      subst hv
      rw [ih s (t + 1) (by omega), rowsOfRange_succ s (t + 1) (by omega)]
      simp

theorem rfaLoop_first (vs : List Int) : ∀ (s t : Int), ∀ r ∈ rfaLoop s t vs [],
    (s ≤ t → r.1 < r.2) := by
  induction vs with
  | nil => intro s t r hr h; simp [rfaLoop] at hr; subst hr; dsimp only; omega
  | cons v vs ih =>
    intro s t r hr h
    rw [rfaLoop_cons] at hr
    split at hr
    · rcases List.mem_cons.mp hr with rfl | hr
      · dsimp only; omega
      · exact ih v v r hr (Int.le_refl _)
    · exact ih s v r hr (by omega)

/-- Every range of the output starts at or after the start of the open run. -/
theorem rfaLoop_lower (vs : List Int) : ∀ (s t : Int), s ≤ t → (t :: vs).Pairwise (· < ·) →
    ∀ r ∈ rfaLoop s t vs [], s ≤ r.1 := by
  induction vs with
  | nil => intro s t _ _ r hr; simp [rfaLoop] at hr; subst hr; dsimp only; omega
  | cons v vs ih =>
    intro s t hst hp r hr
    have h2 := List.pairwise_cons.mp hp
    have htv := h2.1 v (by simp)
    rw [rfaLoop_cons] at hr
    split at hr
    · rcases List.mem_cons.mp hr with rfl | hr
      · dsimp only; omega
      · have := ih v v (Int.le_refl _) h2.2 r hr; omega
    · exact ih s v (by omega) h2.2 r hr

theorem rfaLoop_gaps (vs : List Int) : ∀ (s t : Int), s ≤ t → (t :: vs).Pairwise (· < ·) →
    (rfaLoop s t vs []).Pairwise (fun a b => a.2 < b.1) := by
  induction vs with
  | nil => intro s t _ _; simp [rfaLoop]
  | cons v vs ih =>
    intro s t hst hp
    have h2 := List.pairwise_cons.mp hp
    have htv := h2.1 v (by simp)
    rw [rfaLoop_cons]
    split
    · rename_i hv
      refine List.pairwise_cons.mpr ⟨?_, ih v v (Int.le_refl _) h2.2⟩
      intro b hb
      have := rfaLoop_lower vs v v (Int.le_refl _) h2.2 b hb
      dsimp only; omega
    · exact ih s v (by omega) h2.2

/-- number of places where the next value is not the successor -/
def breaks : List Int → Nat
  | a :: b :: l => (if b = a + 1 then 0 else 1) + breaks (b :: l)
  | _ => 0

theorem breaks_cons_le (a : Int) (l : List Int) : breaks (a :: l) ≤ breaks l + 1 := by
  cases l with
  | nil => simp [breaks]
  | cons b l => rw [breaks]; split <;> omega

theorem breaks_append_le (a b : List Int) : breaks (a ++ b) ≤ breaks a + breaks b + 1 := by
  induction a with
  | nil => simp [breaks]
  | cons x a ih =>
    cases a with
    | nil => have := breaks_cons_le x b; simp [breaks]; omega
    | cons y a =>
      simp only [List.cons_append] at ih ⊢
      rw [breaks, breaks]
      omega

theorem breaks_range (n : Nat) : ∀ (s : Int), breaks (rowsOfRange (s, s + n)) = 0 := by
  induction n with
  | zero => intro s; simp [rowsOfRange, breaks]
  | succ n ih =>
    intro s
    have h : rowsOfRange (s, s + ((n + 1 : Nat) : Int)) = s :: rowsOfRange (s + 1, s + 1 + n) := by
      unfold rowsOfRange
      have h1 : (s + ((n + 1 : Nat) : Int) - s).toNat = n + 1 := by omega
      have h2 : (s + 1 + (n : Int) - (s + 1)).toNat = n := by omega
      simp only [h1, h2, List.range_succ_eq_map, List.map_cons, List.map_map]
      congr 1
      · simp
      · apply List.map_congr_left; intro k _; simp only [Function.comp]; omega
    rw [h]
    have ih' := ih (s + 1)
    cases n with
    | zero => simp [rowsOfRange, breaks]
    | succ n =>
      have h3 : rowsOfRange (s + 1, s + 1 + ((n + 1 : Nat) : Int)) =
          (s + 1) :: (rowsOfRange (s + 1, s + 1 + ((n + 1 : Nat) : Int))).tail := by
        unfold rowsOfRange
        have h2 : (s + 1 + ((n + 1 : Nat) : Int) - (s + 1)).toNat = n + 1 := by omega
        simp only [h2, List.range_succ_eq_map, List.map_cons, List.tail_cons]
        congr 1; simp
      rw [h3, breaks, ← h3, ih']; simp

theorem breaks_rowsOfRange (r : Rng) : breaks (rowsOfRange r) = 0 := by
  by_cases h : r.2 ≤ r.1
  · have : (r.2 - r.1).toNat = 0 := by omega
    simp [rowsOfRange, this, breaks]
  · have h1 := breaks_range (r.2 - r.1).toNat r.1
    have h2 : r.1 + ((r.2 - r.1).toNat : Int) = r.2 := by omega
    rw [h2] at h1
    exact h1

theorem breaks_rowsOf (rs : List Rng) : breaks (rowsOf rs) ≤ rs.length - 1 := by
  induction rs with
  | nil => simp [rowsOf, breaks]
  | cons r rs ih =>
    rw [rowsOf_cons]
    have h1 := breaks_append_le (rowsOfRange r) (rowsOf rs)
    rw [breaks_rowsOfRange] at h1
    cases rs with
    | nil => simp [rowsOf, breaks_rowsOfRange]
    | cons r' rs => simp only [List.length_cons] at ih ⊢; omega

theorem rfaLoop_length (vs : List Int) : ∀ (s t : Int),
    (rfaLoop s t vs []).length = breaks (t :: vs) + 1 := by
  induction vs with
  | nil => intro s t; simp [rfaLoop, breaks]
  | cons v vs ih =>
    intro s t
    rw [rfaLoop_cons, breaks]
    split
    · rename_i h
      rw [List.length_cons, ih v v]; omega
    · rename_i h
      rw [ih s v, if_pos (by omega)]; omega

theorem mem_rowsOfRange (r : Rng) (i : Int) : i ∈ rowsOfRange r ↔ r.1 ≤ i ∧ i < r.2 := by
  unfold rowsOfRange
  simp only [List.mem_map, List.mem_range]
  constructor
  · rintro ⟨k, hk, rfl⟩; omega
  · rintro ⟨h1, h2⟩; exact ⟨(i - r.1).toNat, by omega, by omega⟩

theorem mem_rowsOf (rs : List Rng) (i : Int) : i ∈ rowsOf rs ↔ ∃ r ∈ rs, r.1 ≤ i ∧ i < r.2 := by
  unfold rowsOf
  simp only [List.mem_flatMap, mem_rowsOfRange]

theorem mem_chunkGo {c n : Int} (hc : 0 < c) (bs : List Rng) : ∀ (cur : Rng), Inv c n cur bs → ∀ i : Int,
    (i ∈ rowsOf (chunkGo c n cur bs) ↔
      (cur.1 ≤ i ∧ i < cur.2) ∨ ∃ b ∈ bs, chLower c b ≤ i ∧ i < chUpper c n b) := by
  induction bs with
  | nil => intro cur _ i; simp [chunkGo, mem_rowsOf]
  | cons b bs ih =>
    intro cur h i
    have hlow := h.lower b (by simp)
    have hup := h.upper b (by simp)
    unfold chunkGo
    split
    · rw [rowsOf_cons, List.mem_append, mem_rowsOfRange, ih _ (h.new hc) i]
      simp only [List.mem_cons, exists_eq_or_imp]
    · rename_i hle
      rw [ih _ (h.merge hc) i]
      simp only [List.mem_cons, exists_eq_or_imp]
      constructor
      · rintro (h1 | h1)
        · by_cases hi : i < cur.2
          · exact Or.inl ⟨h1.1, hi⟩
          · exact Or.inr (Or.inl ⟨by omega, h1.2⟩)
        · exact Or.inr (Or.inr h1)
      · rintro (h1 | h1 | h1)
        · exact Or.inl ⟨h1.1, by omega⟩
        · exact Or.inl ⟨by omega, h1.2⟩
        · exact Or.inr h1

theorem chunkGo_starts {c n : Int} (hc : 0 < c) (bs : List Rng) : ∀ (cur : Rng), Inv c n cur bs →
    (∃ k, cur.1 = k * c) → ((∃ k, cur.2 = k * c) ∨ cur.2 = n) →
    ∀ ch ∈ chunkGo c n cur bs, (∃ k, ch.1 = k * c) ∧ ((∃ k, ch.2 = k * c) ∨ ch.2 = n) := by
  have hupper : ∀ b : Rng, (∃ k, chUpper c n b = k * c) ∨ chUpper c n b = n := by
    intro b; unfold chUpper
    rcases Int.le_total (-((-b.2) / c) * c) n with h | h
    · exact Or.inl ⟨_, Int.min_eq_left h⟩
    · exact Or.inr (Int.min_eq_right h)
  induction bs with
  | nil => intro cur _ h1 h2 ch hch; simp [chunkGo] at hch; subst hch; exact ⟨h1, h2⟩
  | cons b bs ih =>
    intro cur h h1 h2 ch hch
    unfold chunkGo at hch
    split at hch
    · rcases List.mem_cons.mp hch with rfl | hch
      · exact ⟨h1, h2⟩
      · exact ih _ (h.new hc) ⟨_, rfl⟩ (hupper b) ch hch
    · exact ih _ (h.merge hc) h1 (hupper b) ch hch

theorem chunkGo_lower {c n : Int} (hc : 0 < c) (bs : List Rng) : ∀ (cur : Rng), Inv c n cur bs →
    ∀ ch ∈ chunkGo c n cur bs, cur.1 ≤ ch.1 := by
  induction bs with
  | nil => intro cur _ ch hch; simp [chunkGo] at hch; subst hch; exact Int.le_refl _
  | cons b bs ih =>
    intro cur h ch hch
    have hlow := h.lower b (by simp)
    unfold chunkGo at hch
    split at hch
    · rcases List.mem_cons.mp hch with rfl | hch
      · exact Int.le_refl _
      · have := ih _ (h.new hc) ch hch; dsimp only at this; omega
    · exact ih _ (h.merge hc) ch hch

theorem chunkGo_separated {c n : Int} (hc : 0 < c) (bs : List Rng) : ∀ (cur : Rng), Inv c n cur bs →
    (chunkGo c n cur bs).Pairwise (fun a b => a.2 < b.1) := by
  induction bs with
  | nil => intro cur _; simp [chunkGo]
  | cons b bs ih =>
    intro cur h
    unfold chunkGo
    split
    · rename_i hgt
      refine List.pairwise_cons.mpr ⟨?_, ih _ (h.new hc)⟩
      intro ch hch
      have := chunkGo_lower hc bs _ (h.new hc) ch hch
      dsimp only at this
      omega
    · exact ih _ (h.merge hc)

/-- Rows of the aligned hull of a range, by chunk number. -/
theorem hull_iff {c n : Int} (hc : 0 < c) (b : Rng) (i : Int) :
    (chLower c b ≤ i ∧ i < chUpper c n b) ↔ (b.1 / c ≤ i / c ∧ i / c * c < b.2 ∧ i < n) := by
  unfold chLower chUpper
  have e1 : b.1 / c * c ≤ i ↔ b.1 / c ≤ i / c := (Int.le_ediv_iff_mul_le hc).symm
  have e2 : i < -((-b.2) / c) * c ↔ i / c * c < b.2 := by
    rw [← Int.ediv_lt_iff_lt_mul hc]
    have : (i / c * c < b.2) ↔ ¬ (-b.2 / c ≥ -(i / c)) := by
      rw [ge_iff_le, Int.le_ediv_iff_mul_le hc, Int.neg_mul]; omega
    rw [this]; omega
  rw [e1, ← e2]
  omega

end Verif.Accel
