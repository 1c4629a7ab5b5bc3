import Mathlib.Data.List.Count
import Mathlib.Tactic.Linarith
import Mathlib.Tactic.Ring
import Verif.Model.Smoothing

/-!
# C45: smoothing lengths in blocks
-/

namespace Verif.Props
open Verif Verif.Smoothing

private theorem blocks_stop {P β : Type} (work : List P → Except Err (List β)) (B : Nat) (pts : List P) (l : List Nat) (array : List β)
    (h : ∀ b ∈ l, pts.length < b * B) : blocks work B pts l array = .ok array := by
  cases l with
  | nil => rfl
  | cons b bs =>
    have hb := h b (by simp)
    have h2 : b * B ≤ (b + 1) * B := Nat.mul_le_mul_right _ (by omega)
    unfold blocks bounds
    dsimp only
    rw [if_pos (show (b + 1) * B > pts.length by omega), if_pos (by omega)]

private theorem blocks_from {P β : Type} {work : List P → Except Err (List β)} {f : P → β} (hw : ∀ l, work l = .ok (l.map f))
    {B : Nat} (hB : 0 < B) (pts : List P) (k b : Nat) (hk : pts.length < (b + k) * B) (hb : b * B ≤ pts.length) (array : List β)
    (hl : array.length = pts.length) :
    blocks work B pts (List.range' b k) array = .ok (array.take (b * B) ++ (pts.drop (b * B)).map f) := by
  induction k generalizing b array with
  | zero => simp at hk; omega
  | succ k ih =>
    rw [List.range'_succ]
    have e1 : (b + 1) * B = b * B + B := by ring
    unfold blocks bounds
    dsimp only
    by_cases hlast : (b + 1) * B > pts.length
    · rw [if_pos hlast, if_neg (by omega), hw]
      simp only [bind, Except.bind]
      have ha : assign array (b * B) (pts.length + 1) (List.map f (List.drop (b * B) (List.take (pts.length + 1) pts))) =
          .ok (array.take (b * B) ++ (pts.drop (b * B)).map f) := by
        unfold assign
        dsimp only
        rw [hl, min_eq_right (by omega), List.take_of_length_le (by omega), if_pos (by simp),
          List.drop_of_length_le (l := array) (by omega), List.append_nil]
      rw [ha]
      apply blocks_stop
      intro c hc
      rw [List.mem_range'_1] at hc
      have : (b + 1) * B ≤ c * B := Nat.mul_le_mul_right _ hc.1
      omega
    · rw [if_neg hlast, if_neg (by omega), hw]
      simp only [bind, Except.bind]
      have ha : assign array (b * B) ((b + 1) * B) (List.map f (List.drop (b * B) (List.take ((b + 1) * B) pts))) =
          .ok (array.take (b * B) ++ ((pts.take ((b + 1) * B)).drop (b * B)).map f ++ array.drop ((b + 1) * B)) := by
        unfold assign
        dsimp only
        rw [hl, min_eq_left (by omega), if_pos (by simp; omega), max_eq_right (by omega)]
      rw [ha]
      dsimp only
      rw [ih (b + 1) (by rw [show b + 1 + k = b + (k + 1) by omega]; exact hk) (by omega) _ (by simp; omega)]
      congr 1
      have hlen : (array.take (b * B) ++ ((pts.take ((b + 1) * B)).drop (b * B)).map f).length = (b + 1) * B := by
        simp; omega
      rw [List.take_append_of_le_length (by omega), List.take_of_length_le (by omega), List.append_assoc, ← List.map_append]
      congr 2
      conv_rhs => rw [← List.take_append_drop ((b + 1) * B) pts, List.drop_append_of_le_length (by simp; omega)]

/-- C45: what a block writes. Assigning to a slice changes the elements of the slice and no others, and keeps the length; it is refused if the numbers
of values and of elements differ and there is not just one value. -/
theorem c45_assign {β : Type} (array : List β) (s e : Nat) (values : List β) :
    if values.length = 1 ∨ values.length = min e array.length - s then
      ∃ r, assign array s e values = .ok r ∧ r.length = array.length ∧
        ∀ i : Nat, r[i]? = if s ≤ i ∧ i < min e array.length then (if values.length = 1 then values[0]? else values[i - s]?) else array[i]?
    else assign array s e values = .error .value := by
  have key : ∀ (w : List β), w.length = min e array.length - s →
      (array.take s ++ w ++ array.drop (max s (min e array.length))).length = array.length ∧
      ∀ i : Nat, (array.take s ++ w ++ array.drop (max s (min e array.length)))[i]? =
        if s ≤ i ∧ i < min e array.length then w[i - s]? else array[i]? := by
    intro w hw
    constructor
    · simp only [List.length_append, List.length_take, List.length_drop, hw]
      omega
    · intro i
      split
      · rename_i h
        rw [List.getElem?_append_left (by simp only [List.length_append, List.length_take, hw]; omega),
          List.getElem?_append_right (by rw [List.length_take]; omega), List.length_take]
        congr 1
        omega
      · rename_i h
        by_cases hi : i < s
        · by_cases hi2 : i < array.length
          · rw [List.append_assoc, List.getElem?_append_left (by rw [List.length_take]; omega), List.getElem?_take, if_pos hi]
          · rw [List.getElem?_eq_none (by simp only [List.length_append, List.length_take, List.length_drop, hw]; omega),
              List.getElem?_eq_none (by omega)]
        · by_cases hi2 : i < array.length
          · rw [List.getElem?_append_right (by simp only [List.length_append, List.length_take, hw]; omega), List.getElem?_drop]
            congr 1
            simp only [List.length_append, List.length_take, hw]
            omega
          · rw [List.getElem?_eq_none (by simp only [List.length_append, List.length_take, List.length_drop, hw]; omega),
              List.getElem?_eq_none (by omega)]
  unfold assign
  dsimp only
  by_cases h1 : values.length = min e array.length - s
  · rw [if_pos (.inr h1), if_pos h1]
    obtain ⟨a1, a2⟩ := key values h1
    refine ⟨_, rfl, a1, fun i => ?_⟩
    rw [a2]
    split
    · split
      · congr 1
        omega
      · rfl
    · rfl
  · rw [if_neg h1]
    match values, h1 with
    | [v], h1 =>
      rw [if_pos (.inl rfl)]
      obtain ⟨a1, a2⟩ := key (List.replicate (min e array.length - s) v) (by simp)
      refine ⟨_, rfl, a1, fun i => ?_⟩
      rw [a2]
      split
      · rw [List.getElem?_replicate, if_pos (by omega)]
        rfl
      · rfl
    | [], h1 => rw [if_neg (by simp only [List.length_nil] at h1 ⊢; omega)]
    | _ :: _ :: _, h1 => rw [if_neg (by simp only [List.length_cons] at h1 ⊢; omega)]

/-- a block in the middle, one value for all elements, and too few values -/
example : assign [0, 1, 2, 3, 4] 1 3 [7, 8] = .ok [0, 7, 8, 3, 4] ∧ assign [0, 1, 2, 3, 4] 2 9 [7] = .ok [0, 1, 7, 7, 7] ∧
    assign [0, 1, 2, 3, 4] 1 4 [7, 8] = .error .value := by decide +kernel

/-- C45. For every number of particles and block size, working block by block on the array gives every particle the value of
its own query, whatever was in the array before. -/
theorem c45_blocks {P β : Type} {work : List P → Except Err (List β)} {f : P → β} (hw : ∀ l, work l = .ok (l.map f)) {B : Nat}
    (hB : 0 < B) (pts : List P) (array : List β) (hl : array.length = pts.length) :
    blocks work B pts (List.range (numberOfBlocks pts.length B)) array = .ok (pts.map f) := by
  rw [List.range_eq_range']
  have h := blocks_from hw hB pts (numberOfBlocks pts.length B) 0 ?_ (by simp) array hl
  · simpa using h
  · unfold numberOfBlocks
    have := Nat.div_add_mod pts.length B
    have := Nat.mod_lt pts.length hB
    have e : (0 + (1 + pts.length / B)) * B = B + B * (pts.length / B) := by ring
    omega

/-- C45. The blocks handed to the tree are, one after the other, the list of all particles: each is looked up once, in order,
and the loop is not left early. -/
theorem c45_visits {P : Type} {B : Nat} (hB : 0 < B) (pts : List P) :
    ((List.range (numberOfBlocks pts.length B)).flatMap fun b =>
      (pts.take (bounds pts.length B b).2).drop (bounds pts.length B b).1) = pts ∧
    ∀ b < numberOfBlocks pts.length B, (bounds pts.length B b).1 < (bounds pts.length B b).2 := by
  have hd := Nat.div_add_mod pts.length B
  have hm := Nat.mod_lt pts.length hB
  have hB' : ∀ b ≤ pts.length / B, b * B ≤ pts.length := fun b hb => by
    have : b * B ≤ pts.length / B * B := Nat.mul_le_mul_right _ hb
    have e : pts.length / B * B = B * (pts.length / B) := by ring
    omega
  constructor
  · have key : ∀ k ≤ pts.length / B, ((List.range k).flatMap fun b =>
        (pts.take (bounds pts.length B b).2).drop (bounds pts.length B b).1) = pts.take (k * B) := by
      intro k hk
      induction k with
      | zero => simp
      | succ k ih =>
        have e1 : (k + 1) * B = k * B + B := by ring
        have h1 := hB' (k + 1) hk
        rw [List.range_succ, List.flatMap_append, ih (by omega), List.flatMap_singleton]
        unfold bounds
        dsimp only
        rw [if_neg (by omega)]
        conv_rhs => rw [← List.take_append_drop (k * B) (pts.take ((k + 1) * B)), List.take_take, min_eq_left (by omega)]
    unfold numberOfBlocks
    rw [Nat.add_comm, List.range_succ, List.flatMap_append, key _ le_rfl, List.flatMap_singleton]
    unfold bounds
    dsimp only
    have e1 : (pts.length / B + 1) * B = B * (pts.length / B) + B := by ring
    rw [if_pos (by omega), List.take_of_length_le (i := pts.length + 1) (by omega), List.take_append_drop]
  · intro b hb
    unfold numberOfBlocks at hb
    have h1 := hB' b (by omega)
    have e1 : (b + 1) * B = b * B + B := by ring
    unfold bounds
    dsimp only
    split <;> omega

/-- `r` is the distance within which there are `k` particles: at least `k` are not farther, fewer than `k` are nearer. -/
def Encloses {P K : Type} [LinearOrder K] (dist : P → P → K) (pts : List P) (k : Nat) (p : P) (r : K) : Prop :=
  k ≤ pts.countP (fun q => dist p q ≤ r) ∧ pts.countP (fun q => dist p q < r) < k

private theorem sorted_count {K : Type} [LinearOrder K] {l : List K} (hs : l.Pairwise (· ≤ ·)) {k : Nat} (hk : k < l.length) :
    k + 1 ≤ l.countP (fun x => x ≤ l[k]) ∧ l.countP (fun x => x < l[k]) < k + 1 := by
  have h1 : l.countP (fun x => x ≤ l[k]) = (l.take (k + 1)).countP (fun x => x ≤ l[k]) + (l.drop (k + 1)).countP (fun x => x ≤ l[k]) := by
    rw [← List.countP_append, List.take_append_drop]
  have h2 : l.countP (fun x => x < l[k]) = (l.take k).countP (fun x => x < l[k]) + (l.drop k).countP (fun x => x < l[k]) := by
    rw [← List.countP_append, List.take_append_drop]
  constructor
  · have : (l.take (k + 1)).countP (fun x => x ≤ l[k]) = k + 1 := by
      rw [List.countP_eq_length.2]
      · simp; omega
      · intro x hx
        obtain ⟨i, hi, rfl⟩ := List.mem_take_iff_getElem.1 hx
        simp only [decide_eq_true_eq]
        rcases Nat.lt_or_ge i k with h | h
        · exact List.pairwise_iff_getElem.1 hs i k (by omega) hk h
        · have : i = k := by omega
          subst this; exact le_rfl
    omega
  · have a1 : (l.drop k).countP (fun x => x < l[k]) = 0 := by
      rw [List.countP_eq_zero]
      intro x hx
      obtain ⟨i, hi, rfl⟩ := List.mem_drop_iff_getElem.1 hx
      simp only [decide_eq_true_eq, not_lt]
      rcases Nat.eq_zero_or_pos i with h | h
      · subst h; simp
      · exact List.pairwise_iff_getElem.1 hs k (k + i) hk (by omega) (by omega)
    have a2 : (l.take k).countP (fun x => x < l[k]) ≤ (l.take k).length := List.countP_le_length
    simp at a2
    omega

variable {P K : Type} [Field K] [LinearOrder K]

/-- C45, end to end: with two or more neighbours to look for and as many particles, each particle gets, in order, the
distance that encloses `neighbours // speedup_fac` particles (itself among them) times the correction. -/
theorem c45_lengths (dist : P → P → K) {B : Nat} (hB : 0 < B) {neighbours speedup : Nat} (hs : 0 < speedup) (c : K)
    (junk : Nat → Option K) (pts : List P) (hk : 2 ≤ neighbours / speedup) (hn : neighbours / speedup ≤ pts.length) :
    ∃ radii : List K, List.Forall₂ (Encloses dist pts (neighbours / speedup)) pts radii ∧
      generate dist B neighbours speedup c junk pts = .ok (radii.map fun r => some (r * c)) := by
  set k := neighbours / speedup with hkdef
  set sorted : P → List K := fun p => (pts.map (dist p)).insertionSort (· ≤ ·) with hsorted
  have hlen : ∀ p, (sorted p).length = pts.length := by intro p; simp [sorted]
  have hpos : ∀ p, k - 1 < (sorted p).length := by intro p; rw [hlen]; omega
  refine ⟨pts.map fun p => (sorted p)[k - 1]'(hpos p), ?_, ?_⟩
  · rw [List.forall₂_map_right_iff, List.forall₂_same]
    intro p _
    have hsort : (sorted p).Pairwise (· ≤ ·) := List.pairwise_insertionSort _ _
    have hperm : (sorted p).Perm (pts.map (dist p)) := List.perm_insertionSort _ _
    obtain ⟨h1, h2⟩ := sorted_count hsort (hpos p)
    rw [hperm.countP_eq, List.countP_map] at h1 h2
    unfold Encloses
    constructor
    · refine le_trans (by omega) h1
    · refine lt_of_lt_of_le h2 (by omega)
  · have hq : ∀ l, query dist pts k l = .ok (l.map fun p => (sorted p)[k - 1]?) := by
      intro l
      unfold query
      rw [if_neg (by omega), if_neg (by omega)]
    unfold generate
    have hb := c45_blocks hq hB pts ((List.range pts.length).map junk) (by simp)
    rw [if_neg (by omega), if_neg (by omega), ← hkdef, hb]
    simp only [pure, Except.pure, bind, Except.bind, List.map_map]
    congr 1
    apply List.map_congr_left
    intro p _
    simp only [Function.comp_def]
    rw [List.getElem?_eq_getElem (hpos p)]
    rfl

/-- C45, failing part: no particles raise `IndexError` instead of giving an empty array. -/
theorem c45_empty_fails (dist : P → P → K) (B neighbours speedup : Nat) (c : K) (junk : Nat → Option K) :
    generate dist B neighbours speedup c junk [] = .error .index := rfl

/-- C45, failing part: with fewer particles than neighbours to look for all lengths are infinite. -/
theorem c45_few_fails (dist : P → P → K) {B : Nat} (hB : 0 < B) {neighbours speedup : Nat} (hs : 0 < speedup) (c : K)
    (junk : Nat → Option K) (pts : List P) (h0 : pts ≠ []) (hk : 2 ≤ neighbours / speedup)
    (hn : pts.length < neighbours / speedup) :
    generate dist B neighbours speedup c junk pts = .ok (pts.map fun _ => none) := by
  have hq : ∀ l, query dist pts (neighbours / speedup) l = .ok (l.map fun _ => none) := by
    intro l
    unfold query
    rw [if_neg (by omega), if_neg (by omega)]
    congr 1
    apply List.map_congr_left
    intro p _
    rw [List.getElem?_eq_none]
    simp; omega
  unfold generate
  rw [if_neg (by simpa using h0), if_neg (by omega), c45_blocks hq hB pts _ (by simp)]
  simp [pure, Except.pure, bind, Except.bind]

/-- C45, failing part: when only one neighbour is to be found, for instance `neighbours=3` with the default speed-up, indexing
the result raises. -/
theorem c45_single_neighbour_fails (dist : P → P → K) {B : Nat} (hB : 0 < B) {neighbours speedup : Nat} (c : K)
    (junk : Nat → Option K) (pts : List P) (h0 : pts ≠ []) (hk : neighbours / speedup = 1) :
    generate dist B neighbours speedup c junk pts = .error .index := by
  have hs : speedup ≠ 0 := by rintro rfl; simp at hk
  have hl : 0 < pts.length := List.length_pos_iff.2 h0
  have hb : blocks (query dist pts 1) B pts (List.range (numberOfBlocks pts.length B)) ((List.range pts.length).map junk) =
      .error .index := by
    unfold numberOfBlocks
    rw [Nat.add_comm, List.range_succ_eq_map]
    unfold blocks bounds
    dsimp only
    rw [if_neg]
    · simp [query, bind, Except.bind]
    · split <;> omega
  unfold generate
  rw [if_neg (by omega), if_neg hs, hk, hb]
  rfl

/-- Five particles on a line in blocks of two; four neighbours with a speed-up of two. -/
example : generate (fun a b : ℚ => |a - b|) 2 4 2 3 (fun _ => none) [0, 1, 3, 7, 8] =
    .ok [some 3, some 3, some 6, some 3, some 3] := by
  decide +kernel

end Verif.Props
