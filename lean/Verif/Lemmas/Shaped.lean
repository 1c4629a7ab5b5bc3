import Verif.Spec.ShapedFormulas

/-!
# Positions in memory and tuples of indices
-/

namespace Verif.Shaped
open Verif Verif.Spec

/-- The tuple of indices is in an array with the shape. -/
def In (s l : List Nat) : Prop := List.Forall₂ (fun n i => i < n) s l

theorem mem_tuples {s : List Nat} : ∀ {l : List Nat}, l ∈ tuples s ↔ In s l := by
  induction s with
  | nil => intro l; cases l <;> simp [tuples, In]
  | cons n s ih =>
    intro l
    simp only [tuples, List.mem_flatMap, List.mem_range, List.mem_map]
    constructor
    · rintro ⟨i, hi, l', hl, rfl⟩
      exact .cons hi (ih.1 hl)
    · intro h
      cases h with
      | cons h1 h2 => exact ⟨_, h1, _, ih.2 h2, rfl⟩

theorem ravel_lt {s l : List Nat} (h : In s l) : ravel s l < count s := by
  induction h with
  | nil => simp [ravel, count]
  | @cons n i s l hi hl ih =>
    simp only [ravel, count]
    calc i * count s + ravel s l < i * count s + count s := Nat.add_lt_add_left ih _
      _ = (i + 1) * count s := by ring
      _ ≤ n * count s := Nat.mul_le_mul_right _ hi

theorem range_mul (n c : Nat) : (List.range n).flatMap (fun i => (List.range c).map (fun j => i * c + j)) = List.range (n * c) := by
  induction n with
  | zero => simp
  | succ n ih => rw [List.range_succ, List.flatMap_append, ih, List.flatMap_cons, List.flatMap_nil, List.append_nil, Nat.succ_mul, List.range_add]

theorem tuples_ravel (s : List Nat) : (tuples s).map (ravel s) = List.range (count s) := by
  induction s with
  | nil => rfl
  | cons n s ih =>
    rw [tuples, count, ← range_mul, List.map_flatMap]
    refine congrArg (fun F => (List.range n).flatMap F) (funext fun i => ?_)
    rw [List.map_map, ← ih, List.map_map]
    rfl

theorem length_tuples (s : List Nat) : (tuples s).length = count s := by
  have := congrArg List.length (tuples_ravel s)
  simpa using this

/-- All positions are the positions of the tuples of indices. -/
theorem map_range {α : Type} (s : List Nat) (F : Nat → α) : (List.range (count s)).map F = (tuples s).map (fun l => F (ravel s l)) := by
  rw [← tuples_ravel, List.map_map]
  rfl

theorem tuples_get {s l : List Nat} (h : In s l) : (tuples s)[ravel s l]? = some l := by
  obtain ⟨j, hj⟩ := List.mem_iff_getElem?.1 (mem_tuples.2 h)
  have h1 := congrArg (fun L => L[j]?) (tuples_ravel s)
  simp only [List.getElem?_map, hj, Option.map_some] at h1
  have h2 : j < (List.range (count s)).length := by
    by_contra hc
    rw [List.getElem?_eq_none (not_lt.1 hc)] at h1
    cases h1
  rw [List.getElem?_eq_getElem h2, List.getElem_range] at h1
  rw [Option.some.inj h1, hj]

theorem values_at {t : NumberTable} {l : List Nat} (h : In t.shape l) : t.values.getD (ravel t.shape l) 0 = t.entry l := by
  rw [NumberTable.values, List.getD_eq_getElem?_getD, List.getElem?_map, tuples_get h]
  rfl

theorem length_values (t : NumberTable) : t.values.length = count t.shape := by
  rw [NumberTable.values, List.length_map, length_tuples]

theorem unravel_ravel {s l : List Nat} (h : In s l) : unravel s (ravel s l) = l := by
  induction h with
  | nil => rfl
  | @cons n i s l hi hl ih =>
    have hlt := ravel_lt hl
    have hpos : 0 < count s := by omega
    simp only [unravel, ravel]
    rw [Nat.add_comm, Nat.add_mul_div_right _ _ hpos, Nat.div_eq_of_lt hlt, Nat.add_mul_mod_self_right, Nat.mod_eq_of_lt hlt, ih, Nat.zero_add]

theorem lookup_zip {α β : Type} [BEq α] [LawfulBEq α] (d : β) : ∀ (ks : List α) (vs : List β), ks.Nodup → ks.length = vs.length →
    ks.map (fun k => ((ks.zip vs).lookup k).getD d) = vs
  | [], [], _, _ => rfl
  | k :: ks, v :: vs, hn, hl => by
    rw [List.nodup_cons] at hn
    rw [List.map_cons, List.zip_cons_cons]
    congr 1
    · simp [List.lookup]
    · conv_rhs => rw [← lookup_zip d ks vs hn.2 (by simpa using hl)]
      refine List.map_congr_left fun x hx => ?_
      have : (x == k) = false := by
        rw [beq_eq_false_iff_ne]
        rintro rfl
        exact hn.1 hx
      simp [List.lookup, this]
  | [], _ :: _, _, h => by cases h
  | _ :: _, [], _, h => by cases h

theorem nodup_tuples (s : List Nat) : (tuples s).Nodup := by
  have : ((tuples s).map (ravel s)).Nodup := by rw [tuples_ravel]; exact List.nodup_range
  exact List.Nodup.of_map _ this

theorem values_tableOf {s : List Nat} {v : List ℝ} (h : v.length = count s) : (tableOf s v).values = v :=
  lookup_zip 0 _ _ (nodup_tuples s) (by rw [length_tuples, h])

/-! ### Broadcasting -/

theorem pad_eq {L : Nat} {s : List Nat} (h : s.length ≤ L) : pad L s = (List.range L).reverse.map (lengthOf s) := by
  have : (pad L s).reverse = (List.range L).map (lengthOf s) := by
    apply List.ext_getElem
    · simp [pad]; omega
    · intro i h1 h2
      simp only [pad, List.reverse_append, List.reverse_replicate, List.getElem_map, List.getElem_range, lengthOf, List.getD_eq_getElem?_getD]
      by_cases hi : i < s.length
      · rw [List.getElem_append_left (by simpa using hi), List.getElem?_eq_getElem (by simpa using hi)]
        rfl
      · rw [List.getElem_append_right (by simpa using hi), List.getElem_replicate, List.getElem?_eq_none (by simpa using hi)]
        rfl
  rw [List.map_reverse, ← this, List.reverse_reverse]

theorem joinPadded_map (F G : Nat → Nat) (xs : List Nat) :
    ((∀ x ∈ xs, F x = G x ∨ F x = 1 ∨ G x = 1) → joinPadded (xs.map F) (xs.map G) = .ok (xs.map fun x => if F x = 1 then G x else F x)) ∧
    (¬ (∀ x ∈ xs, F x = G x ∨ F x = 1 ∨ G x = 1) → joinPadded (xs.map F) (xs.map G) = .error .value) := by
  induction xs with
  | nil => simp [joinPadded]
  | cons x xs ih =>
    simp only [List.map_cons, joinPadded, List.mem_cons, forall_eq_or_imp]
    constructor
    · rintro ⟨h1, h2⟩
      rw [ih.1 h2]
      simp only [Except.bind]
      rcases h1 with h | h | h
      · by_cases h1 : G x = 1 <;> simp [h, h1]
      · by_cases h1 : G x = 1 <;> simp [h, h1, eq_comm]
      · by_cases h1 : F x = 1 <;> simp [h, h1]
    · intro hn
      by_cases h2 : ∀ x ∈ xs, F x = G x ∨ F x = 1 ∨ G x = 1
      · have h1 : ¬ (F x = G x ∨ F x = 1 ∨ G x = 1) := fun h => hn ⟨h, h2⟩
        push Not at h1
        rw [ih.1 h2]
        simp [Except.bind, h1]
      · rw [ih.2 h2]
        rfl

theorem join_ok {s t : List Nat} (h : Fit s t) : join s t = .ok (fitted s t) := by
  rw [join, pad_eq (le_max_left _ _), pad_eq (le_max_right _ _)]
  exact (joinPadded_map _ _ _).1 (fun d _ => h d)

theorem join_error {s t : List Nat} (h : ¬ Fit s t) : join s t = .error .value := by
  rw [join, pad_eq (le_max_left _ _), pad_eq (le_max_right _ _)]
  refine (joinPadded_map _ _ _).2 (fun hh => h (fun d => ?_))
  by_cases hd : d < max s.length t.length
  · exact hh d (by simpa using hd)
  · have : s.length ≤ d := by omega
    right; left
    simp [lengthOf, this]

theorem length_fitted (s t : List Nat) : (fitted s t).length = max s.length t.length := by simp [fitted]

theorem source_ravel {p r : List Nat} (hp : p.length = r.length) : ∀ {l : List Nat}, In r l →
    source p r (ravel r l) = ravel p (List.zipWith (fun n i => if n = 1 then 0 else i) p l) := by
  induction p generalizing r with
  | nil => intro l _; rfl
  | cons m p ih =>
    intro l h
    cases h with
    | nil => cases hp
    | @cons n i r l hi hl =>
      have hlt := ravel_lt hl
      have hpos : 0 < count r := by omega
      simp only [source, ravel, List.zipWith_cons_cons]
      rw [Nat.add_comm (i * count r), Nat.add_mul_div_right _ _ hpos, Nat.div_eq_of_lt hlt, Nat.add_mul_mod_self_right, Nat.mod_eq_of_lt hlt,
        Nat.zero_add, ih (by simpa using hp) hl]

theorem ravel_pad (s : List Nat) (m : Nat) : ∀ l : List Nat, m ≤ l.length →
    ravel (List.replicate m 1 ++ s) (List.zipWith (fun n i => if n = 1 then 0 else i) (List.replicate m 1 ++ s) l) =
      ravel s (List.zipWith (fun n i => if n = 1 then 0 else i) s (l.drop m)) := by
  induction m with
  | zero => intro l _; rfl
  | succ m ih =>
    intro l hl
    cases l with
    | nil => cases hl
    | cons i l => simp [List.replicate_succ, ravel, ih l (by simpa using hl)]

theorem source_own {s r l : List Nat} (hs : s.length ≤ r.length) (h : In r l) : source (pad r.length s) r (ravel r l) = ravel s (own s l) := by
  have hl : r.length = l.length := h.length_eq
  rw [source_ravel (by simp [pad]; omega) h, pad, ravel_pad _ _ _ (by omega), own, hl]

theorem own_in {s r l : List Nat} (hs : s.length ≤ r.length) (h : In r l)
    (hd : ∀ d, d < s.length → lengthOf s d ≠ 1 → lengthOf r d = lengthOf s d) : In s (own s l) := by
  have hl : r.length = l.length := h.length_eq
  have hg := (List.forall₂_iff_get.1 h).2
  refine List.forall₂_iff_get.2 ⟨by simp [own]; omega, fun i h1 h2 => ?_⟩
  simp only [own, List.get_eq_getElem, List.getElem_zipWith, List.getElem_drop]
  have e1 : lengthOf s (s.length - 1 - i) = s[i] := by
    rw [lengthOf, List.getD_eq_getElem?_getD, List.getElem?_eq_getElem (by simp; omega), List.getElem_reverse]
    simp only [Option.getD_some]
    congr 1
    omega
  have e2 : lengthOf r (s.length - 1 - i) = r[l.length - s.length + i]'(by omega) := by
    rw [lengthOf, List.getD_eq_getElem?_getD, List.getElem?_eq_getElem (by simp; omega), List.getElem_reverse]
    simp only [Option.getD_some]
    congr 1
    omega
  by_cases h1' : s[i] = 1
  · simp [h1']
  · rw [if_neg h1', ← e1, ← hd (s.length - 1 - i) (by omega) (by rw [e1]; exact h1'), e2]
    exact hg (l.length - s.length + i) (by omega) (by omega)

theorem lengthOf_fitted {s t : List Nat} {d : Nat} (hd : d < max s.length t.length) :
    lengthOf (fitted s t) d = if lengthOf s d = 1 then lengthOf t d else lengthOf s d := by
  rw [lengthOf, fitted, List.map_reverse, List.reverse_reverse, List.getD_eq_getElem?_getD, List.getElem?_map,
    List.getElem?_eq_getElem (by simpa using hd), List.getElem_range]
  rfl

theorem own_left {s t l : List Nat} (h : In (fitted s t) l) : In s (own s l) :=
  own_in (by rw [length_fitted]; exact le_max_left _ _) h (fun d hd h1 => by rw [lengthOf_fitted (lt_max_of_lt_left hd), if_neg h1])

theorem own_right {s t l : List Nat} (hf : Fit s t) (h : In (fitted s t) l) : In t (own t l) :=
  own_in (by rw [length_fitted]; exact le_max_right _ _) h (fun d hd h1 => by
    rw [lengthOf_fitted (lt_max_of_lt_right hd)]
    split
    · rfl
    · rename_i h2
      rcases hf d with h3 | h3 | h3
      · exact h3
      · exact absurd h3 h2
      · exact absurd h3 h1)

/-- The numbers of an operation on two arrays. -/
theorem numShaped_values {f : ℝ → ℝ → ℝ} {x y : NumberTable} :
    numShaped f x.shape y.shape [x.values, y.values] = (x.zip f y).map NumberTable.values := by
  unfold numShaped NumberTable.zip
  by_cases h : Fit x.shape y.shape
  · rw [join_ok h, if_pos h]
    simp only [Except.map, NumberTable.values]
    rw [map_range]
    refine congrArg Except.ok (List.map_congr_left fun l hl => ?_)
    have hl' := mem_tuples.1 hl
    rw [source_own (by rw [length_fitted]; exact le_max_left _ _) hl', source_own (by rw [length_fitted]; exact le_max_right _ _) hl']
    have e1 := values_at (t := x) (own_left hl')
    have e2 := values_at (t := y) (own_right h hl')
    rw [NumberTable.values] at e1 e2
    rw [e1, e2]
  · rw [join_error h, if_neg h]
    rfl

/-! ### Axes -/

theorem getD_get {l : List Nat} {k : Nat} (h : k < l.length) : l.getD k 0 = l[k] := by simp [h]

theorem count_append (s t : List Nat) : count (s ++ t) = count s * count t := by
  induction s with
  | nil => simp [count]
  | cons n s ih => simp [count, ih, Nat.mul_assoc]

theorem count_split {s : List Nat} {k : Nat} (hk : k < s.length) : count s = count (s.take k) * s.getD k 0 * count (s.drop (k + 1)) := by
  conv_lhs => rw [← List.take_append_drop k s, List.drop_eq_getElem_cons hk]
  rw [count_append, count, getD_get hk, Nat.mul_assoc]

theorem ravel_axis {j : Nat} : ∀ {k : Nat} {s l : List Nat}, k < s.length → In (s.eraseIdx k) l →
    ravel s (l.take k ++ j :: l.drop k) = onAxis (s.getD k 0) (count (s.drop (k + 1))) (ravel (s.eraseIdx k) l) j
  | 0, n :: s, l, _, h => by
    have hlt := ravel_lt h
    simp only [List.eraseIdx_zero, List.tail_cons] at hlt
    simp only [List.take_zero, List.drop_zero, List.nil_append, ravel, onAxis, List.getD_cons_zero, List.drop_succ_cons,
      List.eraseIdx_zero, List.tail_cons, Nat.div_eq_of_lt hlt, Nat.mod_eq_of_lt hlt, Nat.zero_mul, Nat.zero_add]
  | k + 1, m :: s, l, hk, h => by
    have hk' : k < s.length := by simpa using hk
    rw [List.eraseIdx_cons_succ] at h
    cases h with
    | @cons _ i _ l hi hl =>
      have ih := ravel_axis (j := j) hk' hl
      have hlt := ravel_lt hl
      have hc : count (s.eraseIdx k) = count (s.take k) * count (s.drop (k + 1)) := by
        rw [List.eraseIdx_eq_take_drop_succ, count_append]
      have hpos : 0 < count (s.drop (k + 1)) := by
        rcases Nat.eq_zero_or_pos (count (s.drop (k + 1))) with h0 | h0
        · rw [hc, h0] at hlt; omega
        · exact h0
      simp only [List.take_succ_cons, List.drop_succ_cons, List.cons_append, ravel, ih, List.eraseIdx_cons_succ, List.getD_cons_succ, onAxis]
      have e : ∀ p : Nat, i * (count (s.take k) * count (s.drop (k + 1))) + p = p + i * count (s.take k) * count (s.drop (k + 1)) := fun p => by ring
      rw [hc, count_split hk', e, Nat.add_mul_div_right _ _ hpos, Nat.add_mul_mod_self_right]
      ring

theorem ravel_take {js : List Nat} : ∀ {k : Nat} {s l : List Nat}, k < s.length → In (s.set k js.length) l →
    ravel s (l.take k ++ js.getD (l.getD k 0) 0 :: l.drop (k + 1)) =
      (ravel (s.set k js.length) l / count (s.drop (k + 1)) / js.length * s.getD k 0 +
        js.getD (ravel (s.set k js.length) l / count (s.drop (k + 1)) % js.length) 0) * count (s.drop (k + 1)) +
      ravel (s.set k js.length) l % count (s.drop (k + 1))
  | 0, n :: s, l, _, h => by
    rw [List.set_cons_zero] at h
    cases h with
    | @cons _ i _ l hi hl =>
      have hlt := ravel_lt hl
      have hpos : 0 < count s := by omega
      simp only [List.take_zero, List.drop_zero, List.nil_append, ravel, List.getD_cons_zero, List.drop_succ_cons, List.set_cons_zero]
      rw [Nat.add_comm (i * _), Nat.add_mul_div_right _ _ hpos, Nat.add_mul_mod_self_right, Nat.div_eq_of_lt hlt, Nat.mod_eq_of_lt hlt,
        Nat.zero_add, Nat.div_eq_of_lt hi, Nat.mod_eq_of_lt hi, Nat.zero_mul, Nat.zero_add]
  | k + 1, m :: s, l, hk, h => by
    have hk' : k < s.length := by simpa using hk
    rw [List.set_cons_succ] at h
    cases h with
    | @cons _ i _ l hi hl =>
      have ih := ravel_take (js := js) hk' hl
      have hlt := ravel_lt hl
      have hc : count (s.set k js.length) = count (s.take k) * js.length * count (s.drop (k + 1)) := by
        rw [count_split (by simpa using hk' : k < (s.set k js.length).length)]
        simp [List.take_set_of_le, List.drop_set_of_lt, hk']
      have hpos : 0 < count (s.drop (k + 1)) := by
        rcases Nat.eq_zero_or_pos (count (s.drop (k + 1))) with h0 | h0
        · rw [hc, h0] at hlt; omega
        · exact h0
      have hjs : 0 < js.length := by
        rcases Nat.eq_zero_or_pos js.length with h0 | h0
        · rw [hc, h0] at hlt; simp at hlt
        · exact h0
      simp only [List.take_succ_cons, List.drop_succ_cons, List.cons_append, ravel, ih, List.set_cons_succ, List.getD_cons_succ]
      have e : ∀ p : Nat, i * (count (s.take k) * js.length * count (s.drop (k + 1))) + p =
          p + i * count (s.take k) * js.length * count (s.drop (k + 1)) := fun p => by ring
      rw [hc, count_split hk', e, Nat.add_mul_div_right _ _ hpos, Nat.add_mul_mod_self_right, Nat.add_mul_div_right _ _ hjs,
        Nat.add_mul_mod_self_right]
      ring

theorem in_axis {j k : Nat} {s l : List Nat} (hk : k < s.length) (hj : j < s.getD k 0) (h : In (s.eraseIdx k) l) :
    In s (l.take k ++ j :: l.drop k) := by
  rw [List.eraseIdx_eq_take_drop_succ] at h
  have h1 := List.forall₂_take k h
  have h2 := List.forall₂_drop k h
  have e : (s.take k).length = k := by simp; omega
  rw [List.take_append_of_le_length (by rw [e]), List.take_of_length_le (by rw [e])] at h1
  rw [List.drop_append_of_le_length (by rw [e]), List.drop_of_length_le (by rw [e]), List.nil_append] at h2
  have : s = s.take k ++ s.getD k 0 :: s.drop (k + 1) := by
    conv_lhs => rw [← List.take_append_drop k s, List.drop_eq_getElem_cons hk]
    rw [getD_get hk]
  rw [this]
  exact List.rel_append h1 (.cons hj h2)

theorem in_take {js : List Nat} {k : Nat} {s l : List Nat} (hk : k < s.length) (hj : ∀ j ∈ js, j < s.getD k 0)
    (h : In (s.set k js.length) l) : In s (l.take k ++ js.getD (l.getD k 0) 0 :: l.drop (k + 1)) := by
  have hs : s.set k js.length = s.take k ++ js.length :: s.drop (k + 1) := by
    rw [List.set_eq_take_append_cons_drop, if_pos hk]
  have hg := (List.forall₂_iff_get.1 h).2
  have hlen : (s.set k js.length).length = l.length := h.length_eq
  have hk2 : k < l.length := by rw [← hlen]; simpa using hk
  have hlk : l.getD k 0 < js.length := by
    have := hg k (by simpa using hk) hk2
    rw [getD_get hk2]
    simpa using this
  have h1 := List.forall₂_take k h
  have h2 := List.forall₂_drop (k + 1) h
  have e : (s.take k).length = k := by simp; omega
  have t1 : (s.set k js.length).take k = s.take k := by simp [List.take_set_of_le]
  have t2 : (s.set k js.length).drop (k + 1) = s.drop (k + 1) := by simp [List.drop_set_of_lt]
  rw [t1] at h1
  rw [t2] at h2
  have : s = s.take k ++ s.getD k 0 :: s.drop (k + 1) := by
    conv_lhs => rw [← List.take_append_drop k s, List.drop_eq_getElem_cons hk]
    rw [getD_get hk]
  rw [this]
  refine List.rel_append h1 (.cons ?_ h2)
  rw [getD_get hlk]
  exact hj _ (List.getElem_mem hlk)

theorem tuples_newaxis : ∀ (k : Nat) (s : List Nat), k ≤ s.length →
    (tuples (s.take k ++ 1 :: s.drop k)).map (fun l => l.take k ++ l.drop (k + 1)) = tuples s
  | 0, s, _ => by simp [tuples, Function.comp_def]
  | k + 1, [], h => by cases h
  | k + 1, n :: s, h => by
    have ih := tuples_newaxis k s (by simpa using h)
    simp only [List.take_succ_cons, List.drop_succ_cons, List.cons_append, tuples, List.map_flatMap, List.map_map, Function.comp_def]
    refine congrArg (fun F => (List.range n).flatMap F) (funext fun i => ?_)
    conv_rhs => rw [← ih]
    rw [List.map_map]
    rfl

end Verif.Shaped
