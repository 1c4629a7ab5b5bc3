import Verif.Spec.Writer
import Mathlib.Tactic.Common
import Mathlib.Tactic.Linarith
import Mathlib.Data.List.Dedup
import Mathlib.Data.List.Nodup
import Mathlib.Data.List.Forall2

/-! # Lemmas about the snapshot writer -/

namespace Verif.Writer
open Verif Verif.Spec

variable {α : Type}

theorem mem_required {t : Nat} {n : Name} : n ∈ required t ↔ n = .particleIds ∨ n ∈ needs t := by
  unfold required needs
  by_cases h0 : t = 0
  · subst h0; cases n <;> simp
  · by_cases h4 : t = 4
    · subst h4; cases n <;> simp
    · cases n <;> simp [h0, h4]

theorem ids_not_needed {t : Nat} {n : Name} (h : n ∈ needs t) : n ≠ .particleIds := by
  rintro rfl
  unfold needs at h
  by_cases h0 : t = 0
  · subst h0; simp at h
  · by_cases h4 : t = 4
    · subst h4; simp at h
    · simp [h0, h4] at h

theorem shape_field {g : Group α} {n : Name} (h : n ≠ .particleIds) : g.shape n = (g.field n).map Arr.shape := by
  cases n <;> first | rfl | exact absurd rfl h

theorem checkEmpty_iff (g : Group α) (t : Nat) : checkEmpty g t = !populated g t := by
  rw [Bool.eq_iff_iff]
  unfold checkEmpty populated
  simp only [List.all_eq_true, Bool.not_eq_true', Bool.or_eq_false_iff, List.any_eq_false]
  constructor
  · intro h
    constructor
    · have := h .particleIds (mem_required.mpr (.inl rfl))
      simpa [Group.shape] using this
    · intro n hn
      have := h n (mem_required.mpr (.inr hn))
      rw [shape_field (ids_not_needed hn)] at this
      simpa using this
  · rintro ⟨h1, h2⟩ n hn
    rcases mem_required.mp hn with rfl | hn
    · simpa [Group.shape] using h1
    · rw [shape_field (ids_not_needed hn)]
      simpa using h2 n hn

/-- What a successful loop over sizes says. -/
theorem sizes_ok {g : Group α} {l : List Name} {r : List Nat × Bool} (h : sizes g l = .ok r) :
    (∀ n : Name, n ∈ l → n ≠ .particleIds → g.shape n ≠ none) ∧
      (∀ (n : Name) (s : List Nat), n ∈ l → g.shape n = some s → ∃ (k : Nat) (s' : List Nat), s = k :: s' ∧ k ∈ r.1) ∧
      (r.2 = true ↔ (.particleIds ∈ l ∧ g.shape .particleIds = none)) := by
  induction l generalizing r with
  | nil => cases h; simp
  | cons n l ih =>
    unfold sizes at h
    cases hs : g.shape n with
    | none =>
      rw [hs] at h
      by_cases hn : n = .particleIds
      · subst hn
        rw [if_pos rfl] at h
        cases e : sizes g l with
        | error _ => rw [e] at h; cases h
        | ok q =>
          rw [e] at h; cases h
          obtain ⟨i1, i2, -⟩ := ih e
          refine ⟨?_, ?_, by simp [hs]⟩
          · intro m hm hmi
            rcases List.mem_cons.mp hm with rfl | hm
            · exact absurd rfl hmi
            · exact i1 m hm hmi
          · intro m s hm hms
            rcases List.mem_cons.mp hm with rfl | hm
            · rw [hs] at hms; cases hms
            · exact i2 m s hm hms
      · rw [if_neg hn] at h; cases h
    | some s0 =>
      rw [hs] at h
      cases s0 with
      | nil => cases h
      | cons k s0 =>
        cases e : sizes g l with
        | error _ => simp only [e] at h; cases h
        | ok q =>
          simp only [e] at h; cases h
          obtain ⟨i1, i2, i3⟩ := ih e
          refine ⟨?_, ?_, ?_⟩
          · intro m hm hmi
            rcases List.mem_cons.mp hm with rfl | hm
            · rw [hs]; simp
            · exact i1 m hm hmi
          · intro m s hm hms
            rcases List.mem_cons.mp hm with rfl | hm
            · rw [hs] at hms; cases hms
              exact ⟨k, s0, rfl, List.mem_cons_self ..⟩
            · obtain ⟨k', s', e1, e2⟩ := i2 m s hm hms
              exact ⟨k', s', e1, List.mem_cons_of_mem _ e2⟩
          · simp only
            rw [i3]
            constructor
            · rintro ⟨a, b⟩; exact ⟨List.mem_cons_of_mem _ a, b⟩
            · rintro ⟨a, b⟩
              rcases List.mem_cons.mp a with rfl | a
              · rw [hs] at b; cases b
              · exact ⟨a, b⟩

/-- When all sizes are there and equal the loop succeeds. -/
theorem sizes_of {g : Group α} {l : List Name} {c : Nat}
    (h : ∀ n : Name, n ∈ l → (n = .particleIds ∧ g.shape n = none) ∨ ∃ s : List Nat, g.shape n = some (c :: s)) :
    ∃ r : List Nat × Bool, sizes g l = .ok r ∧ (∀ k : Nat, k ∈ r.1 → k = c) ∧
      ((∃ n : Name, n ∈ l ∧ n ≠ .particleIds) → r.1 ≠ []) := by
  induction l with
  | nil => exact ⟨_, rfl, by simp, by simp⟩
  | cons n l ih =>
    obtain ⟨r, e, i1, i2⟩ := ih (fun m hm => h m (List.mem_cons_of_mem _ hm))
    unfold sizes
    rcases h n (List.mem_cons_self ..) with ⟨hn, hs⟩ | ⟨s, hs⟩
    · rw [hs, if_pos hn, e]
      refine ⟨_, rfl, i1, ?_⟩
      rintro ⟨m, hm, hmi⟩
      rcases List.mem_cons.mp hm with rfl | hm
      · exact absurd hn hmi
      · exact i2 ⟨m, hm, hmi⟩
    · rw [hs]
      simp only [e]
      refine ⟨_, rfl, ?_, fun _ => by simp⟩
      intro k hk
      rcases List.mem_cons.mp hk with rfl | hk
      · rfl
      · exact i1 k hk

theorem shape_cons {a : Arr α} {k : Nat} {s : List Nat} (h : a.shape = k :: s) : a = ⟨some s, a.data⟩ ∧ a.data.length = k := by
  unfold Arr.shape at h
  cases e : a.row with
  | none => rw [e] at h; cases h
  | some r =>
    rw [e] at h
    injection h with h1 h2
    subst h2
    exact ⟨by cases a; simp_all, h1⟩

theorem checkConsistent_iff (g : Group α) (t n : Nat) (m : Bool) :
    checkConsistent g t = .ok (n, m) ↔ Consistent g t n ∧ m = g.ids.isNone := by
  constructor
  · intro h
    unfold checkConsistent at h
    cases e : sizes g (required t) with
    | error _ => rw [e] at h; cases h
    | ok r =>
      rw [e] at h
      simp only [bind, Except.bind] at h
      obtain ⟨h1, h2, h3⟩ := sizes_ok e
      cases hr : r.1 with
      | nil => rw [hr] at h; cases h
      | cons k l =>
        rw [hr] at h
        simp only at h
        split at h
        · cases h
        rename_i hall
        split at h
        · cases h
        rename_i hcv
        cases h
        have heq : ∀ x : Nat, x ∈ r.1 → x = n := by
          intro x hx
          rw [hr] at hx
          simp only [Bool.not_eq_true', Bool.not_eq_false, List.all_eq_true, beq_iff_eq] at hall
          exact (hall x hx).symm
        refine ⟨⟨?_, ?_, ?_⟩, ?_⟩
        · intro x hx
          have hxr : x ∈ required t := mem_required.mpr (.inr hx)
          have hxi := ids_not_needed hx
          have hs := h1 x hxr hxi
          rw [shape_field hxi] at hs
          cases ef : g.field x with
          | none => rw [ef] at hs; exact absurd rfl hs
          | some a =>
            obtain ⟨k', s', e1, e2⟩ := h2 x a.shape hxr (by rw [shape_field hxi, ef]; rfl)
            obtain ⟨e3, e4⟩ := shape_cons e1
            exact ⟨s', a.data, by rw [← e3], by rw [e4, heq k' e2]⟩
        · intro l' hl'
          obtain ⟨k', s', e1, e2⟩ := h2 .particleIds [l'.length] (mem_required.mpr (.inl rfl)) (by
            simp [Group.shape, hl'])
          injection e1 with e1
          rw [e1, heq _ e2]
        · intro a b ha hb
          have : g.shape .coordinates = g.shape .velocities := Classical.byContradiction hcv
          simp only [Group.shape, ha, hb, Option.map_some, Option.some.injEq] at this
          unfold Arr.shape at this
          cases ra : a.row <;> cases rb : b.row <;> rw [ra, rb] at this <;> simp_all
        · rw [Bool.eq_iff_iff, h3]
          simp [mem_required, Group.shape]
  · rintro ⟨⟨hf, hi, hv⟩, rfl⟩
    have hc : ∀ x : Name, x ∈ required t → (x = .particleIds ∧ g.shape x = none) ∨ ∃ s : List Nat, g.shape x = some (n :: s) := by
      intro x hx
      rcases mem_required.mp hx with rfl | hx
      · cases e : g.ids with
        | none => exact .inl ⟨rfl, by simp [Group.shape, e]⟩
        | some l => exact .inr ⟨[], by simp [Group.shape, e, hi l e]⟩
      · obtain ⟨r, d, e1, e2⟩ := hf x hx
        exact .inr ⟨r, by rw [shape_field (ids_not_needed hx), e1, Option.map_some]; simp [Arr.shape, e2]⟩
    obtain ⟨r, e, h1, h2⟩ := sizes_of hc
    have hne := h2 ⟨.coordinates, mem_required.mpr (.inr (by simp [needs])), by simp⟩
    unfold checkConsistent
    rw [e]
    simp only [bind, Except.bind]
    have h3 := (sizes_ok e).2.2
    cases hr : r.1 with
    | nil => exact absurd hr hne
    | cons k l =>
      have hk : k = n := h1 k (by rw [hr]; exact List.mem_cons_self ..)
      subst hk
      simp only
      rw [if_neg, if_neg]
      · congr 2
        rw [Bool.eq_iff_iff, h3]
        simp [mem_required, Group.shape]
      · intro hcv
        apply hcv
        obtain ⟨r1, d1, e1, e2⟩ := hf .coordinates (by simp [needs])
        obtain ⟨r2, d2, e3, e4⟩ := hf .velocities (by simp [needs])
        have := hv _ _ e1 e3
        simp only [Option.some.injEq] at this
        subst this
        simp [Group.shape, e1, e3, Arr.shape, e2, e4]
      · simp only [Bool.not_eq_true', Bool.not_eq_false, List.all_eq_true, beq_iff_eq]
        intro x hx
        exact (h1 x (by rw [hr]; exact hx)).symm

/-- The types that are collected, with their numbers. -/
theorem collect_ok {w : State α} {l : List Nat} {names : List (Nat × Nat × Bool)} (h : collect w l = .ok names) :
    names.map Prod.fst = l.filter (fun t => populated (w t) t) ∧
      ∀ x : Nat × Nat × Bool, x ∈ names → Consistent (w x.1) x.1 x.2.1 ∧ x.2.2 = (w x.1).ids.isNone := by
  induction l generalizing names with
  | nil => cases h; simp
  | cons t l ih =>
    unfold collect at h
    rw [checkEmpty_iff] at h
    by_cases hp : populated (w t) t = true
    · simp only [hp, Bool.not_true, Bool.false_eq_true, if_false] at h
      cases e : checkConsistent (w t) t with
      | error _ => rw [e] at h; cases h
      | ok r =>
        cases e2 : collect w l with
        | error _ => simp only [e, e2] at h; cases h
        | ok q =>
          simp only [e, e2] at h; cases h
          obtain ⟨i1, i2⟩ := ih e2
          refine ⟨by simp [i1, hp], ?_⟩
          intro x hx
          rcases List.mem_cons.mp hx with rfl | hx
          · exact (checkConsistent_iff _ _ _ _).mp e
          · exact i2 x hx
    · simp only [Bool.not_eq_true] at hp
      simp only [hp, Bool.not_false, if_true] at h
      obtain ⟨i1, i2⟩ := ih h
      exact ⟨by simp [i1, hp], i2⟩

theorem collect_of {w : State α} {l : List Nat} (h : ∀ t : Nat, t ∈ l → populated (w t) t = true → ∃ n : Nat, Consistent (w t) t n) :
    ∃ names : List (Nat × Nat × Bool), collect w l = .ok names := by
  induction l with
  | nil => exact ⟨_, rfl⟩
  | cons t l ih =>
    obtain ⟨q, hq⟩ := ih (fun u hu => h u (List.mem_cons_of_mem _ hu))
    unfold collect
    rw [checkEmpty_iff]
    by_cases hp : populated (w t) t = true
    · obtain ⟨n, hn⟩ := h t (List.mem_cons_self ..) hp
      have := (checkConsistent_iff (w t) t n _).mpr ⟨hn, rfl⟩
      simp only [hp, Bool.not_true, Bool.false_eq_true, if_false, this, hq]
      exact ⟨_, rfl⟩
    · simp only [Bool.not_eq_true] at hp
      simp only [hp, Bool.not_false, if_true]
      exact ⟨q, hq⟩

theorem dedup_length_iff {l : List Int} : l.dedup.length = l.length ↔ l.Nodup := by
  constructor
  · intro h
    have := (List.dedup_sublist l).eq_of_length h
    rw [← this]
    exact List.nodup_dedup l
  · intro h
    rw [h.dedup]

theorem arange_nodup (s n : Nat) : (arange s n).Nodup := by
  unfold arange
  exact List.nodup_range.map (fun a b e => by simpa using e)

theorem mem_arange {s n : Nat} {x : Int} : x ∈ arange s n ↔ (s : Int) ≤ x ∧ x < s + n := by
  unfold arange
  rw [List.mem_map]
  constructor
  · rintro ⟨i, hi, rfl⟩
    have := List.mem_range.mp hi
    omega
  · rintro ⟨h1, h2⟩
    exact ⟨(x - s).toNat, List.mem_range.mpr (by omega), by omega⟩

theorem arange_length (s n : Nat) : (arange s n).length = n := by simp [arange]

theorem arange_append (s n m : Nat) : arange s n ++ arange (s + n) m = arange s (n + m) := by
  unfold arange
  rw [List.range_add, List.map_append, List.map_map]
  congr 1
  apply List.map_congr_left
  intro i _
  simp only [Function.comp_apply]
  push_cast
  omega

theorem setIds_arange (g : Group α) (s n : Nat) (hs : 0 < s) : setIds g (arange s n) = .ok { g with ids := some (arange s n) } := by
  unfold setIds
  rw [if_neg, if_neg]
  · rw [not_not, dedup_length_iff]
    exact arange_nodup s n
  · simp only [List.any_eq_true, decide_eq_true_eq, not_exists, not_and]
    intro x hx
    have := mem_arange.mp hx
    omega

/-- Generated IDs: types keep their fields, types in the list get consecutive IDs. -/
theorem generateIds_ok (l : List (Nat × Nat)) (s : Nat) (w : State α) (hs : 0 < s) (hd : (l.map Prod.fst).Nodup) :
    ∃ w' : State α, generateIds l s w = .ok w' ∧ (∀ t : Nat, (w' t).field = (w t).field) ∧
      (∀ t : Nat, t ∉ l.map Prod.fst → w' t = w t) ∧
      (∀ x : Nat × Nat, x ∈ l → ∃ k : Nat, 0 < k ∧ (w' x.1).ids = some (arange k x.2)) ∧
      l.flatMap (fun x => (w' x.1).ids.getD []) = arange s (l.map Prod.snd).sum := by
  induction l generalizing s w with
  | nil => exact ⟨w, rfl, by simp, by simp, by simp, by simp [arange]⟩
  | cons x l ih =>
    obtain ⟨t, n⟩ := x
    rw [List.map_cons, List.nodup_cons] at hd
    obtain ⟨w', e, i1, i2, i3, i4⟩ := ih (s + n) (w.set t { w t with ids := some (arange s n) }) (by omega) hd.2
    have hset : ∀ (g : Group α) (u : Nat), (w.set t g) u = if u = t then g else w u := fun g u => rfl
    refine ⟨w', ?_, ?_, ?_, ?_, ?_⟩
    · rw [generateIds, setIds_arange _ _ _ hs]
      exact e
    · intro u
      rw [i1, hset]
      split
      · rename_i h; rw [h]
      · rfl
    · intro u hu
      rw [List.map_cons, List.mem_cons, not_or] at hu
      rw [i2 u hu.2, hset, if_neg hu.1]
    · intro x hx
      rcases List.mem_cons.mp hx with rfl | hx
      · refine ⟨s, hs, ?_⟩
        rw [i2 t hd.1, hset, if_pos rfl]
      · exact i3 x hx
    · rw [List.flatMap_cons, i4, i2 t hd.1, hset, if_pos rfl, Option.getD_some, List.map_cons, List.sum_cons, arange_append]

theorem toWrite_nodup (w : State α) : (toWrite w).Nodup := List.nodup_range.filter _

end Verif.Writer
