import Verif.Spec.ShapedRows
import Verif.Props.ShapedFormulas
import Verif.Props.ProgramRows

/-!
# C131: formulas of arrays with several dimensions that are read with a mask
-/

namespace Verif.Props
open Verif Verif.Cosmo Verif.Formulas Verif.Spec
open Verif.Shaped (In mem_tuples values_at length_tuples own_left own_right in_axis in_take ravel count)

/-- The table `t'` has the rows `js` of `t`, or both are the same if the flag is not set. -/
def TableRows (n : Nat) (js : List Nat) (b : Bool) (r : Nat) (t t' : NumberTable) : Prop :=
  if b then ∃ u, t.shape = n :: u ∧ t'.shape = js.length :: u ∧ u.length + 1 = r ∧
    ∀ i (h : i < js.length) l, In u l → t'.entry (i :: l) = t.entry (js[i] :: l)
  else t' = t ∧ t.shape.length = r

inductive TableRowsE (n : Nat) (js : List Nat) (b : Bool) (r : Nat) : Except Err NumberTable → Except Err NumberTable → Prop
  | error (e : Err) : TableRowsE n js b r (.error e) (.error e)
  | ok {t t' : NumberTable} (h : TableRows n js b r t t') : TableRowsE n js b r (.ok t) (.ok t')

private theorem TableRowsE.bind {n : Nat} {js : List Nat} {b c : Bool} {r q : Nat} {x x' : Except Err NumberTable} {g g' : NumberTable → Except Err NumberTable}
    (h : TableRowsE n js b r x x') (hg : ∀ t t', TableRows n js b r t t' → TableRowsE n js c q (g t) (g' t')) : TableRowsE n js c q (x.bind g) (x'.bind g') := by
  cases h with
  | error e => exact .error e
  | ok h => exact hg _ _ h

private theorem map_as_bind {α β : Type} (x : Except Err α) (f : α → β) : x.map f = x.bind (fun v => .ok (f v)) := by cases x <;> rfl

private theorem lengthOf_cons (n : Nat) (s : List Nat) (d : Nat) : lengthOf (n :: s) d = if d = s.length then n else lengthOf s d := by
  unfold lengthOf
  rw [List.reverse_cons, List.getD_eq_getElem?_getD, List.getD_eq_getElem?_getD]
  by_cases h : d < s.length
  · rw [List.getElem?_append_left (by simpa using h), if_neg (by omega)]
  · rw [List.getElem?_append_right (by simpa using h), List.length_reverse]
    by_cases h2 : d = s.length
    · simp [h2]
    · rw [if_neg h2, List.getElem?_eq_none (by simp; omega), List.getElem?_eq_none (by simp; omega)]

private theorem lengthOf_long {s : List Nat} {d : Nat} (h : s.length ≤ d) : lengthOf s d = 1 := by simp [lengthOf, h]

private theorem fit_both {n : Nat} {s t : List Nat} (h : s.length = t.length) : Fit (n :: s) (n :: t) ↔ Fit s t := by
  constructor
  · intro hf d
    by_cases hd : d = s.length
    · exact .inr (.inl (lengthOf_long hd.ge))
    · have := hf d
      rwa [lengthOf_cons, lengthOf_cons, if_neg hd, if_neg (h ▸ hd)] at this
  · intro hf d
    by_cases hd : d = s.length
    · left
      rw [lengthOf_cons, lengthOf_cons, if_pos hd, if_pos (h ▸ hd)]
    · rw [lengthOf_cons, lengthOf_cons, if_neg hd, if_neg (h ▸ hd)]
      exact hf d

private theorem fit_left {n : Nat} {s t : List Nat} (h : t.length ≤ s.length) : Fit (n :: s) t ↔ Fit s t := by
  constructor
  · intro hf d
    by_cases hd : d = s.length
    · exact .inr (.inl (lengthOf_long hd.ge))
    · have := hf d
      rwa [lengthOf_cons, if_neg hd] at this
  · intro hf d
    by_cases hd : d = s.length
    · exact .inr (.inr (lengthOf_long (by omega)))
    · rw [lengthOf_cons, if_neg hd]
      exact hf d

private theorem fit_symm {s t : List Nat} : Fit s t ↔ Fit t s :=
  ⟨fun h d => by rcases h d with q | q | q; exacts [.inl q.symm, .inr (.inr q), .inr (.inl q)],
    fun h d => by rcases h d with q | q | q; exacts [.inl q.symm, .inr (.inr q), .inr (.inl q)]⟩

private theorem fitted_both {n : Nat} {s t : List Nat} (h : s.length = t.length) : fitted (n :: s) (n :: t) = n :: fitted s t := by
  unfold fitted
  simp only [List.length_cons, ← h, max_self, List.range_succ, List.reverse_append, List.reverse_cons, List.reverse_nil, List.nil_append,
    List.map_cons, List.cons_append]
  congr 1
  · simp [lengthOf_cons, h]
  · refine List.map_congr_left fun d hd => ?_
    have hd' : d < s.length := by simpa using hd
    have e1 : lengthOf (n :: s) d = lengthOf s d := by rw [lengthOf_cons, if_neg (by omega)]
    have e2 : lengthOf (n :: t) d = lengthOf t d := by rw [lengthOf_cons, if_neg (by omega)]
    rw [e1, e2]

private theorem fitted_left {n : Nat} {s t : List Nat} (h : t.length ≤ s.length) : fitted (n :: s) t = n :: fitted s t := by
  unfold fitted
  rw [List.length_cons, max_eq_left (by omega : t.length ≤ s.length + 1), max_eq_left h]
  simp only [List.range_succ, List.reverse_append, List.reverse_cons, List.reverse_nil, List.nil_append, List.map_cons, List.cons_append]
  congr 1
  · rw [lengthOf_cons, if_pos rfl, lengthOf_long h]
    split
    · rename_i h1; exact h1.symm
    · rfl
  · refine List.map_congr_left fun d hd => ?_
    have hd' : d < s.length := by simpa using hd
    have e1 : lengthOf (n :: s) d = lengthOf s d := by rw [lengthOf_cons, if_neg (by omega)]
    rw [e1]

private theorem fitted_right {n : Nat} {s t : List Nat} (h : s.length ≤ t.length) : fitted s (n :: t) = n :: fitted s t := by
  unfold fitted
  rw [List.length_cons, max_eq_right (by omega : s.length ≤ t.length + 1), max_eq_right h]
  simp only [List.range_succ, List.reverse_append, List.reverse_cons, List.reverse_nil, List.nil_append, List.map_cons, List.cons_append]
  congr 1
  · rw [lengthOf_cons, if_pos rfl, lengthOf_long h, if_pos rfl]
  · refine List.map_congr_left fun d hd => ?_
    have hd' : d < t.length := by simpa using hd
    have e1 : lengthOf (n :: t) d = lengthOf t d := by rw [lengthOf_cons, if_neg (by omega)]
    rw [e1]

private theorem own_cons {n i : Nat} {s l : List Nat} (hi : i < n) (h : l.length = s.length) : own (n :: s) (i :: l) = i :: own s l := by
  have : (if n = 1 then 0 else i) = i := by
    split
    · omega
    · rfl
  simp [own, h, this]

private theorem own_skip {i : Nat} {s l : List Nat} (h : s.length ≤ l.length) : own s (i :: l) = own s l := by
  unfold own
  rw [List.length_cons, show l.length + 1 - s.length = (l.length - s.length) + 1 by omega, List.drop_succ_cons]

private theorem zip_pos {f : ℝ → ℝ → ℝ} {x y : NumberTable} {s t : List Nat} (hs : x.shape = s) (ht : y.shape = t) (h : Fit s t) :
    x.zip f y = .ok ⟨fitted s t, fun l => f (x.entry (own s l)) (y.entry (own t l))⟩ := by
  subst hs ht
  exact if_pos h

private theorem zip_neg {f : ℝ → ℝ → ℝ} {x y : NumberTable} {s t : List Nat} (hs : x.shape = s) (ht : y.shape = t) (h : ¬ Fit s t) :
    x.zip f y = .error .value := by
  subst hs ht
  exact if_neg h

private theorem sel_both {n : Nat} {js : List Nat} (hjs : ∀ j ∈ js, j < n) {f : ℝ → ℝ → ℝ} {r : Nat} {x x' y y' : NumberTable} (hx : TableRows n js true r x x')
    (hy : TableRows n js true r y y') : TableRowsE n js true r (x.zip f y) (x'.zip f y') := by
  obtain ⟨s, a1, a2, a3, a4⟩ := hx
  obtain ⟨t, b1, b2, b3, b4⟩ := hy
  have hst : s.length = t.length := by omega
  by_cases hf : Fit s t
  · rw [zip_pos a1 b1 ((fit_both hst).2 hf), zip_pos a2 b2 ((fit_both hst).2 hf)]
    refine .ok ⟨fitted s t, fitted_both hst, fitted_both hst, by rw [Shaped.length_fitted, hst, max_self]; omega, fun i hi l hl => ?_⟩
    have hll : l.length = s.length := by
      have := hl.length_eq
      rw [Shaped.length_fitted, hst, max_self] at this
      omega
    have hj : js[i] < n := hjs _ (List.getElem_mem hi)
    simp only
    rw [own_cons hi hll, own_cons hi (hll.trans hst), own_cons hj hll, own_cons hj (hll.trans hst), a4 i hi _ (own_left hl), b4 i hi _ (own_right hf hl)]
  · rw [zip_neg a1 b1 (fun h => hf ((fit_both hst).1 h)), zip_neg a2 b2 (fun h => hf ((fit_both hst).1 h))]
    exact .error _

private theorem sel_left {n : Nat} {js : List Nat} (hjs : ∀ j ∈ js, j < n) {f : ℝ → ℝ → ℝ} {r r' : Nat} {x x' y y' : NumberTable} (hx : TableRows n js true r x x')
    (hy : TableRows n js false r' y y') (hr : r' < r) : TableRowsE n js true r (x.zip f y) (x'.zip f y') := by
  obtain ⟨s, a1, a2, a3, a4⟩ := hx
  obtain ⟨rfl, b⟩ := hy
  have hst : y'.shape.length ≤ s.length := by omega
  by_cases hf : Fit s y'.shape
  · rw [zip_pos a1 rfl ((fit_left hst).2 hf), zip_pos a2 rfl ((fit_left hst).2 hf)]
    refine .ok ⟨fitted s y'.shape, fitted_left hst, fitted_left hst, by rw [Shaped.length_fitted, max_eq_left hst]; omega, fun i hi l hl => ?_⟩
    have hll : l.length = s.length := by
      have := hl.length_eq
      rw [Shaped.length_fitted, max_eq_left hst] at this
      omega
    have hj : js[i] < n := hjs _ (List.getElem_mem hi)
    simp only
    rw [own_cons hi hll, own_cons hj hll, own_skip (by omega), own_skip (by omega), a4 i hi _ (own_left hl)]
  · rw [zip_neg a1 rfl (fun h => hf ((fit_left hst).1 h)), zip_neg a2 rfl (fun h => hf ((fit_left hst).1 h))]
    exact .error _

private theorem sel_right {n : Nat} {js : List Nat} (hjs : ∀ j ∈ js, j < n) {f : ℝ → ℝ → ℝ} {r r' : Nat} {x x' y y' : NumberTable} (hx : TableRows n js false r' x x')
    (hy : TableRows n js true r y y') (hr : r' < r) : TableRowsE n js true r (x.zip f y) (x'.zip f y') := by
  obtain ⟨t, a1, a2, a3, a4⟩ := hy
  obtain ⟨rfl, b⟩ := hx
  have hst : x'.shape.length ≤ t.length := by omega
  by_cases hf : Fit x'.shape t
  · have h1 : ∀ m, Fit x'.shape (m :: t) := fun m => fit_symm.1 ((fit_left hst).2 (fit_symm.1 hf))
    rw [zip_pos rfl a1 (h1 _), zip_pos rfl a2 (h1 _)]
    refine .ok ⟨fitted x'.shape t, fitted_right hst, fitted_right hst, by rw [Shaped.length_fitted, max_eq_right hst]; omega, fun i hi l hl => ?_⟩
    have hll : l.length = t.length := by
      have := hl.length_eq
      rw [Shaped.length_fitted, max_eq_right hst] at this
      omega
    have hj : js[i] < n := hjs _ (List.getElem_mem hi)
    simp only
    rw [own_cons hi hll, own_cons hj hll, own_skip (by omega), own_skip (by omega), a4 i hi _ (own_right hf hl)]
  · have h1 : ∀ m, ¬ Fit x'.shape (m :: t) := fun m h => hf (fit_symm.1 ((fit_left hst).1 (fit_symm.1 h)))
    rw [zip_neg rfl a1 (h1 _), zip_neg rfl a2 (h1 _)]
    exact .error _

private theorem axis_length {k : Nat} {s : List Nat} (h : k < s.length) : (s.take k ++ s.drop (k + 1)).length = s.length - 1 := by simp; omega

/-- Rows of the formula of tables. -/
theorem table_rows {n : Nat} {js : List Nat} (hjs : ∀ j ∈ js, j < n) {rank : Nat → Nat} {row : Nat → Bool} {vals vals' : Nat → NumberTable}
    (hv : ∀ i, TableRows n js (row i) (rank i) (vals i) (vals' i)) {e : Shaped.Expr} {b : Bool} {r : Nat} (h : PerRow rank row e b r) :
    TableRowsE n js b r (shapedMeaning vals e) (shapedMeaning vals' e) := by
  induction h with
  | var i => exact .ok (hv i)
  | nums s v => exact .ok ⟨rfl, rfl⟩
  | both h h' ih ih' => exact ih.bind (fun x x' hx => ih'.bind (fun y y' hy => sel_both hjs hx hy))
  | left h h' hr ih ih' => exact ih.bind (fun x x' hx => ih'.bind (fun y y' hy => sel_left hjs hx hy hr))
  | right h h' hr ih ih' => exact ih.bind (fun x x' hx => ih'.bind (fun y y' hy => sel_right hjs hx hy hr))
  | neither h h' ih ih' =>
    refine ih.bind (fun x x' hx => ih'.bind (fun y y' hy => ?_))
    obtain ⟨rfl, hx⟩ := hx
    obtain ⟨rfl, hy⟩ := hy
    by_cases hf : Fit x'.shape y'.shape
    · rw [zip_pos rfl rfl hf]
      exact .ok ⟨rfl, by rw [Shaped.length_fitted, hx, hy]⟩
    · rw [zip_neg rfl rfl hf]
      exact .error _
  | @one f e b r h ih =>
    simp only [shapedMeaning]
    rw [map_as_bind, map_as_bind]
    refine ih.bind (fun x x' hx => .ok ?_)
    cases b with
    | false =>
      obtain ⟨rfl, hx⟩ := hx
      exact ⟨rfl, hx⟩
    | true =>
      obtain ⟨s, a1, a2, a3, a4⟩ := hx
      exact ⟨s, a1, a2, a3, fun i hi l hl => congrArg (numbers1 f) (a4 i hi l hl)⟩
  | @pow e b r q h ih =>
    simp only [shapedMeaning]
    rw [map_as_bind, map_as_bind]
    refine ih.bind (fun x x' hx => .ok ?_)
    cases b with
    | false =>
      obtain ⟨rfl, hx⟩ := hx
      exact ⟨rfl, hx⟩
    | true =>
      obtain ⟨s, a1, a2, a3, a4⟩ := hx
      exact ⟨s, a1, a2, a3, fun i hi l hl => congrArg (· ^ q) (a4 i hi l hl)⟩
  | total h ih =>
    simp only [shapedMeaning]
    rw [map_as_bind, map_as_bind]
    refine ih.bind (fun x x' hx => .ok ?_)
    obtain ⟨rfl, hx⟩ := hx
    exact ⟨rfl, rfl⟩
  | @reduce g e b r k h hk ih =>
    refine ih.bind (fun x x' hx => ?_)
    cases b with
    | false =>
      obtain ⟨rfl, hx⟩ := hx
      by_cases hd : k < x'.shape.length
      · rw [List.getElem?_eq_getElem hd]
        exact .ok ⟨rfl, by rw [← hx]; exact axis_length hd⟩
      · rw [List.getElem?_eq_none (not_lt.1 hd)]
        exact .error _
    | true =>
      obtain ⟨s, a1, a2, a3, a4⟩ := hx
      obtain ⟨k, rfl⟩ := Nat.exists_eq_succ_of_ne_zero (hk rfl)
      rw [a1, a2, List.getElem?_cons_succ, List.getElem?_cons_succ]
      by_cases hd : k < s.length
      · rw [List.getElem?_eq_getElem hd]
        refine .ok ⟨s.take k ++ s.drop (k + 1), rfl, rfl, by rw [axis_length hd]; omega, fun i hi l hl => ?_⟩
        rw [← List.eraseIdx_eq_take_drop_succ] at hl
        refine congrArg g (List.map_congr_left fun j hj => a4 i hi _ (in_axis hd ?_ hl))
        rw [List.getD_eq_getElem?_getD, List.getElem?_eq_getElem hd]
        exact List.mem_range.1 hj
      · rw [List.getElem?_eq_none (not_lt.1 hd)]
        exact .error _
  | @select j e b r k h hk ih =>
    refine ih.bind (fun x x' hx => ?_)
    cases b with
    | false =>
      obtain ⟨rfl, hx⟩ := hx
      by_cases hd : k < x'.shape.length
      · rw [List.getElem?_eq_getElem hd]
        dsimp only
        split
        · exact .ok ⟨rfl, by rw [← hx]; exact axis_length hd⟩
        · exact .error _
      · rw [List.getElem?_eq_none (not_lt.1 hd)]
        exact .error _
    | true =>
      obtain ⟨s, a1, a2, a3, a4⟩ := hx
      obtain ⟨k, rfl⟩ := Nat.exists_eq_succ_of_ne_zero (hk rfl)
      rw [a1, a2, List.getElem?_cons_succ, List.getElem?_cons_succ]
      by_cases hd : k < s.length
      · rw [List.getElem?_eq_getElem hd]
        dsimp only
        split
        · rename_i hj
          refine .ok ⟨s.take k ++ s.drop (k + 1), rfl, rfl, by rw [axis_length hd]; omega, fun i hi l hl => ?_⟩
          rw [← List.eraseIdx_eq_take_drop_succ] at hl
          refine a4 i hi _ (in_axis hd ?_ hl)
          rw [List.getD_eq_getElem?_getD, List.getElem?_eq_getElem hd]
          exact hj
        · exact .error _
      · rw [List.getElem?_eq_none (not_lt.1 hd)]
        exact .error _
  | @take ls e b r k h hk ih =>
    refine ih.bind (fun x x' hx => ?_)
    cases b with
    | false =>
      obtain ⟨rfl, hx⟩ := hx
      by_cases hd : k < x'.shape.length
      · rw [List.getElem?_eq_getElem hd]
        dsimp only
        split
        · refine .ok ⟨rfl, ?_⟩
          rw [← hx]
          simp
          omega
        · exact .error _
      · rw [List.getElem?_eq_none (not_lt.1 hd)]
        exact .error _
    | true =>
      obtain ⟨s, a1, a2, a3, a4⟩ := hx
      obtain ⟨k, rfl⟩ := Nat.exists_eq_succ_of_ne_zero (hk rfl)
      rw [a1, a2, List.getElem?_cons_succ, List.getElem?_cons_succ]
      by_cases hd : k < s.length
      · rw [List.getElem?_eq_getElem hd]
        dsimp only
        split
        · rename_i hj
          have hset : s.set k ls.length = s.take k ++ ls.length :: s.drop (k + 1) := by
            rw [List.set_eq_take_append_cons_drop, if_pos hd]
          refine .ok ⟨s.take k ++ ls.length :: s.drop (k + 1), rfl, rfl, by rw [← hset, List.length_set]; exact a3, fun i hi l hl => ?_⟩
          rw [← hset] at hl
          refine a4 i hi _ (in_take hd ?_ hl)
          intro j hj'
          rw [List.getD_eq_getElem?_getD, List.getElem?_eq_getElem hd]
          exact hj j hj'
        · exact .error _
      · rw [List.getElem?_eq_none (not_lt.1 hd)]
        exact .error _
  | @newaxis e b r k h hk ih =>
    refine ih.bind (fun x x' hx => ?_)
    cases b with
    | false =>
      obtain ⟨rfl, hx⟩ := hx
      by_cases hd : k ≤ x'.shape.length
      · rw [if_pos hd]
        refine .ok ⟨rfl, ?_⟩
        rw [← hx]
        simp
        omega
      · rw [if_neg hd]
        exact .error _
    | true =>
      obtain ⟨s, a1, a2, a3, a4⟩ := hx
      obtain ⟨k, rfl⟩ := Nat.exists_eq_succ_of_ne_zero (hk rfl)
      rw [a1, a2]
      by_cases hd : k ≤ s.length
      · rw [if_pos (by simpa using hd), if_pos (by simpa using hd)]
        refine .ok ⟨s.take k ++ 1 :: s.drop k, rfl, rfl, by simp; omega, fun i hi l hl => ?_⟩
        refine a4 i hi _ ?_
        have h1 := List.forall₂_take k hl
        have h2 := List.forall₂_drop (k + 1) hl
        have e : (s.take k).length = k := by simp; omega
        rw [List.take_append_of_le_length (by rw [e]), List.take_of_length_le (by rw [e])] at h1
        rw [List.drop_append, e, List.drop_of_length_le (by rw [e]; omega), List.nil_append, Nat.add_sub_cancel_left, List.drop_succ_cons, List.drop_zero] at h2
        have h3 : In (s.take k ++ s.drop k) (l.take k ++ l.drop (k + 1)) := List.rel_append h1 h2
        rwa [List.take_append_drop] at h3
      · rw [if_neg (by simpa using hd), if_neg (by simpa using hd)]
        exact .error _
  | @reshape e r s h ih =>
    refine ih.bind (fun x x' hx => ?_)
    obtain ⟨rfl, hx⟩ := hx
    split
    · exact .ok ⟨rfl, rfl⟩
    · exact .error _
  | transpose h ih =>
    simp only [shapedMeaning]
    rw [map_as_bind, map_as_bind]
    refine ih.bind (fun x x' hx => .ok ?_)
    obtain ⟨rfl, hx⟩ := hx
    exact ⟨rfl, by rw [← hx]; exact List.length_reverse⟩
  | physical h ih => exact ih
  | comoving h ih => exact ih

private theorem flatten_at {c : Nat} : ∀ {R : List (List ℝ)} {i p : Nat}, (∀ r ∈ R, r.length = c) → i < R.length → p < c →
    R.flatten.getD (i * c + p) 0 = (R.getD i []).getD p 0
  | r :: R, 0, p, hw, hi, hp => by
    have h1 : r.length = c := hw r (by simp)
    simp [List.getElem?_append_left (show p < r.length by omega)]
  | r :: R, i + 1, p, hw, hi, hp => by
    have h1 : r.length = c := hw r (by simp)
    have ih := flatten_at (R := R) (i := i) (p := p) (fun r hr => hw r (by simp [hr])) (by simpa using hi) hp
    rw [List.flatten_cons, List.getD_cons_succ, ← ih, List.getD_eq_getElem?_getD, List.getD_eq_getElem?_getD,
      List.getElem?_append_right (by rw [h1, Nat.succ_mul]; omega), h1, show (i + 1) * c + p - c = i * c + p by rw [Nat.succ_mul]; omega]

private theorem flatten_length {c : Nat} : ∀ {R : List (List ℝ)}, (∀ r ∈ R, r.length = c) → R.flatten.length = R.length * c
  | [], _ => by simp
  | r :: R, h => by
    rw [List.flatten_cons, List.length_append, flatten_length (fun r hr => h r (by simp [hr])), h r (by simp), List.length_cons, Nat.succ_mul, Nat.add_comm]

theorem holds_length {n : Nat} {u : List Nat} {R : List (List ℝ)} {v : List ℝ} (h : HoldsRows n u R v) : v.length = (tuples (n :: u)).length := by
  rw [h.vals, flatten_length h.width, h.count, length_tuples, length_tuples]
  rfl

private theorem entry_rows {n : Nat} {u : List Nat} {R : List (List ℝ)} {v : List ℝ} (h : HoldsRows n u R v) {i : Nat} (hi : i < n) {l : List Nat} (hl : In u l) :
    (tableOf (n :: u) v).entry (i :: l) = (R.getD i []).getD (ravel u l) 0 := by
  have h1 : In (n :: u) (i :: l) := .cons hi hl
  have h2 := values_at (t := tableOf (n :: u) v) h1
  rw [Shaped.values_tableOf (by rw [holds_length h, length_tuples])] at h2
  rw [← h2, h.vals, ← flatten_at (c := (tuples u).length) h.width (by rw [h.count]; exact hi) (by rw [length_tuples]; exact Shaped.ravel_lt hl), length_tuples]
  rfl

private theorem select_at {R R' : List (List ℝ)} {rows : List Int} (h : R'.map some = select R rows) {i : Nat} (hi : i < rows.length) :
    R'.getD i [] = R.getD (rows[i].toNat) [] := by
  have h1 := congrArg (fun l => l[i]?) h
  simp only [select, List.getElem?_map, List.getElem?_eq_getElem hi, Option.map_some] at h1
  have h2 : i < R'.length := by
    have := congrArg List.length h
    simp [select] at this
    omega
  rw [List.getElem?_eq_getElem h2, Option.map_some, Option.some.injEq, valueAt] at h1
  split at h1
  · cases h1
  · rw [List.getD_eq_getElem?_getD, List.getD_eq_getElem?_getD, List.getElem?_eq_getElem h2, ← h1]

theorem table_rows_of {n : Nat} {rows : List Int} (hrows : ∀ r ∈ rows, 0 ≤ r ∧ r < n) {s s' : List Nat} {v v' : List ℝ}
    (h : RowsOfShaped n rows s v s' v') : TableRows n (rows.map Int.toNat) true s.length (tableOf s v) (tableOf s' v') := by
  obtain ⟨u, R, R', rfl, rfl, h1, h2, h3⟩ := h
  refine ⟨u, rfl, by rw [List.length_map]; rfl, rfl, fun i hi l hl => ?_⟩
  have hi' : i < rows.length := by simpa using hi
  have hr := hrows _ (List.getElem_mem hi')
  rw [entry_rows h2 hi' hl, List.getElem_map, entry_rows h1 (by omega) hl, select_at h3 hi']

theorem rows_of_table {n : Nat} {rows : List Int} (hrows : ∀ r ∈ rows, 0 ≤ r ∧ r < n) {q : Nat} {t t' : NumberTable}
    (h : TableRows n (rows.map Int.toNat) true q t t') : RowsOfShaped n rows t.shape t.values t'.shape t'.values := by
  obtain ⟨u, a1, a2, -, a4⟩ := h
  rw [List.length_map] at a2
  refine ⟨u, (List.range n).map (fun i => (tuples u).map fun l => t.entry (i :: l)),
    (List.range rows.length).map (fun i => (tuples u).map fun l => t'.entry (i :: l)), a1, a2, ⟨by simp, ?_, ?_⟩, ⟨by simp, ?_, ?_⟩, ?_⟩
  · simp
  · rw [NumberTable.values, a1, tuples, List.map_flatMap, List.flatMap_def]
    simp only [List.map_map]
    rfl
  · simp
  · rw [NumberTable.values, a2, tuples, List.map_flatMap, List.flatMap_def]
    simp only [List.map_map]
    rfl
  · refine List.ext_getElem (by simp [select]) fun i h1 h2 => ?_
    have hi : i < rows.length := by simpa [select] using h2
    have hr := hrows _ (List.getElem_mem hi)
    simp only [select, List.getElem_map, List.getElem_range, valueAt]
    rw [if_neg (by omega), List.getElem?_map, List.getElem?_range (by omega)]
    simp only [Option.map_some, Option.some.injEq]
    refine List.map_congr_left fun l hl => ?_
    have := a4 i (by simpa using hi) l (mem_tuples.1 hl)
    rwa [List.getElem_map] at this

/-- C131: a formula that works row by row, of arrays that hold some rows of other arrays, gives those rows of the formula of the other
arrays: shapes and physical values, whatever the frames; and it is refused exactly if that one is. -/
theorem c131_rows {a : ℝ} (ha : 0 < a) {ks : Nat → ℝ} {shapes shapes' : Nat → List Nat} {env env' : Nat → Arr} (henv : ∀ i, Conv a (ks i) (env i))
    (henv' : ∀ i, Conv a (ks i) (env' i)) (hlen : ∀ i, (env i).val.length = (tuples (shapes i)).length)
    (hlen' : ∀ i, (env' i).val.length = (tuples (shapes' i)).length) {n : Nat} {rows : List Int} (hrows : ∀ r ∈ rows, 0 ≤ r ∧ r < n) {row : Nat → Bool}
    (hr : ∀ i, row i = true → RowsOfShaped n rows (shapes i) (env i).phys (shapes' i) (env' i).phys)
    (hf : ∀ i, row i = false → shapes' i = shapes i ∧ (env' i).phys = (env i).phys) {e : Shaped.Expr} {k : ℝ} (h : ShapedDimension ks e k) {q : Nat}
    (he : PerRow (fun i => (shapes i).length) row e true q) :
    (∃ err, Shaped.eval shapes env e = .error err ∧ Shaped.eval shapes' env' e = .error err) ∨
    ∃ x x', Shaped.eval shapes env e = .ok x ∧ Shaped.eval shapes' env' e = .ok x' ∧ RowsOfShaped n rows x.shape x.val.phys x'.shape x'.val.phys := by
  have hs := table_rows (n := n) (js := rows.map Int.toNat) (by
      intro j hj
      obtain ⟨r, hr, rfl⟩ := List.mem_map.1 hj
      have := hrows r hr
      omega) (vals := fun i => tableOf (shapes i) (env i).phys) (vals' := fun i => tableOf (shapes' i) (env' i).phys) (fun i => by
      cases hi : row i with
      | true => exact table_rows_of hrows (hr i hi)
      | false => exact ⟨by rw [(hf i hi).1, (hf i hi).2], rfl⟩) he
  have e1 := c130_value ha henv hlen h
  have e2 := c130_value ha henv' hlen' h
  revert hs e1 e2
  generalize shapedMeaning (fun i => tableOf (shapes i) (env i).phys) e = T
  generalize shapedMeaning (fun i => tableOf (shapes' i) (env' i).phys) e = T'
  intro hs e1 e2
  cases hs with
  | error err =>
    left
    refine ⟨err, ?_, ?_⟩
    · cases hx : Shaped.eval shapes env e with
      | error _ => rw [hx] at e1; cases e1; rfl
      | ok _ => rw [hx] at e1; cases e1
    · cases hx : Shaped.eval shapes' env' e with
      | error _ => rw [hx] at e2; cases e2; rfl
      | ok _ => rw [hx] at e2; cases e2
  | @ok t t' hs =>
    right
    cases hx : Shaped.eval shapes env e with
    | error _ => rw [hx] at e1; cases e1
    | ok x =>
      cases hx' : Shaped.eval shapes' env' e with
      | error _ => rw [hx'] at e2; cases e2
      | ok x' =>
        rw [hx] at e1
        rw [hx'] at e2
        simp only [Except.map, Except.ok.injEq, Prod.mk.injEq] at e1 e2
        refine ⟨x, x', rfl, rfl, ?_⟩
        rw [e1.1, e1.2, e2.1, e2.2]
        exact rows_of_table hrows hs

theorem row_variable {rank : Nat → Nat} {row : Nat → Bool} {e : Shaped.Expr} {b : Bool} {r : Nat} (h : PerRow rank row e b r) (hb : b = true) :
    ∃ i, row i = true := by
  induction h with
  | var i => exact ⟨i, hb⟩
  | both _ _ ih _ => exact ih hb
  | left _ _ _ ih _ => exact ih hb
  | right _ _ _ _ ih => exact ih hb
  | one _ ih => exact ih hb
  | pow _ _ ih => exact ih hb
  | reduce _ _ ih => exact ih hb
  | select _ _ ih => exact ih hb
  | take _ _ ih => exact ih hb
  | newaxis _ _ ih => exact ih hb
  | physical _ ih => exact ih hb
  | comoving _ ih => exact ih hb
  | _ => cases hb

theorem phys_map {x y : Arr} (h : y.comoving = x.comoving ∧ y.cf = x.cf) : ∃ φ : ℝ → ℝ, x.phys = x.val.map φ ∧ y.phys = y.val.map φ := by
  unfold Arr.phys
  rw [h.1, h.2]
  split
  · exact ⟨_, rfl, rfl⟩
  · exact ⟨id, by simp, by simp⟩

section
open Verif.Accel Verif.Mask
variable {K : Type} [Field K] [LinearOrder K] [IsStrictOrderedRing K] {m : Nat}

/-- C131: the same for fields of which a mask reads some rows, whatever the layouts of the fields: the rows of the formula of those fields
are what the mask would read from a field that holds the formula of all rows. -/
theorem c131_masked (f : File K m) (hf : WF f) (ops : List (Op K)) (hi : ∀ op ∈ ops, IndicesOk f op) (p : Fin m) (lay : Nat → Layout)
    (hlay : ∀ i, lay i ≠ .remote ∧ ∀ c, lay i = .chunked c → 0 < c) {a : ℝ} (ha : 0 < a) {ks : Nat → ℝ} {shapes shapes' : Nat → List Nat} {env env' : Nat → Arr}
    (henv : ∀ i, Conv a (ks i) (env i)) (hlen : ∀ i, (env i).val.length = (tuples (shapes i)).length) {row : Nat → Bool} {u : Nat → List Nat}
    {R R' : Nat → List (List ℝ)} (hr : ∀ i, row i = true → shapes i = f.rows p :: u i ∧ HoldsRows (f.rows p) (u i) (R i) (env i).val ∧
      load (run f ops) (lay i) (R i) p = .ok ((R' i).map some) ∧ shapes' i = (R' i).length :: u i ∧ HoldsRows (R' i).length (u i) (R' i) (env' i).val)
    (hfix : ∀ i, row i = false → shapes' i = shapes i ∧ (env' i).val = (env i).val)
    (hattr : ∀ i, (env' i).comoving = (env i).comoving ∧ (env' i).cf = (env i).cf ∧ (env' i).vt = (env i).vt) {e : Shaped.Expr} {k : ℝ}
    (h : ShapedDimension ks e k) {q : Nat} (he : PerRow (fun i => (shapes i).length) row e true q) :
    (∃ err, Shaped.eval shapes env e = .error err ∧ Shaped.eval shapes' env' e = .error err) ∨
    ∃ x x' v S S', Shaped.eval shapes env e = .ok x ∧ Shaped.eval shapes' env' e = .ok x' ∧ x.shape = f.rows p :: v ∧ x'.shape = S'.length :: v ∧
      HoldsRows (f.rows p) v S x.val.phys ∧ HoldsRows S'.length v S' x'.val.phys ∧
      ∀ l : Layout, l ≠ .remote → (∀ c, l = .chunked c → 0 < c) → load (run f ops) l S p = .ok (S'.map some) := by
  obtain ⟨rows, hrows⟩ := c115_mask_rows f hf ops hi p
  have hsel : ∀ i, row i = true → (R' i).map some = select (R i) rows := by
    intro i hi
    obtain ⟨-, h1, h2, -, -⟩ := hr i hi
    have := hrows (List ℝ) (R i) (lay i) h1.count (hlay i).1 (hlay i).2
    rw [h2] at this
    exact Except.ok.inj this
  have hlen2 : ∀ i, row i = true → (R' i).length = rows.length := by
    intro i hi
    have := congrArg List.length (hsel i hi)
    simpa [select] using this
  have hin : ∀ r ∈ rows, 0 ≤ r ∧ r < (f.rows p : Int) := by
    obtain ⟨i, hi⟩ := row_variable he rfl
    intro r hr'
    have h1 : valueAt (R i) r ∈ (R' i).map some := by
      rw [hsel i hi]
      exact List.mem_map_of_mem hr'
    obtain ⟨w, -, hw⟩ := List.mem_map.1 h1
    unfold valueAt at hw
    split at hw
    · cases hw
    · rename_i h0
      obtain ⟨h2, -⟩ := List.getElem?_eq_some_iff.1 hw.symm
      have h3 := (hr i hi).2.1.count
      omega
  have hconv : ∀ i, Conv a (ks i) (env' i) := by
    intro i
    obtain ⟨h1, h2, h3, h4⟩ := henv i
    obtain ⟨g1, g2, g3⟩ := hattr i
    exact ⟨h1, g2.trans h2, g3.trans h3, by rw [g1]; exact h4⟩
  have hp : ∀ i, ∃ φ : ℝ → ℝ, (env i).phys = (env i).val.map φ ∧ (env' i).phys = (env' i).val.map φ := fun i => phys_map ⟨(hattr i).1, (hattr i).2.1⟩
  have hlen' : ∀ i, (env' i).val.length = (tuples (shapes' i)).length := by
    intro i
    cases hi : row i with
    | true =>
      obtain ⟨-, -, -, h1, h2⟩ := hr i hi
      rw [holds_length h2, h1]
    | false => rw [(hfix i hi).1, (hfix i hi).2, hlen i]
  have hmap : ∀ (φ : ℝ → ℝ) {n : Nat} {s : List Nat} {T : List (List ℝ)} {v : List ℝ}, HoldsRows n s T v → HoldsRows n s (T.map (List.map φ)) (v.map φ) := by
    intro φ n s T v hT
    refine ⟨by rw [List.length_map, hT.count], ?_, by rw [hT.vals, List.map_flatten]⟩
    intro t ht
    obtain ⟨t', ht', rfl⟩ := List.mem_map.1 ht
    rw [List.length_map, hT.width t' ht']
  rcases c131_rows ha henv hconv hlen hlen' hin (row := row) (fun i hi => by
      obtain ⟨g1, g2, g3, g4, g5⟩ := hr i hi
      obtain ⟨φ, e1, e2⟩ := hp i
      rw [e1, e2]
      rw [hlen2 i hi] at g4 g5
      refine ⟨u i, (R i).map (List.map φ), (R' i).map (List.map φ), g1, g4, hmap φ g2, hmap φ g5, ?_⟩
      have h1 := congrArg (List.map (Option.map (List.map φ))) (hsel i hi)
      rw [List.map_map] at h1 ⊢
      refine h1.trans ?_
      rw [select, select, List.map_map]
      refine List.map_congr_left fun r _ => ?_
      simp only [Function.comp, valueAt]
      split
      · rfl
      · rw [List.getElem?_map]) (fun i hi => ⟨(hfix i hi).1, by
      obtain ⟨φ, e1, e2⟩ := hp i
      rw [e1, e2, (hfix i hi).2]⟩) h he with h | ⟨x, x', e1, e2, v, S, S', g1, g2, g3, g4, g5⟩
  · exact .inl h
  · have hS : S'.length = rows.length := g4.count
    refine .inr ⟨x, x', v, S, S', e1, e2, g1, by rw [hS]; exact g2, g3, by rw [hS]; exact g4, fun l hl hc => ?_⟩
    rw [hrows _ S l g3.count hl hc, g5]

end

private theorem flatten_ones : ∀ {R : List (List ℝ)}, (∀ r ∈ R, r.length = 1) → R.flatten = R.map (fun r => r.getD 0 0)
  | [], _ => rfl
  | r :: R, h => by
    obtain ⟨c, rfl⟩ := List.length_eq_one_iff.1 (h r (by simp))
    rw [List.flatten_cons, flatten_ones (fun r hr => h r (by simp [hr]))]
    rfl

private theorem radii_rows {shapes : Nat → List Nat} {n d : Nat} (h0 : shapes 0 = [n, d]) (h1 : shapes 1 = [d]) :
    PerRow (fun i => (shapes i).length) (fun i => i == 0) radii true 1 := by
  have p0 : PerRow (fun i => (shapes i).length) (fun i => i == 0) (.var 0) true 2 := by
    have := PerRow.var (rank := fun i => (shapes i).length) (row := fun i => i == 0) 0
    simpa [h0] using this
  have p1 : PerRow (fun i => (shapes i).length) (fun i => i == 0) (.var 1) false 1 := by
    have := PerRow.var (rank := fun i => (shapes i).length) (row := fun i => i == 0) 1
    simpa [h1] using this
  exact .one (.reduce (.one (.left p0 p1 (by simp))) (by simp))

/-- C131: the distances of some rows from a centre are those numbers of the distances of all rows from it. -/
theorem c131_radii {a : ℝ} (ha : 0 < a) {ks : Nat → ℝ} {shapes shapes' : Nat → List Nat} {env env' : Nat → Arr} (henv : ∀ i, Conv a (ks i) (env i))
    (henv' : ∀ i, Conv a (ks i) (env' i)) (hlen : ∀ i, (env i).val.length = (tuples (shapes i)).length)
    (hlen' : ∀ i, (env' i).val.length = (tuples (shapes' i)).length) {n d : Nat} {rows : List Int} (hrows : ∀ r ∈ rows, 0 ≤ r ∧ r < n)
    (h0 : shapes 0 = [n, d]) (h1 : shapes 1 = [d]) (hk : ks 0 = ks 1) (hr : RowsOfShaped n rows (shapes 0) (env 0).phys (shapes' 0) (env' 0).phys)
    (hf : ∀ i, i ≠ 0 → shapes' i = shapes i ∧ (env' i).phys = (env i).phys) :
    ∃ x x', Shaped.eval shapes env radii = .ok x ∧ Shaped.eval shapes' env' radii = .ok x' ∧ x.shape = [n] ∧ x'.shape = [rows.length] ∧
      x'.val.phys.map some = select x.val.phys rows := by
  have e1 := c130_radii ha henv hlen h0 h1 hk
  rcases c131_rows ha henv henv' hlen hlen' hrows (row := fun i => i == 0) (fun i hi => by
      have : i = 0 := by simpa using hi
      rw [this]
      exact hr) (fun i hi => hf i (by simpa using hi)) (radii_scale hk) (radii_rows h0 h1) with ⟨err, g1, -⟩ | ⟨x, x', g1, g2, u, R, R', g3, g4, g5, g6, g7⟩
  · rw [g1] at e1
    cases e1
  · rw [g1] at e1
    simp only [Except.map, Except.ok.injEq, Prod.mk.injEq] at e1
    have hu : u = [] := by
      rw [e1.1] at g3
      simpa using g3.symm
    subst hu
    refine ⟨x, x', g1, g2, g3, g4, ?_⟩
    rw [g5.vals, g6.vals, flatten_ones (fun r hr => g5.width r hr), flatten_ones (fun r hr => g6.width r hr)]
    have h2 := congrArg (List.map (Option.map (fun r : List ℝ => r.getD 0 0))) g7
    rw [List.map_map] at h2 ⊢
    refine h2.trans ?_
    rw [select, select, List.map_map]
    refine List.map_congr_left fun r _ => ?_
    simp only [Function.comp, valueAt]
    split
    · rfl
    · rw [List.getElem?_map]

/-! ### Examples -/

/-- Three positions in a plane and their masses. -/
private noncomputable def allP : Nat → Arr
  | 0 => ⟨[1, 2, 3, 4, 5, 6, 7, 8, 9], some true, some ⟨some 1, some (1 / 2)⟩, true⟩
  | _ => ⟨[1, 2, 3], some false, some ⟨some 0, some (1 / 2)⟩, true⟩

/-- The last two of them. -/
private noncomputable def someP : Nat → Arr
  | 0 => ⟨[4, 5, 6, 7, 8, 9], some true, some ⟨some 1, some (1 / 2)⟩, true⟩
  | _ => ⟨[2, 3], some false, some ⟨some 0, some (1 / 2)⟩, true⟩

private def allS : Nat → List Nat
  | 0 => [3, 3]
  | _ => [3]

private def someS : Nat → List Nat
  | 0 => [2, 3]
  | _ => [2]

private noncomputable def exps : Nat → ℝ
  | 0 => 1
  | _ => 0

private theorem allP_conv (i : Nat) : Conv (1 / 2) (exps i) (allP i) := by
  match i with
  | 0 => exact ⟨by norm_num, rfl, rfl, by simp [allP]⟩
  | i + 1 => exact ⟨by norm_num, rfl, rfl, by simp [allP]⟩

private theorem someP_conv (i : Nat) : Conv (1 / 2) (exps i) (someP i) := by
  match i with
  | 0 => exact ⟨by norm_num, rfl, rfl, by simp [someP]⟩
  | i + 1 => exact ⟨by norm_num, rfl, rfl, by simp [someP]⟩

private theorem allP_length (i : Nat) : (allP i).val.length = (tuples (allS i)).length := by
  match i with
  | 0 => simp [allP, allS, tuples, List.range_succ]
  | i + 1 => simp [allP, allS, tuples, List.range_succ]

private theorem someP_length (i : Nat) : (someP i).val.length = (tuples (someS i)).length := by
  match i with
  | 0 => simp [someP, someS, tuples, List.range_succ]
  | i + 1 => simp [someP, someS, tuples, List.range_succ]

private theorem some_rows (i : Nat) : RowsOfShaped 3 [1, 2] (allS i) (allP i).phys (someS i) (someP i).phys := by
  match i with
  | 0 =>
    refine ⟨[3], [[1 / 2, 1, 3 / 2], [2, 5 / 2, 3], [7 / 2, 4, 9 / 2]], [[2, 5 / 2, 3], [7 / 2, 4, 9 / 2]], rfl, rfl, ⟨rfl, ?_, ?_⟩, ⟨rfl, ?_, ?_⟩, ?_⟩
    · simp [tuples, List.range_succ]
    · simp [allP, Arr.phys, -one_div]
      norm_num
    · simp [tuples, List.range_succ]
    · simp [someP, Arr.phys, -one_div]
      norm_num
    · simp [select, valueAt]
  | i + 1 =>
    refine ⟨[], [[1], [2], [3]], [[2], [3]], rfl, rfl, ⟨rfl, ?_, ?_⟩, ⟨rfl, ?_, ?_⟩, ?_⟩
    · simp [tuples]
    · simp [allP, Arr.phys]
    · simp [tuples]
    · simp [someP, Arr.phys]
    · simp [select, valueAt]

/-- Rows weighted with their masses, `(x * m[:, None]).sum(axis=1)`: the rows of the result. -/
example : ∃ x x', Shaped.eval allS allP (.reduce List.sum 1 (.two .multiply (.var 0) (.newaxis 1 (.var 1)))) = .ok x ∧
    Shaped.eval someS someP (.reduce List.sum 1 (.two .multiply (.var 0) (.newaxis 1 (.var 1)))) = .ok x' ∧
    RowsOfShaped 3 [1, 2] x.shape x.val.phys x'.shape x'.val.phys := by
  have p0 : PerRow (fun i => (allS i).length) (fun _ => true) (.var 0) true 2 :=
    PerRow.var (rank := fun i => (allS i).length) (row := fun _ => true) 0
  have p1 : PerRow (fun i => (allS i).length) (fun _ => true) (.var 1) true 1 :=
    PerRow.var (rank := fun i => (allS i).length) (row := fun _ => true) 1
  have hd : ShapedDimension exps (.reduce List.sum 1 (.two .multiply (.var 0) (.newaxis 1 (.var 1)))) (exps 0 + exps 1) :=
    .reduce (fun c l _ => List.sum_map_mul_right l (fun x => x) c |>.trans (by simp)) 1 (.mul (.var 0) (.newaxis 1 (.var 1)))
  rcases c131_rows (by norm_num) allP_conv someP_conv allP_length someP_length (n := 3) (rows := [1, 2]) (by simp) (row := fun _ => true)
    (fun i _ => some_rows i) (fun i h => by cases h) hd (.reduce (.both p0 (.newaxis p1 (by simp))) (by simp)) with ⟨err, g1, -⟩ | h
  · have h2 := c130_value (by norm_num) allP_conv allP_length hd
    rw [g1] at h2
    have hfit : Fit [3, 3] [3, 1] := by
      intro d
      match d with
      | 0 => exact .inr (.inr rfl)
      | 1 => exact .inl rfl
      | d + 2 => exact .inr (.inl (by simp [lengthOf]))
    have h3 : ∀ f (x y : NumberTable), x.shape = [3, 3] → y.shape = [3, 1] → x.zip f y = .ok ⟨fitted [3, 3] [3, 1], fun l => f (x.entry (own [3, 3] l)) (y.entry (own [3, 1] l))⟩ :=
      fun f x y hx hy => zip_pos hx hy hfit
    simp only [shapedMeaning, Except.bind, show (tableOf (allS 1) (allP 1).phys).shape = [3] from rfl] at h2
    rw [if_pos (by simp)] at h2
    simp only [] at h2
    rw [h3 _ _ _ rfl rfl] at h2
    simp [fitted, lengthOf, List.range_succ, Except.map] at h2
  · exact h

/-- Six comoving positions. -/
private noncomputable def sixR : List (List ℝ) := [[6, 8, 0], [0, 0, 2], [0, 6, 8], [2, 4, 4], [0, 0, 0], [4, 0, 0]]

private noncomputable def sixP : Nat → Arr
  | 0 => ⟨sixR.flatten, some true, some ⟨some 1, some (1 / 2)⟩, true⟩
  | _ => ⟨[0, 0, 0], some false, some ⟨some 1, some (1 / 2)⟩, true⟩

/-- The third and the fourth. -/
private noncomputable def twoR : List (List ℝ) := [[0, 6, 8], [2, 4, 4]]

private noncomputable def twoP : Nat → Arr
  | 0 => ⟨twoR.flatten, some true, some ⟨some 1, some (1 / 2)⟩, true⟩
  | _ => ⟨[0, 0, 0], some false, some ⟨some 1, some (1 / 2)⟩, true⟩

private def sixS : Nat → List Nat
  | 0 => [6, 3]
  | _ => [3]

private def twoS : Nat → List Nat
  | 0 => [2, 3]
  | _ => [3]

open Verif.Accel Verif.Mask in
/-- The distances of the particles in a region from the origin: what the mask of the region would read from the distances of all particles. -/
example : ∃ x x' S S', Shaped.eval sixS sixP radii = .ok x ∧ Shaped.eval twoS twoP radii = .ok x' ∧ x'.shape = [2] ∧
    HoldsRows 6 [] S x.val.phys ∧ HoldsRows 2 [] S' x'.val.phys ∧ load (run exFile regionS) (.chunked 4) S 0 = .ok (S'.map some) := by
  have hc : ∀ i, Conv (1 / 2) 1 (sixP i) := by
    intro i
    match i with
    | 0 => exact ⟨by norm_num, rfl, rfl, by simp [sixP]⟩
    | i + 1 => exact ⟨by norm_num, rfl, rfl, by simp [sixP]⟩
  have hl : ∀ i, (sixP i).val.length = (tuples (sixS i)).length := by
    intro i
    match i with
    | 0 => simp [sixP, sixR, sixS, tuples, List.range_succ]
    | i + 1 => simp [sixP, sixS, tuples, List.range_succ]
  have e1 := c130_radii (n := 6) (d := 3) (by norm_num) hc hl rfl rfl rfl
  rcases c131_masked exFile exFile_wf regionS regionS_ok 0 (fun _ => .contiguous) (fun _ => ⟨by simp, by simp⟩) (a := 1 / 2) (by norm_num) (ks := fun _ => 1)
    (shapes := sixS) (shapes' := twoS) (env := sixP) (env' := twoP) hc hl (row := fun i => i == 0) (u := fun _ => [3]) (R := fun _ => sixR) (R' := fun _ => twoR)
    (fun i hi => by
      have : i = 0 := by simpa using hi
      subst this
      refine ⟨rfl, ⟨rfl, ?_, rfl⟩, ?_, rfl, ⟨rfl, ?_, rfl⟩⟩
      · simp [sixR, tuples, List.range_succ]
      · rw [regionS_loads _ rfl]
        simp [select, valueAt, sixR, twoR]
      · simp [twoR, tuples, List.range_succ]) (fun i hi => by
      match i with
      | 0 => cases hi
      | i + 1 => exact ⟨rfl, rfl⟩) (fun i => by
      match i with
      | 0 => exact ⟨rfl, rfl, rfl⟩
      | i + 1 => exact ⟨rfl, rfl, rfl⟩) (radii_scale rfl) (radii_rows (n := 6) (d := 3) rfl rfl) with ⟨err, g1, -⟩ | ⟨x, x', v, S, S', g1, g2, g3, g4, g5, g6, g7⟩
  · rw [g1] at e1
    cases e1
  · rw [g1] at e1
    simp only [Except.map, Except.ok.injEq, Prod.mk.injEq] at e1
    have hv : v = [] := by
      rw [e1.1] at g3
      exact (List.cons.inj g3).2.symm
    subst hv
    have h2 := g7 (.chunked 4) (by simp) (by simp)
    have h3 : S'.length = 2 := by
      have h4 := g7 .contiguous (by simp) (by simp)
      rw [regionS_loads S g5.count] at h4
      have := congrArg List.length (Except.ok.inj h4)
      simpa [select] using this.symm
    rw [h3] at g4 g6
    exact ⟨x, x', S, S', g1, g2, g4, g5, g6, h2⟩

/-- C131: without the new axis the formula does not work row by row: three rows of three numbers times three numbers is not refused, but
two of those rows times two of those numbers is. -/
theorem c131_rank_fails : ∃ (a : ℝ) (ks : Nat → ℝ) (shapes shapes' : Nat → List Nat) (env env' : Nat → Arr) (e : Shaped.Expr) (k : ℝ), 0 < a ∧
    (∀ i, Conv a (ks i) (env i)) ∧ (∀ i, Conv a (ks i) (env' i)) ∧ (∀ i, (env i).val.length = (tuples (shapes i)).length) ∧
    (∀ i, (env' i).val.length = (tuples (shapes' i)).length) ∧ (∀ i, RowsOfShaped 3 [1, 2] (shapes i) (env i).phys (shapes' i) (env' i).phys) ∧
    ShapedDimension ks e k ∧ (∃ x, Shaped.eval shapes env e = .ok x) ∧ Shaped.eval shapes' env' e = .error .value := by
  refine ⟨1 / 2, exps, allS, someS, allP, someP, .two .multiply (.var 0) (.var 1), exps 0 + exps 1, by norm_num, allP_conv, someP_conv, allP_length, someP_length,
    some_rows, .mul (.var 0) (.var 1), ?_, ?_⟩
  · have h := c130_value (by norm_num) allP_conv allP_length (.mul (.var 0) (.var 1))
    have hfit : Fit [3, 3] [3] := by
      intro d
      match d with
      | 0 => exact .inl rfl
      | 1 => exact .inr (.inr rfl)
      | d + 2 => exact .inr (.inl (by simp [lengthOf]))
    simp only [shapedMeaning, Except.bind] at h
    rw [zip_pos (s := [3, 3]) (t := [3]) rfl rfl hfit] at h
    cases he : Shaped.eval allS allP (.two .multiply (.var 0) (.var 1)) with
    | error e => rw [he] at h; cases h
    | ok x => exact ⟨x, rfl⟩
  · exact c130_rows_refused (n := 2) (d := 3) (by norm_num) someP_conv someP_length rfl rfl (by norm_num) (by norm_num) (by norm_num)

end Verif.Props
