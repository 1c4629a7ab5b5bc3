import Verif.Model.OrderedSlices
import Verif.Lemmas.Ranges

/-! Helper lemmas for `OrderedSlices`. -/

namespace Verif.Accel
open Verif Verif.Spec

theorem anyOverlap_false_iff (rs : List Rng) (hpos : ∀ r ∈ rs, r.1 < r.2) :
    anyOverlap rs = false ↔ rs.Pairwise (fun a b => a.2 ≤ b.1) := by
  induction rs with
  | nil => simp [anyOverlap]
  | cons a rs ih =>
    cases rs with
    | nil => simp [anyOverlap]
    | cons b rs =>
      rw [anyOverlap, Bool.or_eq_false_iff, ih (fun r hr => hpos r (by simp [hr])),
        List.pairwise_cons (a := a), decide_eq_false_iff_not]
      constructor
      · rintro ⟨h1, h2⟩
        refine ⟨?_, h2⟩
        intro x hx
        rcases List.mem_cons.mp hx with rfl | hx
        · omega
        · have hb := hpos b (by simp)
          have := (List.pairwise_cons.mp h2).1 x hx
          omega
      · rintro ⟨h1, h2⟩
        exact ⟨by have := h1 b (by simp); omega, h2⟩

/-- Merging of adjacent ranges with the open one held separately. -/
def mergeGo : Rng → List Rng → List Rng
  | cur, [] => [cur]
  | cur, b :: rs => if b.1 ≠ cur.2 then cur :: mergeGo b rs else mergeGo (cur.1, b.2) rs

theorem zip_keep (rs : List Rng) : ∀ (s : Int) (a : Rng),
    (s :: keepStarts.go a rs).zip (keepStops (a :: rs)) = mergeGo (s, a.2) rs := by
  induction rs with
  | nil => intro s a; simp [keepStarts.go, keepStops, mergeGo]
  | cons b rs ih =>
    intro s a
    rw [keepStarts.go, keepStops, mergeGo]
    by_cases h : b.1 = a.2
    · have h1 : ¬ (b.1 ≠ a.2) := by simp [h]
      have h2 : ¬ (a.2 ≠ b.1) := by simp [h]
      rw [if_neg h1, if_neg h2, if_neg (by simpa using h), ih]
    · have h2 : a.2 ≠ b.1 := fun e => h e.symm
      rw [if_pos h, if_pos h2, if_pos (by simpa using h), List.zip_cons_cons, ih]

theorem merged_eq (a : Rng) (rs : List Rng) :
    (keepStarts (a :: rs)).zip (keepStops (a :: rs)) = mergeGo a rs := by
  rw [keepStarts, zip_keep]

theorem rowsOfRange_split (s m e : Int) (h1 : s ≤ m) (h2 : m ≤ e) :
    rowsOfRange (s, e) = rowsOfRange (s, m) ++ rowsOfRange (m, e) := by
  unfold rowsOfRange
  have : (e - s).toNat = (m - s).toNat + (e - m).toNat := by omega
  simp only [this, List.range_add, List.map_append, List.map_map]
  congr 1
  apply List.map_congr_left
  intro k _
  simp only [Function.comp]
  omega

theorem rowsOf_mergeGo (rs : List Rng) : ∀ (cur : Rng), (∀ r ∈ cur :: rs, r.1 ≤ r.2) →
    rowsOf (mergeGo cur rs) = rowsOf (cur :: rs) := by
  induction rs with
  | nil => intro cur _; rfl
  | cons b rs ih =>
    intro cur h
    have hc := h cur (by simp)
    have hb := h b (by simp)
    rw [mergeGo]
    split
    · rw [rowsOf_cons, ih b (fun r hr => h r (by simp at hr ⊢; tauto)), rowsOf_cons cur]
    · rename_i he
      have he : b.1 = cur.2 := by omega
      rw [ih]
      · rw [rowsOf_cons, rowsOf_cons, rowsOf_cons, ← List.append_assoc]
        congr 1
        rw [rowsOfRange_split cur.1 cur.2 b.2 hc (by omega)]
        congr 2
        exact Prod.ext he.symm rfl
      · intro r hr
        rcases List.mem_cons.mp hr with rfl | hr
        · dsimp only; omega
        · exact h r (by simp [hr])

theorem mergeGo_spec (rs : List Rng) : ∀ (cur : Rng), (∀ r ∈ cur :: rs, r.1 < r.2) →
    (cur :: rs).Pairwise (fun a b => a.2 ≤ b.1) →
    (∀ r ∈ mergeGo cur rs, r.1 < r.2 ∧ cur.1 ≤ r.1 ∧ ∃ x ∈ cur :: rs, r.2 = x.2) ∧
      (mergeGo cur rs).Pairwise (fun a b => a.2 < b.1) := by
  induction rs with
  | nil =>
    intro cur h _
    refine ⟨?_, by simp [mergeGo]⟩
    intro r hr
    simp [mergeGo] at hr
    subst hr
    exact ⟨h r (by simp), Int.le_refl _, r, by simp, rfl⟩
  | cons b rs ih =>
    intro cur h hp
    have hp' := List.pairwise_cons.mp hp
    have hcb := hp'.1 b (by simp)
    have hc := h cur (by simp)
    have hb := h b (by simp)
    rw [mergeGo]
    split
    · rename_i he
      obtain ⟨h1, h2⟩ := ih b (fun r hr => h r (List.mem_cons_of_mem _ hr)) hp'.2
      refine ⟨?_, List.pairwise_cons.mpr ⟨?_, h2⟩⟩
      · intro r hr
        rcases List.mem_cons.mp hr with rfl | hr
        · exact ⟨hc, Int.le_refl _, r, by simp, rfl⟩
        · obtain ⟨g1, g2, x, hx, g3⟩ := h1 r hr
          exact ⟨g1, by omega, x, List.mem_cons_of_mem _ hx, g3⟩
      · intro r hr
        have := (h1 r hr).2.1
        omega
    · rename_i he
      have hmem : ∀ r ∈ (cur.1, b.2) :: rs, r.1 < r.2 := by
        intro r hr
        rcases List.mem_cons.mp hr with rfl | hr
        · dsimp only; omega
        · exact h r (by simp [hr])
      have hpw : ((cur.1, b.2) :: rs).Pairwise (fun a b => a.2 ≤ b.1) := by
        have := List.pairwise_cons.mp hp'.2
        exact List.pairwise_cons.mpr ⟨this.1, this.2⟩
      obtain ⟨h1, h2⟩ := ih _ hmem hpw
      refine ⟨?_, h2⟩
      intro r hr
      obtain ⟨g1, g2, x, hx, g3⟩ := h1 r hr
      refine ⟨g1, g2, ?_⟩
      rcases List.mem_cons.mp hx with rfl | hx
      · exact ⟨b, by simp, g3⟩
      · exact ⟨x, by simp [hx], g3⟩

theorem serverAccepts_ok (n : Int) (rs : List Rng) (hb : InBounds n rs)
    (hp : rs.Pairwise (fun a b => a.2 < b.1)) : serverAccepts n rs = true := by
  induction rs with
  | nil => rfl
  | cons a rs ih =>
    cases rs with
    | nil => have := hb a (by simp); simp [serverAccepts]; omega
    | cons b rs =>
      have h1 := hb a (by simp)
      have h2 := (List.pairwise_cons.mp hp)
      have h3 := h2.1 b (by simp)
      rw [serverAccepts, ih (fun r hr => hb r (by simp at hr ⊢; tauto)) h2.2]
      simp; omega

theorem flatMap_slices {α : Type} (ds : List α) (rs : List Rng) (hb : InBounds ds.length rs) :
    rs.flatMap (fun r => ((ds.drop r.1.toNat).take (r.2 - r.1).toNat).map some) = select ds (rowsOf rs) := by
  induction rs with
  | nil => rfl
  | cons r rs ih =>
    obtain ⟨h0, h1, h2⟩ := hb r (by simp)
    rw [List.flatMap_cons, ih (fun x hx => hb x (by simp [hx])), slice_eq_select ds r h0 h1 h2, rowsOf_cons,
      select_append]

theorem rowsOf_filter (rs : List Rng) :
    rowsOf (rs.filter (fun r => decide (r.2 - r.1 > 0))) = rowsOf rs := by
  induction rs with
  | nil => rfl
  | cons r rs ih =>
    by_cases h : r.2 - r.1 > 0
    · rw [List.filter_cons_of_pos (by simpa using h), rowsOf_cons, rowsOf_cons, ih]
    · rw [List.filter_cons_of_neg (by simpa using h), rowsOf_cons, ih]
      have : (r.2 - r.1).toNat = 0 := by omega
      simp [rowsOfRange, this]

/-! ### permutations -/

theorem argsort_perm (xs : List Int) : (argsort xs).Perm (List.range xs.length) := by
  unfold argsort
  have h1 := (List.perm_insertionSort (fun (a b : Int × Nat) => a.1 ≤ b.1) xs.zipIdx).map (·.2)
  refine h1.trans ?_
  have : xs.zipIdx.map (fun x => x.2) = List.range xs.length := by
    rw [List.zipIdx_map_snd]; simp [List.range_eq_range']
  rw [this]

theorem argsort_filterMap {β : Type} (rs : List β) (f : β → Int) :
    (argsort (rs.map f)).filterMap (fun i => rs[i]?) =
      (argsort (rs.map f)).pmap (fun i (h : i < rs.length) => rs[i])
        (fun i hi => by
          have := (argsort_perm (rs.map f)).mem_iff.mp hi
          simpa using this) := by
  apply List.ext_getElem?
  intro k
  have key : ∀ (l : List Nat) (hl : ∀ i ∈ l, i < rs.length),
      l.filterMap (fun i => rs[i]?) = l.pmap (fun i (h : i < rs.length) => rs[i]) hl := by
    intro l
    induction l with
    | nil => intro _; rfl
    | cons i l ih =>
      intro hl
      have hi := hl i (by simp)
      rw [List.filterMap_cons, List.getElem?_eq_getElem hi]
      simp only [List.pmap_cons]
      rw [ih]
  rw [key]

theorem filterMap_range {β : Type} (rs : List β) :
    (List.range rs.length).filterMap (fun i => rs[i]?) = rs := by
  induction rs with
  | nil => rfl
  | cons a rs ih =>
    simp only [List.length_cons, List.range_succ_eq_map, List.filterMap_cons, List.getElem?_cons_zero,
      List.filterMap_map]
    congr 1

theorem ordered_perm {β : Type} (rs : List β) (f : β → Int) :
    ((argsort (rs.map f)).filterMap (fun i => rs[i]?)).Perm rs := by
  have h := (argsort_perm (rs.map f)).filterMap (fun i => rs[i]?)
  rw [List.length_map, filterMap_range] at h
  exact h

instance : Std.Total (fun (a b : Int × Nat) => a.1 ≤ b.1) := ⟨fun a b => Int.le_total a.1 b.1⟩
instance : IsTrans (Int × Nat) (fun a b => a.1 ≤ b.1) := ⟨fun _ _ _ h1 h2 => Int.le_trans h1 h2⟩

theorem ordered_sorted (rs : List Rng) :
    ((argsort (rs.map (·.1))).filterMap (fun i => rs[i]?)).Pairwise (fun a b => a.1 ≤ b.1) := by
  unfold argsort
  rw [List.filterMap_map]
  have hs := List.pairwise_insertionSort (fun (a b : Int × Nat) => a.1 ≤ b.1) (rs.map (·.1)).zipIdx
  have hmem : ∀ p ∈ (rs.map (·.1)).zipIdx.insertionSort (fun a b => a.1 ≤ b.1),
      ∃ r, rs[p.2]? = some r ∧ r.1 = p.1 := by
    intro p hp
    have hp' := (List.mem_insertionSort _).mp hp
    rw [List.mem_zipIdx_iff_getElem?] at hp'
    rw [List.getElem?_map] at hp'
    cases h : rs[p.2]? with
    | none => rw [h] at hp'; simp at hp'
    | some r => rw [h] at hp'; simp at hp'; exact ⟨r, rfl, hp'⟩
  generalize (rs.map (·.1)).zipIdx.insertionSort (fun a b => a.1 ≤ b.1) = ps at hs hmem
  induction ps with
  | nil => simp
  | cons p ps ih =>
    obtain ⟨r, hr1, hr2⟩ := hmem p (by simp)
    have hs' := List.pairwise_cons.mp hs
    rw [List.filterMap_cons]
    rw [show ((fun i => rs[i]?) ∘ fun x => x.2) p = some r from hr1]
    refine List.pairwise_cons.mpr ⟨?_, ih hs'.2 (fun q hq => hmem q (by simp [hq]))⟩
    intro x hx
    rw [List.mem_filterMap] at hx
    obtain ⟨q, hq, hqx⟩ := hx
    obtain ⟨r', hr1', hr2'⟩ := hmem q (by simp [hq])
    have hle := hs'.1 q hq
    replace hqx : rs[q.2]? = some x := hqx
    rw [hr1'] at hqx
    simp at hqx hle
    subst hqx
    omega

theorem foldl_set_length (ps : List (Nat × Nat)) : ∀ (init : List Nat),
    (ps.foldl (fun inv p => inv.set p.1 p.2) init).length = init.length := by
  induction ps with
  | nil => intro init; rfl
  | cons p ps ih => intro init; rw [List.foldl_cons, ih, List.length_set]

theorem foldl_set_other (ps : List (Nat × Nat)) : ∀ (init : List Nat) (i : Nat), (∀ p ∈ ps, p.1 ≠ i) →
    (ps.foldl (fun inv p => inv.set p.1 p.2) init)[i]? = init[i]? := by
  induction ps with
  | nil => intro init i _; rfl
  | cons p ps ih =>
    intro init i h
    rw [List.foldl_cons, ih _ _ (fun q hq => h q (by simp [hq])), List.getElem?_set_ne (h p (by simp))]

theorem foldl_set_get (ps : List (Nat × Nat)) : ∀ (init : List Nat), (ps.map (·.1)).Nodup →
    ∀ p ∈ ps, p.1 < init.length → (ps.foldl (fun inv p => inv.set p.1 p.2) init)[p.1]? = some p.2 := by
  induction ps with
  | nil => intro init _ p hp; simp at hp
  | cons q ps ih =>
    intro init hn p hp hlt
    rw [List.map_cons, List.nodup_cons] at hn
    rw [List.foldl_cons]
    rcases List.mem_cons.mp hp with rfl | hp
    · rw [foldl_set_other]
      · rw [List.getElem?_set_self hlt]
      · intro r hr he
        exact hn.1 (List.mem_map.mpr ⟨r, hr, he⟩)
    · exact ih _ hn.2 p hp (by rw [List.length_set]; exact hlt)

theorem inverseOrder_get (order : List Nat) (hp : order.Perm (List.range order.length)) (k : Nat)
    (hk : k < order.length) : (inverseOrder order)[order[k]]? = some k := by
  unfold inverseOrder
  have hnd : order.Nodup := hp.nodup_iff.mpr List.nodup_range
  have hlt : order[k] < order.length := by
    have := hp.mem_iff.mp (List.getElem_mem hk)
    simpa using this
  have hmem : (order[k], k) ∈ order.zipIdx := by
    rw [List.mem_zipIdx_iff_getElem?]
    simp [hk]
  have := foldl_set_get order.zipIdx (List.replicate order.length 0)
    (by rw [List.zipIdx_map_fst]; exact hnd) (order[k], k) hmem (by simpa using hlt)
  exact this

theorem inverseOrder_length (order : List Nat) : (inverseOrder order).length = order.length := by
  unfold inverseOrder
  rw [foldl_set_length, List.length_replicate]

/-- Picking pieces through the inverse permutation restores the original order. -/
theorem inverse_restores {β γ : Type} (rs : List β) (order : List Nat) (hl : order.length = rs.length)
    (hp : order.Perm (List.range rs.length)) (g : β → γ) :
    (inverseOrder order).mapM (fun i => ((order.filterMap (fun i => rs[i]?)).map g)[i]?) =
      some (rs.map g) := by
  have hordered : ∀ k (hk : k < order.length), (order.filterMap (fun i => rs[i]?))[k]? = rs[order[k]]? := by
    have key : ∀ (l : List Nat), (∀ i ∈ l, i < rs.length) → ∀ k (hk : k < l.length),
        (l.filterMap (fun i => rs[i]?))[k]? = rs[l[k]]? := by
      intro l
      induction l with
      | nil => intro _ k hk; simp at hk
      | cons i l ih =>
        intro h k hk
        have hi := h i (by simp)
        rw [List.filterMap_cons, List.getElem?_eq_getElem hi]
        cases k with
        | zero => simp [List.getElem?_eq_getElem hi]
        | succ k => simp; rw [ih (fun j hj => h j (by simp [hj])) k (by simpa using hk)]
    exact key order (fun i hi => by have := hp.mem_iff.mp hi; simpa using this)
  have hlen := inverseOrder_length order
  have key2 : ∀ (inv : List Nat) (out : List γ), inv.length = out.length →
      (∀ i (h1 : i < inv.length) (h2 : i < out.length),
        ((order.filterMap (fun i => rs[i]?)).map g)[inv[i]]? = some out[i]) →
      inv.mapM (fun i => ((order.filterMap (fun i => rs[i]?)).map g)[i]?) = some out := by
    intro inv
    induction inv with
    | nil => intro out h _; cases out <;> simp_all
    | cons j inv ih =>
      intro out h1 h2
      cases out with
      | nil => simp at h1
      | cons o out =>
        rw [List.mapM_cons]
        have := h2 0 (by simp) (by simp)
        simp only [List.getElem_cons_zero] at this
        rw [this, ih out (by simpa using h1) (fun i a b => by
          have := h2 (i + 1) (by simpa using a) (by simpa using b); simpa using this)]
        rfl
  apply key2
  · rw [hlen, hl, List.length_map]
  · intro i h1 h2
    -- i = order[k] for some k
    have hi : i < rs.length := by simpa using h2
    have hmem : i ∈ order := hp.mem_iff.mpr (by simpa using hi)
    obtain ⟨k, hk, rfl⟩ := List.mem_iff_getElem.mp hmem
    have hget := inverseOrder_get order (by rw [hl]; exact hp) k hk
    have h3 : (inverseOrder order)[order[k]] = k := by
      rw [List.getElem?_eq_getElem h1] at hget
      exact Option.some.inj hget
    rw [h3, List.getElem?_map, hordered k hk, List.getElem?_eq_getElem hi]
    simp

theorem splitLens_flatten {β : Type} (ps : List (List β)) (hne : ps ≠ []) :
    splitLens (ps.map List.length) ps.flatten = ps := by
  induction ps with
  | nil => exact absurd rfl hne
  | cons p ps ih =>
    cases ps with
    | nil => simp [splitLens]
    | cons q ps =>
      simp only [List.map_cons, splitLens, List.flatten_cons] at ih ⊢
      rw [List.take_left, List.drop_left, ih (by simp)]

theorem select_rowsOf {α : Type} (ds : List α) (rs : List Rng) :
    select ds (rowsOf rs) = (rs.map (fun r => select ds (rowsOfRange r))).flatten := by
  induction rs with
  | nil => rfl
  | cons r rs ih => rw [rowsOf_cons, select_append, ih]; rfl

theorem inBounds_perm {n : Int} {a b : List Rng} (h : a.Perm b) (hb : InBounds n b) : InBounds n a :=
  fun r hr => hb r (h.mem_iff.mp hr)

end Verif.Accel
