import Verif.Model.Accel
import Verif.Spec.Rows

/-! Helper lemmas about buffers, row lists and the read loop. -/

namespace Verif.Accel
open Verif Verif.Spec

theorem rowsOfRange_length (r : Rng) : (rowsOfRange r).length = (r.2 - r.1).toNat := by
  simp [rowsOfRange]

theorem rowsOf_nil : rowsOf [] = [] := rfl

theorem rowsOf_cons (r : Rng) (rs : List Rng) : rowsOf (r :: rs) = rowsOfRange r ++ rowsOf rs := by
  simp [rowsOf]

theorem rowsOf_append (a b : List Rng) : rowsOf (a ++ b) = rowsOf a ++ rowsOf b := by
  simp [rowsOf]

/-- total length of a list of ranges -/
def total (rs : List Rng) : Int := (rs.map (fun b => b.2 - b.1)).sum

theorem total_cons (r : Rng) (rs : List Rng) : total (r :: rs) = (r.2 - r.1) + total rs := by
  simp [total]

theorem total_append (a b : List Rng) : total (a ++ b) = total a + total b := by
  simp [total]

theorem total_nonneg {rs : List Rng} (h : ∀ r ∈ rs, r.1 ≤ r.2) : 0 ≤ total rs := by
  induction rs with
  | nil => simp [total]
  | cons r rs ih =>
    rw [total_cons]
    have := h r (by simp)
    have := ih (fun x hx => h x (by simp [hx]))
    omega

theorem rowsOf_length {rs : List Rng} (h : ∀ r ∈ rs, r.1 ≤ r.2) :
    ((rowsOf rs).length : Int) = total rs := by
  induction rs with
  | nil => simp [rowsOf, total]
  | cons r rs ih =>
    rw [rowsOf_cons, total_cons, List.length_append, rowsOfRange_length]
    have h1 := h r (by simp)
    have h2 := ih (fun x hx => h x (by simp [hx]))
    omega

theorem writeAt_ok {β : Type} (buf : List β) (d : Nat) (vs : List β) (h : d + vs.length ≤ buf.length) :
    writeAt buf d vs = .ok (buf.take d ++ vs ++ buf.drop (d + vs.length)) := by
  simp [writeAt, h]

theorem expandLoop_ok (rs : List Rng) : ∀ (i : Nat) (out : List Int), (∀ r ∈ rs, r.1 ≤ r.2) →
    (i : Int) + total rs = out.length → expandLoop rs i out = .ok (out.take i ++ rowsOf rs) := by
  induction rs with
  | nil =>
    intro i out _ h
    simp [total] at h
    have h' : i = out.length := by omega
    simp [expandLoop, rowsOf, h']
  | cons r rs ih =>
    intro i out hle h
    have h1 := hle r (by simp)
    have hrest : ∀ x ∈ rs, x.1 ≤ x.2 := fun x hx => hle x (by simp [hx])
    have h2 := total_nonneg hrest
    rw [total_cons] at h
    have hw : writeAt out i ((List.range (r.2 - r.1).toNat).map (fun (j : Nat) => r.1 + (j : Int))) =
        .ok (out.take i ++ rowsOfRange r ++ out.drop (i + (r.2 - r.1).toNat)) := by
      rw [writeAt_ok]
      · simp [rowsOfRange]
      · simp; omega
    have hn : ¬ r.2 < r.1 := by omega
    simp only [expandLoop, hn, if_false, hw]
    show expandLoop rs _ _ = _
    rw [ih _ _ hrest]
    · congr 1
      rw [rowsOf_cons, ← List.append_assoc]
      congr 1
      have hl : (out.take i ++ rowsOfRange r).length = i + (r.2 - r.1).toNat := by
        simp [rowsOfRange_length]; omega
      rw [← hl, List.take_left]
    · simp only [List.length_append, List.length_take, List.length_drop, rowsOfRange_length]
      omega

theorem expandRanges_ok {rs : List Rng} (h : ∀ r ∈ rs, r.1 ≤ r.2) :
    expandRanges rs = .ok (rowsOf rs) := by
  unfold expandRanges
  have h0 := total_nonneg h
  rw [expandLoop_ok rs 0 _ h]
  · simp
  · simp only [List.length_replicate]
    unfold total at h0 ⊢
    omega

theorem valueAt_natCast {α : Type} (ds : List α) (k : Nat) : valueAt ds (k : Int) = ds[k]? := by
  unfold valueAt
  simp [Int.not_lt.mpr (Int.natCast_nonneg k)]

theorem slice_eq_select {α : Type} (ds : List α) (r : Rng) (h0 : 0 ≤ r.1) (h1 : r.1 ≤ r.2)
    (h2 : r.2 ≤ (ds.length : Int)) :
    ((ds.drop r.1.toNat).take (r.2 - r.1).toNat).map some = select ds (rowsOfRange r) := by
  apply List.ext_getElem
  · simp [select, rowsOfRange]; omega
  · intro k hk1 hk2
    simp only [List.getElem_map, List.getElem_take, List.getElem_drop, select, rowsOfRange,
      List.getElem_range]
    simp only [List.length_map, List.length_take, List.length_drop] at hk1
    have : r.1 + (k : Int) = ((r.1.toNat + k : Nat) : Int) := by omega
    rw [this, valueAt_natCast, List.getElem?_eq_getElem]

theorem select_append {α : Type} (ds : List α) (a b : List Int) :
    select ds (a ++ b) = select ds a ++ select ds b := by simp [select]

theorem rowsOfRange_empty {r : Rng} (h : r.2 = r.1) : rowsOfRange r = [] := by
  simp [rowsOfRange, h]

theorem readLoop_ok {α : Type} (ds : List α) (rs : List Rng) : ∀ (d : Nat) (buf : List (Option α)),
    InBounds ds.length rs → (d : Int) + total rs = buf.length →
    readLoop ds rs d buf = .ok (buf.take d ++ select ds (rowsOf rs)) := by
  induction rs with
  | nil =>
    intro d buf _ h
    simp [total] at h
    have h' : d = buf.length := by omega
    simp [readLoop, rowsOf, select, h']
  | cons r rs ih =>
    intro d buf hb h
    obtain ⟨h0, h1, h2⟩ := hb r (by simp)
    have hrest : InBounds ds.length rs := fun x hx => hb x (by simp [hx])
    have h3 := total_nonneg (rs := rs) (fun x hx => (hrest x hx).2.1)
    rw [total_cons] at h
    unfold readLoop
    by_cases he : r.2 = r.1
    · rw [if_pos he, ih _ _ hrest (by omega), rowsOf_cons, rowsOfRange_empty he, List.nil_append]
    · rw [if_neg he]
      have hw : readDirect ds buf r d =
          .ok (buf.take d ++ select ds (rowsOfRange r) ++ buf.drop (d + (r.2 - r.1).toNat)) := by
        unfold readDirect
        rw [if_pos ⟨h0, h1, h2⟩, slice_eq_select ds r h0 h1 h2, writeAt_ok]
        · simp [select, rowsOfRange]
        · simp [select, rowsOfRange]; omega
      rw [hw]
      show readLoop ds rs _ _ = _
      rw [ih _ _ hrest]
      · congr 1
        rw [rowsOf_cons, select_append, ← List.append_assoc]
        congr 1
        have hl : (buf.take d ++ select ds (rowsOfRange r)).length = d + (r.2 - r.1).toNat := by
          simp [select, rowsOfRange_length]; omega
        rw [← hl, List.take_left]
      · simp only [List.length_append, List.length_take, List.length_drop, select, List.length_map,
          rowsOfRange_length]
        omega

theorem readUnchunked_ok {α : Type} (ds : List α) (rs : List Rng) (hb : InBounds ds.length rs) (m : Nat)
    (hm : (m : Int) = total rs) : readUnchunked ds rs m = .ok (select ds (rowsOf rs)) := by
  unfold readUnchunked
  rw [readLoop_ok ds rs 0 _ hb (by simp [hm])]
  simp

theorem gather_ok {β : Type} (arr : List β) : ∀ (idx : List Int) (out : List β),
    idx.map (valueAt arr) = out.map some → gather arr idx = .ok out := by
  intro idx
  induction idx with
  | nil => intro out h; cases out <;> simp_all [gather]
  | cons i is ih =>
    intro out h
    cases out with
    | nil => simp at h
    | cons v vs =>
      simp only [List.map_cons, List.cons.injEq] at h
      obtain ⟨hv, hvs⟩ := h
      unfold gather
      unfold valueAt at hv
      split at hv
      · simp at hv
      · rename_i hneg
        rw [if_neg hneg, hv, ih vs hvs]
        rfl

end Verif.Accel
