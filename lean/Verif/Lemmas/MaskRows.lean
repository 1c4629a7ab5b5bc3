import Verif.Lemmas.CellMask
import Verif.Lemmas.Ranges

namespace Verif.Mask
open Verif Verif.Spec Verif.Accel

/-! ### boolean arrays -/

theorem setSlice_length (bs : List Bool) (r : Rng) (v : Bool) : (setSlice bs r v).length = bs.length := by
  simp [setSlice]

theorem setSlice_get (bs : List Bool) (r : Rng) (v : Bool) (h1 : 0 ≤ r.1) (h2 : 0 ≤ r.2) (i : Nat) :
    (setSlice bs r v)[i]? = if r.1 ≤ (i : Int) ∧ (i : Int) < r.2 then bs[i]?.map (fun _ => v) else bs[i]? := by
  unfold setSlice
  rw [List.getElem?_mapIdx]
  by_cases hi : i < bs.length
  · rw [List.getElem?_eq_getElem hi]
    simp only [Option.map_some, clipIdx, Int.not_lt.mpr h1, Int.not_lt.mpr h2, if_false]
    by_cases h : r.1 ≤ (i : Int) ∧ (i : Int) < r.2
    · rw [if_pos h, if_pos (by omega)]
    · rw [if_neg h, if_neg (by omega)]
  · rw [List.getElem?_eq_none (by omega)]
    simp

theorem foldl_setSlice_length (v : Bool) (rs : List Rng) : ∀ bs : List Bool,
    (rs.foldl (fun bs rg => setSlice bs rg v) bs).length = bs.length := by
  induction rs with
  | nil => intro bs; rfl
  | cons r rs ih => intro bs; rw [List.foldl_cons, ih, setSlice_length]

theorem foldl_setTrue (rs : List Rng) : ∀ bs : List Bool, (∀ r ∈ rs, 0 ≤ r.1 ∧ 0 ≤ r.2) → ∀ i : Nat,
    (rs.foldl (fun bs rg => setSlice bs rg true) bs)[i]? = some true ↔
      i < bs.length ∧ (bs[i]? = some true ∨ ∃ r ∈ rs, r.1 ≤ (i : Int) ∧ (i : Int) < r.2) := by
  induction rs with
  | nil =>
    intro bs _ i
    simp only [List.foldl_nil, List.not_mem_nil, false_and, exists_false, or_false]
    constructor
    · intro h; exact ⟨(List.getElem?_eq_some_iff.mp h).1, h⟩
    · exact fun h => h.2
  | cons r rs ih =>
    intro bs hb i
    obtain ⟨h1, h2⟩ := hb r (by simp)
    rw [List.foldl_cons, ih _ (fun x hx => hb x (by simp [hx])), setSlice_length, setSlice_get _ _ _ h1 h2]
    by_cases h : r.1 ≤ (i : Int) ∧ (i : Int) < r.2
    · by_cases hi : i < bs.length
      · simp [h, hi]
      · simp [hi]
    · rw [if_neg h]
      simp only [List.mem_cons, exists_eq_or_imp, h, false_or]

theorem foldl_setFalse (rs : List Rng) : ∀ bs : List Bool, (∀ r ∈ rs, 0 ≤ r.1 ∧ 0 ≤ r.2) → ∀ i : Nat,
    (rs.foldl (fun bs rg => setSlice bs rg false) bs)[i]? = some true ↔
      (bs[i]? = some true ∧ ∀ r ∈ rs, ¬ (r.1 ≤ (i : Int) ∧ (i : Int) < r.2)) := by
  induction rs with
  | nil => intro bs _ i; simp
  | cons r rs ih =>
    intro bs hb i
    obtain ⟨h1, h2⟩ := hb r (by simp)
    rw [List.foldl_cons, ih _ (fun x hx => hb x (by simp [hx])), setSlice_get _ _ _ h1 h2]
    by_cases h : r.1 ≤ (i : Int) ∧ (i : Int) < r.2
    · rw [if_pos h]
      constructor
      · rintro ⟨h3, _⟩
        rcases hh : bs[i]? with _ | b <;> simp [hh] at h3
      · rintro ⟨_, h3⟩
        exact absurd h (h3 r (by simp))
    · rw [if_neg h]
      simp only [List.mem_cons, forall_eq_or_imp, h, not_false_iff, true_and]

theorem compress_sublist {β : Type} : ∀ (ms : List Bool) (xs : List β), (compress ms xs).Sublist xs
  | true :: ms, x :: xs => by rw [compress]; exact (compress_sublist ms xs).cons_cons x
  | false :: ms, x :: xs => by rw [compress]; exact (compress_sublist ms xs).cons x
  | [], xs => by simp [compress]
  | true :: _, [] => by simp [compress]
  | false :: _, [] => by simp [compress]

theorem mem_compress {β : Type} : ∀ (ms : List Bool) (xs : List β) (y : β),
    y ∈ compress ms xs ↔ ∃ j : Nat, ms[j]? = some true ∧ xs[j]? = some y
  | true :: ms, x :: xs, y => by
    rw [compress, List.mem_cons, mem_compress ms xs y]
    constructor
    · rintro (rfl | ⟨j, h1, h2⟩)
      · exact ⟨0, by simp, by simp⟩
      · exact ⟨j + 1, by simpa using h1, by simpa using h2⟩
    · rintro ⟨j, h1, h2⟩
      cases j with
      | zero => left; simpa [eq_comm] using h2
      | succ j => right; exact ⟨j, by simpa using h1, by simpa using h2⟩
  | false :: ms, x :: xs, y => by
    rw [compress, mem_compress ms xs y]
    constructor
    · rintro ⟨j, h1, h2⟩
      exact ⟨j + 1, by simpa using h1, by simpa using h2⟩
    · rintro ⟨j, h1, h2⟩
      cases j with
      | zero => simp at h1
      | succ j => exact ⟨j, by simpa using h1, by simpa using h2⟩
  | [], xs, y => by simp [compress]
  | true :: ms, [], y => by simp [compress]
  | false :: ms, [], y => by simp [compress]

theorem mem_whereTrue (bs : List Bool) (i : Int) : i ∈ whereTrue bs ↔ 0 ≤ i ∧ bs[i.toNat]? = some true := by
  unfold whereTrue
  rw [List.mem_map]
  constructor
  · rintro ⟨n, hn, rfl⟩
    obtain ⟨j, h1, h2⟩ := (mem_compress _ _ _).mp hn
    have := List.getElem?_eq_some_iff.mp h2
    obtain ⟨hj, e⟩ := this
    simp at e; subst e
    exact ⟨by omega, by simpa using h1⟩
  · rintro ⟨h0, h1⟩
    refine ⟨i.toNat, (mem_compress _ _ _).mpr ⟨i.toNat, h1, ?_⟩, by omega⟩
    have := (List.getElem?_eq_some_iff.mp h1).1
    simp [List.getElem?_range this]

theorem whereTrue_sorted (bs : List Bool) : (whereTrue bs).Pairwise (· < ·) := by
  unfold whereTrue
  rw [List.pairwise_map]
  refine List.Pairwise.sublist (compress_sublist _ _) ?_
  exact (List.pairwise_lt_range).imp (fun h => by omega)

theorem maskedAssign_get {β : Type} (q : β → Bool) : ∀ (ms : List Bool) (xs : List β), ms.length = xs.length →
    ∀ i : Nat, (maskedAssign ms ((compress ms xs).map q))[i]? = some true ↔
      (ms[i]? = some true ∧ ∃ x, xs[i]? = some x ∧ q x = true)
  | [], [], _, i => by simp [maskedAssign]
  | true :: ms, x :: xs, h, i => by
    have ih := maskedAssign_get q ms xs (by simpa using h)
    cases i with
    | zero => simp [compress, maskedAssign]
    | succ i => simpa [compress, maskedAssign] using ih i
  | false :: ms, x :: xs, h, i => by
    have ih := maskedAssign_get q ms xs (by simpa using h)
    cases i with
    | zero => simp [compress, maskedAssign]
    | succ i => simpa [compress, maskedAssign] using ih i
  | [], _ :: _, h, _ => by simp at h
  | _ :: _, [], h, _ => by simp at h

theorem maskedAssign_length : ∀ (ms vs : List Bool), (maskedAssign ms vs).length = ms.length
  | [], vs => by simp [maskedAssign]
  | true :: ms, [] => by simp [maskedAssign]
  | true :: ms, v :: vs => by simp [maskedAssign, maskedAssign_length ms vs]
  | false :: ms, vs => by simp [maskedAssign, maskedAssign_length ms vs]

/-! ### range lists -/

/-- ranges one after the other -/
def Strict (rs : List Rng) : Prop := rs.Pairwise (fun a b => a.2 ≤ b.1)

theorem Strict.rows_sorted {n : Int} {rs : List Rng} (hb : InBounds n rs) (h : Strict rs) :
    (rowsOf rs).Pairwise (· < ·) := by
  induction rs with
  | nil => simp [rowsOf]
  | cons r rs ih =>
    unfold Strict at h
    rw [List.pairwise_cons] at h
    rw [rowsOf_cons, List.pairwise_append]
    refine ⟨?_, ih (fun x hx => hb x (by simp [hx])) h.2, ?_⟩
    · unfold rowsOfRange
      rw [List.pairwise_map]
      exact (List.pairwise_lt_range).imp (fun h => by omega)
    · intro a ha b hb'
      rw [mem_rowsOfRange] at ha
      rw [mem_rowsOf] at hb'
      obtain ⟨q, hq, h3, h4⟩ := hb'
      have := h.1 q hq
      omega

theorem Strict.ordered {n : Int} {rs : List Rng} (hb : InBounds n rs) (h : Strict rs) : Ordered rs := by
  unfold Strict at h
  unfold Ordered
  refine List.Pairwise.imp_of_mem ?_ h
  intro a b ha hb' hab
  have h1 := hb a ha
  have h2 := hb b hb'
  omega

theorem Strict.disjoint {rs : List Rng} (h : Strict rs) : RowsDisjoint rs := by
  unfold RowsDisjoint
  exact h.imp (fun hab i => by omega)

theorem rfa_rows (l : List Int) : rowsOf (rangesFromArray l) = l := by
  cases l with
  | nil => rfl
  | cons a l =>
    unfold rangesFromArray
    rw [rowsOf_rfaLoop l a a (Int.le_refl a), rowsOfRange_single]; rfl

theorem rfa_le (l : List Int) : ∀ r ∈ rangesFromArray l, r.1 ≤ r.2 := by
  cases l with
  | nil => intro r hr; simp [rangesFromArray] at hr; subst hr; simp
  | cons a l =>
    intro r hr
    exact Int.le_of_lt (rfaLoop_first l a a r hr (Int.le_refl a))

theorem rfa_inBounds (n : Int) (hn : 0 ≤ n) (l : List Int) (h : ∀ i ∈ l, 0 ≤ i ∧ i < n) :
    InBounds n (rangesFromArray l) := by
  cases l with
  | nil => intro r hr; simp [rangesFromArray] at hr; subst hr; simp [hn]
  | cons a l =>
    intro r hr
    have hlt := rfaLoop_first l a a r hr (Int.le_refl a)
    have h1 : r.1 ∈ rowsOf (rangesFromArray (a :: l)) := (mem_rowsOf _ _).mpr ⟨r, hr, by omega, by omega⟩
    have h2 : r.2 - 1 ∈ rowsOf (rangesFromArray (a :: l)) := (mem_rowsOf _ _).mpr ⟨r, hr, by omega, by omega⟩
    rw [rfa_rows] at h1 h2
    have := h _ h1
    have := h _ h2
    omega

theorem rfa_strict (l : List Int) (h : l.Pairwise (· < ·)) : Strict (rangesFromArray l) := by
  cases l with
  | nil => simp [Strict, rangesFromArray]
  | cons a l => exact (rfaLoop_gaps l a a (Int.le_refl a) h).imp (fun h => by omega)

end Verif.Mask
