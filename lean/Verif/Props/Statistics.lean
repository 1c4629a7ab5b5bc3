import Verif.Model.Statistics
import Verif.Spec.Statistics
import Mathlib.Data.List.TakeWhile
import Mathlib.Data.List.Forall2

/-!
# C47: statistics files
-/

namespace Verif.Props
open Verif Verif.Names Verif.Statistics Verif.Statistics.Spec

/-! ## Words of a line -/

private theorem words_word (w : Str) : ∀ (cur l : Str), (∀ c ∈ w, c.isWhitespace = false) →
    wordsFrom cur (w ++ l) = wordsFrom (cur ++ w) l := by
  induction w with
  | nil => intro cur l _; simp
  | cons c w ih =>
    intro cur l h
    have h1 : c.isWhitespace = false := h c (by simp)
    rw [List.cons_append, wordsFrom]
    simp only [space, h1, Bool.false_eq_true, if_false]
    rw [ih _ _ (fun c hc => h c (by simp [hc]))]
    simp

private theorem words_blank (b : Str) : ∀ l : Str, Blank b → wordsFrom [] (b ++ l) = wordsFrom [] l := by
  induction b with
  | nil => intro l _; rfl
  | cons c b ih =>
    intro l h
    have h1 : c.isWhitespace = true := h c (by simp)
    rw [List.cons_append, wordsFrom]
    simp only [space, h1, if_true]
    exact ih _ (fun c hc => h c (by simp [hc]))

private theorem words_flush {cur l : Str} (hc : cur ≠ []) (h : ∀ c ∈ l.head?, c.isWhitespace = true) :
    wordsFrom cur l = cur :: wordsFrom [] l := by
  cases l with
  | nil => simp [wordsFrom, hc]
  | cons c l =>
    have h1 : c.isWhitespace = true := h c (by simp)
    rw [wordsFrom, wordsFrom]
    simp [space, h1, hc]

private theorem words_row {l : Str} {ws : List Str} (h : Row l ws) : words l = ws := by
  unfold words
  induction h with
  | done hb => have := words_blank _ [] hb; rw [List.append_nil] at this; rw [this]; rfl
  | word hb hw hl _ ih =>
    rw [List.append_assoc, words_blank _ _ hb, words_word _ _ _ hw.2, List.nil_append, words_flush hw.1 hl, ih]

private theorem row_exists (l : Str) : ∃ ws, Row l ws := by
  induction hn : l.length using Nat.strong_induction_on generalizing l with
  | _ n ih =>
    have hsplit := List.takeWhile_append_dropWhile (p := fun c : Char => c.isWhitespace) (l := l)
    set b := l.takeWhile (fun c : Char => c.isWhitespace) with hb
    set m := l.dropWhile (fun c : Char => c.isWhitespace) with hm
    have hbl : Blank b := fun c hc => by simpa using List.mem_takeWhile_imp hc
    by_cases he : m = []
    · rw [he, List.append_nil] at hsplit
      exact ⟨[], hsplit ▸ .done hbl⟩
    · have hm2 := List.takeWhile_append_dropWhile (p := fun c : Char => !c.isWhitespace) (l := m)
      set w := m.takeWhile (fun c : Char => !c.isWhitespace)
      set r := m.dropWhile (fun c : Char => !c.isWhitespace) with hr
      have hh : (m.head he).isWhitespace = false := by
        simpa using List.head_dropWhile_not (fun c : Char => c.isWhitespace) (l := l) he
      have hw : w ≠ [] := by
        cases hmm : m with
        | nil => exact absurd hmm he
        | cons c t => simp only [hmm, List.head_cons] at hh; simp [w, hmm, hh]
      have hlen : r.length < n := by
        have h1 : (b ++ (w ++ r)).length = n := by rw [hm2, hsplit, hn]
        have : 0 < w.length := List.length_pos_iff.2 hw
        simp at h1; omega
      obtain ⟨ws, h⟩ := ih r.length hlen r rfl
      refine ⟨w :: ws, ?_⟩
      have e : l = b ++ w ++ r := by rw [List.append_assoc, hm2, hsplit]
      rw [e]
      refine .word hbl ⟨hw, fun c hc => by simpa using List.mem_takeWhile_imp hc⟩ ?_ h
      intro c hc
      cases hrr : r with
      | nil => simp [hrr] at hc
      | cons d t =>
        have := List.head_dropWhile_not (fun c : Char => !c.isWhitespace) (l := m) (by rw [← hr, hrr]; simp)
        simp only [← hr, hrr, List.head_cons] at this
        simp [hrr] at hc
        subst hc
        simpa using this

/-- Every line is a list of words in exactly one way. -/
theorem c47_words (l : Str) : ∃! ws, Row l ws := by
  obtain ⟨ws, h⟩ := row_exists l
  exact ⟨ws, h, fun ws' h' => by rw [← words_row h, ← words_row h']⟩

/-! ## Lines to arrays -/

section
variable {V U : Type}

private theorem fill_cells (num : Bool → Str → Except Err V) (r : Nat) : ∀ (dts : List Bool) (ws : List Str) (k : Nat) (val : Nat → V)
    (arrays : List (List V)), (∀ c d w, dts[c]? = some d → ws[c]? = some w → num d w = .ok (val (k + c))) →
    (dts.zip (ws.zipIdx k)).foldlM (fun arrays p => do
        let v ← num p.1 p.2.1
        return arrays.modify p.2.2 (fun a => a.set r v)) arrays =
      .ok (arrays.mapIdx fun c a => if k ≤ c ∧ c < k + min dts.length ws.length then a.set r (val c) else a) := by
  intro dts
  induction dts with
  | nil =>
    intro ws k val arrays _
    simp [pure, Except.pure]
    apply List.ext_getElem <;> simp; intros; omega
  | cons d dts ih =>
    intro ws k val arrays h
    cases ws with
    | nil =>
      simp [pure, Except.pure]
      apply List.ext_getElem <;> simp; intros; omega
    | cons w ws =>
      have h0 := h 0 d w (by simp) (by simp)
      rw [Nat.add_zero] at h0
      rw [List.zipIdx_cons, List.zip_cons_cons, List.foldlM_cons]
      simp only [h0, bind, Except.bind, pure, Except.pure]
      have := ih ws (k + 1) val (arrays.modify k (fun a => a.set r (val k))) ?_
      · simp only [bind, Except.bind, pure, Except.pure] at this
        rw [this]
        congr 1
        apply List.ext_getElem
        · simp
        · intro i h1 h2
          simp only [List.getElem_mapIdx, List.getElem_modify, List.length_cons]
          by_cases hk : k = i
          · subst hk
            rw [if_neg (by omega), if_pos rfl, if_pos (by omega)]
          · rw [if_neg hk]
            by_cases hc : k + 1 ≤ i ∧ i < k + 1 + min dts.length ws.length
            · rw [if_pos hc, if_pos (by omega)]
            · rw [if_neg hc, if_neg (by omega)]
      · intro c d' w' hd hw
        have := h (c + 1) d' w' (by simpa using hd) (by simpa using hw)
        rw [this]
        congr 2; omega

private theorem fill_line (num : Bool → Str → Except Err V) (dts : List Bool) (r : Nat) (line : Str) (ws : List Str)
    (hw : words line = ws) (val : Nat → V) (arrays : List (List V))
    (h : ∀ c d w, dts[c]? = some d → ws[c]? = some w → num d w = .ok (val c)) :
    fillLine num dts r line arrays = .ok (arrays.mapIdx fun c a => if c < min dts.length ws.length then a.set r (val c) else a) := by
  unfold fillLine
  have := fill_cells num r dts (words line) 0 val arrays (by simpa [hw] using h)
  rw [this, hw]
  simp

private theorem fill_lines (num : Bool → Str → Except Err V) (dts : List Bool) (val : Nat → Nat → V) : ∀ (rows : List (List Str))
    (lines : List Str) (k : Nat) (arrays : List (List V)), List.Forall₂ Row lines rows →
    (∀ r row, rows[r]? = some row → ∀ c d w, dts[c]? = some d → row[c]? = some w → num d w = .ok (val c (k + r))) →
    (lines.zipIdx k).foldlM (fun arrays p => fillLine num dts p.2 p.1 arrays) arrays =
      .ok (arrays.mapIdx fun c a => a.mapIdx fun r x =>
        if k ≤ r ∧ r < k + rows.length ∧ c < dts.length ∧ c < (rows.getD (r - k) []).length then val c r else x) := by
  intro rows
  induction rows with
  | nil =>
    intro lines k arrays hf _
    cases hf
    simp only [List.zipIdx_nil, List.foldlM_nil, pure, Except.pure]
    congr 1
    apply List.ext_getElem
    · simp
    · intro c h1 h2
      simp only [List.getElem_mapIdx]
      apply List.ext_getElem
      · simp
      · intro r _ _
        simp only [List.getElem_mapIdx]
        rw [if_neg (by simp)]
  | cons row rows ih =>
    intro lines k arrays hf hv
    cases hf with
    | cons hrow hf =>
      rename_i line lines
      rw [List.zipIdx_cons, List.foldlM_cons]
      rw [fill_line num dts k line row (words_row hrow) (fun c => val c k) arrays
        (fun c d w hd hw => by have := hv 0 row (by simp) c d w hd hw; simpa using this)]
      simp only [bind, Except.bind]
      rw [ih lines (k + 1) _ hf]
      · congr 1
        apply List.ext_getElem
        · simp
        · intro c h1 h2
          simp only [List.getElem_mapIdx]
          apply List.ext_getElem
          · simp only [List.length_mapIdx]; split <;> simp
          · intro r h3 h4
            simp only [List.getElem_mapIdx, List.length_cons]
            by_cases hr : r = k
            · subst hr
              rw [if_neg (by omega)]
              simp only [Nat.sub_self, List.getD_cons_zero]
              by_cases hc : c < min dts.length row.length
              · simp only [hc, if_true, List.getElem_set_self]
                rw [if_pos (by omega)]
              · simp only [hc, if_false]
                rw [if_neg (show ¬(r ≤ r ∧ r < r + (rows.length + 1) ∧ c < dts.length ∧ c < row.length) by omega)]
            · have e : ∀ (x : List V) (hx : r < (if c < min dts.length row.length then x.set k (val c k) else x).length) (hx' : r < x.length),
                  (if c < min dts.length row.length then x.set k (val c k) else x)[r] = x[r] := by
                intro x hx hx'
                split
                · rw [List.getElem_set_ne (by omega)]
                · rfl
              rw [e _ _ (by simpa using h4)]
              by_cases hk : k < r
              · have : rows.getD (r - (k + 1)) [] = (row :: rows).getD (r - k) [] := by
                  rw [show r - k = r - (k + 1) + 1 by omega, List.getD_cons_succ]
                rw [this]
                congr 1
                apply propext
                constructor <;> intro h <;> refine ⟨by omega, by omega, h.2.2⟩
              · rw [if_neg (by omega), if_neg (by omega)]
      · intro r row' hr c d w hd hw
        have := hv (r + 1) row' (by simpa using hr) c d w hd hw
        rw [this]
        congr 2; omega

private theorem isFloat_floating (w : Str) : isFloat w = decide (Floating w) := by
  rw [Bool.eq_iff_iff, decide_eq_true_iff]
  simp [isFloat, Floating]

/-- C47, the numbers, for all lines, also ragged ones. The columns are those of the first line. The entry of column `c` in row
`r` is word `c` of line `r`, read as floating point or integer according to the first line; it is never taken from
another column. Where a line is too short the entry is zero, and words beyond the columns of the first line are left out. -/
theorem c47_entries (num : Bool → Str → Except Err V) (zero : V) (lines : List Str) (first : List Str) (rest : List (List Str))
    (hrows : List.Forall₂ Row lines (first :: rest)) (val : Nat → Nat → V)
    (hval : ∀ r row, (first :: rest)[r]? = some row → ∀ c f w, first[c]? = some f → row[c]? = some w →
      num (decide (Floating f)) w = .ok (val c r)) :
    toArrays num zero lines = .ok (first.mapIdx fun c _ => (first :: rest).mapIdx fun r row =>
      if c < row.length then val c r else zero) := by
  have hlen := hrows.length_eq
  cases hrows with
  | cons h hs =>
    rename_i line lines
    unfold toArrays
    dsimp only
    rw [words_row h]
    rw [fill_lines num (first.map isFloat) val (first :: rest) (line :: lines) 0 _ (.cons h hs)]
    · congr 1
      apply List.ext_getElem
      · simp
      · intro c h1 h2
        simp only [List.getElem_mapIdx, List.getElem_map]
        apply List.ext_getElem
        · simpa using hlen
        · intro r h3 h4
          have h5 : r < (first :: rest).length := by simpa using h4
          have h6 : c < first.length := by simpa using h2
          simp only [List.getElem_mapIdx, List.getElem_replicate, Nat.sub_zero]
          rw [List.getD_eq_getElem?_getD, List.getElem?_eq_getElem h5, Option.getD_some]
          congr 1
          apply propext
          constructor
          · intro h; exact h.2.2.2
          · intro h; exact ⟨by omega, by omega, by simpa using h6, h⟩
    · intro r row hr c d w hd hw
      rw [List.getElem?_map] at hd
      obtain ⟨f, hf, rfl⟩ := Option.map_eq_some_iff.1 hd
      rw [isFloat_floating, Nat.zero_add]
      exact hval r row hr c f w hf hw

/-- C47 for rectangular tables: column `c` holds, in the order of the lines, the words `c` of all lines. -/
theorem c47_columns (num : Bool → Str → Except Err V) (zero : V) (lines : List Str) (first : List Str) (rest : List (List Str))
    (hrows : List.Forall₂ Row lines (first :: rest)) (hrect : ∀ row ∈ rest, row.length = first.length) (val : Nat → Nat → V)
    (hval : ∀ r row, (first :: rest)[r]? = some row → ∀ c f w, first[c]? = some f → row[c]? = some w →
      num (decide (Floating f)) w = .ok (val c r)) :
    toArrays num zero lines = .ok ((List.range first.length).map fun c => (List.range lines.length).map fun r => val c r) := by
  rw [c47_entries num zero lines first rest hrows val hval]
  have hlen := hrows.length_eq
  congr 1
  apply List.ext_getElem
  · simp
  · intro c h1 h2
    have h6 : c < first.length := by simpa using h1
    simp only [List.getElem_mapIdx, List.getElem_map, List.getElem_range]
    apply List.ext_getElem
    · simpa using hlen.symm
    · intro r h3 h4
      simp only [List.getElem_mapIdx, List.getElem_map, List.getElem_range]
      rw [if_pos]
      rcases List.mem_cons.1 (List.getElem_mem (l := first :: rest) (n := r) (by simpa using h3)) with h | h
      · rw [h]; exact h6
      · rw [hrect _ h]; exact h6

private theorem foldlM_steps {α β : Type} {f : β → α → Except Err β} : ∀ (l : List α) (b b' : β), l.foldlM f b = .ok b' →
    ∀ x ∈ l, ∃ c c', f c x = .ok c' := by
  intro l
  induction l with
  | nil => intro b b' _ x hx; simp at hx
  | cons a l ih =>
    intro b b' h x hx
    rw [List.foldlM_cons] at h
    cases hf : f b a with
    | error e => rw [hf] at h; simp [bind, Except.bind] at h
    | ok c =>
      rw [hf] at h
      simp only [bind, Except.bind] at h
      rcases List.mem_cons.1 hx with rfl | hx
      · exact ⟨b, c, hf⟩
      · exact ih c b' h x hx

/-- C47, refusals: a word that cannot be read in the type of its column is never skipped. -/
theorem c47_unreadable (num : Bool → Str → Except Err V) (zero : V) (lines : List Str) (first : List Str) (rest : List (List Str))
    (hrows : List.Forall₂ Row lines (first :: rest)) {r c : Nat} {row : List Str} {f w : Str} (hr : (first :: rest)[r]? = some row)
    (hf : first[c]? = some f) (hw : row[c]? = some w) {e : Err} (he : num (decide (Floating f)) w = .error e) :
    ∃ e', toArrays num zero lines = .error e' := by
  cases ht : toArrays num zero lines with
  | error e' => exact ⟨e', rfl⟩
  | ok out =>
    exfalso
    have hr' : r < (first :: rest).length := (List.getElem?_eq_some_iff.1 hr).1
    have hrl : r < lines.length := by rw [hrows.length_eq]; exact hr'
    have hline : Row lines[r] row := by
      have := hrows.get hrl hr'
      rw [List.getElem?_eq_some_iff] at hr
      obtain ⟨_, rfl⟩ := hr
      simpa using this
    cases hrows with
    | cons h hs =>
      rename_i line lines
      unfold toArrays at ht
      dsimp only at ht
      rw [words_row h] at ht
      obtain ⟨a, a', h1⟩ := foldlM_steps _ _ _ ht ((line :: lines)[r], r) (by
        rw [List.mk_mem_zipIdx_iff_getElem?]; simp [List.getElem?_eq_getElem hrl])
      unfold fillLine at h1
      rw [words_row hline] at h1
      obtain ⟨b, b', h2⟩ := foldlM_steps _ _ _ h1 (isFloat f, w, c) (by
        apply List.mem_of_getElem? (i := c)
        rw [List.getElem?_zip_eq_some]
        simp [hf, hw])
      rw [isFloat_floating] at h2
      simp [he, bind, Except.bind] at h2

end

end Verif.Props
