import Verif.Props.Statistics

/-!
# C47: whole statistics files
-/

namespace Verif.Props
open Verif Verif.Names Verif.Statistics Verif.Statistics.Spec

/-! ## The two regular expressions -/

private theorem takeWhile_stop {p : Char → Bool} {a b : Str} (ha : ∀ c ∈ a, p c = true) (hb : ∀ c ∈ b.head?, p c = false) :
    (a ++ b).takeWhile p = a := by
  rw [List.takeWhile_append_of_pos ha]
  cases b with
  | nil => simp
  | cons c b => simp [hb c (by simp)]

private theorem dropWhile_stop {p : Char → Bool} {a b : Str} (ha : ∀ c ∈ a, p c = true) (hb : ∀ c ∈ b.head?, p c = false) :
    (a ++ b).dropWhile p = b := by
  rw [List.dropWhile_append_of_pos ha]
  cases b with
  | nil => simp
  | cons c b => simp [hb c (by simp)]

private theorem isd (c : Char) : (decide ('0' ≤ c) && decide (c ≤ '9')) = c.isDigit := by
  simp only [Char.isDigit, Char.le_def]

private theorem dropWhile_head (p : Char → Bool) (l : Str) : ∀ c ∈ (l.dropWhile p).head?, p c = false := by
  intro c hc
  induction l with
  | nil => simp at hc
  | cons d l ih =>
    rw [List.dropWhile_cons] at hc
    split at hc
    · exact ih hc
    · rename_i hn; simp at hc; subst hc; simpa using hn

private theorem takeWhile_all (p : Char → Bool) (l : Str) : ∀ c ∈ l.takeWhile p, p c = true := fun _ hc => List.mem_takeWhile_imp hc

private theorem match_title {l t : Str} (h : TitleLine l t) : matchName l = some t := by
  obtain ⟨ds, tail, k, rfl, h1, h2, h3, h4⟩ := h
  have red : ∀ x : Str, matchName ('#' :: ' ' :: '(' :: x) =
      (match x.dropWhile (fun c => decide ('0' ≤ c) && decide (c ≤ '9')) with
      | ')' :: ' ' :: l => some ((l.dropWhile (· = ' ')).takeWhile fun c => c ≠ '.' && c ≠ '\n')
      | _ => none) := fun _ => rfl
  rw [red]
  have e := dropWhile_stop (p := fun c => decide ('0' ≤ c) && decide (c ≤ '9')) (a := ds)
    (b := ')' :: (List.replicate (k + 1) ' ' ++ (t ++ tail))) (by intro c hc; rw [isd]; exact h1 c hc) (by simp)
  rw [e]
  rw [List.replicate_succ, List.cons_append]
  change some _ = some t
  rw [dropWhile_stop (by simp), takeWhile_stop]
  · intro c hc; simpa using h3 c hc
  · intro c hc; rcases h4 c hc with rfl | rfl <;> simp
  · intro c hc
    cases t with
    | nil => rcases h4 c (by simpa using hc) with rfl | rfl <;> simp
    | cons d t => simpa using h2 c (by simpa using hc)

private theorem title_match {l t : Str} (h : matchName l = some t) : TitleLine l t := by
  unfold matchName at h
  split at h
  · rename_i l
    split at h
    · rename_i l' hl
      simp only [Option.some.injEq] at h
      refine ⟨l.takeWhile (fun c => decide ('0' ≤ c) && decide (c ≤ '9')),
        (l'.dropWhile (· = ' ')).dropWhile (fun c => c ≠ '.' && c ≠ '\n'), (l'.takeWhile (· = ' ')).length, ?_, ?_, ?_, ?_, ?_⟩
      · have e1 := List.takeWhile_append_dropWhile (p := fun c => decide ('0' ≤ c) && decide (c ≤ '9')) (l := l)
        have e2 := List.takeWhile_append_dropWhile (p := fun c : Char => decide (c = ' ')) (l := l')
        have e3 := List.takeWhile_append_dropWhile (p := fun c => decide (c ≠ '.') && decide (c ≠ '\n')) (l := l'.dropWhile (· = ' '))
        have e4 : List.replicate (l'.takeWhile (· = ' ')).length ' ' = l'.takeWhile (· = ' ') := by
          symm
          rw [List.eq_replicate_iff]
          exact ⟨rfl, fun c hc => by simpa using List.mem_takeWhile_imp hc⟩
        rw [← h, e3, List.replicate_succ, List.cons_append, e4, e2]
        rw [hl] at e1
        rw [e1]
      · intro c hc
        have := takeWhile_all _ _ c hc
        rw [isd] at this
        exact this
      · intro c hc
        have := dropWhile_head (fun c : Char => decide (c = ' ')) l' c (by
          rw [← h] at hc
          cases hd : l'.dropWhile (· = ' ') with
          | nil => rw [hd] at hc; simp at hc
          | cons d m =>
            rw [hd, List.takeWhile_cons] at hc
            split at hc <;> simp at hc
            simp [hc])
        simpa using this
      · intro c hc
        rw [← h] at hc
        simpa using takeWhile_all _ _ c hc
      · intro c hc
        have := dropWhile_head _ _ c hc
        simp at this
        by_cases hd : c = '.'
        · exact Or.inl hd
        · exact Or.inr (this hd)
    · simp at h
  · simp at h

private theorem match_unit {l v e : Str} (h : UnitLine l v e) : matchName l = none ∧ matchUnit l = some (v, e) := by
  obtain ⟨k, tail, rest, rfl, h1, h2, h3, h4, h5⟩ := h
  constructor
  · cases hm : matchName ('#' :: (List.replicate k ' ' ++ 'U' :: 'n' :: 'i' :: 't' :: ' ' :: '=' :: ' ' :: (v ++ tail))) with
    | none => rfl
    | some t =>
      obtain ⟨ds, tl, k', he, _⟩ := title_match hm
      exfalso
      rcases k with - | - | k <;> simp [List.replicate_succ] at he
  · have red : ∀ x : Str, matchUnit ('#' :: x) =
        (match x.dropWhile (· = ' ') with
        | 'U' :: 'n' :: 'i' :: 't' :: ' ' :: '=' :: ' ' :: l =>
          let value := l.takeWhile fun c => !space c
          if value = [] then none
          else match l.drop value.length with
            | ' ' :: rest => some (value, rest.takeWhile (· ≠ '\n'))
            | rest => some (value, rest.takeWhile (· ≠ '\n'))
        | _ => none) := fun _ => rfl
    rw [red]
    have e0 := dropWhile_stop (p := fun c : Char => decide (c = ' ')) (a := List.replicate k ' ')
      (b := 'U' :: 'n' :: 'i' :: 't' :: ' ' :: '=' :: ' ' :: (v ++ tail)) (by simp) (by simp)
    rw [e0]
    change (if (v ++ tail).takeWhile (fun c => !space c) = [] then none
          else match (v ++ tail).drop ((v ++ tail).takeWhile (fun c => !space c)).length with
            | ' ' :: rest => some ((v ++ tail).takeWhile (fun c => !space c), rest.takeWhile (· ≠ '\n'))
            | rest => some ((v ++ tail).takeWhile (fun c => !space c), rest.takeWhile (· ≠ '\n'))) = _
    have e1 : (v ++ tail).takeWhile (fun c => !space c) = v := takeWhile_stop (by
      intro c hc; simp [space, h1.2 c hc]) (by intro c hc; simp [space, h2 c hc])
    rw [e1, if_neg h1.1, List.drop_left]
    have e2 : (e ++ rest).takeWhile (· ≠ '\n') = e := takeWhile_stop (by
      intro c hc; simpa using h4 c hc) (by intro c hc; simp [h5 c hc])
    rcases h3 with rfl | ⟨rfl, h⟩
    · change some (v, _) = _
      rw [e2]
    · split
      · rename_i r hr
        rw [hr] at h
        simp at h
      · rw [e2]

private theorem unit_match {l v e : Str} (h : matchUnit l = some (v, e)) : UnitLine l v e := by
  unfold matchUnit at h
  split at h
  · rename_i l
    split at h
    · rename_i l' hl
      dsimp only at h
      split at h
      · simp at h
      · rename_i hv
        have e1 := List.takeWhile_append_dropWhile (p := fun c : Char => decide (c = ' ')) (l := l)
        have e2 := List.takeWhile_append_dropWhile (p := fun c : Char => !space c) (l := l')
        have e4 : List.replicate (l.takeWhile (· = ' ')).length ' ' = l.takeWhile (· = ' ') := by
          symm
          rw [List.eq_replicate_iff]
          exact ⟨rfl, fun c hc => by simpa using List.mem_takeWhile_imp hc⟩
        have e5 : l'.drop (l'.takeWhile (fun c => !space c)).length = l'.dropWhile (fun c => !space c) := by
          have : ∀ x, (l'.takeWhile (fun c => !space c) ++ x).drop (l'.takeWhile (fun c => !space c)).length = x := fun x => List.drop_left
          rw [← this (l'.dropWhile (fun c => !space c)), e2]
        have hw : Word (l'.takeWhile (fun c => !space c)) := ⟨hv, fun c hc => by simpa [space] using takeWhile_all _ _ c hc⟩
        have ht : ∀ c ∈ (l'.dropWhile (fun c => !space c)).head?, c.isWhitespace = true := by
          intro c hc
          simpa [space] using dropWhile_head _ _ c hc
        have hl0 : '#' :: l = '#' :: (List.replicate (l.takeWhile (· = ' ')).length ' ' ++
            'U' :: 'n' :: 'i' :: 't' :: ' ' :: '=' :: ' ' :: (l'.takeWhile (fun c => !space c) ++ l'.dropWhile (fun c => !space c))) := by
          rw [e2, e4]
          rw [hl] at e1
          rw [e1]
        rw [e5] at h
        split at h
        · rename_i r hr
          simp only [Option.some.injEq, Prod.mk.injEq] at h
          obtain ⟨rfl, rfl⟩ := h
          refine ⟨_, _, r.dropWhile (· ≠ '\n'), hl0, hw, ht, Or.inl ?_, ?_, ?_⟩
          · rw [hr, List.takeWhile_append_dropWhile]
          · intro c hc; simpa using takeWhile_all _ _ c hc
          · intro c hc; simpa using dropWhile_head _ _ c hc
        · rename_i r hr
          simp only [Option.some.injEq, Prod.mk.injEq] at h
          obtain ⟨rfl, rfl⟩ := h
          refine ⟨_, _, (l'.dropWhile (fun c => !space c)).dropWhile (· ≠ '\n'), hl0, hw, ht, Or.inr ⟨?_, ?_⟩, ?_, ?_⟩
          · rw [List.takeWhile_append_dropWhile]
          · intro hh
            cases hd : l'.dropWhile (fun c => !space c) with
            | nil => rw [hd] at hh; simp at hh
            | cons c m =>
              rw [hd] at hh
              simp at hh
              subst hh
              exact hr m hd
          · intro c hc; simpa using takeWhile_all _ _ c hc
          · intro c hc; simpa using dropWhile_head _ _ c hc
    · simp at h
  · simp at h

private theorem match_note {l : Str} (h : NoteLine l) : matchName l = none ∧ matchUnit l = none := by
  constructor
  · cases hm : matchName l with
    | none => rfl
    | some t => exact absurd (title_match hm) (h.2.1 t)
  · cases hm : matchUnit l with
    | none => rfl
    | some p => exact absurd (unit_match hm) (h.2.2 p.1 p.2)

/-! ## The names in the last comment -/

private theorem split_blank (b : Str) : ∀ (cur gap l : Str), Blank b → splitGapsFrom cur gap (b ++ l) = splitGapsFrom cur (gap ++ b) l := by
  induction b with
  | nil => intro cur gap l _; simp
  | cons c b ih =>
    intro cur gap l h
    have h1 : c.isWhitespace = true := h c (by simp)
    rw [List.cons_append, splitGapsFrom]
    simp only [space, h1, if_true]
    rw [ih _ _ _ (fun c hc => h c (by simp [hc]))]
    simp

private theorem split_chars (w : Str) : ∀ (cur l : Str), (∀ c ∈ w, c.isWhitespace = false) →
    splitGapsFrom cur [] (w ++ l) = splitGapsFrom (cur ++ w) [] l := by
  induction w with
  | nil => intro cur l _; simp
  | cons c w ih =>
    intro cur l h
    have h1 : c.isWhitespace = false := h c (by simp)
    rw [List.cons_append, splitGapsFrom]
    simp only [space, h1, Bool.false_eq_true, if_false, List.length_nil, List.append_nil]
    rw [if_neg (by omega), ih _ _ (fun c hc => h c (by simp [hc]))]
    simp

private theorem split_word {w : Str} (hw : Word w) (cur gap l : Str) : splitGapsFrom cur gap (w ++ l) =
    if gap.length ≥ 2 then cur :: splitGapsFrom w [] l else splitGapsFrom (cur ++ gap ++ w) [] l := by
  obtain ⟨h0, h⟩ := hw
  cases w with
  | nil => exact absurd rfl h0
  | cons c w =>
    have h1 : c.isWhitespace = false := h c (by simp)
    have h2 : ∀ d ∈ w, d.isWhitespace = false := fun d hd => h d (by simp [hd])
    rw [List.cons_append, splitGapsFrom]
    simp only [space, h1, Bool.false_eq_true, if_false]
    split
    · rw [split_chars w _ _ h2]; rfl
    · rw [split_chars w _ _ h2]; simp

private theorem split_phrase {p : Str} (hp : Phrase p) : ∀ cur gap l : Str, splitGapsFrom cur gap (p ++ l) =
    if gap.length ≥ 2 then cur :: splitGapsFrom p [] l else splitGapsFrom (cur ++ gap ++ p) [] l := by
  induction hp with
  | one hw => exact split_word hw
  | more hw hp ih =>
    rename_i w p
    intro cur gap l
    have hb : Blank [' '] := by intro c hc; simp at hc; subst hc; rfl
    have step : ∀ cur, splitGapsFrom cur [] (' ' :: (p ++ l)) = splitGapsFrom (cur ++ ' ' :: p) [] l := by
      intro cur
      have := split_blank [' '] cur [] (p ++ l) hb
      rw [List.singleton_append] at this
      rw [this, ih]
      simp
    rw [List.append_assoc, split_word hw, List.cons_append, step, step]
    simp only [List.append_assoc]

private theorem phrase_ne {p : Str} (hp : Phrase p) : p ≠ [] := by
  cases hp with
  | one hw => exact hw.1
  | more hw _ => simp

private theorem attributeName_newline (x : Str) : attributeName (x ++ ['\n']) = attributeName x := by
  simp [attributeName]

private theorem names_split {l : Str} {ws : List Str} (h : Names l ws) : ∀ cur : Str, (cur ≠ [] ∨ ws ≠ []) →
    ((splitGapsFrom cur [] l).filter (· ≠ [])).map attributeName =
      (if cur = [] then [] else [attributeName cur]) ++ ws.map attributeName := by
  induction h with
  | done hb =>
    rename_i b
    intro cur hc
    have hc : cur ≠ [] := by simpa using hc
    rcases hb with rfl | rfl | ⟨hb, hl⟩
    · simp [splitGapsFrom, hc]
    · have hn : space '\n' = true := rfl
      simp [splitGapsFrom, hc, hn, attributeName_newline]
    · have := split_blank b cur [] [] hb
      rw [List.append_nil] at this
      rw [this, splitGapsFrom, if_pos (by simpa using hl)]
      simp [hc]
  | @name b w l ws hb hl hp hn ih =>
    intro cur _
    rw [List.append_assoc, split_blank b _ _ _ hb, List.nil_append, split_phrase hp, if_pos hl]
    have := ih w (Or.inl (phrase_ne hp))
    rw [if_neg (phrase_ne hp)] at this
    by_cases hc : cur = []
    · simp [hc] at *
      exact this
    · simp [hc] at *
      exact this

private theorem phrase_newline {p : Str} (hp : Phrase p) : ∀ c ∈ p, c ≠ '\n' := by
  have key : ∀ w, Word w → ∀ c ∈ w, c ≠ '\n' := by
    rintro w hw c hc rfl
    have := hw.2 _ hc
    simp at this
  induction hp with
  | one hw => exact key _ hw
  | more hw hp ih =>
    intro c hc
    rcases List.mem_append.1 hc with h | h
    · exact key _ hw c h
    · rcases List.mem_cons.1 h with rfl | h
      · decide
      · exact ih c h

private theorem attributeName_py : ∀ p : Str, (∀ c ∈ p, c ≠ '\n') → attributeName p = pyName p := by
  intro p
  induction p with
  | nil => intro _; rfl
  | cons c p ih =>
    intro h
    have h1 := ih (fun d hd => h d (by simp [hd]))
    have h2 := h c (by simp)
    unfold attributeName at h1 ⊢
    rw [pyName]
    by_cases hd : c = '.'
    · simp [hd] at h1 ⊢; exact h1
    · by_cases hs : c = ' '
      · subst hs
        simp at h1 ⊢
        exact h1
      · simp [hd, hs, h2] at h1 ⊢
        exact h1

private theorem names_phrases {l : Str} {ws : List Str} (h : Names l ws) : ∀ w ∈ ws, Phrase w := by
  induction h with
  | done _ => simp
  | name _ _ hp _ ih =>
    intro w hw
    rcases List.mem_cons.1 hw with rfl | hw
    · exact hp
    · exact ih w hw

private theorem names_read {l : Str} {ws : List Str} (h : Names l ws) (hne : ws ≠ []) :
    attributeNames ('#' :: l) = ws.map pyName := by
  unfold attributeNames splitGaps
  rw [List.drop_one, List.tail_cons, names_split h [] (Or.inr hne)]
  simp only [if_true, List.nil_append]
  apply List.map_congr_left
  intro w hw
  exact attributeName_py w (phrase_newline (names_phrases h w hw))

/-! ## The header -/

section
variable {V U : Type} (unit : Str → Str → Except Err U) (dimensionless : U)

private def lookup (h : Head U) (t : Str) : Option U := (h.units.find? (fun e => decide (e.1 = some t))).map Prod.snd

private theorem head_notes (h : Head U) : ∀ notes : List Str, (∀ n ∈ notes, NoteLine n) →
    notes.foldlM (headLine unit dimensionless) h = .ok h := by
  intro notes
  induction notes with
  | nil => intro _; rfl
  | cons n notes ih =>
    intro hn
    obtain ⟨h1, h2⟩ := match_note (hn n (by simp))
    rw [List.foldlM_cons, headLine, h1, h2]
    exact ih (fun m hm => hn m (by simp [hm]))

private theorem head_block {ls : List Str} {col : Column U} (hd : Describes unit dimensionless ls col) (h : Head U) :
    ∃ h', ls.foldlM (headLine unit dimensionless) h = .ok h' ∧ h'.names = h.names ++ [col.title] ∧
      lookup h' col.title = some col.unit ∧ ∀ t, t ≠ col.title → lookup h' t = lookup h t := by
  obtain ⟨s, hb, hu⟩ := hd
  obtain ⟨title, cu, name⟩ := col
  dsimp only at hb hu ⊢
  cases hb with
  | plain ht hn =>
    rename_i l notes
    rw [List.foldlM_cons, headLine, match_title ht]
    refine ⟨_, head_notes unit dimensionless _ notes hn, rfl, ?_, ?_⟩
    · simp only [UnitOf] at hu
      simp [lookup, hu]
    · intro t hne
      simp [lookup, Ne.symm hne]
  | unit ht hn hul hn' =>
    rename_i l u v e notes notes'
    obtain ⟨m1, m2⟩ := match_unit hul
    rw [List.foldlM_cons, headLine, match_title ht]
    simp only [bind, Except.bind, List.foldlM_append]
    rw [head_notes unit dimensionless _ notes hn]
    dsimp only
    rw [List.foldlM_cons, headLine, m1, m2]
    dsimp only
    change (if v = "dimensionless".toList then cu = dimensionless else unit v e = .ok cu) at hu
    by_cases hv : v = "dimensionless".toList
    · rw [if_neg (by simpa using hv)]
      rw [if_pos hv] at hu
      refine ⟨_, head_notes unit dimensionless _ notes' hn', rfl, ?_, ?_⟩
      · simp [lookup, hu]
      · intro t hne
        simp [lookup, Ne.symm hne]
    · rw [if_pos hv]
      rw [if_neg hv] at hu
      simp only [hu, bind, Except.bind, pure, Except.pure]
      refine ⟨_, head_notes unit dimensionless _ notes' hn', rfl, ?_, ?_⟩
      · simp [lookup]
      · intro t hne
        simp [lookup, Ne.symm hne]

private theorem head_blocks : ∀ (blocks : List (List Str)) (cols : List (Column U)) (h : Head U),
    List.Forall₂ (Describes unit dimensionless) blocks cols → (cols.map Column.title).Nodup →
    ∃ h', blocks.flatten.foldlM (headLine unit dimensionless) h = .ok h' ∧ h'.names = h.names ++ cols.map Column.title ∧
      (∀ col ∈ cols, lookup h' col.title = some col.unit) ∧ ∀ t, (∀ col ∈ cols, t ≠ col.title) → lookup h' t = lookup h t := by
  intro blocks
  induction blocks with
  | nil =>
    intro cols h hf _
    cases hf
    exact ⟨h, rfl, by simp, by simp, by simp⟩
  | cons ls blocks ih =>
    intro cols h hf hnd
    cases hf with
    | cons hd hf =>
      rename_i col cols
      obtain ⟨h1, a1, a2, a3, a4⟩ := head_block unit dimensionless hd h
      rw [List.map_cons, List.nodup_cons] at hnd
      obtain ⟨h2, b1, b2, b3, b4⟩ := ih cols h1 hf hnd.2
      refine ⟨h2, ?_, ?_, ?_, ?_⟩
      · rw [List.flatten_cons, List.foldlM_append, a1]
        exact b1
      · rw [b2, a2]; simp
      · intro c hc
        rcases List.mem_cons.1 hc with rfl | hc
        · rw [b4, a3]
          intro c' hc' e
          exact hnd.1 (e ▸ List.mem_map_of_mem hc')
        · exact b3 c hc
      · intro t ht
        rw [b4 t (fun c hc => ht c (by simp [hc])), a4 t (ht col (by simp))]

private theorem read_head {h' : Head U} {line : Str} {lines : List Str} (hl : line.head? ≠ some '#') : ∀ (hs : List Str) (h : Head U) (last : Str),
    (∀ l ∈ hs, l.head? = some '#') → hs.foldlM (headLine unit dimensionless) h = .ok h' →
    readHead unit dimensionless h last (hs ++ line :: lines) = .ok (h', hs.getLastD last, line :: lines) := by
  intro hs
  induction hs with
  | nil =>
    intro h last _ hf
    cases hf
    rw [List.nil_append, readHead, if_neg hl]
    rfl
  | cons l hs ih =>
    intro h last hh hf
    rw [List.foldlM_cons] at hf
    rw [List.cons_append, readHead, if_pos (hh l (by simp))]
    cases hx : headLine unit dimensionless h l with
    | error e => rw [hx] at hf; simp [bind, Except.bind] at hf
    | ok h1 =>
      rw [hx] at hf
      simp only [bind, Except.bind] at hf ⊢
      rw [ih h1 l (fun m hm => hh m (by simp [hm])) hf]
      rw [List.getLastD_cons]

private theorem block_hash {ls : List Str} {t : Str} {s : Option (Str × Str)} (h : Block ls t s) : ∀ l ∈ ls, l.head? = some '#' := by
  have ht : ∀ l t, TitleLine l t → l.head? = some '#' := by
    rintro l t ⟨ds, tail, k, rfl, _⟩; rfl
  have hu : ∀ l v e, UnitLine l v e → l.head? = some '#' := by
    rintro l v e ⟨k, tail, r, rfl, _⟩; rfl
  intro l hl
  cases h with
  | plain h1 h2 =>
    rcases List.mem_cons.1 hl with rfl | hl
    · exact ht _ _ h1
    · exact (h2 l hl).1
  | unit h1 h2 h3 h4 =>
    rcases List.mem_cons.1 hl with rfl | hl
    · exact ht _ _ h1
    · rcases List.mem_append.1 hl with hl | hl
      · exact (h2 l hl).1
      · rcases List.mem_cons.1 hl with rfl | hl
        · exact hu _ _ _ h3
        · exact (h4 l hl).1

private theorem attr_of_nodup : ∀ (attrs : List (Str × List V × U)), (attrs.map Prod.fst).Nodup → ∀ x ∈ attrs,
    attr attrs x.1 = some x.2 := by
  intro attrs hnd x hx
  unfold attr
  have : attrs.reverse.find? (fun a => decide (a.1 = x.1)) = some x := by
    rw [List.find?_eq_some_iff_append]
    refine ⟨by simp, ?_⟩
    obtain ⟨a, b, rfl⟩ := List.append_of_mem hx
    refine ⟨b.reverse, a.reverse, by simp, ?_⟩
    intro y hy
    have hy : y ∈ b := by simpa using hy
    rw [List.map_append, List.map_cons, List.nodup_append] at hnd
    have h2 := (List.nodup_cons.1 hnd.2.1).1
    simp only [Bool.not_eq_true', decide_eq_false_iff_not]
    intro e
    exact h2 (e ▸ List.mem_map_of_mem hy)
  rw [this]; rfl

private theorem mapM_zip (h : Head U) : ∀ (arrays : List (List V)) (cols : List (Column U)), arrays.length = cols.length →
    (∀ col ∈ cols, lookup h col.title = some col.unit) →
    (arrays.zip ((cols.map Column.title).zip (cols.map fun c => pyName c.name))).mapM (fun p =>
      match h.units.find? (fun e => decide (e.1 = some p.2.1)) with
      | some e => (.ok (p.2.2, p.1, e.2) : Except Err (Str × List V × U))
      | none => .error .key) = .ok ((arrays.zip cols).map fun p => (pyName p.2.name, p.1, p.2.unit)) := by
  intro arrays
  induction arrays with
  | nil => intro cols hl _; simp [pure, Except.pure]
  | cons a arrays ih =>
    intro cols hl hc
    cases cols with
    | nil => simp at hl
    | cons col cols =>
      have h1 := hc col (by simp)
      unfold lookup at h1
      obtain ⟨e, he, h2⟩ := Option.map_eq_some_iff.1 h1
      simp only [List.map_cons, List.zip_cons_cons, List.mapM_cons]
      rw [he, ih cols (by simpa using hl) (fun c hc' => hc c (by simp [hc']))]
      simp [bind, Except.bind, pure, Except.pure, h2]

/-- C47, whole files. Take any comments, then comments that describe some columns with different titles, then a comment that lists
their names, different as Python names, then a rectangular table with that many columns. After reading, the attribute
of each name is the column at its place, in the order of the lines, with the unit that was written for it. -/
theorem c47_file (num : Bool → Str → Except Err V) (zero : V) (notes : List Str) (hn : ∀ n ∈ notes, NoteLine n)
    (cols : List (Column U)) (hc : cols ≠ []) (blocks : List (List Str)) (hb : List.Forall₂ (Describes unit dimensionless) blocks cols)
    (names : Str) (hnl : NoteLine ('#' :: names)) (hnames : Names names (cols.map Column.name))
    (htitles : (cols.map Column.title).Nodup) (hpy : (cols.map fun c => pyName c.name).Nodup)
    (lines : List Str) (hfirst : ∀ l ∈ lines.head?, l.head? ≠ some '#') (first : List Str) (rest : List (List Str))
    (hrows : List.Forall₂ Row lines (first :: rest)) (hrect : ∀ row ∈ first :: rest, row.length = cols.length) (val : Nat → Nat → V)
    (hval : ∀ r row, (first :: rest)[r]? = some row → ∀ c f w, first[c]? = some f → row[c]? = some w →
      num (decide (Floating f)) w = .ok (val c r)) :
    ∃ attrs, readFile num zero unit dimensionless (notes ++ blocks.flatten ++ ['#' :: names] ++ lines) = .ok attrs ∧
      attrs.map Prod.fst = cols.map (fun c => pyName c.name) ∧
      ∀ c col, cols[c]? = some col → attr attrs (pyName col.name) = some ((List.range lines.length).map (val c), col.unit) := by
  have hcolumns := c47_columns num zero lines first rest hrows (fun row hr => by
    rw [hrect row (by simp [hr]), hrect first (by simp)]) val hval
  rw [hrect first (by simp)] at hcolumns
  obtain ⟨h', a1, a2, a3, _⟩ := head_blocks unit dimensionless blocks cols {} hb htitles
  have hhead : (notes ++ blocks.flatten ++ ['#' :: names]).foldlM (headLine unit dimensionless) {} = .ok h' := by
    rw [List.foldlM_append, List.foldlM_append, head_notes unit dimensionless _ notes hn]
    simp only [bind, Except.bind]
    rw [a1]
    exact head_notes unit dimensionless h' _ (by simpa using hnl)
  have hhash : ∀ l ∈ notes ++ blocks.flatten ++ ['#' :: names], l.head? = some '#' := by
    intro l hl
    rw [List.mem_append, List.mem_append] at hl
    rcases hl with (hl | hl) | hl
    · exact (hn l hl).1
    · obtain ⟨ls, h1, h2⟩ := List.mem_flatten.1 hl
      obtain ⟨i, hi, rfl⟩ := List.getElem_of_mem h1
      obtain ⟨s, hs, _⟩ := hb.get hi (by rw [← hb.length_eq]; exact hi)
      exact block_hash hs l (by simpa using h2)
    · simp at hl; subst hl; rfl
  cases hrows with
  | cons hr0 hrs =>
    rename_i line lines
    have hread := read_head unit dimensionless (line := line) (lines := lines) (hfirst line (by simp))
      (notes ++ blocks.flatten ++ ['#' :: names]) {} ((notes ++ blocks.flatten ++ ['#' :: names] ++ line :: lines).getLastD []) hhash hhead
    have hgl : (notes ++ blocks.flatten ++ ['#' :: names]).getLastD ((notes ++ blocks.flatten ++ ['#' :: names] ++ line :: lines).getLastD []) = '#' :: names := by
      simp [List.getLastD_eq_getLast?]
    rw [hgl] at hread
    set arrays := (List.range cols.length).map fun c => (List.range (line :: lines).length).map fun r => val c r with harr
    have hal : arrays.length = cols.length := by simp [harr]
    have hfst : ((arrays.zip cols).map fun p => (pyName p.2.name, p.1, p.2.unit)).map Prod.fst = cols.map fun c => pyName c.name := by
      have h1 := List.map_snd_zip (l₁ := arrays) (l₂ := cols) (by omega)
      have h2 := congrArg (List.map fun c : Column U => pyName c.name) h1
      rw [List.map_map] at h2 ⊢
      exact h2
    refine ⟨(arrays.zip cols).map fun p => (pyName p.2.name, p.1, p.2.unit), ?_, ?_, ?_⟩
    · unfold readFile
      rw [hread]
      simp only [bind, Except.bind]
      rw [hcolumns, names_read hnames (by simpa using hc), a2, List.map_map]
      exact mapM_zip h' arrays cols hal a3
    · exact hfst
    · intro c col hcol
      have hm : (arrays.zip cols)[c]? = some ((List.range (line :: lines).length).map (val c), col) := by
        rw [List.getElem?_zip_eq_some]
        refine ⟨?_, hcol⟩
        have := (List.getElem?_eq_some_iff.1 hcol).1
        simp [harr, this]
      have hnd : (((arrays.zip cols).map fun p => (pyName p.2.name, p.1, p.2.unit)).map Prod.fst).Nodup := by
        rw [hfst]; exact hpy
      exact attr_of_nodup _ hnd (pyName col.name, _, col.unit) (List.mem_map.2 ⟨_, List.mem_of_getElem? hm, rfl⟩)

end

/-! ## What does not hold -/

/-- For the examples: numbers stay text, units are the text of the unit. -/
private def text (_ : Bool) (w : Str) : Except Err String := .ok (String.ofList w)

private def unitText (v e : Str) : Except Err String := .ok (String.ofList (v ++ ' ' :: e))

private def shown (lines : List String) : Except Err (List (String × List String × String)) :=
  (readFile text "zero" unitText "none" (lines.map String.toList)).map fun a => a.map fun x => (String.ofList x.1, x.2)

/-- C47 fails for ragged tables: a short line, or an empty line at the end, is filled with zeros without notice, and numbers beyond
the columns of the first line are lost. -/
theorem c47_ragged_fails :
    toArrays text "zero" ["1 2\n".toList, "3\n".toList, "4 5 6\n".toList, "\n".toList] =
      .ok [["1", "3", "4", "zero"], ["2", "zero", "5", "zero"]] := by decide +kernel

/-- C47 fails for names that are separated by one space, for instance because a name is as long as its field: the two names become
one, and all later columns have the name of their right neighbour. Here the second column, pressure, is found as `mass`. -/
theorem c47_single_space_fails :
    shown ["# (0)  Time.\n", "#   Unit = 1 s\n", "# (1)  Pressure.\n", "#   Unit = 1 Pa\n", "# (2)  Mass.\n", "#   Unit = 1 kg\n",
      "#  Time Pressure  Mass\n", "1 2 3\n"] =
    .ok [("time_pressure", ["1"], "1 s"), ("mass", ["2"], "1 Pa")] := by decide +kernel

/-- C47 fails for titles that agree up to the first full stop: both columns have the unit of the later one. -/
theorem c47_titles_fails :
    shown ["# (0)  Energy, approx. kinetic\n", "#   Unit = 1 J\n", "# (1)  Energy, approx. per mass\n", "#   Unit = 5 J/kg\n",
      "#  Kin  Spec\n", "1 2\n"] =
    .ok [("kin", ["1"], "5 J/kg"), ("spec", ["2"], "5 J/kg")] := by decide +kernel

/-- C47 fails when a column of fractional numbers starts with a whole number: the file cannot be read. -/
theorem c47_whole_first_fails {V : Type} (num : Bool → Str → Except Err V) (zero : V) (h : num false ['0', '.', '5'] = .error .value) :
    ∃ e, toArrays num zero ["0\n".toList, "0.5\n".toList] = .error e := by
  refine c47_unreadable num zero _ [['0']] [[['0', '.', '5']]] ?_ (r := 1) (c := 0) rfl rfl rfl (e := .value) (by simpa [Floating] using h)
  have hb : Blank ['\n'] := by intro c hc; simp at hc; subst hc; rfl
  have hw : ∀ w : Str, w ≠ [] → (w.all fun c => !c.isWhitespace) = true → Row (w ++ ['\n']) [w] := by
    intro w h1 h2
    have := Row.word (b := []) (w := w) (l := ['\n']) (ws := []) (by intro c hc; simp at hc)
      ⟨h1, fun c hc => by simpa using List.all_eq_true.1 h2 c hc⟩ (by intro c hc; simp at hc; subst hc; rfl) (.done hb)
    simpa using this
  exact .cons (hw ['0'] (by simp) (by decide)) (.cons (hw ['0', '.', '5'] (by simp) (by decide)) .nil)

/-- C47 fails for a file that has no numbers yet: whatever the comments are, it raises. -/
theorem c47_no_data_fails {V U : Type} (num : Bool → Str → Except Err V) (zero : V) (unit : Str → Str → Except Err U) (dimensionless : U)
    (lines : List Str) (h : ∀ l ∈ lines, l.head? = some '#') : ∃ e, readFile num zero unit dimensionless lines = .error e := by
  have key : ∀ (lines : List Str) (hd : Head U) (last : Str), (∀ l ∈ lines, l.head? = some '#') →
      ∃ e, readHead unit dimensionless hd last lines = .error e := by
    intro lines
    induction lines with
    | nil => intro hd last _; exact ⟨_, rfl⟩
    | cons l lines ih =>
      intro hd last h
      rw [readHead, if_pos (h l (by simp))]
      cases hx : headLine unit dimensionless hd l with
      | error e => exact ⟨e, rfl⟩
      | ok h1 => exact ih h1 l (fun m hm => h m (by simp [hm]))
  obtain ⟨e, he⟩ := key lines {} (lines.getLastD []) h
  refine ⟨e, ?_⟩
  unfold readFile
  rw [he]
  rfl

private theorem note_of {l : Str} (h : (l.head? == some '#' && (matchName l).isNone && (matchUnit l).isNone) = true) : NoteLine l := by
  simp only [Bool.and_eq_true, beq_iff_eq, Option.isNone_iff_eq_none] at h
  refine ⟨h.1.1, fun t ht => ?_, fun v e hu => ?_⟩
  · rw [match_title ht] at h; simp at h
  · rw [(match_unit hu).2] at h; simp at h

/-- A file that meets the hypotheses of `c47_file`. -/
example : ∃ attrs, readFile text "zero" unitText "none" (["# Statistics\n", "# (0)  Step\n", "# (1)  Time.\n", "#   Unit = 3 s\n",
      "#  No  Cosmic time\n", " 0 0.5\n", " 1 7e3\n"].map String.toList) = .ok attrs ∧
    attr attrs "cosmic_time".toList = some (["0.5", "7e3"], "3 s") := by
  have hw : ∀ w : Str, w ≠ [] → (w.all fun c => !c.isWhitespace) = true → Word w := fun w h1 h2 =>
    ⟨h1, fun c hc => by simpa using List.all_eq_true.1 h2 c hc⟩
  have hb : ∀ b : Str, (b.all fun c => c.isWhitespace) = true → Blank b := fun b h c hc => List.all_eq_true.1 h c hc
  have hrow : ∀ w1 w2 : Str, w1 ≠ [] → w2 ≠ [] → ((w1 ++ w2).all fun c => !c.isWhitespace) = true →
      Row (' ' :: (w1 ++ ' ' :: (w2 ++ ['\n']))) [w1, w2] := by
    intro w1 w2 h1 h2 h3
    rw [List.all_append, Bool.and_eq_true] at h3
    have r2 : Row ([' '] ++ w2 ++ ['\n']) [w2] := .word (hb _ rfl) (hw _ h2 h3.2) (by intro c hc; simp at hc; subst hc; rfl) (.done (hb _ rfl))
    have r1 := Row.word (b := [' ']) (hb _ rfl) (hw _ h1 h3.1) (by intro c hc; simp at hc; subst hc; rfl) r2
    simpa using r1
  obtain ⟨attrs, h1, _, h2⟩ := c47_file unitText "none" text "zero" ["# Statistics\n".toList] (by
      intro n hn; simp only [List.mem_singleton] at hn; subst hn; exact note_of (by decide +kernel))
    [⟨"Step".toList, "none", "No".toList⟩, ⟨"Time".toList, "3 s", "Cosmic time".toList⟩] (by simp)
    [["# (0)  Step\n".toList], ["# (1)  Time.\n".toList, "#   Unit = 3 s\n".toList]]
    (.cons ⟨none, .plain (title_match (by decide +kernel)) (by simp), rfl⟩
      (.cons ⟨some ("3".toList, "s".toList), .unit (notes := []) (title_match (by decide +kernel)) (by simp) (unit_match (by decide +kernel)) (by simp),
        by unfold UnitOf; decide +kernel⟩ .nil))
    "  No  Cosmic time\n".toList (note_of (by decide +kernel))
    (.name (b := "  ".toList) (hb _ (by decide +kernel)) (by decide +kernel) (.one (w := "No".toList) (hw _ (by decide +kernel) (by decide +kernel)))
      (.name (b := "  ".toList) (hb _ (by decide +kernel)) (by decide +kernel)
        (.more (w := "Cosmic".toList) (hw _ (by decide +kernel) (by decide +kernel)) (.one (w := "time".toList) (hw _ (by decide +kernel) (by decide +kernel))))
        (.done (Or.inr (Or.inl rfl)))))
    (by decide +kernel) (by decide +kernel)
    [" 0 0.5\n".toList, " 1 7e3\n".toList] (by decide +kernel) ["0".toList, "0.5".toList] [["1".toList, "7e3".toList]]
    (.cons (hrow "0".toList "0.5".toList (by decide +kernel) (by decide +kernel) (by decide +kernel))
      (.cons (hrow "1".toList "7e3".toList (by decide +kernel) (by decide +kernel) (by decide +kernel)) .nil))
    (by simp) (fun c r => ((["0", "0.5"], ["1", "7e3"]) : List String × List String) |> fun t => ((if r = 0 then t.1 else t.2).getD c "")) (by
      intro r row hr c f w hf hw
      rcases r with - | - | r <;> rcases c with - | - | c <;> simp at hr hf hw <;> subst hr <;> simp at hw <;> subst hw <;> rfl)
  exact ⟨attrs, h1, h2 1 _ rfl⟩

end Verif.Props
