import Verif.Lemmas.Sharing
import Verif.Spec.Sharing
import Verif.Props.Mask

/-!
# C86: a dataset keeps the selection it was opened with
-/

namespace Verif.Props
open Verif Verif.Accel Verif.Mask Verif.Spec Verif.Sharing

set_option linter.unusedSectionVars false

section General
variable {K : Type} [Field K] [LinearOrder K] {m : Nat}

/-! ## What holds of the arrays after any program -/

/-- arrays of masks are of the right kind, boolean arrays belong to one attribute of one mask, and datasets refer to ranges -/
private structure Sound (w : World m) : Prop where
  ok : ∀ (i : Nat) (o : MaskObj m), w.masks[i]? = some o → Ok (w.heap, o)
  sep : ∀ (i : Nat) (o : MaskObj m) (j : Nat) (p : MaskObj m) (k l : Fin m), w.masks[i]? = some o → w.masks[j]? = some p → o.rangeMask = false → o.ref k = p.ref l → i = j ∧ k = l
  data : ∀ (d : Nat) (x : DataObj m) (r : Fin m → Nat × Int) (k : Fin m), w.datas[d]? = some x → x.masks = some r → ∃ l, w.heap[(r k).1]? = some (.ranges l)

/-- every array of ranges is still there as it was -/
private def Kept (w w' : World m) : Prop := ∀ (r : Nat) (l : List Rng), w.heap[r]? = some (Buf.ranges l) → w'.heap[r]? = some (Buf.ranges l)

/-- a mask looks as before -/
private def Unmoved (w w' : World m) (i : Nat) : Prop :=
  ∀ o : MaskObj m, w.masks[i]? = some o → w'.masks[i]? = some o ∧ view (w'.heap, o) = view (w.heap, o)

private theorem view_congr {h h' : Heap} {o : MaskObj m} (e : ∀ k, h'[o.ref k]? = h[o.ref k]?) : view (h', o) = view (h, o) := by
  unfold view
  dsimp only
  congr 1
  have e1 : (fun k => rangesAt h' (o.ref k)) = fun k => rangesAt h (o.ref k) := by
    funext k; exact rangesAt_congr (e k)
  have e2 : (fun k => boolsAt h' (o.ref k)) = fun k => boolsAt h (o.ref k) := by
    funext k; exact boolsAt_congr (e k)
  rw [e1, e2]

private theorem ok_congr {h h' : Heap} {o : MaskObj m} (e : ∀ k, h'[o.ref k]? = h[o.ref k]?) (ho : Ok (h, o)) : Ok (h', o) :=
  ⟨fun a k => by obtain ⟨l, hl⟩ := ho.rng a k; exact ⟨l, (e k).trans hl⟩,
   fun a k => by obtain ⟨l, hl⟩ := ho.bool a k; exact ⟨l, (e k).trans hl⟩, ho.inj⟩

private theorem put_masks_self {w : World m} {i : Nat} {o : MaskObj m} (h : w.masks[i]? = some o) (t : One m) :
    (w.put i t).masks[i]? = some t.2 := by
  show (w.masks.set i t.2)[i]? = _
  rw [List.getElem?_set_self]
  exact (List.getElem?_eq_some_iff.mp h).1

private theorem put_masks_ne {w : World m} {i j : Nat} (h : i ≠ j) (t : One m) : (w.put i t).masks[j]? = w.masks[j]? := by
  show (w.masks.set i t.2)[j]? = _
  rw [List.getElem?_set_ne h]

/-- a call on one mask -/
private theorem put_sound {w : World m} (hw : Sound w) {i : Nat} {o : MaskObj m} (hi : w.masks[i]? = some o) {t : One m}
    (ht : Ok t) (hm : Moves (w.heap, o) t) :
    Sound (w.put i t) ∧ Kept w (w.put i t) ∧ ∀ j, j ≠ i → Unmoved w (w.put i t) j := by
  have hold : ∀ (j : Nat) (p : MaskObj m), j ≠ i → w.masks[j]? = some p → ∀ k, t.1[p.ref k]? = w.heap[p.ref k]? := by
    intro j p hj hp k
    refine hm.old _ ((hw.ok j p hp).valid k) ?_
    cases hr : p.rangeMask with
    | true => exact .inl ((hw.ok j p hp).rng hr k)
    | false =>
      right
      intro l he
      exact hj (hw.sep j p i o k l hp hi hr he.symm).1
  have hbool : ∀ k, t.2.rangeMask = false → t.2.ref k = o.ref k → o.rangeMask = false := by
    intro k hr he
    cases ho : o.rangeMask with
    | false => rfl
    | true =>
      obtain ⟨l, hl⟩ := (hw.ok i o hi).rng ho k
      obtain ⟨l', hl'⟩ := ht.bool hr k
      have := hm.old (o.ref k) ((hw.ok i o hi).valid k) (.inl ⟨l, hl⟩)
      rw [he, this] at hl'
      exact absurd (hl.symm.trans hl') (by simp)
  refine ⟨⟨?_, ?_, ?_⟩, ?_, ?_⟩
  · intro j p hp
    by_cases hj : i = j
    · subst hj
      rw [put_masks_self hi] at hp
      cases hp
      exact ht
    · rw [put_masks_ne hj] at hp
      exact ok_congr (hold j p (Ne.symm hj) hp) (hw.ok j p hp)
  · intro a p b q k l hp hq hr he
    by_cases ha : i = a
    · subst ha
      rw [put_masks_self hi] at hp
      cases hp
      by_cases hb : i = b
      · subst hb
        rw [put_masks_self hi] at hq
        cases hq
        exact ⟨rfl, ht.inj hr _ _ he⟩
      · rw [put_masks_ne hb] at hq
        exfalso
        have hv := (hw.ok b q hq).valid l
        rcases hm.ref k with hk | hk
        · exact hb (hw.sep i o b q k l hi hq (hbool k hr hk) (by rw [← hk]; exact he)).1
        · dsimp only at hk hv
          omega
    · rw [put_masks_ne ha] at hp
      by_cases hb : i = b
      · subst hb
        rw [put_masks_self hi] at hq
        cases hq
        exfalso
        have hv := (hw.ok a p hp).valid k
        rcases hm.ref l with hl | hl
        · exact ha (hw.sep a p i o k l hp hi hr (by rw [he]; exact hl)).1.symm
        · dsimp only at hl hv
          omega
      · rw [put_masks_ne hb] at hq
        exact hw.sep a p b q k l hp hq hr he
  · intro d x r k hx hr
    obtain ⟨l, hl⟩ := hw.data d x r k hx hr
    exact ⟨l, (hm.old _ (lt_of_get hl) (.inl ⟨l, hl⟩)).trans hl⟩
  · intro r l hl
    exact (hm.old r (lt_of_get hl) (.inl ⟨l, hl⟩)).trans hl
  · intro j hj p hp
    exact ⟨by rw [put_masks_ne (Ne.symm hj)]; exact hp, view_congr (hold j p hj hp)⟩

private theorem append_data {w : World m} (hw : Sound w) (x : DataObj m)
    (hx : ∀ r k, x.masks = some r → ∃ l, w.heap[(r k).1]? = some (.ranges l)) : Sound { w with datas := w.datas ++ [x] } := by
  refine ⟨hw.ok, hw.sep, ?_⟩
  intro d y r k hy hr
  dsimp only at hy
  rw [List.getElem?_append] at hy
  by_cases hd : d < w.datas.length
  · rw [if_pos hd] at hy
    exact hw.data d y r k hy hr
  · rw [if_neg hd] at hy
    rw [List.getElem?_singleton] at hy
    by_cases h0 : d - w.datas.length = 0
    · rw [if_pos h0] at hy
      cases hy
      exact hx r k hr
    · rw [if_neg h0] at hy
      cases hy

private theorem new_sound {w : World m} (hw : Sound w) (f : File K m) (file : Nat) :
    Sound { w with heap := (newMask f w.heap file).1, masks := w.masks ++ [(newMask f w.heap file).2] } ∧
      Kept w { w with heap := (newMask f w.heap file).1, masks := w.masks ++ [(newMask f w.heap file).2] } ∧
      ∀ j, Unmoved w { w with heap := (newMask f w.heap file).1, masks := w.masks ++ [(newMask f w.heap file).2] } j := by
  obtain ⟨h1, _, _, h4, h5, h6, h7⟩ := newMask_does f w.heap file
  generalize newMask f w.heap file = s at *
  have hmem : ∀ (i : Nat) (o : MaskObj m), (w.masks ++ [s.2])[i]? = some o → w.masks[i]? = some o ∨ (i = w.masks.length ∧ o = s.2) := by
    intro i o h
    rw [List.getElem?_append] at h
    by_cases hi : i < w.masks.length
    · rw [if_pos hi] at h; exact .inl h
    · rw [if_neg hi, List.getElem?_singleton] at h
      by_cases h0 : i - w.masks.length = 0
      · rw [if_pos h0] at h; cases h; exact .inr ⟨by omega, rfl⟩
      · rw [if_neg h0] at h; cases h
  have hold : ∀ (i : Nat) (o : MaskObj m), w.masks[i]? = some o → ∀ k, s.1[o.ref k]? = w.heap[o.ref k]? :=
    fun i o h k => h5 _ ((hw.ok i o h).valid k)
  refine ⟨⟨?_, ?_, ?_⟩, ?_, ?_⟩
  · intro i o h
    rcases hmem i o h with h | ⟨_, rfl⟩
    · exact ok_congr (hold i o h) (hw.ok i o h)
    · exact h1
  · intro i o j p k l h h' hr he
    rcases hmem i o h with h | ⟨_, rfl⟩
    · rcases hmem j p h' with h' | ⟨_, rfl⟩
      · exact hw.sep i o j p k l h h' hr he
      · exfalso
        have hv := (hw.ok i o h).valid k
        have := h7 l
        dsimp only at hv
        omega
    · rw [h6] at hr; cases hr
  · intro d x r k hx hr
    obtain ⟨l, hl⟩ := hw.data d x r k hx hr
    exact ⟨l, (h5 _ (lt_of_get hl)).trans hl⟩
  · intro r l hl
    exact (h5 _ (lt_of_get hl)).trans hl
  · intro j o h
    refine ⟨?_, view_congr (hold j o h)⟩
    show (w.masks ++ [s.2])[j]? = _
    rw [List.getElem?_append_left (List.getElem?_eq_some_iff.mp h).1]
    exact h

private theorem fits_ranges {a b : Buf} (h : fits a b = true) (l : List Rng) (ha : a = .ranges l) : ∃ l', b = .ranges l' := by
  subst ha
  cases b with
  | ranges l' => exact ⟨l', rfl⟩
  | bools l' => simp [fits] at h

private theorem fits_bools {a b : Buf} (h : fits a b = true) (l : List Bool) (ha : a = .bools l) : ∃ l', b = .bools l' := by
  subst ha
  cases b with
  | ranges l' => simp [fits] at h
  | bools l' => exact ⟨l', rfl⟩

private theorem edit_cases (w : World m) (r : Nat) (b : Buf) :
    (w.edit r b).1 = w ∨ ∃ a, w.heap[r]? = some a ∧ fits a b = true ∧ (w.edit r b).1 = { w with heap := w.heap.set r b } := by
  unfold World.edit
  cases h : w.heap[r]? with
  | none => exact .inl rfl
  | some a =>
    dsimp only
    by_cases hf : fits a b = true
    · rw [if_pos hf]; exact .inr ⟨a, rfl, hf, rfl⟩
    · rw [if_neg hf]; exact .inl rfl

private theorem edit_sound {w : World m} (hw : Sound w) (r : Nat) (b : Buf) : Sound (w.edit r b).1 := by
  rcases edit_cases w r b with h | ⟨a, ha, hf, h⟩
  · rw [h]; exact hw
  · rw [h]
    have hR : ∀ (q : Nat) (l : List Rng), w.heap[q]? = some (Buf.ranges l) → ∃ l', (w.heap.set r b)[q]? = some (Buf.ranges l') := by
      intro q l hq
      by_cases he : r = q
      · subst he
        rw [List.getElem?_set_self (lt_of_get hq)]
        obtain ⟨l', e⟩ := fits_ranges hf l (by rw [ha] at hq; exact Option.some.inj hq)
        exact ⟨l', by rw [e]⟩
      · rw [List.getElem?_set_ne he]; exact ⟨l, hq⟩
    have hB : ∀ (q : Nat) (l : List Bool), w.heap[q]? = some (Buf.bools l) → ∃ l', (w.heap.set r b)[q]? = some (Buf.bools l') := by
      intro q l hq
      by_cases he : r = q
      · subst he
        rw [List.getElem?_set_self (lt_of_get hq)]
        obtain ⟨l', e⟩ := fits_bools hf l (by rw [ha] at hq; exact Option.some.inj hq)
        exact ⟨l', by rw [e]⟩
      · rw [List.getElem?_set_ne he]; exact ⟨l, hq⟩
    refine ⟨?_, hw.sep, ?_⟩
    · intro i o hi
      have ho := hw.ok i o hi
      exact ⟨fun h k => by obtain ⟨l, e⟩ := ho.rng h k; exact hR _ l e, fun h k => by obtain ⟨l, e⟩ := ho.bool h k; exact hB _ l e,
        ho.inj⟩
    · intro d x q k hx hq
      obtain ⟨l, e⟩ := hw.data d x q k hx hq
      exact hR _ l e

/-- the action writes into no array of ranges -/
private def Quiet (w : World m) (a : Act K m) : Prop :=
  ∀ i k b, a = .edit i k b → ∀ o : MaskObj m, w.masks[i]? = some o → o.rangeMask = false

private theorem step_sound (files : Nat → File K m) {w : World m} (hw : Sound w) (a : Act K m) :
    Sound (Sharing.step files w a).1 ∧ (Quiet w a → Kept w (Sharing.step files w a).1) := by
  cases a with
  | newMask file =>
    obtain ⟨h1, h2, _⟩ := new_sound hw (files file) file
    exact ⟨h1, fun _ => h2⟩
  | call i op =>
    unfold Sharing.step
    dsimp only
    cases hi : w.masks[i]? with
    | none => exact ⟨hw, fun _ r l h => h⟩
    | some o =>
      have ha := call_acts (files o.file) (w.heap, o) (hw.ok i o hi) op
      obtain ⟨h1, h2, _⟩ := put_sound hw hi ha.ok ha.moves
      exact ⟨h1, fun _ => h2⟩
  | openFile file i =>
    cases i with
    | none => exact ⟨append_data hw _ (by simp), fun _ r l h => h⟩
    | some i =>
      unfold Sharing.step
      dsimp only
      cases hi : w.masks[i]? with
      | none => exact ⟨hw, fun _ r l h => h⟩
      | some o =>
        obtain ⟨hd, hr⟩ := convertToRanges_does (w.heap, o) (hw.ok i o hi)
        obtain ⟨h1, h2, _⟩ := put_sound hw hi hd.ok hd.moves
        dsimp only
        unfold World.openWith
        dsimp only
        by_cases hf : o.file = file
        · rw [if_pos hf]
          refine ⟨append_data h1 _ ?_, fun _ => h2⟩
          intro r k e
          cases e
          exact hd.ok.rng hr k
        · rw [if_neg hf]
          exact ⟨h1, fun _ => h2⟩
  | edit i k b =>
    unfold Sharing.step
    dsimp only
    cases hi : w.masks[i]? with
    | none => exact ⟨hw, fun _ r l h => h⟩
    | some o =>
      dsimp only
      refine ⟨edit_sound hw _ _, ?_⟩
      intro hq r l hl
      have hr := hq i k b rfl o hi
      rcases edit_cases w (o.ref k) b with h | ⟨a, ha, hf, h⟩
      · rw [h]; exact hl
      · rw [h]
        show (w.heap.set (o.ref k) b)[r]? = _
        rw [List.getElem?_set_ne]
        · exact hl
        · rintro rfl
          obtain ⟨l', hl'⟩ := (hw.ok i o hi).bool hr k
          exact absurd (hl.symm.trans hl') (by simp)

private theorem sound_nil : Sound (⟨[], [], []⟩ : World m) :=
  ⟨by simp, by simp, by simp⟩

private theorem sound_fold (files : Nat → File K m) : ∀ (acts : List (Act K m)) (w : World m), Sound w →
    Sound (acts.foldl (fun w a => (Sharing.step files w a).1) w) := by
  intro acts
  induction acts with
  | nil => intro w hw; exact hw
  | cons a acts ih => intro w hw; exact ih _ (step_sound files hw a).1

private theorem sound_run (files : Nat → File K m) (acts : List (Act K m)) : Sound (Sharing.run files acts) := sound_fold files acts _ sound_nil

/-- C86, arrays. After any program, edits included, a mask has arrays of the kind its form says, boolean arrays are shared with
no other attribute and no other mask, and an open dataset refers to arrays of ranges. -/
theorem c86_buffers (files : Nat → File K m) (acts : List (Act K m)) :
    (∀ (i : Nat) (o : MaskObj m), (Sharing.run files acts).masks[i]? = some o → ∀ k, (∃ l, (Sharing.run files acts).heap[o.ref k]? = some (.ranges l)) ∧ o.rangeMask = true ∨
      (∃ l, (Sharing.run files acts).heap[o.ref k]? = some (.bools l)) ∧ o.rangeMask = false) ∧
    (∀ (i : Nat) (o : MaskObj m) (j : Nat) (p : MaskObj m) (k l : Fin m), (Sharing.run files acts).masks[i]? = some o → (Sharing.run files acts).masks[j]? = some p → o.rangeMask = false →
      o.ref k = p.ref l → i = j ∧ k = l) ∧
    (∀ (d : Nat) (x : DataObj m) (r : Fin m → Nat × Int) (k : Fin m), (Sharing.run files acts).datas[d]? = some x → x.masks = some r → ∃ l, (Sharing.run files acts).heap[(r k).1]? = some (.ranges l)) := by
  have h := sound_run files acts
  refine ⟨?_, h.sep, h.data⟩
  intro i o hi k
  cases hr : o.rangeMask with
  | true => exact .inl ⟨(h.ok i o hi).rng hr k, rfl⟩
  | false => exact .inr ⟨(h.ok i o hi).bool hr k, rfl⟩

/-! ## Datasets do not change -/

/-- A program in which the user writes only into arrays of masks that are in boolean form at that moment. -/
def EditsBools (files : Nat → File K m) : World m → List (Act K m) → Prop
  | _, [] => True
  | w, a :: acts => (∀ i k b, a = .edit i k b → ∀ o : MaskObj m, w.masks[i]? = some o → o.rangeMask = false) ∧
      EditsBools files (Sharing.step files w a).1 acts

/-- programs without edits are such programs -/
private theorem editsBools_of_noEdit (files : Nat → File K m) : ∀ (acts : List (Act K m)) (w : World m), NoEdit acts →
    EditsBools files w acts := by
  intro acts
  induction acts with
  | nil => intro w _; trivial
  | cons a acts ih =>
    intro w h
    refine ⟨?_, ih _ (fun b hb => h b (by simp [hb]))⟩
    rintro i k b rfl
    exact absurd trivial (h (.edit i k b) (by simp))

private theorem datas_step (files : Nat → File K m) (w : World m) (a : Act K m) : ∃ t, (Sharing.step files w a).1.datas = w.datas ++ t := by
  cases a with
  | newMask file => exact ⟨[], by simp [Sharing.step]⟩
  | call i op =>
    unfold Sharing.step
    dsimp only
    cases hi : w.masks[i]? with
    | none => exact ⟨[], by simp⟩
    | some o => exact ⟨[], by simp [World.put]⟩
  | openFile file i =>
    cases i with
    | none => exact ⟨_, rfl⟩
    | some i =>
      unfold Sharing.step
      dsimp only
      cases hi : w.masks[i]? with
      | none => exact ⟨[], by simp⟩
      | some o =>
        dsimp only
        unfold World.openWith
        dsimp only
        by_cases hf : o.file = file
        · rw [if_pos hf]; exact ⟨_, rfl⟩
        · rw [if_neg hf]; exact ⟨[], by simp [World.put]⟩
  | edit i k b =>
    unfold Sharing.step
    dsimp only
    cases hi : w.masks[i]? with
    | none => exact ⟨[], by simp⟩
    | some o =>
      dsimp only
      rcases edit_cases w (o.ref k) b with h | ⟨_, _, _, h⟩
      · rw [h]; exact ⟨[], by simp⟩
      · rw [h]; exact ⟨[], by simp⟩

private theorem read_step {α : Type} (files : Nat → File K m) {w : World m} (hw : Sound w) (a : Act K m) (hq : Quiet w a) (d : Nat)
    (hd : d < w.datas.length) (lay : Layout) (ds : List α) (k : Fin m) :
    (Sharing.step files w a).1.read d lay ds k = w.read d lay ds k := by
  obtain ⟨_, hk⟩ := step_sound files hw a
  obtain ⟨t, ht⟩ := datas_step files w a
  unfold World.read
  rw [ht, List.getElem?_append_left hd]
  cases hx : w.datas[d]? with
  | none => rfl
  | some x =>
    dsimp only
    cases hr : x.masks with
    | none => rfl
    | some r =>
      dsimp only
      obtain ⟨l, hl⟩ := hw.data d x r k hx hr
      rw [hk hq _ l hl, hl]

private theorem read_fold {α : Type} (files : Nat → File K m) (d : Nat) (lay : Layout) (ds : List α) (k : Fin m) :
    ∀ (acts : List (Act K m)) (w : World m), Sound w → EditsBools files w acts → d < w.datas.length →
    (acts.foldl (fun w a => (Sharing.step files w a).1) w).read d lay ds k = w.read d lay ds k := by
  intro acts
  induction acts with
  | nil => intro w _ _ _; rfl
  | cons a acts ih =>
    intro w hw hq hd
    rw [List.foldl_cons, ih _ (step_sound files hw a).1 hq.2 (by
      obtain ⟨t, ht⟩ := datas_step files w a
      rw [ht, List.length_append]; omega)]
    exact read_step files hw a hq.1 d hd lay ds k

private theorem run_append (files : Nat → File K m) (a b : List (Act K m)) :
    Sharing.run files (a ++ b) = b.foldl (fun w a => (Sharing.step files w a).1) (Sharing.run files a) := by
  unfold Sharing.run; rw [List.foldl_append]

/-- C86, open datasets. What a dataset reads stays the same whatever is done afterwards: calls on its mask and on other masks,
more masks, more datasets, and values written into arrays of masks that are in boolean form. The program before may be any. -/
theorem c86_constant {α : Type} (files : Nat → File K m) (before after : List (Act K m))
    (h : EditsBools files (Sharing.run files before) after) (d : Nat) (hd : d < (Sharing.run files before).datas.length) (lay : Layout) (ds : List α)
    (k : Fin m) : (Sharing.run files (before ++ after)).read d lay ds k = (Sharing.run files before).read d lay ds k := by
  rw [run_append]
  exact read_fold files d lay ds k after _ (sound_run files before) h hd

/-- C86, arrays of ranges. An array of ranges taken from a mask keeps its values when the user writes into no array of ranges:
the methods of the mask put new arrays in its place. -/
theorem c86_ranges_array (files : Nat → File K m) (before after : List (Act K m)) (h : EditsBools files (Sharing.run files before) after)
    (r : Nat) (l : List Rng) (hr : (Sharing.run files before).heap[r]? = some (.ranges l)) :
    (Sharing.run files (before ++ after)).heap[r]? = some (.ranges l) := by
  rw [run_append]
  have hw := sound_run files before
  generalize Sharing.run files before = w at h hr hw
  induction after generalizing w with
  | nil => exact hr
  | cons a after ih => exact ih _ h.2 ((step_sound files hw a).2 h.1 _ _ hr) (step_sound files hw a).1

/-! ## Masks are independent -/

private theorem callsFrom_snoc (i : Nat) (a : Act K m) : ∀ (acts : List (Act K m)) (n : Nat),
    callsFrom i n (acts ++ [a]) = callsFrom i n acts ++ callsFrom i (n + (filesOf acts).length) [a] := by
  intro acts
  induction acts with
  | nil => intro n; simp [callsFrom, filesOf]
  | cons b acts ih =>
    intro n
    cases b with
    | newMask file =>
      simp only [List.cons_append, callsFrom, filesOf, List.length_cons]
      rw [ih, show n + 1 + (filesOf acts).length = n + ((filesOf acts).length + 1) by omega]
    | call j op => simp only [List.cons_append, callsFrom, filesOf]; rw [ih, List.append_assoc]
    | openFile file j =>
      cases j with
      | none => simp only [List.cons_append, callsFrom, filesOf]; rw [ih]
      | some j => simp only [List.cons_append, callsFrom, filesOf]; rw [ih, List.append_assoc]
    | edit j k b => simp only [List.cons_append, callsFrom, filesOf]; rw [ih]

private theorem filesOf_append (a b : List (Act K m)) : filesOf (a ++ b) = filesOf a ++ filesOf b := by
  induction a with
  | nil => rfl
  | cons x a ih => cases x <;> simp [filesOf, ih]

private theorem callsFrom_fresh (i : Nat) : ∀ (acts : List (Act K m)) (n : Nat), n + (filesOf acts).length ≤ i →
    callsFrom i n acts = [] := by
  intro acts
  induction acts with
  | nil => intro n _; rfl
  | cons b acts ih =>
    intro n h
    cases b with
    | newMask file => simp only [filesOf, List.length_cons] at h; simp only [callsFrom]; exact ih _ (by omega)
    | call j op =>
      simp only [filesOf] at h; simp only [callsFrom]
      rw [if_neg (by omega), ih _ h]; rfl
    | openFile file j =>
      cases j with
      | none => simp only [filesOf] at h; simp only [callsFrom]; exact ih _ h
      | some j =>
        simp only [filesOf] at h; simp only [callsFrom]
        rw [if_neg (by omega), ih _ h]; rfl
    | edit j k b => simp only [filesOf] at h; simp only [callsFrom]; exact ih _ h

/-- every mask is what its own calls make of it -/
private structure Hist (files : Nat → File K m) (acts : List (Act K m)) (w : World m) : Prop where
  names : w.masks.map (·.file) = filesOf acts
  view : ∀ (i : Nat) (o : MaskObj m), w.masks[i]? = some o → view (w.heap, o) = Mask.run (files o.file) (callsOn i acts)

private theorem run_snoc (f : File K m) (ops : List (Op K)) (op : Op K) :
    Mask.run f (ops ++ [op]) = (Mask.step f (Mask.run f ops) op).1 := by
  unfold Mask.run; rw [List.foldl_append]; rfl

private theorem put_files {w : World m} {i : Nat} {o : MaskObj m} (hi : w.masks[i]? = some o) {t : One m} (h : t.2.file = o.file) :
    (w.put i t).masks.map (·.file) = w.masks.map (·.file) := by
  show (w.masks.set i t.2).map (·.file) = _
  rw [List.map_set]
  refine List.ext_getElem? ?_
  intro j
  by_cases hj : i = j
  · subst hj
    obtain ⟨hl, he⟩ := List.getElem?_eq_some_iff.mp hi
    rw [List.getElem?_set_self (by simpa using hl), List.getElem?_map, hi, h]
    rfl
  · rw [List.getElem?_set_ne hj]

private theorem hist_put (files : Nat → File K m) {acts : List (Act K m)} {w : World m} (hw : Sound w) (hh : Hist files acts w)
    {i : Nat} {o : MaskObj m} (hi : w.masks[i]? = some o) (op : Op K) {t : One m} (ht : Ok t) (hm : Moves (w.heap, o) t)
    (hv : Sharing.view t = (Mask.step (files o.file) (Sharing.view (w.heap, o)) op).1) (a : Act K m)
    (hc : ∀ j, callsFrom j (filesOf acts).length [a] = if i = j ∧ j < (filesOf acts).length then [op] else [])
    (hf : filesOf [a] = []) : Hist files (acts ++ [a]) (w.put i t) := by
  obtain ⟨_, _, hu⟩ := put_sound hw hi ht hm
  refine ⟨?_, ?_⟩
  · rw [put_files hi hm.file, hh.names, filesOf_append, hf, List.append_nil]
  · intro j p hp
    unfold callsOn
    rw [callsFrom_snoc, Nat.zero_add, hc]
    by_cases hj : i = j
    · subst hj
      rw [put_masks_self hi] at hp
      cases hp
      have hl : i < (filesOf acts).length := by
        rw [← hh.names, List.length_map]; exact (List.getElem?_eq_some_iff.mp hi).1
      rw [if_pos ⟨rfl, hl⟩, run_snoc]
      have e : t.2.file = o.file := hm.file
      have h0 := hh.view i o hi
      unfold callsOn at h0
      rw [e, ← h0]
      exact hv
    · rw [if_neg (fun h => hj h.1), List.append_nil]
      rw [put_masks_ne hj] at hp
      rw [((hu j (Ne.symm hj)) p hp).2]
      exact hh.view j p hp

private theorem hist_same (files : Nat → File K m) {acts : List (Act K m)} {w : World m} (hh : Hist files acts w) (a : Act K m)
    (hc : ∀ j, j < w.masks.length → callsFrom j (filesOf acts).length [a] = []) (hf : filesOf [a] = []) :
    Hist files (acts ++ [a]) w := by
  refine ⟨by rw [hh.names, filesOf_append, hf, List.append_nil], ?_⟩
  intro j p hp
  have := hh.view j p hp
  unfold callsOn at this ⊢
  rw [callsFrom_snoc, Nat.zero_add, hc j (List.getElem?_eq_some_iff.mp hp).1, List.append_nil]
  exact this

private theorem hist_step (files : Nat → File K m) {acts : List (Act K m)} {w : World m} (hw : Sound w) (hh : Hist files acts w)
    (a : Act K m) (ha : ¬ IsEdit a) : Hist files (acts ++ [a]) (Sharing.step files w a).1 := by
  cases a with
  | newMask file =>
    obtain ⟨_, h2, h3, _⟩ := newMask_does (files file) w.heap file
    obtain ⟨_, _, hu⟩ := new_sound hw (files file) file
    refine ⟨?_, ?_⟩
    · show (w.masks ++ [(newMask (files file) w.heap file).2]).map (·.file) = _
      rw [List.map_append, hh.names, filesOf_append]
      simp [filesOf, h3]
    · intro j p hp
      have hp' : (w.masks ++ [(newMask (files file) w.heap file).2])[j]? = some p := hp
      show Sharing.view ((newMask (files file) w.heap file).1, p) = _
      unfold callsOn
      rw [callsFrom_snoc]
      simp only [callsFrom, List.append_nil]
      by_cases hj : j < w.masks.length
      · rw [List.getElem?_append_left hj] at hp'
        rw [← show callsOn j acts = callsFrom j 0 acts from rfl, ← hh.view j p hp']
        exact ((hu j) p hp').2
      · rw [List.getElem?_append_right (by omega), List.getElem?_singleton] at hp'
        by_cases h0 : j - w.masks.length = 0
        · rw [if_pos h0] at hp'
          cases hp'
          rw [h3, callsFrom_fresh j acts 0 (by rw [← hh.names, List.length_map]; omega)]
          exact h2
        · rw [if_neg h0] at hp'; cases hp'
  | call i op =>
    unfold Sharing.step
    dsimp only
    cases hi : w.masks[i]? with
    | none =>
      refine hist_same files hh _ ?_ rfl
      intro j hj
      simp only [callsFrom, List.append_nil]
      rw [if_neg]
      rintro ⟨rfl, _⟩
      rw [List.getElem?_eq_none_iff] at hi
      omega
    | some o =>
      have hact := call_acts (files o.file) (w.heap, o) (hw.ok i o hi) op
      refine hist_put files hw hh hi op hact.ok hact.moves hact.view _ ?_ rfl
      intro j
      simp [callsFrom]
  | openFile file i =>
    cases i with
    | none => 
      have := hist_same files hh (.openFile file none) (fun j _ => rfl) rfl
      exact ⟨this.names, this.view⟩
    | some i =>
      unfold Sharing.step
      dsimp only
      cases hi : w.masks[i]? with
      | none =>
        refine hist_same files hh _ ?_ rfl
        intro j hj
        simp only [callsFrom, List.append_nil]
        rw [if_neg]
        rintro ⟨rfl, _⟩
        rw [List.getElem?_eq_none_iff] at hi
        omega
      | some o =>
        obtain ⟨hd, _⟩ := convertToRanges_does (w.heap, o) (hw.ok i o hi)
        have := hist_put files hw hh hi .toRanges hd.ok hd.moves hd.view (.openFile file (some i)) (by intro j; simp [callsFrom]) rfl
        dsimp only
        unfold World.openWith
        dsimp only
        by_cases hf : o.file = file
        · rw [if_pos hf]; exact ⟨this.names, this.view⟩
        · rw [if_neg hf]; exact this
  | edit i k b => exact absurd trivial ha

private theorem hist_run (files : Nat → File K m) (acts : List (Act K m)) (h : NoEdit acts) : Hist files acts (Sharing.run files acts) := by
  induction acts using List.reverseRecOn with
  | nil => exact ⟨rfl, by simp [Sharing.run]⟩
  | append_singleton acts a ih =>
    rw [run_append]
    exact hist_step files (sound_run files acts) (ih (fun b hb => h b (by simp [hb]))) a (h a (by simp))

private theorem hist_mask (files : Nat → File K m) {acts : List (Act K m)} {w : World m} (hh : Hist files acts w) {i fl : Nat}
    (h : (filesOf acts)[i]? = some fl) : ∃ o, w.masks[i]? = some o ∧ o.file = fl := by
  rw [← hh.names, List.getElem?_map] at h
  cases hi : w.masks[i]? with
  | none => rw [hi] at h; cases h
  | some o => rw [hi] at h; exact ⟨o, rfl, Option.some.inj h⟩

private theorem shows_of_view {w : World m} {o : MaskObj m} {s : State m} (ho : Ok (w.heap, o)) (h : view (w.heap, o) = s) :
    Shows w o s := by
  subst h
  refine ⟨rfl, rfl, rfl, ?_⟩
  cases hr : o.rangeMask with
  | true =>
    refine .inl ⟨_, rfl, view_ranges hr, ?_⟩
    intro k
    obtain ⟨l, hl⟩ := ho.rng hr k
    rw [rangesAt_of hl]; exact hl
  | false =>
    refine .inr ⟨_, rfl, view_bools hr, ?_⟩
    intro k
    obtain ⟨l, hl⟩ := ho.bool hr k
    rw [boolsAt_of hl]; exact hl

/-- C86, masks. In a program in which the user writes into no array, every mask shows what its own calls make of a fresh mask of
its file, opening a dataset counted as a conversion to ranges: other masks and datasets have no effect on it. -/
theorem c86_history (files : Nat → File K m) (acts : List (Act K m)) (h : NoEdit acts) :
    (Sharing.run files acts).masks.length = (filesOf acts).length ∧
    ∀ i fl, (filesOf acts)[i]? = some fl → ∃ o, (Sharing.run files acts).masks[i]? = some o ∧ o.file = fl ∧
      Shows (Sharing.run files acts) o (Mask.run (files fl) (callsOn i acts)) := by
  have hh := hist_run files acts h
  refine ⟨by rw [← hh.names, List.length_map], ?_⟩
  intro i fl hi
  obtain ⟨o, ho, hf⟩ := hist_mask files hh hi
  refine ⟨o, ho, hf, shows_of_view ((sound_run files acts).ok i o ho) ?_⟩
  rw [hh.view i o ho, hf]

/-- C86, errors. A call in such a program raises what the same call raises in a program with this mask alone. -/
theorem c86_errors (files : Nat → File K m) (acts : List (Act K m)) (h : NoEdit acts) (i fl : Nat) (hi : (filesOf acts)[i]? = some fl)
    (op : Op K) : (Sharing.step files (Sharing.run files acts) (.call i op)).2 =
      (Mask.step (files fl) (Mask.run (files fl) (callsOn i acts)) op).2 := by
  have hh := hist_run files acts h
  obtain ⟨o, ho, hf⟩ := hist_mask files hh hi
  have hact := call_acts (files o.file) ((Sharing.run files acts).heap, o) ((sound_run files acts).ok i o ho) op
  unfold Sharing.step
  dsimp only
  rw [ho]
  dsimp only
  rw [hact.err, hh.view i o ho, hf]

/-- C86, opening. A dataset opened with a mask of its file reads, at any later time, what `Mask.load` gives for the calls made on
that mask before the dataset was opened. -/
theorem c86_keeps {α : Type} (files : Nat → File K m) (before after : List (Act K m)) (hb : NoEdit before) (ha : NoEdit after)
    (i fl : Nat) (hi : (filesOf before)[i]? = some fl) (lay : Layout) (ds : List α) (k : Fin m) :
    (Sharing.step files (Sharing.run files before) (.openFile fl (some i))).2 = none ∧
    (Sharing.run files (before ++ .openFile fl (some i) :: after)).read (Sharing.run files before).datas.length lay ds k =
      load (Mask.run (files fl) (callsOn i before)) lay ds k := by
  have hh := hist_run files before hb
  obtain ⟨o, ho, hf⟩ := hist_mask files hh hi
  have hs := sound_run files before
  obtain ⟨hd, hr⟩ := convertToRanges_does ((Sharing.run files before).heap, o) (hs.ok i o ho)
  have hstep : Sharing.step files (Sharing.run files before) (.openFile fl (some i)) =
      ({ (Sharing.run files before).put i (convertToRanges ((Sharing.run files before).heap, o)) with
        datas := (Sharing.run files before).datas ++ [⟨fl, some (fun k => ((convertToRanges ((Sharing.run files before).heap, o)).2.ref k,
          (convertToRanges ((Sharing.run files before).heap, o)).2.size k))⟩] }, none) := by
    unfold Sharing.step
    dsimp only
    rw [ho]
    dsimp only
    unfold World.openWith
    rw [if_pos hf]
  refine ⟨by rw [hstep], ?_⟩
  rw [run_append, List.foldl_cons, read_fold files _ lay ds k after _ (step_sound files hs _).1
    (editsBools_of_noEdit files after _ ha) (by rw [hstep]; simp)]
  rw [hstep]
  unfold World.read
  dsimp only
  rw [List.getElem?_append_right (le_refl _), Nat.sub_self]
  dsimp only [List.getElem?_cons_zero]
  obtain ⟨l, hl⟩ := hd.ok.rng hr k
  have hv := hd.view
  rw [hh.view i o ho, hf] at hv
  unfold load
  rw [← hv, view_ranges hr]
  dsimp only
  rw [rangesAt_of hl]
  show (match ((convertToRanges ((Sharing.run files before).heap, o)).1)[(convertToRanges ((Sharing.run files before).heap, o)).2.ref k]? with
    | some (.ranges l) => readRanges lay ds l ((convertToRanges ((Sharing.run files before).heap, o)).2.size k).toNat
    | _ => .error .typeErr) = _
  rw [hl]
  rfl

/-- C86, no mask. A dataset opened without a mask reads every row at any later time, whatever masks are made of its file. -/
theorem c86_no_mask {α : Type} (files : Nat → File K m) (before after : List (Act K m)) (fl : Nat)
    (h : EditsBools files (Sharing.step files (Sharing.run files before) (.openFile fl none)).1 after) (lay : Layout) (ds : List α) (k : Fin m) :
    (Sharing.run files (before ++ .openFile fl none :: after)).read (Sharing.run files before).datas.length lay ds k = .ok (ds.map some) := by
  rw [run_append, List.foldl_cons, read_fold files _ lay ds k after _ (step_sound files (sound_run files before) _).1 h
    (by simp [Sharing.step])]
  unfold World.read Sharing.step
  simp

/-- C86, writing into an array of a mask. The array takes the new values when they are as many and of the same kind, and then no
other array changes; otherwise the write is refused and nothing changes. No mask and no dataset is replaced either way. -/
theorem c86_edit (files : Nat → File K m) (acts : List (Act K m)) (i : Nat) (o : MaskObj m) (k : Fin m) (b : Buf)
    (ho : (Sharing.run files acts).masks[i]? = some o) :
    (Sharing.run files (acts ++ [.edit i k b])).masks = (Sharing.run files acts).masks ∧
    (Sharing.run files (acts ++ [.edit i k b])).datas = (Sharing.run files acts).datas ∧
    ∃ a, (Sharing.run files acts).heap[o.ref k]? = some a ∧
      ((SameShape a b ∧ (Sharing.step files (Sharing.run files acts) (.edit i k b)).2 = none ∧
          (Sharing.run files (acts ++ [.edit i k b])).heap[o.ref k]? = some b ∧
          ∀ r, r ≠ o.ref k → (Sharing.run files (acts ++ [.edit i k b])).heap[r]? = (Sharing.run files acts).heap[r]?) ∨
       (¬ SameShape a b ∧ (Sharing.step files (Sharing.run files acts) (.edit i k b)).2 = some .value ∧
          (Sharing.run files (acts ++ [.edit i k b])).heap = (Sharing.run files acts).heap)) := by
  have hb := (c86_buffers files acts).1 i o ho k
  have hs : Sharing.run files (acts ++ [.edit i k b]) = (Sharing.step files (Sharing.run files acts) (.edit i k b)).1 := by
    rw [run_append]; rfl
  have he : Sharing.step files (Sharing.run files acts) (.edit i k b) = (Sharing.run files acts).edit (o.ref k) b := by
    unfold Sharing.step; dsimp only; rw [ho]
  rw [hs, he]
  generalize Sharing.run files acts = w at *
  obtain ⟨a, ha⟩ : ∃ a, w.heap[o.ref k]? = some a := by
    rcases hb with ⟨⟨l, h⟩, _⟩ | ⟨⟨l, h⟩, _⟩
    · exact ⟨_, h⟩
    · exact ⟨_, h⟩
  have hfit : fits a b = true ↔ SameShape a b := by
    cases a <;> cases b <;> simp [fits, SameShape]
  by_cases hf : fits a b = true
  · have e : w.edit (o.ref k) b = ({ w with heap := w.heap.set (o.ref k) b }, none) := by
      unfold World.edit; rw [ha]; dsimp only; rw [if_pos hf]
    rw [e]
    refine ⟨rfl, rfl, a, ha, Or.inl ⟨hfit.mp hf, rfl, ?_, ?_⟩⟩
    · obtain ⟨hlt, _⟩ := List.getElem?_eq_some_iff.mp ha
      simp [hlt]
    · intro r hr
      simp [List.getElem?_set_ne (Ne.symm hr)]
  · have e : w.edit (o.ref k) b = (w, some .value) := by
      unfold World.edit; rw [ha]; dsimp only; rw [if_neg hf]
    rw [e]
    exact ⟨rfl, rfl, a, ha, Or.inr ⟨fun h => hf (hfit.mpr h), rfl, rfl⟩⟩

/-- Five values do not go into an array of six. -/
example : ¬ SameShape (.bools [true, true, true, true, true, true]) (.bools [true, true, true, true, true]) ∧
    SameShape (.ranges [(0, 2)]) (.ranges [(4, 6)]) := by
  constructor
  · intro h; exact absurd h (by simp [SameShape])
  · rfl

/-- C86, another file. A mask of another file is refused with an AssertionError and no dataset is made; the mask has been converted
to ranges all the same. -/
theorem c86_other_file (files : Nat → File K m) (acts : List (Act K m)) (h : NoEdit acts) (i fl fl' : Nat)
    (hi : (filesOf acts)[i]? = some fl') (hne : fl' ≠ fl) :
    (Sharing.step files (Sharing.run files acts) (.openFile fl (some i))).2 = some .assertion ∧
    (Sharing.step files (Sharing.run files acts) (.openFile fl (some i))).1.datas = (Sharing.run files acts).datas ∧
    ∃ o, (Sharing.step files (Sharing.run files acts) (.openFile fl (some i))).1.masks[i]? = some o ∧
      Shows (Sharing.step files (Sharing.run files acts) (.openFile fl (some i))).1 o (toRanges (Mask.run (files fl') (callsOn i acts))) := by
  have hh := hist_run files acts h
  obtain ⟨o, ho, hf⟩ := hist_mask files hh hi
  have hs := sound_run files acts
  obtain ⟨hd, hr⟩ := convertToRanges_does ((Sharing.run files acts).heap, o) (hs.ok i o ho)
  have hstep : Sharing.step files (Sharing.run files acts) (.openFile fl (some i)) =
      ((Sharing.run files acts).put i (convertToRanges ((Sharing.run files acts).heap, o)), some .assertion) := by
    unfold Sharing.step
    dsimp only
    rw [ho]
    dsimp only
    unfold World.openWith
    rw [if_neg (by rw [hf]; exact hne)]
  rw [hstep]
  refine ⟨rfl, rfl, _, put_masks_self ho _, ?_⟩
  refine shows_of_view hd.ok ?_
  show Sharing.view (convertToRanges ((Sharing.run files acts).heap, o)) = _
  rw [hd.view, hh.view i o ho, hf]

end General

section Rows
variable {K : Type} [Field K] [LinearOrder K] [IsStrictOrderedRing K] {m : Nat}

/-- C86, rows. With a well-formed file and row numbers that exist, the dataset reads at any later time exactly the rows that the mask
selected when the dataset was opened, in file order. -/
theorem c86_rows {α : Type} (files : Nat → File K m) (before after : List (Act K m)) (hb : NoEdit before) (ha : NoEdit after)
    (i fl : Nat) (hi : (filesOf before)[i]? = some fl) (hf : WF (files fl))
    (hr : ∀ op ∈ callsOn i before, IndicesOk (files fl) op) (k : Fin m) (ds : List α) (hds : ds.length = (files fl).rows k)
    (lay : Layout) (hlay : lay ≠ .remote) (hc : ∀ c, lay = .chunked c → 0 < c) :
    ∃ rows : List Int,
      (Sharing.run files (before ++ .openFile fl (some i) :: after)).read (Sharing.run files before).datas.length lay ds k = .ok (Spec.select ds rows) ∧
      rows.Pairwise (· ≤ ·) ∧ (∀ j, j ∈ rows ↔ (builtRun (files fl) (callsOn i before)).sel k j) := by
  obtain ⟨rows, h1, h2, h3, _⟩ := c07_masked_read (files fl) hf (callsOn i before) hr k ds hds lay hlay hc
  refine ⟨rows, ?_, h2, ?_⟩
  · rw [(c86_keeps files before after hb ha i fl hi lay ds k).2]; exact h1
  · intro j
    rw [h3, c09_history_as_built (files fl) hf (callsOn i before) hr]

/-- C86, selection. Opening a dataset with a mask leaves the rows that the mask selects. -/
theorem c86_open_selects (files : Nat → File K m) (acts : List (Act K m)) (h : NoEdit acts) (i fl fl' : Nat)
    (hi : (filesOf acts)[i]? = some fl) (hf : WF (files fl)) (hr : ∀ op ∈ callsOn i acts, IndicesOk (files fl) op) :
    ∃ o s, (Sharing.run files (acts ++ [.openFile fl' (some i)])).masks[i]? = some o ∧
      Shows (Sharing.run files (acts ++ [.openFile fl' (some i)])) o s ∧
      ∀ k j, Selects s k j ↔ Selects (Mask.run (files fl) (callsOn i acts)) k j := by
  have hn : NoEdit (acts ++ [.openFile fl' (some i)]) := by
    intro a ha
    rcases List.mem_append.mp ha with ha | ha
    · exact h a ha
    · simp only [List.mem_singleton] at ha; subst ha; exact id
  have hl : i < (filesOf acts).length := (List.getElem?_eq_some_iff.mp hi).1
  obtain ⟨o, ho, _, hs⟩ := (c86_history files _ hn).2 i fl (by rw [filesOf_append]; simpa [filesOf] using hi)
  refine ⟨o, _, ho, hs, ?_⟩
  have hcalls : callsOn i (acts ++ [.openFile fl' (some i)]) = callsOn i acts ++ [.toRanges] := by
    unfold callsOn
    rw [callsFrom_snoc]
    simp [callsFrom, hl]
  rw [hcalls]
  intro k j
  exact c08_conversions_preserve (files fl) hf (callsOn i acts) [.toRanges] hr (by simp) k j

end Rows

/-! ## Where sharing shows -/

/-- two files with the cells of the example file -/
def exFiles : Nat → File ℚ 2 := fun _ => exFile

/-- rows read from a dataset -/
def rowsRead (acts : List (Act ℚ 2)) (d : Nat) (k : Fin 2) (n : Nat) : Except Err (List (Option Nat)) :=
  (Sharing.run exFiles acts).read d .contiguous (List.range n) k

/-- worked example: a dataset is opened with the first cell, then the mask gets a second cell and a limit on masses, and another
mask is used -/
example : rowsRead [.newMask 0, .call 0 (.spatial [some [1/4, 3/4], none, none] false), .openFile 0 (some 0),
    .call 0 (.spatial [some [9/4, 11/4], none, none] true), .call 0 (.property "gas" "masses" 1 100), .newMask 1,
    .call 1 (.property "gas" "masses" 5 6), .openFile 0 (some 0), .openFile 1 (some 1)] 0 0 6 = .ok [some 0, some 1] ∧
  rowsRead [.newMask 0, .call 0 (.spatial [some [1/4, 3/4], none, none] false), .openFile 0 (some 0),
    .call 0 (.spatial [some [9/4, 11/4], none, none] true), .call 0 (.property "gas" "masses" 1 100), .newMask 1,
    .call 1 (.property "gas" "masses" 5 6), .openFile 0 (some 0), .openFile 1 (some 1)] 1 0 6 = .ok [some 1, some 3] ∧
  rowsRead [.newMask 0, .call 0 (.spatial [some [1/4, 3/4], none, none] false), .openFile 0 (some 0),
    .call 0 (.spatial [some [9/4, 11/4], none, none] true), .call 0 (.property "gas" "masses" 1 100), .newMask 1,
    .call 1 (.property "gas" "masses" 5 6), .openFile 0 (some 0), .openFile 1 (some 1)] 2 0 6 = .ok [some 5] := by
  decide +kernel

/-- worked example of the hypotheses: two masks, no edits, the second mask is of file 1 -/
example : (filesOf ([.newMask 0, .newMask 1, .call 1 .toBool, .openFile 1 (some 1)] : List (Act ℚ 2)))[1]? = some 1 ∧
    callsOn 1 ([.newMask 0, .newMask 1, .call 0 .toRanges, .call 1 .toBool, .openFile 1 (some 1)] : List (Act ℚ 2))
      = [.toBool, .toRanges] := ⟨by decide +kernel, rfl⟩

/-- worked example: a mask of file 1 is refused for file 0 -/
example : (Sharing.step exFiles (Sharing.run exFiles [.newMask 1, .call 0 .toBool]) (.openFile 0 (some 0))).2 = some .assertion := by
  decide +kernel

/-- C86 fails for the mask: opening a dataset converts the mask that was passed, and this changes what a later call does. A region
that is added to a mask in boolean form brings in no row; with a dataset opened in between it brings in its rows. -/
theorem c86_open_changes_mask_fails :
    rowsRead [.newMask 0, .call 0 (.spatial [some [1/4, 3/4], none, none] false), .call 0 .toBool,
      .call 0 (.spatial [some [9/4, 11/4], none, none] true), .openFile 0 (some 0)] 0 0 6 = .ok [some 0, some 1] ∧
    rowsRead [.newMask 0, .call 0 (.spatial [some [1/4, 3/4], none, none] false), .call 0 .toBool, .openFile 0 (some 0),
      .call 0 (.spatial [some [9/4, 11/4], none, none] true), .openFile 0 (some 0)] 1 0 6 = .ok [some 0, some 1, some 3] := by
  decide +kernel

/-- C86 fails for arrays written by the user: a value written into `mask.gas` after the dataset was opened changes what the dataset
reads, and the length that was fixed at opening no longer fits the ranges. -/
theorem c86_edit_fails :
    rowsRead [.newMask 0, .call 0 (.spatial [some [1/4, 3/4], none, none] false), .openFile 0 (some 0)] 0 0 6
      = .ok [some 0, some 1] ∧
    rowsRead [.newMask 0, .call 0 (.spatial [some [1/4, 3/4], none, none] false), .openFile 0 (some 0),
      .edit 0 0 (.ranges [(4, 6)])] 0 0 6 = .ok [some 4, some 5] ∧
    rowsRead [.newMask 0, .call 0 (.spatial [some [1/4, 3/4], none, none] false), .openFile 0 (some 0),
      .edit 0 0 (.ranges [(0, 4)])] 0 0 6 ≠ .ok [some 0, some 1, some 2, some 3] := by
  decide +kernel

/-- C86 fails for boolean arrays: an array taken from a mask in boolean form changes when the mask is constrained by a property;
compare `c86_ranges_array`. -/
theorem c86_boolean_array_fails :
    (Sharing.run exFiles [.newMask 0, .call 0 .toBool]).heap[2]? = some (.bools [true, true, true, true, true, true]) ∧
    (Sharing.run exFiles [.newMask 0, .call 0 .toBool, .call 0 (.property "gas" "masses" 3 5)]).heap[2]?
      = some (.bools [false, false, false, true, true, false]) := by decide +kernel

end Verif.Props
