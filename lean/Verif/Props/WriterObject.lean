import Verif.Spec.WriterObject
import Verif.Props.Reread

/-!
# The writer as an object (C92)
-/

namespace Verif.Props
open Verif Verif.Cosmo Verif.Attributes Verif.Reread Verif.Spec
open Verif.WriterObject (Obj Cmd exec property getAttr save)
open Verif.Writer (Name required)
open Verif.WriterHeader (Conf)
open Verif.Names (Str)
open Verif.Header (Lib)
open Verif.Units (Dim)

private theorem called_attr {m : List Char} {n : Name} (h : Called m n) : m = attrName n := by
  obtain ⟨s, hs, rfl⟩ := h
  simp only [fieldNames, List.mem_cons, Prod.mk.injEq, List.not_mem_nil, or_false] at hs
  rcases hs with ⟨rfl, rfl⟩ | ⟨rfl, rfl⟩ | ⟨rfl, rfl⟩ | ⟨rfl, rfl⟩ | ⟨rfl, rfl⟩ | ⟨rfl, rfl⟩ <;> rfl

private theorem attr_called (n : Name) : Called (attrName n) n := by
  cases n
  · exact ⟨"smoothing_lengths", by simp [fieldNames], rfl⟩
  · exact ⟨"internal_energy", by simp [fieldNames], rfl⟩
  · exact ⟨"coordinates", by simp [fieldNames], rfl⟩
  · exact ⟨"particle_ids", by simp [fieldNames], rfl⟩
  · exact ⟨"velocities", by simp [fieldNames], rfl⟩
  · exact ⟨"masses", by simp [fieldNames], rfl⟩

private theorem attr_inj {m n : Name} (h : attrName m = attrName n) : m = n := by
  revert h
  cases m <;> cases n <;> decide +kernel

private theorem required_needs (t : Nat) (n : Name) : n ∈ required t ↔ n = .particleIds ∨ n ∈ needs t := by
  unfold required needs
  by_cases h0 : t = 0
  · subst h0; cases n <;> simp
  · by_cases h4 : t = 4
    · subst h4; cases n <;> simp
    · cases n <;> simp [h0, h4]

private theorem ids_not_needed (t : Nat) {n : Name} (h : n ∈ needs t) : n ≠ .particleIds := by
  rintro rfl
  unfold needs at h
  by_cases h0 : t = 0
  · subst h0; simp at h
  · by_cases h4 : t = 4
    · subst h4; simp at h
    · simp [h0, h4] at h

private theorem property_some {t : Nat} {m : Str} {n : Name} (h : property t m = some n) : n ∈ required t ∧ Called m n := by
  unfold property at h
  have h1 := List.mem_of_find?_eq_some h
  have h2 := List.find?_some h
  rw [beq_iff_eq] at h2
  exact ⟨h1, h2 ▸ attr_called n⟩

private theorem property_of {t : Nat} {m : Str} {n : Name} (hn : n ∈ required t) (hc : Called m n) : property t m = some n := by
  unfold property
  cases h : (required t).find? (fun n => attrName n == m) with
  | none =>
    have := List.find?_eq_none.1 h n hn
    rw [beq_iff_eq] at this
    exact absurd (called_attr hc).symm this
  | some k =>
    have := List.find?_some h
    rw [beq_iff_eq, called_attr hc] at this
    rw [attr_inj this]

private theorem property_none {t : Nat} {m : Str} (h : ∀ n, Called m n → n ≠ .particleIds ∧ n ∉ needs t) : property t m = none := by
  cases e : property t m with
  | none => rfl
  | some n =>
    obtain ⟨h1, h2⟩ := property_some e
    rcases (required_needs t n).1 h1 with h3 | h3
    · exact absurd h3 (h n h2).1
    · exact absurd h3 (h n h2).2

private theorem put_same {w : State} {t : Nat} {n : Name} {x : Option Stored} : (w.put t n x t).fields n = x := by
  simp [State.put]

private theorem put_other {w : State} {u t : Nat} {m n : Name} {x : Option Stored} (h : ¬ (u = t ∧ m = n)) :
    (w.put u m x t).fields n = (w t).fields n := by
  simp only [State.put]
  split
  · rename_i e
    simp only
    rw [if_neg (fun em => h ⟨e.symm, em.symm⟩)]
  · rfl

private theorem putIds_same {w : State} {u t : Nat} {l : Option (List Int)} : (w.putIds u l t).fields = (w t).fields := by
  simp only [State.putIds]
  split <;> rfl

private theorem exec_fields {w : Obj} {q : Cmd} {t : Nat} {n : Name} (h : ¬ Touches t n q) :
    ((exec w q).1.state t).fields n = (w.state t).fields n := by
  cases q with
  | set u m x =>
    simp only [exec]
    cases hp : property u m with
    | none => rfl
    | some k =>
      dsimp only
      by_cases hk : k = .particleIds
      · rw [if_pos hk]
      · rw [if_neg hk]
        cases setField (baseOf w.made) w.conf.scaleFactor (dimsOf k) x.field with
        | ok y => exact put_other (fun e => h ⟨e.1, e.2 ▸ (property_some hp).2⟩)
        | error => rfl
  | ids u l =>
    simp only [exec]
    cases Writer.setIds (view w.state u) l with
    | ok y => simp only [putIds_same]
    | error => rfl
  | del u m =>
    simp only [exec]
    cases hp : property u m with
    | none =>
      dsimp only
      split <;> rfl
    | some k =>
      dsimp only
      split
      · simp only [putIds_same]
      · exact put_other (fun e => h ⟨e.1, e.2 ▸ (property_some hp).2⟩)
  | hidden u m x => exact put_other h
  | scale a => rfl
  | system u => rfl

private theorem exec_made (w : Obj) (q : Cmd) : (exec w q).1.made = w.made := by
  cases q with
  | set u m x =>
    simp only [exec]
    cases property u m with
    | none => rfl
    | some k =>
      dsimp only
      split
      · rfl
      · cases setField (baseOf w.made) w.conf.scaleFactor (dimsOf k) x.field <;> rfl
  | ids u l =>
    simp only [exec]
    cases Writer.setIds (view w.state u) l <;> rfl
  | del u m =>
    simp only [exec]
    cases property u m with
    | none =>
      dsimp only
      split <;> rfl
    | some k => rfl
  | hidden u m x => rfl
  | scale a => rfl
  | system u => rfl

private theorem exec_conf (w : Obj) (q : Cmd) : (exec w q).1.conf = { w.conf with scaleFactor := scaleAfter w.conf.scaleFactor [q] } ∧
    (exec w q).1.units = systemAfter w.units [q] := by
  cases q with
  | set u m x =>
    simp only [exec]
    cases property u m with
    | none => exact ⟨rfl, rfl⟩
    | some k =>
      dsimp only
      split
      · exact ⟨rfl, rfl⟩
      · cases setField (baseOf w.made) w.conf.scaleFactor (dimsOf k) x.field <;> exact ⟨rfl, rfl⟩
  | ids u l =>
    simp only [exec]
    cases Writer.setIds (view w.state u) l <;> exact ⟨rfl, rfl⟩
  | del u m =>
    simp only [exec]
    cases property u m with
    | none =>
      dsimp only
      split <;> exact ⟨rfl, rfl⟩
    | some k => exact ⟨rfl, rfl⟩
  | hidden u m x => exact ⟨rfl, rfl⟩
  | scale a => exact ⟨rfl, rfl⟩
  | system u => exact ⟨rfl, rfl⟩

private theorem scale_cons (a : ℝ) (q : Cmd) (l : List Cmd) : scaleAfter a (q :: l) = scaleAfter (scaleAfter a [q]) l := by
  cases q <;> rfl

private theorem system_cons (u : Dim → ℝ) (q : Cmd) (l : List Cmd) : systemAfter u (q :: l) = systemAfter (systemAfter u [q]) l := by
  cases q <;> rfl

private theorem run_conf : ∀ (l : List Cmd) (w : Obj), (WriterObject.run w l).made = w.made ∧
    (WriterObject.run w l).conf = { w.conf with scaleFactor := scaleAfter w.conf.scaleFactor l } ∧
    (WriterObject.run w l).units = systemAfter w.units l
  | [], w => ⟨rfl, rfl, rfl⟩
  | q :: l, w => by
    obtain ⟨h1, h2, h3⟩ := run_conf l (exec w q).1
    obtain ⟨e1, e2⟩ := exec_conf w q
    have : WriterObject.run w (q :: l) = WriterObject.run (exec w q).1 l := rfl
    rw [this, h1, h2, h3, exec_made, e1, e2, scale_cons w.conf.scaleFactor q l, system_cons w.units q l]
    exact ⟨rfl, rfl, rfl⟩

private theorem run_state {t : Nat} {n : Name} : ∀ (l : List Cmd) (w : Obj), (∀ q ∈ l, ¬ Touches t n q) →
    ((WriterObject.run w l).state t).fields n = (w.state t).fields n
  | [], _, _ => rfl
  | q :: l, w, h => by
    have : WriterObject.run w (q :: l) = WriterObject.run (exec w q).1 l := rfl
    rw [this, run_state l _ (fun p hp => h p (List.mem_cons_of_mem _ hp)), exec_fields (h q (List.mem_cons_self ..))]

private theorem run_append (w : Obj) (l₁ l₂ : List Cmd) : WriterObject.run w (l₁ ++ l₂) = WriterObject.run (WriterObject.run w l₁) l₂ := by
  unfold WriterObject.run
  rw [List.foldl_append]

private theorem run_cons (w : Obj) (q : Cmd) (l : List Cmd) : WriterObject.run w (q :: l) = WriterObject.run (exec w q).1 l := rfl

private theorem has_dims {n : Name} {e : Exps} (h : HasDims n e) : e = dimsOf n := by
  cases n <;> first | exact h | exact h.elim

/-- What the writer has after an assignment. -/
private theorem set_state {w : Obj} (hb : BasePos (baseOf w.made)) {t : Nat} {n : Name} (hn : n ∈ needs t) {m : Str} (hm : Called m n) {x : Stored} {k : ℝ}
    (hc : Conv w.conf.scaleFactor k x.field.arr) (hd : HasDims n x.field.dims) : ∃ y : Field, (exec w (.set t m x)).2 = none ∧
      ((exec w (.set t m x)).1.state t).fields n = some { x with field := y } ∧ Conv w.conf.scaleFactor k y.arr ∧ y.arr.comoving = some true ∧
      y.dims = x.field.dims ∧ y.size = (baseOf w.made).unit x.field.dims ∧ cgs y = cgs x.field := by
  obtain ⟨y, e1, e2, e3, e4, e5, e6⟩ := setField_ok hb hc (has_dims hd)
  have hx : exec w (.set t m x) = ({ w with state := w.state.put t n (some { x with field := y }) }, none) := by
    simp only [exec, property_of ((required_needs t n).2 (.inr hn)) hm, if_neg (ids_not_needed t hn), e1]
  rw [hx]
  exact ⟨y, rfl, put_same, e2, e3, e4.trans (has_dims hd).symm, by rw [e5, has_dims hd], e6⟩

/-- C92: after any commands, a field that was assigned a convertible array of the scale factor that the writer then had and of its own
dimensions, and not touched since, is that array, as comoving values with the same meaning in the units with which the writer was
made. -/
theorem c92_field {w : Obj} (hb : ∀ d, 0 < w.made d) (l₁ l₂ : List Cmd) {t : Nat} {n : Name} (hn : n ∈ needs t) {m : Str} (hm : Called m n) {x : Stored}
    {k : ℝ} (hc : Conv (scaleAfter w.conf.scaleFactor l₁) k x.field.arr) (hd : HasDims n x.field.dims) (hl : ∀ q ∈ l₂, ¬ Touches t n q) :
    (exec (WriterObject.run w l₁) (.set t m x)).2 = none ∧ ∃ y : Field,
      getAttr (WriterObject.run w (l₁ ++ .set t m x :: l₂)) t m = .ok (some { x with field := y }) ∧ y.arr.comoving = some true ∧
      y.arr.cf = x.field.arr.cf ∧ y.dims = x.field.dims ∧ y.size = (baseOf w.made).unit x.field.dims ∧ cgs y = cgs x.field := by
  obtain ⟨h1, h2, -⟩ := run_conf l₁ w
  have hb' : BasePos (baseOf (WriterObject.run w l₁).made) := by rw [h1]; exact ⟨hb _, hb _, hb _, hb _, hb _⟩
  have hc' : Conv (WriterObject.run w l₁).conf.scaleFactor k x.field.arr := by rw [h2]; exact hc
  obtain ⟨y, e1, e2, e3, e4, e5, e6, e7⟩ := set_state hb' hn hm hc' hd
  refine ⟨e1, y, ?_, e4, e3.cf.trans hc'.cf.symm, e5, by rw [e6, h1], e7⟩
  unfold getAttr
  rw [property_of ((required_needs t n).2 (.inr hn)) hm, run_append, run_cons]
  dsimp only
  rw [run_state l₂ _ hl, e2]

/-- C92: a field that was deleted, or that was never assigned, is `None`. -/
theorem c92_none {w : Obj} (l₁ l₂ : List Cmd) {t : Nat} {n : Name} (hn : n ∈ needs t) {m : Str} (hm : Called m n) (hl : ∀ q ∈ l₂, ¬ Touches t n q) :
    (exec w (.del t m)).2 = none ∧ getAttr (WriterObject.run w (l₁ ++ .del t m :: l₂)) t m = .ok none ∧
      ∀ (u : Dim → ℝ) (c : Conf ℝ), getAttr (WriterObject.run (Obj.new u c) l₂) t m = .ok none := by
  have hp := property_of ((required_needs t n).2 (.inr hn)) hm
  have he : ∀ v : Obj, exec v (.del t m) = ({ v with state := v.state.put t n none }, none) := by
    intro v
    simp only [exec, hp, if_neg (ids_not_needed t hn)]
  refine ⟨by rw [he], ?_, fun u c => ?_⟩
  · unfold getAttr
    rw [hp, run_append, run_cons]
    dsimp only
    rw [run_state l₂ _ hl, he, put_same]
  · unfold getAttr
    rw [hp]
    dsimp only
    rw [run_state l₂ _ hl]
    rfl

/-- C92: an array of another scale factor or of other dimensions is refused and the writer stays as it was. -/
theorem c92_refused (w : Obj) {t : Nat} {n : Name} (hn : n ∈ needs t) {m : Str} (hm : Called m n) {x : Stored} {a k : ℝ} (hc : Conv a k x.field.arr)
    (hx : a ≠ w.conf.scaleFactor ∨ ¬ HasDims n x.field.dims) : ∃ e, exec w (.set t m x) = (w, some e) := by
  have hx' : a ≠ w.conf.scaleFactor ∨ x.field.dims ≠ dimsOf n := by
    refine hx.imp_right fun h e => h ?_
    have hne := ids_not_needed t hn
    rw [e]
    revert hne
    cases n <;> intro hne <;> first | rfl | exact absurd rfl hne
  obtain ⟨e, he⟩ : ∃ e, setField (baseOf w.made) w.conf.scaleFactor (dimsOf n) x.field = .error e := by
    unfold setField
    rw [hc.cf]
    dsimp only
    by_cases h : a = w.conf.scaleFactor
    · rw [if_neg (by rw [h]; simp)]
      rw [if_pos (hx'.resolve_left (not_not.2 h))]
      exact ⟨_, rfl⟩
    · rw [if_pos (by simpa using h)]
      exact ⟨_, rfl⟩
  refine ⟨e, ?_⟩
  simp only [exec, property_of ((required_needs t n).2 (.inr hn)) hm, if_neg (ids_not_needed t hn), he]

/-- C92. The names of fields are none of those that the datasets use for themselves. -/
theorem c92_own_names {m : Str} {n : Name} (h : Called m n) : (∀ s ∈ ownNames, m ≠ s.toList) ∧ m.head? ≠ some '_' := by
  obtain ⟨s, h1, rfl⟩ := h
  have all : ∀ p ∈ fieldNames, (∀ s ∈ ownNames, p.2.toList ≠ s.toList) ∧ p.2.toList.head? ≠ some '_' := by decide +kernel
  exact all _ h1

/-- C92: a name that means nothing to a dataset can be assigned like a field and is then found, but the file that is written does not
have it: it is the file of the same writer without the assignment. -/
theorem c92_foreign_fails (w : Obj) {t : Nat} {m : Str} (hm : Foreign t m) (x : Stored) : (exec w (.set t m x)).2 = none ∧
    getAttr (exec w (.set t m x)).1 t m = .ok (some x) ∧ save (exec w (.set t m x)).1 = save w := by
  have hp := property_none hm.1
  have he : exec w (.set t m x) = (w.setOther t m (some x), none) := by simp only [exec, hp]
  rw [he]
  refine ⟨rfl, ?_, rfl⟩
  unfold getAttr
  rw [hp]
  simp [Obj.setOther]

private theorem exec_idle (w : Obj) {q : Cmd} (h : (∃ t m x, q = .set t m x ∧ Foreign t m) ∨ ∃ t m, q = .del t m ∧ Foreign t m) :
    (exec w q).1.made = w.made ∧ (exec w q).1.units = w.units ∧ (exec w q).1.conf = w.conf ∧ (exec w q).1.state = w.state := by
  rcases h with ⟨t, m, x, rfl, hm⟩ | ⟨t, m, rfl, hm⟩
  · simp only [exec, property_none hm.1]
    exact ⟨rfl, rfl, rfl, rfl⟩
  · simp only [exec, property_none hm.1]
    split <;> exact ⟨rfl, rfl, rfl, rfl⟩

private theorem exec_congr {v w : Obj} (h1 : v.made = w.made) (h2 : v.units = w.units) (h3 : v.conf = w.conf) (h4 : v.state = w.state) (q : Cmd) :
    (exec v q).1.made = (exec w q).1.made ∧ (exec v q).1.units = (exec w q).1.units ∧ (exec v q).1.conf = (exec w q).1.conf ∧
      (exec v q).1.state = (exec w q).1.state := by
  refine ⟨by rw [exec_made, exec_made, h1], by rw [(exec_conf v q).2, (exec_conf w q).2, h2], by rw [(exec_conf v q).1, (exec_conf w q).1, h3], ?_⟩
  cases q with
  | set u m x =>
    simp only [exec, h1, h3]
    cases property u m with
    | none => exact h4
    | some k =>
      dsimp only
      split
      · exact h4
      · cases setField (baseOf w.made) w.conf.scaleFactor (dimsOf k) x.field with
        | ok y => dsimp only; rw [h4]
        | error e => exact h4
  | ids u l =>
    simp only [exec, h4]
    cases Writer.setIds (view w.state u) l with
    | ok y => rfl
    | error e => exact h4
  | del u m =>
    simp only [exec]
    cases property u m with
    | none =>
      dsimp only
      split <;> split <;> exact h4
    | some k => dsimp only; rw [h4]
  | hidden u m x => simp only [exec, h4]
  | scale a => exact h4
  | system u => exact h4

/-- C92: assignments and deletions of names that mean nothing to a dataset have no effect on the file, wherever they are in a program. -/
theorem c92_foreign (w : Obj) (l : List Cmd) (p : Cmd → Bool)
    (hp : ∀ q ∈ l, p q = false → (∃ t m x, q = .set t m x ∧ Foreign t m) ∨ ∃ t m, q = .del t m ∧ Foreign t m) :
    save (WriterObject.run w l) = save (WriterObject.run w (l.filter p)) := by
  suffices H : ∀ (l : List Cmd) (v w : Obj), v.made = w.made → v.units = w.units → v.conf = w.conf → v.state = w.state →
      (∀ q ∈ l, p q = false → (∃ t m x, q = .set t m x ∧ Foreign t m) ∨ ∃ t m, q = .del t m ∧ Foreign t m) →
      save (WriterObject.run v l) = save (WriterObject.run w (l.filter p)) from H l w w rfl rfl rfl rfl hp
  intro l
  induction l with
  | nil =>
    intro v w h1 h2 h3 h4 _
    change save v = save w
    unfold save
    rw [h2, h3, h4]
  | cons q l ih =>
    intro v w h1 h2 h3 h4 hp
    rw [run_cons]
    cases hq : p q with
    | true =>
      rw [List.filter_cons_of_pos hq, run_cons]
      obtain ⟨e1, e2, e3, e4⟩ := exec_congr h1 h2 h3 h4 q
      exact ih _ _ e1 e2 e3 e4 (fun r hr => hp r (List.mem_cons_of_mem _ hr))
    | false =>
      rw [List.filter_cons_of_neg (by rw [hq]; simp)]
      obtain ⟨e1, e2, e3, e4⟩ := exec_idle v (hp q (List.mem_cons_self ..) hq)
      exact ih _ _ (e1.trans h1) (e2.trans h2) (e3.trans h3) (e4.trans h4) (fun r hr => hp r (List.mem_cons_of_mem _ hr))

/-- C92: a name that means nothing to a dataset and was not assigned is not an attribute; a misspelt field raises when it is read. -/
theorem c92_missing (u : Dim → ℝ) (c : Conf ℝ) (l : List Cmd) {t : Nat} {m : Str} (hm : Foreign t m) (hl : ∀ x, Cmd.set t m x ∉ l) :
    getAttr (WriterObject.run (Obj.new u c) l) t m = .error .attribute := by
  have key : ∀ (l : List Cmd) (w : Obj), (∀ x, Cmd.set t m x ∉ l) → w.other t m = none → (WriterObject.run w l).other t m = none := by
    intro l
    induction l with
    | nil => exact fun w _ h => h
    | cons q l ih =>
      intro w hl h
      rw [run_cons]
      refine ih _ (fun x hx => hl x (List.mem_cons_of_mem _ hx)) ?_
      cases q with
      | set u' m' x =>
        simp only [exec]
        cases property u' m' with
        | none =>
          simp only [Obj.setOther]
          rw [if_neg]
          · exact h
          · rintro ⟨rfl, rfl⟩
            exact hl x (List.mem_cons_self ..)
        | some k =>
          dsimp only
          split
          · exact h
          · cases setField (baseOf w.made) w.conf.scaleFactor (dimsOf k) x.field <;> exact h
      | ids u' l' =>
        simp only [exec]
        cases Writer.setIds (view w.state u') l' <;> exact h
      | del u' m' =>
        simp only [exec]
        cases property u' m' with
        | none =>
          dsimp only
          split
          · simp only [Obj.setOther]
            split
            · rfl
            · exact h
          · exact h
        | some k => exact h
      | hidden u' m' x => exact h
      | scale a => exact h
      | system u' => exact h
  unfold getAttr
  rw [property_none hm.1]
  dsimp only
  rw [key l _ hl rfl]

/-! ## The file -/

private theorem called_name {m : Str} {n : Name} (h : Called m n) : ∃ s, (n, s) ∈ fieldNames ∧ m = s.toList := h

/-- C92: a field that was assigned when the scale factor was `a` is read as comoving values of the scale factor of the file, `b`, in the
units of the file: the meaning is multiplied by `b**k / a**k` (`b / a**0` if `k` is zero) and by the ratio of the units. -/
theorem c92_file {D : Type} {lib : Lib D} {table : Dim → List ℝ} {w : Obj} (hp : Plain w.conf) (hb : ∀ d, 0 < w.made d) (l₁ l₂ : List Cmd) {h : H5}
    {o : Opened} {t : Nat} {n : Name} (hn : n ∈ needs t) {m : Str} (hm : Called m n) {x : Stored}
    (hw : save (WriterObject.run w (l₁ ++ .set t m x :: l₂)) = .ok h) (ho : openFile lib table h = .ok o) {s : String} (hs : types[t]? = some s)
    {k : ℝ} (hc : Conv (scaleAfter w.conf.scaleFactor l₁) k x.field.arr) (hd : HasDims n x.field.dims) (hl : ∀ q ∈ l₂, ¬ Touches t n q) :
    ∃ y : Field, getField o s.toList m = .ok (extents x, y) ∧ y.dims = x.field.dims ∧ y.arr.comoving = some true ∧
      y.arr.cf = some (CF.create (scaleAfter (scaleAfter w.conf.scaleFactor l₁) l₂) (exponentOf k)) ∧
      cgs y = (cgs x.field).map (fun v => v * (scaleAfter (scaleAfter w.conf.scaleFactor l₁) l₂ ^ exponentOf k / scaleAfter w.conf.scaleFactor l₁ ^ k) *
        (o.base.unit x.field.dims / (baseOf w.made).unit x.field.dims)) := by
  obtain ⟨h1, h2, -⟩ := run_conf l₁ w
  have hB : BasePos (baseOf w.made) := ⟨hb _, hb _, hb _, hb _, hb _⟩
  have hb' : BasePos (baseOf (WriterObject.run w l₁).made) := by rw [h1]; exact hB
  have hc' : Conv (WriterObject.run w l₁).conf.scaleFactor k x.field.arr := by rw [h2]; exact hc
  obtain ⟨z, -, e2, e3, e4, e5, e6, e7⟩ := set_state hb' hn hm hc' hd
  obtain ⟨r, hr, rfl⟩ := called_name hm
  have hz : ((WriterObject.run w (l₁ ++ .set t r.toList x :: l₂)).state t).fields n = some { x with field := z } := by
    rw [run_append, run_cons, run_state l₂ _ hl, e2]
  obtain ⟨g1, g2, g3⟩ := run_conf (l₁ ++ .set t r.toList x :: l₂) w
  have hsf : (WriterObject.run w (l₁ ++ .set t r.toList x :: l₂)).conf.scaleFactor = scaleAfter (scaleAfter w.conf.scaleFactor l₁) l₂ := by
    rw [g2]
    dsimp only
    have app : ∀ (l : List Cmd) (a : ℝ) (l' : List Cmd), scaleAfter a (l ++ l') = scaleAfter (scaleAfter a l) l' := by
      intro l
      induction l with
      | nil => exact fun a l' => rfl
      | cons q l ih => intro a l'; cases q <;> exact ih _ _
    rw [app]
    rfl
  have hp' : Plain (WriterObject.run w (l₁ ++ .set t r.toList x :: l₂)).conf := by rw [g2]; exact hp
  obtain ⟨k', a', y, f1, f2, f3, f4, f5, f6, f7, f8⟩ := c85_numbers hp' hw ho hs hr hn hz
  dsimp only at f1 f3 f4 f5
  rw [e3.cf] at f1
  cases f1
  rw [hsf] at f8
  refine ⟨y, f2, f4.trans e5, f6, f8, ?_⟩
  have hu : (baseOf w.made).unit x.field.dims ≠ 0 := (Base_unit_pos hB _).ne'
  have ha : (scaleAfter w.conf.scaleFactor l₁ : ℝ) ^ k ≠ 0 := (Real.rpow_pos_of_pos hc.pos k).ne'
  rw [← e7]
  unfold cgs Arr.phys
  rw [f6, f8, e4, e3.cf, f3, f5, e5, e6, h1, h2]
  simp only [CF.create, List.map_map]
  apply List.map_congr_left
  intro v _
  simp only [Function.comp_apply]
  field_simp

private theorem same_unit {b b' : Base} (h1 : b.L = b'.L) (h2 : b.M = b'.M) (h3 : b.t = b'.t) {n : Name} {e : Exps} (h : HasDims n e) :
    b.unit e = b'.unit e := by
  have h0 : e.I = 0 ∧ e.T = 0 := by
    cases n <;> first | exact h.elim | (rw [show e = _ from h]; exact ⟨rfl, rfl⟩)
  unfold Base.unit
  rw [h1, h2, h3, h0.1, h0.2, Real.rpow_zero, Real.rpow_zero, Real.rpow_zero, Real.rpow_zero]

/-- The units of the file are those that the writer had when it wrote. -/
private theorem file_unit {D : Type} {lib : Lib D} {table : Dim → List ℝ} (ht : ∀ d : Dim, ∀ x ∈ table d, 0 < x) (hne : ∀ d, table d ≠ []) {w : Obj}
    (hp : Plain w.conf) (l : List Cmd) (hb : ∀ d, 0 < systemAfter w.units l d)
    (h5 : ∀ d, d = .length ∨ d = .mass ∨ d = .time → FiveDigitUnit table (systemAfter w.units l) d) {h : H5} {o : Opened}
    (hw : save (WriterObject.run w l) = .ok h) (ho : openFile lib table h = .ok o) {n : Name} {e : Exps} (hd : HasDims n e) :
    o.base.unit e = (baseOf (systemAfter w.units l)).unit e := by
  obtain ⟨-, g2, g3⟩ := run_conf l w
  unfold save at hw
  rw [g2, g3] at hw
  have hp' : Plain { w.conf with scaleFactor := scaleAfter w.conf.scaleFactor l } := hp
  obtain ⟨-, ⟨-, u1⟩, ⟨-, u2⟩, ⟨-, u3⟩⟩ := c85_units ht hne hb hp' hw ho
  exact same_unit (b' := baseOf (systemAfter w.units l)) (u1 (h5 _ (.inl rfl))) (u2 (h5 _ (.inr (.inl rfl)))) (u3 (h5 _ (.inr (.inr rfl)))) hd

private theorem exponent_self {k : ℝ} (h0 : k ≠ 0) : exponentOf k = k := by
  unfold exponentOf
  split
  · rename_i hc
    rcases hc with hc | hc
    · exact absurd hc h0
    · exact hc.symm
  · rfl

/-- C92: if the scale factor and the unit system are those of the assignment when the file is written, a field is read with the meaning
that it was given, whatever else was done with the writer. Partly: the exponent of the scale factor is not zero, and the units are
numbers of five digits times a unit of the reader. -/
theorem c92_steady_partial {D : Type} {lib : Lib D} {table : Dim → List ℝ} (ht : ∀ d : Dim, ∀ x ∈ table d, 0 < x) (hne : ∀ d, table d ≠ []) {w : Obj}
    (hp : Plain w.conf) (hb : ∀ d, 0 < w.made d) (h5 : ∀ d, d = .length ∨ d = .mass ∨ d = .time → FiveDigitUnit table w.made d) (l₁ l₂ : List Cmd)
    {h : H5} {o : Opened} {t : Nat} {n : Name} (hn : n ∈ needs t) {m : Str} (hm : Called m n) {x : Stored}
    (hu : systemAfter w.units (l₁ ++ .set t m x :: l₂) = w.made) (ha : scaleAfter (scaleAfter w.conf.scaleFactor l₁) l₂ = scaleAfter w.conf.scaleFactor l₁)
    (hw : save (WriterObject.run w (l₁ ++ .set t m x :: l₂)) = .ok h) (ho : openFile lib table h = .ok o) {s : String} (hs : types[t]? = some s)
    {k : ℝ} (hc : Conv (scaleAfter w.conf.scaleFactor l₁) k x.field.arr) (hd : HasDims n x.field.dims) (hl : ∀ q ∈ l₂, ¬ Touches t n q) (h0 : k ≠ 0) :
    ∃ y : Field, getField o s.toList m = .ok (extents x, y) ∧ y.dims = x.field.dims ∧ y.arr.cf = x.field.arr.cf ∧ cgs y = cgs x.field := by
  obtain ⟨y, e1, e2, e3, e4, e5⟩ := c92_file hp hb l₁ l₂ hn hm hw ho hs hc hd hl
  have hu' := file_unit ht hne hp _ (by rw [hu]; exact hb) (by rw [hu]; exact h5) hw ho hd
  rw [hu] at hu'
  refine ⟨y, e1, e2, by rw [e4, ha, exponent_self h0, hc.cf]; rfl, ?_⟩
  rw [e5, ha, exponent_self h0, hu', div_self (Real.rpow_pos_of_pos hc.pos k).ne',
    div_self (Base_unit_pos (b := baseOf w.made) ⟨hb _, hb _, hb _, hb _, hb _⟩ _).ne']
  simp

private theorem scaled_ne {l : List ℝ} {r : ℝ} (hr : r ≠ 1) (h : ∃ v ∈ l, v ≠ 0) : l.map (fun v => v * r) ≠ l := by
  obtain ⟨v, hv, h0⟩ := h
  intro e
  have : ∀ u ∈ l, u * r = u := by
    intro u hu
    obtain ⟨i, hi, rfl⟩ := List.getElem_of_mem hu
    have := congrArg (fun L : List ℝ => L[i]?) e
    simpa [hi] using this
  have h1 := this v hv
  exact hr (mul_left_cancel₀ h0 (by rw [h1, mul_one]))

/-- C92: a writer whose scale factor is changed after a field was assigned writes the field as it was: what is read has its physical
values multiplied by a power of the ratio of the scale factors. -/
theorem c92_scale_fails {D : Type} {lib : Lib D} {table : Dim → List ℝ} (ht : ∀ d : Dim, ∀ x ∈ table d, 0 < x) (hne : ∀ d, table d ≠ []) {w : Obj}
    (hp : Plain w.conf) (hb : ∀ d, 0 < w.made d) (h5 : ∀ d, d = .length ∨ d = .mass ∨ d = .time → FiveDigitUnit table w.made d) (l₁ l₂ : List Cmd)
    {h : H5} {o : Opened} {t : Nat} {n : Name} (hn : n ∈ needs t) {m : Str} (hm : Called m n) {x : Stored}
    (hu : systemAfter w.units (l₁ ++ .set t m x :: l₂) = w.made) {a b k : ℝ} (ha : scaleAfter w.conf.scaleFactor l₁ = a) (hab : scaleAfter a l₂ = b)
    (hpos : 0 < b) (hw : save (WriterObject.run w (l₁ ++ .set t m x :: l₂)) = .ok h) (ho : openFile lib table h = .ok o) {s : String}
    (hs : types[t]? = some s) (hc : Conv a k x.field.arr) (hd : HasDims n x.field.dims) (hl : ∀ q ∈ l₂, ¬ Touches t n q) (h0 : k ≠ 0) :
    ∃ y : Field, getField o s.toList m = .ok (extents x, y) ∧ cgs y = (cgs x.field).map (fun v => v * (b / a) ^ k) ∧
      (a ≠ b → (∃ v ∈ cgs x.field, v ≠ 0) → cgs y ≠ cgs x.field) := by
  subst ha
  obtain ⟨y, e1, e2, e3, e4, e5⟩ := c92_file hp hb l₁ l₂ hn hm hw ho hs hc hd hl
  have hu' := file_unit ht hne hp _ (by rw [hu]; exact hb) (by rw [hu]; exact h5) hw ho hd
  rw [hu] at hu'
  have key : cgs y = (cgs x.field).map (fun v => v * (b / scaleAfter w.conf.scaleFactor l₁) ^ k) := by
    rw [e5, hab, exponent_self h0, hu', div_self (Base_unit_pos (b := baseOf w.made) ⟨hb _, hb _, hb _, hb _, hb _⟩ _).ne',
      Real.div_rpow hpos.le hc.pos.le]
    simp
  refine ⟨y, e1, key, fun hne' hv => ?_⟩
  rw [key]
  refine scaled_ne (fun h1 => ?_) hv
  have hr : 0 < b / scaleAfter w.conf.scaleFactor l₁ := div_pos hpos hc.pos
  rcases lt_trichotomy (b / scaleAfter w.conf.scaleFactor l₁) 1 with h | h | h
  · rcases lt_or_gt_of_ne h0 with hk | hk
    · exact absurd h1 (Real.one_lt_rpow_of_pos_of_lt_one_of_neg hr h hk).ne'
    · exact absurd h1 (Real.rpow_lt_one hr.le h hk).ne
  · rw [div_eq_one_iff_eq hc.pos.ne'] at h
    exact hne' h.symm
  · rcases lt_or_gt_of_ne h0 with hk | hk
    · exact absurd h1 (Real.rpow_lt_one_of_one_lt_of_neg h hk).ne
    · exact absurd h1 (Real.one_lt_rpow h hk).ne'

/-- C92: a writer whose unit system is changed says in the file that the fields are in the new units, but converts all fields, also those
that are assigned later, to the old ones. -/
theorem c92_system_fails {D : Type} {lib : Lib D} {table : Dim → List ℝ} (ht : ∀ d : Dim, ∀ x ∈ table d, 0 < x) (hne : ∀ d, table d ≠ []) {w : Obj}
    (hp : Plain w.conf) (hb : ∀ d, 0 < w.made d) {u : Dim → ℝ} (hu0 : ∀ d, 0 < u d)
    (h5 : ∀ d, d = .length ∨ d = .mass ∨ d = .time → FiveDigitUnit table u d) (l₁ l₂ : List Cmd)
    {h : H5} {o : Opened} {t : Nat} {n : Name} (hn : n ∈ needs t) {m : Str} (hm : Called m n) {x : Stored}
    (hu : systemAfter w.units (l₁ ++ .set t m x :: l₂) = u) (ha : scaleAfter (scaleAfter w.conf.scaleFactor l₁) l₂ = scaleAfter w.conf.scaleFactor l₁)
    (hw : save (WriterObject.run w (l₁ ++ .set t m x :: l₂)) = .ok h) (ho : openFile lib table h = .ok o) {s : String} (hs : types[t]? = some s)
    {k : ℝ} (hc : Conv (scaleAfter w.conf.scaleFactor l₁) k x.field.arr) (hd : HasDims n x.field.dims) (hl : ∀ q ∈ l₂, ¬ Touches t n q) (h0 : k ≠ 0) :
    ∃ y : Field, getField o s.toList m = .ok (extents x, y) ∧
      cgs y = (cgs x.field).map (fun v => v * ((baseOf u).unit x.field.dims / (baseOf w.made).unit x.field.dims)) ∧
      ((baseOf u).unit x.field.dims ≠ (baseOf w.made).unit x.field.dims → (∃ v ∈ cgs x.field, v ≠ 0) → cgs y ≠ cgs x.field) := by
  obtain ⟨y, e1, e2, e3, e4, e5⟩ := c92_file hp hb l₁ l₂ hn hm hw ho hs hc hd hl
  have hu' := file_unit ht hne hp _ (by rw [hu]; exact hu0) (by rw [hu]; exact h5) hw ho hd
  rw [hu] at hu'
  have key : cgs y = (cgs x.field).map (fun v => v * ((baseOf u).unit x.field.dims / (baseOf w.made).unit x.field.dims)) := by
    rw [e5, ha, exponent_self h0, hu', div_self (Real.rpow_pos_of_pos hc.pos k).ne']
    simp
  refine ⟨y, e1, key, fun hne' hv => ?_⟩
  rw [key]
  refine scaled_ne (fun h1 => ?_) hv
  rw [div_eq_one_iff_eq (Base_unit_pos (b := baseOf w.made) ⟨hb _, hb _, hb _, hb _, hb _⟩ _).ne'] at h1
  exact hne' h1

/-- C92: an array stored under the name with an underscore is neither checked nor converted: physical values are read as comoving ones. -/
theorem c92_hidden_fails {D : Type} {lib : Lib D} {table : Dim → List ℝ} {w : Obj} (hp : Plain w.conf) (l₁ l₂ : List Cmd) {h : H5} {o : Opened} {t : Nat}
    {n : Name} (hn : n ∈ needs t) {m : Str} (hm : Called m n) {x : Stored} (hw : save (WriterObject.run w (l₁ ++ .hidden t n x :: l₂)) = .ok h)
    (ho : openFile lib table h = .ok o) {s : String} (hs : types[t]? = some s) {a k : ℝ} (hc : Conv a k x.field.arr)
    (hph : x.field.arr.comoving = some false) (hsf : scaleAfter w.conf.scaleFactor (l₁ ++ .hidden t n x :: l₂) = a) (hl : ∀ q ∈ l₂, ¬ Touches t n q)
    (h0 : k ≠ 0) : ∃ y : Field, getField o s.toList m = .ok (extents x, y) ∧ y.arr.comoving = some true ∧ y.dims = x.field.dims ∧
      y.arr.phys = x.field.arr.phys.map (fun v => v * a ^ k) := by
  obtain ⟨r, hr, rfl⟩ := called_name hm
  have hz : ((WriterObject.run w (l₁ ++ .hidden t n x :: l₂)).state t).fields n = some x := by
    rw [run_append, run_cons, run_state l₂ _ hl]
    exact put_same
  obtain ⟨g1, g2, g3⟩ := run_conf (l₁ ++ .hidden t n x :: l₂) w
  have hp' : Plain (WriterObject.run w (l₁ ++ .hidden t n x :: l₂)).conf := by rw [g2]; exact hp
  obtain ⟨k', a', y, f1, f2, f3, f4, f5, f6, f7, f8⟩ := c85_numbers hp' hw ho hs hr hn hz
  rw [hc.cf] at f1
  cases f1
  rw [g2] at f8
  dsimp only at f8
  rw [hsf, exponent_self h0] at f8
  refine ⟨y, f2, f6, f4, ?_⟩
  unfold Arr.phys
  rw [f6, f8, hph, f3]
  rfl

/-- The command that does an operation of C85. -/
private def cmdOf : Op → Cmd
  | .set t n x => .set t (attrName n) x
  | .ids t l => .ids t l
  | .del t n => .del t (attrName n)

private theorem exec_op (w : Obj) (o : Op) (ho : ∀ t n, (∃ x, o = .set t n x) ∨ o = .del t n → n ∈ required t) :
    (exec w (cmdOf o)).1 = { w with state := step w.made w.conf.scaleFactor w.state o } := by
  cases o with
  | set t n x =>
    simp only [cmdOf, exec, step, property_of (ho t n (.inl ⟨x, rfl⟩)) (attr_called n)]
    split
    · rfl
    · cases setField (baseOf w.made) w.conf.scaleFactor (dimsOf n) x.field <;> rfl
  | ids t l =>
    simp only [cmdOf, exec, step]
    cases Writer.setIds (view w.state t) l <;> rfl
  | del t n => simp only [cmdOf, exec, step, property_of (ho t n (.inr rfl)) (attr_called n)]

private theorem run_ops (u v : Dim → ℝ) (c : Conf ℝ) : ∀ (ops : List Op) (s : State) (f : Nat → Str → Option Stored),
    (∀ o ∈ ops, ∀ t n, (∃ x, o = .set t n x) ∨ o = .del t n → n ∈ required t) →
    WriterObject.run ⟨u, v, c, s, f⟩ (ops.map cmdOf) = ⟨u, v, c, ops.foldl (step u c.scaleFactor) s, f⟩
  | [], _, _, _ => rfl
  | o :: ops, s, f, h => by
    rw [List.map_cons, run_cons, exec_op _ _ (h o (List.mem_cons_self ..))]
    exact run_ops u v c ops _ f (fun p hp => h p (List.mem_cons_of_mem _ hp))

/-- C92: assignments and deletions of the fields of the types by their names do what C85 says of them. -/
theorem c92_same (u : Dim → ℝ) (c : Conf ℝ) (ops : List Op) (h : ∀ o ∈ ops, ∀ t n, (∃ x, o = .set t n x) ∨ o = .del t n → n = .particleIds ∨ n ∈ needs t)
    (l : List Cmd) (hl : List.Forall₂ (fun o q => match o, q with
      | Op.set t n x, Cmd.set t' m x' => t = t' ∧ Called m n ∧ x = x'
      | Op.ids t l, Cmd.ids t' l' => t = t' ∧ l = l'
      | Op.del t n, Cmd.del t' m => t = t' ∧ Called m n
      | _, _ => False) ops l) :
    save (WriterObject.run (Obj.new u c) l) = writeAll u c (Reread.run u c.scaleFactor ops) := by
  have e : l = ops.map cmdOf := by
    clear h
    induction hl with
    | nil => rfl
    | @cons o q ops l h1 _ ih =>
      rw [List.map_cons, ← ih]
      congr 1
      cases o <;> cases q <;> first | exact h1.elim | skip
      · obtain ⟨rfl, h2, rfl⟩ := h1
        rw [called_attr h2]; rfl
      · obtain ⟨rfl, rfl⟩ := h1; rfl
      · obtain ⟨rfl, h2⟩ := h1
        rw [called_attr h2]; rfl
  rw [e]
  unfold Obj.new
  rw [run_ops u u c ops State.new _ (fun o ho t n hn => (required_needs t n).2 (h o ho t n hn))]
  rfl

/-! The writer of the examples of C85, as an object. -/

private noncomputable def told : List Cmd :=
  [.set 1 "coordinates".toList ⟨some [3], 2, sampleField 1 (dimsOf .coordinates) [1, 2, 3, 4, 5, 6] 1⟩,
    .set 1 "velocities".toList ⟨some [3], 2, sampleField 0 (dimsOf .velocities) [1, 2, 3, 4, 5, 6] 1⟩]

private theorem called_masses : Called "masses".toList .masses := ⟨"masses", by simp [fieldNames], rfl⟩

private theorem told_run (u : Dim → ℝ) : WriterObject.run (Obj.new u sampleConf) (told ++ [.set 1 "masses".toList sampleMasses]) =
    ⟨u, u, sampleConf, Reread.run u (1 / 2) sampleOps, fun _ _ => none⟩ :=
  run_ops u u sampleConf sampleOps State.new _ (by
    intro o ho t n h
    simp only [sampleOps, List.mem_cons, List.not_mem_nil, or_false] at ho
    rcases h with ⟨x, rfl⟩ | rfl
    · rcases ho with ho | ho | ho <;> cases ho <;> simp [required]
    · rcases ho with ho | ho | ho <;> cases ho)

private theorem told_conv : Conv (1 / 2) 3 sampleMasses.field.arr := ⟨by norm_num, rfl, rfl, by simp [sampleMasses, sampleField]⟩

private theorem told_dims : HasDims .masses sampleMasses.field.dims := rfl

private theorem told_cgs : cgs sampleMasses.field = [10, 14] := by
  simp [cgs, Arr.phys, sampleMasses, sampleField]
  norm_num

/-- `writer.dark_matter.masses` is what was assigned, `writer.dark_matter.mass` is not an attribute, and after
`writer.dark_matter.mass = …` it is one, but the file is the same. -/
example (x : Stored) : (∃ y : Field, getAttr (WriterObject.run (Obj.new (fun _ => 1) sampleConf) (told ++ [.set 1 "masses".toList sampleMasses])) 1
      "masses".toList = .ok (some { sampleMasses with field := y }) ∧ cgs y = [10, 14]) ∧
    getAttr (WriterObject.run (Obj.new (fun _ => 1) sampleConf) told) 1 "masses".toList = .ok none ∧
    getAttr (WriterObject.run (Obj.new (fun _ => 1) sampleConf) told) 1 "mass".toList = .error .attribute ∧
    save (WriterObject.run (Obj.new (fun _ => 1) sampleConf) (told ++ [.set 1 "mass".toList x])) =
      save (WriterObject.run (Obj.new (fun _ => 1) sampleConf) told) ∧
    (exec (WriterObject.run (Obj.new (fun _ => 1) sampleConf) told) (.set 1 "velocities".toList sampleMasses)).2 ≠ none := by
  have hf : Foreign 1 "mass".toList := by
    refine ⟨fun n hn => ?_, by decide +kernel, by decide +kernel⟩
    have := called_attr hn
    revert this
    cases n <;> decide +kernel
  have hd : ∀ q ∈ told, ¬ Touches 1 .masses q := by
    intro q hq
    simp only [told, List.mem_cons, List.not_mem_nil, or_false] at hq
    rcases hq with rfl | rfl <;> rintro ⟨-, h⟩ <;> revert h <;> intro h <;> have := called_attr h <;> revert this <;> decide +kernel
  refine ⟨?_, (c92_none (w := Obj.new (fun _ => 1) sampleConf) [] told (t := 1) (n := .masses) (by simp [needs]) called_masses hd).2.2 _ _,
    c92_missing _ _ _ hf (by intro x hx; simp [told] at hx), ?_, ?_⟩
  · obtain ⟨-, y, e1, -, -, -, -, e2⟩ := c92_field (w := Obj.new (fun _ => 1) sampleConf) (by simp [Obj.new]) told [] (t := 1) (n := .masses)
      (by simp [needs]) called_masses (x := sampleMasses) (k := 3) told_conv told_dims (by simp)
    exact ⟨y, e1, e2.trans told_cgs⟩
  · rw [run_append, run_cons]
    exact (c92_foreign_fails _ hf x).2.2
  · obtain ⟨e, he⟩ := c92_refused (WriterObject.run (Obj.new (fun _ => 1) sampleConf) told) (t := 1) (n := .velocities) (by simp [needs])
      ⟨"velocities", by simp [fieldNames], rfl⟩ (x := sampleMasses) told_conv (.inr (by
        intro h
        have := congrArg Exps.L (show (dimsOf .masses) = _ from h)
        simp [dimsOf] at this))
    rw [he]
    simp

private theorem told_writes (lib : Lib Nat) (q : List Cmd) (hq : q = [] ∨ (∃ a, q = [.scale a]) ∨ q = [.system (fun _ => 2)]) :
    ∃ (h : H5) (o : Opened), save (WriterObject.run (Obj.new (fun _ => 1) sampleConf) (told ++ .set 1 "masses".toList sampleMasses :: q)) = .ok h ∧
      openFile lib (fun _ => [1]) h = .ok o := by
  have e : told ++ .set 1 "masses".toList sampleMasses :: q = (told ++ [.set 1 "masses".toList sampleMasses]) ++ q := by simp
  rw [e, run_append, told_run]
  have key : ∀ (c : Conf ℝ) (u : Dim → ℝ), c.extra = none → (∀ d, 0 < u d) → ∃ (h : H5) (o : Opened),
      writeAll u c (Reread.run (fun _ => 1) (1 / 2) sampleOps) = .ok h ∧ openFile lib (fun _ => [1]) h = .ok o := by
    intro c u hc hu
    obtain ⟨h, hw⟩ := c85_writes (base := fun _ => 1) (base' := u) (by simp) (c := c) sampleOps_fine sampleOps_complete
    obtain ⟨o, ho⟩ := c85_opens lib (table := fun _ => [1]) (by simp) (by simp) hu hc hw
    exact ⟨h, o, hw, ho⟩
  rcases hq with rfl | ⟨a, rfl⟩ | rfl
  · exact key sampleConf (fun _ => 1) rfl (by simp)
  · exact key { sampleConf with scaleFactor := a } (fun _ => 1) rfl (by simp)
  · exact key sampleConf (fun _ => 2) rfl (by simp)

private theorem told_units (d : Dim) : FiveDigitUnit (fun _ => [1]) (fun _ => 2) d := by
  intro i v c _ hc
  have : c = 1 := by
    have := List.mem_of_getElem? hc
    simpa using this
  exact ⟨2, 0, by norm_num, by rw [this]; norm_num⟩

private theorem told_plain : Plain (Obj.new (fun _ => 1) sampleConf).conf := by simp [Plain, Obj.new, sampleConf]

private theorem told_nonzero : ∃ v ∈ cgs sampleMasses.field, v ≠ 0 := ⟨10, by rw [told_cgs]; simp, by norm_num⟩

/-- Masses given with `a**3` and written with the scale factor at which they were assigned, 1/2, are read as they were given. -/
example (lib : Lib Nat) : ∃ (h : H5) (o : Opened) (y : Field),
    save (WriterObject.run (Obj.new (fun _ => 1) sampleConf) (told ++ .set 1 "masses".toList sampleMasses :: [])) = .ok h ∧
    openFile lib (fun _ => [1]) h = .ok o ∧ getField o "dark_matter".toList "masses".toList = .ok ([2], y) ∧ cgs y = [10, 14] := by
  obtain ⟨h, o, hw, ho⟩ := told_writes lib [] (.inl rfl)
  obtain ⟨y, e1, -, -, e2⟩ := c92_steady_partial (w := Obj.new (fun _ => 1) sampleConf) (by simp) (by simp) told_plain (by simp [Obj.new])
    (fun d _ => sampleUnits d) told [] (t := 1) (n := .masses) (by simp [needs]) called_masses (x := sampleMasses) rfl rfl hw ho (s := "dark_matter") rfl
    (k := 3) told_conv told_dims (by simp) (by norm_num)
  exact ⟨h, o, y, hw, ho, e1, e2.trans told_cgs⟩

/-- Changing the scale factor to 1/4 before writing makes the masses eight times smaller. -/
example (lib : Lib Nat) : ∃ (h : H5) (o : Opened) (y : Field),
    save (WriterObject.run (Obj.new (fun _ => 1) sampleConf) (told ++ .set 1 "masses".toList sampleMasses :: [.scale (1 / 4)])) = .ok h ∧
    openFile lib (fun _ => [1]) h = .ok o ∧ getField o "dark_matter".toList "masses".toList = .ok ([2], y) ∧ cgs y = [10 / 8, 14 / 8] := by
  obtain ⟨h, o, hw, ho⟩ := told_writes lib [.scale (1 / 4)] (.inr (.inl ⟨_, rfl⟩))
  obtain ⟨y, e1, e2, -⟩ := c92_scale_fails (w := Obj.new (fun _ => 1) sampleConf) (by simp) (by simp) told_plain (by simp [Obj.new])
    (fun d _ => sampleUnits d) told [.scale (1 / 4)] (t := 1) (n := .masses) (by simp [needs]) called_masses (x := sampleMasses) rfl (a := 1 / 2) (b := 1 / 4) rfl rfl
    (by norm_num) hw ho (s := "dark_matter") rfl (k := 3) told_conv told_dims (by simp [Touches]) (by norm_num)
  refine ⟨h, o, y, hw, ho, e1, ?_⟩
  have h8 : ((1 / 4 : ℝ) / (1 / 2)) ^ (3 : ℝ) = 1 / 8 := by
    rw [show (3 : ℝ) = ((3 : ℕ) : ℝ) by norm_num, Real.rpow_natCast]
    norm_num
  rw [e2, told_cgs, h8]
  simp
  norm_num

/-- Changing the unit system so that the unit of mass is 2 makes them twice as large. -/
example (lib : Lib Nat) : ∃ (h : H5) (o : Opened) (y : Field),
    save (WriterObject.run (Obj.new (fun _ => 1) sampleConf) (told ++ .set 1 "masses".toList sampleMasses :: [.system (fun _ => 2)])) = .ok h ∧
    openFile lib (fun _ => [1]) h = .ok o ∧ getField o "dark_matter".toList "masses".toList = .ok ([2], y) ∧ cgs y = [20, 28] := by
  obtain ⟨h, o, hw, ho⟩ := told_writes lib [.system (fun _ => 2)] (.inr (.inr rfl))
  obtain ⟨y, e1, e2, -⟩ := c92_system_fails (w := Obj.new (fun _ => 1) sampleConf) (by simp) (by simp) told_plain (by simp [Obj.new]) (u := fun _ => 2)
    (by simp) (fun d _ => told_units d) told [.system (fun _ => 2)] (t := 1) (n := .masses) (by simp [needs]) called_masses (x := sampleMasses) rfl rfl
    hw ho (s := "dark_matter") rfl (k := 3) told_conv told_dims (by simp [Touches]) (by norm_num)
  refine ⟨h, o, y, hw, ho, e1, ?_⟩
  rw [e2, told_cgs]
  simp [Base.unit, baseOf, Obj.new, sampleMasses, sampleField, dimsOf]
  norm_num

/-- Masses that were put under `_masses` as physical values with `a**3` are read as comoving ones with the same numbers. -/
example (lib : Lib Nat) : ∃ (h : H5) (o : Opened) (y : Field),
    save (WriterObject.run (Obj.new (fun _ => 1) sampleConf)
      ([.hidden 1 .coordinates sampleMasses, .hidden 1 .velocities sampleMasses] ++ .hidden 1 .masses sampleMasses :: [])) = .ok h ∧
    openFile lib (fun _ => [1]) h = .ok o ∧ getField o "dark_matter".toList "masses".toList = .ok ([2], y) ∧
    y.arr.phys = [5 / 8, 7 / 8] := by
  have hst : ∀ t n, ((WriterObject.run (Obj.new (fun _ => 1) sampleConf)
      ([.hidden 1 .coordinates sampleMasses, .hidden 1 .velocities sampleMasses] ++ .hidden 1 .masses sampleMasses :: [])).state t).fields n =
      if t = 1 ∧ (n = .coordinates ∨ n = .velocities ∨ n = .masses) then some sampleMasses else none := by
    intro t n
    simp only [List.cons_append, List.nil_append, exec, WriterObject.run, Obj.new, List.foldl]
    by_cases ht : t = 1
    · subst ht
      cases n <;> simp [State.put] <;> rfl
    · simp [State.put, ht]
      rfl
  have hid : ∀ t, ((WriterObject.run (Obj.new (fun _ => 1) sampleConf)
      ([.hidden 1 .coordinates sampleMasses, .hidden 1 .velocities sampleMasses] ++ .hidden 1 .masses sampleMasses :: [])).state t).ids = none := by
    intro t
    simp only [List.cons_append, List.nil_append, exec, WriterObject.run, Obj.new, List.foldl]
    by_cases ht : t = 1 <;> simp [State.put, ht] <;> rfl
  have hmem : ∀ t, t ∈ toWrite (view (WriterObject.run (Obj.new (fun _ => 1) sampleConf)
      ([.hidden 1 .coordinates sampleMasses, .hidden 1 .velocities sampleMasses] ++ .hidden 1 .masses sampleMasses :: [])).state) ↔ t = 1 := by
    intro t
    unfold toWrite
    rw [List.mem_filter, List.mem_range]
    simp only [populated, view, hid, hst]
    constructor
    · rintro ⟨-, h⟩
      by_contra hne
      simp [hne] at h
    · rintro rfl
      simp [needs]
  have hun : (WriterObject.run (Obj.new (fun _ => 1) sampleConf)
      ([.hidden 1 .coordinates sampleMasses, .hidden 1 .velocities sampleMasses] ++ .hidden 1 .masses sampleMasses :: [])).units = fun _ => 1 := rfl
  have hcf : (WriterObject.run (Obj.new (fun _ => 1) sampleConf)
      ([.hidden 1 .coordinates sampleMasses, .hidden 1 .velocities sampleMasses] ++ .hidden 1 .masses sampleMasses :: [])).conf = sampleConf := rfl
  have main := fun h o hw ho => c92_hidden_fails (lib := lib) (table := fun _ => [1]) (w := Obj.new (fun _ => 1) sampleConf) told_plain
    [.hidden 1 .coordinates sampleMasses, .hidden 1 .velocities sampleMasses] [] (h := h) (o := o) (t := 1) (n := .masses) (by simp [needs]) called_masses
    (x := sampleMasses) hw ho (s := "dark_matter") rfl (a := 1 / 2) (k := 3) told_conv rfl rfl (by simp) (by norm_num)
  generalize WriterObject.run (Obj.new (fun _ => 1) sampleConf)
      ([.hidden 1 .coordinates sampleMasses, .hidden 1 .velocities sampleMasses] ++ .hidden 1 .masses sampleMasses :: []) = W at *
  obtain ⟨h, hw⟩ := c85_complete (base := fun _ => 1) (c := sampleConf) W.state
    (List.ne_nil_of_mem ((hmem 1).2 rfl)) (by
      intro t ht
      obtain rfl := (hmem t).1 ht
      refine ⟨2, by norm_num, ?_, ?_, ?_⟩
      · intro m hm
        simp [needs] at hm
        refine ⟨[], _, by simp only [view, hst]; rw [if_pos ⟨trivial, hm⟩]; rfl, by simp [sampleMasses]⟩
      · intro l hl
        simp only [view, hid] at hl
        cases hl
      · intro a b ha hb
        simp only [view, hst] at ha hb
        simp at ha hb
        rw [← ha, ← hb]) (.inl ⟨1, (hmem 1).2 rfl, hid 1⟩) (by
      intro t ht n hn z hz
      rw [hst] at hz
      split at hz
      · obtain rfl := Option.some.inj hz
        exact ⟨3, 1 / 2, rfl⟩
      · cases hz)
  obtain ⟨o, ho⟩ := c85_opens lib (table := fun _ => [1]) (by simp) (by simp) (by simp) rfl hw
  have hw' : save W = .ok h := by
    unfold save
    rw [hun, hcf]
    exact hw
  obtain ⟨y, e1, -, -, e2⟩ := main h o hw' ho
  refine ⟨h, o, y, hw', ho, e1, ?_⟩
  have h8 : (1 / 2 : ℝ) ^ (3 : ℝ) = 1 / 8 := by
    rw [show (3 : ℝ) = ((3 : ℕ) : ℝ) by norm_num, Real.rpow_natCast]
    norm_num
  rw [e2, h8]
  simp [Arr.phys, sampleMasses, sampleField]
  norm_num

end Verif.Props
