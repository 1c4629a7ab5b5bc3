import Verif.Spec.Opening

/-!
# C94: opening files

Only the user leaves files open.
-/

namespace Verif.Props
open Verif Verif.Handles Verif.Opening Verif.Spec

private theorem bind_def {α β : Type} (p : Prog α) (k : α → Prog β) : (p >>= k) = p.andThen k := rfl

/-- Handles are untouched and all new objects borrow `h`. -/
private def Same (f h : Nat) (w w' : World) : Prop :=
  w'.handles = w.handles ∧ ∃ l : List Provider, w'.providers = w.providers ++ l ∧ ∀ p ∈ l, p = ⟨f, some h, false⟩

private theorem Same.refl (f h : Nat) (w : World) : Same f h w w := ⟨rfl, [], by simp, by simp⟩

private theorem Same.trans {f h : Nat} {u v w : World} (a : Same f h u v) (b : Same f h v w) : Same f h u w := by
  obtain ⟨a1, l, a2, a3⟩ := a
  obtain ⟨b1, m, b2, b3⟩ := b
  refine ⟨b1.trans a1, l ++ m, by rw [b2, a2, List.append_assoc], fun p hp => ?_⟩
  rcases List.mem_append.mp hp with hp | hp
  · exact a3 p hp
  · exact b3 p hp

private theorem Same.isOpen {f h g k : Nat} {w w' : World} (s : Same f h w w') (o : IsOpen w k g) : IsOpen w' k g := by
  obtain ⟨x, a, b, c⟩ := o
  exact ⟨x, by rw [s.1]; exact a, b, c⟩

private theorem Same.provider {f h i : Nat} {w w' : World} {p : Provider} (s : Same f h w w') (o : w.providers[i]? = some p) :
    w'.providers[i]? = some p := by
  obtain ⟨_, l, e, _⟩ := s
  have := (List.getElem?_eq_some_iff.mp o).1
  rw [e, List.getElem?_append_left this, o]

/-- Known objects. -/
private def Knows (L : List (Nat × Provider)) (w : World) : Prop := ∀ x ∈ L, w.providers[x.1]? = some x.2

private theorem Same.knows {f h : Nat} {w w' : World} {L : List (Nat × Provider)} (s : Same f h w w') (o : Knows L w) : Knows L w' :=
  fun x hx => s.provider (o x hx)

/-- What a program does with an open handle and known objects; it returns exactly if `c`. -/
private def At (f h : Nat) (L : List (Nat × Provider)) {α : Type} (p : Prog α) (c : Prop) : Prop :=
  ∀ w, IsOpen w h f → Knows L w → Same f h w (p w).1 ∧ ((∃ a, (p w).2 = .ok a) ↔ c)

section
variable {f h : Nat} {L : List (Nat × Provider)} {α β : Type}

private theorem At.congr {p : Prog α} {c c' : Prop} (s : At f h L p c) (e : c ↔ c') : At f h L p c' :=
  fun w o q => ⟨(s w o q).1, (s w o q).2.trans e⟩

private theorem At.more {p : Prog α} {c : Prop} (s : At f h [] p c) : At f h L p c := fun w o _ => s w o (by simp [Knows])

private theorem At.bind {p : Prog α} {k : α → Prog β} {c c' : Prop} (s : At f h L p c) (t : ∀ a, At f h L (k a) c') :
    At f h L (p >>= k) (c ∧ c') := by
  intro w o q
  obtain ⟨s1, s2⟩ := s w o q
  rw [bind_def]
  unfold Prog.andThen
  rcases hp : p w with ⟨w', r⟩
  rw [hp] at s1 s2
  cases r with
  | ok a =>
    obtain ⟨t1, t2⟩ := t a w' (s1.isOpen o) (s1.knows q)
    exact ⟨s1.trans t1, t2.trans ⟨fun x => ⟨s2.mp ⟨a, rfl⟩, x⟩, fun x => x.2⟩⟩
  | error e =>
    refine ⟨s1, ⟨?_, fun x => ?_⟩⟩
    · rintro ⟨a, x⟩
      cases x
    · obtain ⟨a, y⟩ := s2.mpr x.1
      cases y

private theorem at_ret (a : α) : At f h L (Prog.ret a) True := fun w _ _ => ⟨Same.refl f h w, ⟨fun _ => trivial, fun _ => ⟨a, rfl⟩⟩⟩

private theorem truthy_of {w : World} (o : IsOpen w h f) : w.truthy (some h) = true := by
  obtain ⟨x, a, b, _⟩ := o
  simp [World.truthy, a, b]

private theorem use_eq {w : World} {i : Nat} {m : Bool} (o : IsOpen w h f) (q : w.providers[i]? = some ⟨f, some h, m⟩) :
    useHandle i w = (w, .ok h) := by
  unfold useHandle
  rw [q]
  dsimp only
  unfold World.getHandle
  dsimp only
  rw [if_pos (truthy_of o)]
  dsimp only
  rw [q]
  rfl

private theorem at_use {i : Nat} {m : Bool} {k : Nat → Prog β} {c : Prop} (hi : (i, ⟨f, some h, m⟩) ∈ L) (s : At f h L (k h) c) :
    At f h L (useHandle i >>= k) c := by
  intro w o q
  rw [bind_def]
  unfold Prog.andThen
  rw [use_eq o (q _ hi)]
  exact s w o q

private theorem at_own {i : Nat} {m : Bool} {k : Nat → Prog β} {c : Prop} (hi : (i, ⟨f, some h, m⟩) ∈ L) (s : At f h L (k f) c) :
    At f h L (ownFile i >>= k) c := by
  intro w o q
  rw [bind_def]
  unfold Prog.andThen ownFile
  rw [q _ hi]
  exact s w o q

private theorem name_eq {w : World} (o : IsOpen w h f) : fileName h w = (w, .ok f) := by
  obtain ⟨x, a, b, rfl⟩ := o
  unfold fileName
  rw [a]
  dsimp only
  rw [if_pos b]

private theorem at_name {k : Nat → Prog β} {c : Prop} (s : At f h L (k f) c) : At f h L (fileName h >>= k) c := by
  intro w o q
  rw [bind_def]
  unfold Prog.andThen
  rw [name_eq o]
  exact s w o q

private theorem new_eq {w : World} (o : IsOpen w h f) :
    new f (some h) w = (⟨w.handles, w.providers ++ [⟨f, some h, false⟩]⟩, .ok w.providers.length) := by
  unfold new World.mkProvider
  rw [truthy_of o]
  rfl

private theorem at_new {k : Nat → Prog β} {c : Prop} (s : ∀ i, At f h ((i, ⟨f, some h, false⟩) :: L) (k i) c) :
    At f h L (new f (some h) >>= k) c := by
  intro w o q
  rw [bind_def]
  unfold Prog.andThen
  rw [new_eq o]
  dsimp only
  have o' : IsOpen ⟨w.handles, w.providers ++ [⟨f, some h, false⟩]⟩ h f := o
  have s0 : Same f h w ⟨w.handles, w.providers ++ [⟨f, some h, false⟩]⟩ := ⟨rfl, [⟨f, some h, false⟩], rfl, by simp⟩
  obtain ⟨s1, s2⟩ := s w.providers.length _ o' (by
    intro x hx
    rcases List.mem_cons.mp hx with rfl | hx
    · simp
    · exact s0.knows q x hx)
  exact ⟨s0.trans s1, s2⟩

private theorem at_look {d : Disk} (s : Stage) : At f h L (look d h s) (d.bad f s = none) := by
  intro w o _
  obtain ⟨x, a, b, rfl⟩ := o
  unfold look
  rw [a]
  dsimp only
  rw [if_pos b]
  cases hb : d.bad x.file s with
  | none => exact ⟨Same.refl _ h w, ⟨fun _ => rfl, fun _ => ⟨_, rfl⟩⟩⟩
  | some e => exact ⟨Same.refl _ h w, ⟨fun ⟨_, y⟩ => (by cases y), fun y => (by cases y)⟩⟩

private theorem at_check {d : Disk} (g : Nat) (s : Stage) : At f h L (check d g s) (d.bad g s = none) := by
  intro w _ _
  unfold check
  cases hb : d.bad g s with
  | none => exact ⟨Same.refl _ h w, ⟨fun _ => rfl, fun _ => ⟨_, rfl⟩⟩⟩
  | some e => exact ⟨Same.refl _ h w, ⟨fun ⟨_, y⟩ => (by cases y), fun y => (by cases y)⟩⟩

private theorem at_close {i : Nat} (hi : (i, ⟨f, some h, false⟩) ∈ L) : At f h L (closeManaged i) True := by
  intro w _ q
  unfold closeManaged
  rw [q _ hi]
  exact ⟨Same.refl f h w, ⟨fun _ => trivial, fun _ => ⟨(), rfl⟩⟩⟩

private theorem at_each {p : α → Prog Unit} {c : α → Prop} (s : ∀ a, At f h L (p a) (c a)) (l : List α) :
    At f h L (each p l) (∀ a ∈ l, c a) := by
  induction l with
  | nil => exact (at_ret ()).congr (by simp)
  | cons a l ih =>
    have := (s a).bind fun _ => ih
    exact this.congr (by simp)

private theorem at_same {i m : Nat} {p q : Provider} (hi : (i, p) ∈ L) (hm : (m, q) ∈ L) :
    At f h L (sameFile i m) (p.handle = q.handle ∨ p.file = q.file) := by
  intro w _ k
  unfold sameFile
  rw [k _ hi, k _ hm]
  dsimp only
  by_cases e : p.handle = q.handle ∨ p.file = q.file
  · rw [if_pos e]
    exact ⟨Same.refl _ h w, ⟨fun _ => e, fun _ => ⟨_, rfl⟩⟩⟩
  · rw [if_neg e]
    exact ⟨Same.refl _ h w, ⟨fun ⟨_, y⟩ => (by cases y), fun y => absurd y e⟩⟩

end

private theorem at_units (d : Disk) (f h : Nat) : At f h [] (units d f (some h)) (d.bad f .units = none) :=
  (at_new fun i => at_use (.head _) ((at_look _).bind fun _ => (at_close (.head _)).bind fun _ => at_ret i)).congr (by simp)

private theorem at_group (d : Disk) (f h k : Nat) : At f h [] (groupMetadata d f h k) (d.bad f (.group k) = none) :=
  (at_new fun _ => at_use (.head _) ((at_look _).bind fun _ => at_close (.head _))).congr (by simp)

private theorem at_metadata (d : Disk) (f h : Nat) : At f h [] (metadata d f true (some h))
    (d.bad f .metadata = none ∧ ∀ k < (d.groups f).length, d.bad f (.group k) = none) :=
  (at_new fun i => (at_ret ()).bind fun _ => at_use (.head _) ((at_look _).bind fun _ =>
    (at_each (fun k => at_use (.head _) (at_group d f h k).more) _).bind fun _ => (at_close (.head _)).bind fun _ => at_ret i)).congr (by simp)

private theorem at_discriminate (d : Disk) (f h : Nat) : At f h [] (discriminate d f (some h))
    (d.bad f .header = none ∧ d.bad f .metadata = none ∧ ∀ k < (d.groups f).length, d.bad f (.group k) = none) :=
  (at_look _).bind fun _ => at_metadata d f h

private theorem at_groupDataset (d : Disk) (f h k c : Nat) : At f h [] (groupDataset d h k c) (d.bad f (.fields k) = none) :=
  ((at_each (c := fun _ => True) (fun _ => at_name (at_new fun _ => at_ret ())) _).bind fun _ => at_name (at_new fun _ =>
    at_use (.head _) ((at_look _).bind fun _ => at_close (.head _)))).congr (by simp)

private theorem at_getUnits (d : Disk) (f h i : Nat) (m : Bool) {L : List (Nat × Provider)} (hi : (i, ⟨f, some h, m⟩) ∈ L) :
    At f h L (getUnits d i none) (d.bad f .units = none) :=
  (at_use hi (at_own hi ((at_units d f h).more.bind fun _ => at_ret ()))).congr (by simp)

private theorem at_getMetadata (d : Disk) (f h i : Nat) (m : Bool) {L : List (Nat × Provider)} (hi : (i, ⟨f, some h, m⟩) ∈ L) :
    At f h L (getMetadata d i none)
      (d.bad f .header = none ∧ d.bad f .metadata = none ∧ ∀ k < (d.groups f).length, d.bad f (.group k) = none) :=
  (at_use hi (at_own hi ((at_discriminate d f h).more.bind fun _ => at_ret ()))).congr (by simp)

private theorem at_create (d : Disk) (f h i : Nat) (m : Bool) {L : List (Nat × Provider)} (hi : (i, ⟨f, some h, m⟩) ∈ L) :
    At f h L (createDatasets d i) (∀ k < (d.groups f).length, d.bad f (.fields k) = none) :=
  (at_own hi (at_each (fun g => at_use hi (at_groupDataset d f h g.2 g.1).more) _)).congr (by
    constructor
    · intro a k hk
      exact a ((d.groups f)[k], k) (List.mk_mem_zipIdx_iff_getElem?.mpr (List.getElem?_eq_getElem hk))
    · rintro a ⟨c, k⟩ hk
      exact a k (List.getElem?_eq_some_iff.mp (List.mk_mem_zipIdx_iff_getElem?.mp hk)).1)

private theorem at_dataset (d : Disk) (f h : Nat) : At f h [] (dataset d f none (some h)) (Loads d f) :=
  (at_new fun i => (at_getUnits d f h i false (.head _)).bind fun _ => (at_getMetadata d f h i false (.head _)).bind fun _ =>
    (at_create d f h i false (.head _)).bind fun _ => (at_close (.head _)).bind fun _ => at_ret i).congr (by
      unfold Loads
      constructor
      · rintro ⟨a, ⟨b, c, e⟩, g, -⟩
        exact ⟨a, b, c, fun k hk => ⟨e k hk, g k hk⟩⟩
      · rintro ⟨a, b, c, e⟩
        exact ⟨a, ⟨b, c, fun k hk => (e k hk).1⟩, fun k hk => (e k hk).2, trivial, trivial⟩)

private theorem at_dataset_mask (d : Disk) (f h m : Nat) (q : Provider) : At f h [(m, q)] (dataset d f (some m) (some h))
    ((q.handle = some h ∨ q.file = f) ∧ ∀ k < (d.groups f).length, d.bad f (.fields k) = none) :=
  (at_new fun i => (at_same (.head _) (.tail _ (.head _))).bind fun _ => (at_same (.head _) (.tail _ (.head _))).bind fun _ =>
    (at_create d f h i false (.head _)).bind fun _ => (at_close (.head _)).bind fun _ => at_ret i).congr (by
      constructor
      · rintro ⟨a, -, b, -⟩
        exact ⟨a.imp Eq.symm Eq.symm, b⟩
      · rintro ⟨a, b⟩
        exact ⟨a.imp Eq.symm Eq.symm, a.imp Eq.symm Eq.symm, b, trivial, trivial⟩)

private theorem at_maskObject (d : Disk) (f h : Nat) : At f h [] (maskObject d f (some h)) (d.bad f .masking = none ∧ d.bad f .cells = none) :=
  (at_new fun i => (at_check f _).bind fun _ => at_use (.head _) ((at_look _).bind fun _ => (at_close (.head _)).bind fun _ => at_ret i)).congr
    (by simp)

/-! ## Paths and handles -/

private theorem knows_append {L : List (Nat × Provider)} {w : World} {hs : List Handle} {l : List Provider} (q : Knows L w) :
    Knows L ⟨hs, w.providers ++ l⟩ := by
  intro x hx
  have := (List.getElem?_eq_some_iff.mp (q x hx)).1
  show (w.providers ++ l)[x.1]? = _
  rw [List.getElem?_append_left this, q x hx]

private theorem modify_last (l : List Handle) (x : Handle) (g : Handle → Handle) : (l ++ [x]).modify l.length g = l ++ [g x] := by
  apply List.ext_getElem?
  intro i
  rw [List.getElem?_modify]
  rcases Nat.lt_trichotomy i l.length with h | h | h
  · rw [List.getElem?_append_left h, List.getElem?_append_left h]
    have : ¬ l.length = i := by omega
    simp [this]
  · subst h
    simp
  · rw [List.getElem?_eq_none (by simp; omega), List.getElem?_eq_none (by simp; omega)]
    rfl

/-- What opening a path leaves behind. -/
private def After (f : Nat) (w w' : World) : Prop :=
  w'.handles = w.handles ++ [⟨f, .temp w.providers.length, false⟩] ∧
    ∃ l : List Provider, w'.providers = w.providers ++ ⟨f, none, true⟩ :: l ∧ ∀ p ∈ l, p = ⟨f, some w.handles.length, false⟩

private theorem opened_path_eq {α : Type} (f : Nat) (body : Nat → Prog α) (w : World) :
    opened (.path f) body w =
      (((body w.handles.length ⟨w.handles ++ [⟨f, .temp w.providers.length, true⟩], w.providers ++ [⟨f, none, true⟩]⟩).1.close
        w.handles.length),
        (body w.handles.length ⟨w.handles ++ [⟨f, .temp w.providers.length, true⟩], w.providers ++ [⟨f, none, true⟩]⟩).2) := by
  unfold opened provide
  rw [bind_def]
  unfold Prog.andThen new World.mkProvider withOpen
  simp [World.truthy, World.openNew]

private theorem opened_path {α : Type} {f : Nat} {L : List (Nat × Provider)} {body : Nat → Prog α} {c : Nat → Prop} {w : World}
    (s : ∀ h, At f h L (body h) (c h)) (q : Knows L w) :
    After f w (opened (.path f) body w).1 ∧ ((∃ a, (opened (.path f) body w).2 = .ok a) ↔ c w.handles.length) := by
  rw [opened_path_eq]
  obtain ⟨⟨s1, l, s2, s3⟩, t⟩ := s w.handles.length
    ⟨w.handles ++ [⟨f, .temp w.providers.length, true⟩], w.providers ++ [⟨f, none, true⟩]⟩ ⟨⟨f, .temp w.providers.length, true⟩, by simp, rfl, rfl⟩ (knows_append q)
  refine ⟨⟨?_, l, ?_, s3⟩, t⟩
  · show List.modify _ _ _ = _
    rw [s1]
    exact modify_last _ _ _
  · refine Eq.trans s2 ?_
    simp

private theorem opened_handle_eq {α : Type} {f h : Nat} (body : Nat → Prog α) {w : World} (o : IsOpen w h f) :
    opened (.handle h) body w = body h ⟨w.handles, w.providers ++ [⟨f, some h, false⟩]⟩ := by
  unfold opened provide
  rw [bind_def]
  dsimp only
  rw [bind_def]
  unfold Prog.andThen
  rw [name_eq o]
  dsimp only
  rw [new_eq o]
  dsimp only
  unfold withOpen
  have : (w.providers ++ [(⟨f, some h, false⟩ : Provider)])[w.providers.length]? = some ⟨f, some h, false⟩ := by simp
  rw [this]
  dsimp only
  have o' : IsOpen ⟨w.handles, w.providers ++ [⟨f, some h, false⟩]⟩ h f := o
  rw [if_pos (truthy_of o')]
  rfl

private theorem opened_handle {α : Type} {f h : Nat} {L : List (Nat × Provider)} {body : Nat → Prog α} {c : Prop} {w : World}
    (o : IsOpen w h f) (s : At f h L (body h) c) (q : Knows L w) :
    Same f h w (opened (.handle h) body w).1 ∧ ((∃ a, (opened (.handle h) body w).2 = .ok a) ↔ c) := by
  rw [opened_handle_eq body o]
  have o' : IsOpen ⟨w.handles, w.providers ++ [⟨f, some h, false⟩]⟩ h f := o
  have s0 : Same f h w ⟨w.handles, w.providers ++ [⟨f, some h, false⟩]⟩ := ⟨rfl, [⟨f, some h, false⟩], rfl, by simp⟩
  obtain ⟨s1, s2⟩ := s _ o' (s0.knows q)
  exact ⟨s0.trans s1, s2⟩

private theorem opened_closed {α : Type} {h : Nat} (body : Nat → Prog α) {w : World} (o : ∀ f, ¬ IsOpen w h f) :
    opened (.handle h) body w = (w, .error .value) := by
  have e : fileName h w = (w, .error .value) := by
    unfold fileName
    cases hx : w.handles[h]? with
    | none => rfl
    | some x =>
      dsimp only
      rw [if_neg fun y => o x.file ⟨x, hx, y, rfl⟩]
  unfold opened provide
  rw [bind_def]
  dsimp only
  rw [bind_def]
  unfold Prog.andThen
  rw [e]

private theorem at_load (d : Disk) (f h : Nat) : At f h [] ((fun n => fileName n >>= fun f => dataset d f none (some n)) h) (Loads d f) :=
  at_name (at_dataset d f h)

private theorem at_load_mask (d : Disk) (f h m : Nat) (q : Provider) :
    At f h [(m, q)] ((fun n => fileName n >>= fun f => dataset d f (some m) (some n)) h)
      ((q.handle = some h ∨ q.file = f) ∧ ∀ k < (d.groups f).length, d.bad f (.fields k) = none) :=
  at_name (at_dataset_mask d f h m q)

private theorem at_mask (d : Disk) (f h : Nat) :
    At f h [] ((fun n => fileName n >>= fun f => units d f (some n) >>= fun _ => discriminate d f (some n) >>= fun _ =>
      maskObject d f (some n)) h) (Masks d f) :=
  (at_name ((at_units d f h).bind fun _ => (at_discriminate d f h).bind fun _ => at_maskObject d f h)).congr (by
    unfold Masks
    constructor
    · rintro ⟨a, ⟨b, c, e⟩, g⟩
      exact ⟨a, b, c, e, g⟩
    · rintro ⟨a, b, c, e, g⟩
      exact ⟨a, ⟨b, c, e⟩, g⟩)

private theorem knows_nil (w : World) : Knows [] w := fun _ h => absurd h (by simp)

private theorem knows_one {w : World} {m : Nat} {q : Provider} (h : w.providers[m]? = some q) : Knows [(m, q)] w := by
  intro x hx
  rw [List.mem_singleton.mp hx]
  exact h

/-- Whatever a file holds and whatever raises: opening a path opens one handle and closes it. -/
theorem c94_path (d : Disk) (f : Nat) (m : Option Nat) (w : World) (hm : ∀ i ∈ m, i < w.providers.length) :
    (load d (.path f) m w).1.handles = w.handles ++ [⟨f, .temp w.providers.length, false⟩] ∧
      (makeMask d (.path f) w).1.handles = w.handles ++ [⟨f, .temp w.providers.length, false⟩] ∧
      (validateFile d (.path f) w).1.handles = w.handles ++ [⟨f, .temp w.providers.length, false⟩] := by
  refine ⟨?_, (opened_path (at_mask d f) (knows_nil w)).1.1, (opened_path (fun _ => at_look .code) (knows_nil w)).1.1⟩
  cases m with
  | none => exact (opened_path (at_load d f) (knows_nil w)).1.1
  | some i =>
    have hi := hm i rfl
    have := List.getElem?_eq_getElem hi
    exact (opened_path (fun h => at_load_mask d f h i w.providers[i]) (knows_one this)).1.1

/-- A handle that the user gives is left as it is, and nothing else is opened. -/
theorem c94_handle (d : Disk) (h f : Nat) (m : Option Nat) (w : World) (hm : ∀ i ∈ m, i < w.providers.length) (o : IsOpen w h f) :
    (load d (.handle h) m w).1.handles = w.handles ∧ (makeMask d (.handle h) w).1.handles = w.handles ∧
      (validateFile d (.handle h) w).1.handles = w.handles := by
  refine ⟨?_, (opened_handle o (at_mask d f h) (knows_nil w)).1.1, (opened_handle o (at_look .code) (knows_nil w)).1.1⟩
  cases m with
  | none => exact (opened_handle o (at_load d f h) (knows_nil w)).1.1
  | some i =>
    have hi := hm i rfl
    have := List.getElem?_eq_getElem hi
    exact (opened_handle o (at_load_mask d f h i w.providers[i]) (knows_one this)).1.1

/-- A closed handle is a ValueError, and nothing is opened. -/
theorem c94_closed (d : Disk) (h : Nat) (m : Option Nat) (w : World) (o : ∀ f, ¬ IsOpen w h f) :
    load d (.handle h) m w = (w, .error .value) ∧ makeMask d (.handle h) w = (w, .error .value) ∧
      validateFile d (.handle h) w = (w, .error .value) :=
  ⟨opened_closed _ o, opened_closed _ o, opened_closed _ o⟩

/-- A path and an open handle of the same file return in the same cases. -/
theorem c94_loads (d : Disk) (h f : Nat) (w : World) (o : IsOpen w h f) :
    ((∃ i, (load d (.path f) none w).2 = .ok i) ↔ Loads d f) ∧ ((∃ i, (load d (.handle h) none w).2 = .ok i) ↔ Loads d f) ∧
      ((∃ i, (makeMask d (.path f) w).2 = .ok i) ↔ Masks d f) ∧ ((∃ i, (makeMask d (.handle h) w).2 = .ok i) ↔ Masks d f) ∧
      ((∃ i, (validateFile d (.path f) w).2 = .ok i) ↔ d.bad f .code = none) ∧
      ((∃ i, (validateFile d (.handle h) w).2 = .ok i) ↔ d.bad f .code = none) :=
  ⟨(opened_path (at_load d f) (knows_nil w)).2, (opened_handle o (at_load d f h) (knows_nil w)).2,
    (opened_path (at_mask d f) (knows_nil w)).2, (opened_handle o (at_mask d f h) (knows_nil w)).2,
    (opened_path (fun _ => at_look .code) (knows_nil w)).2, (opened_handle o (at_look .code) (knows_nil w)).2⟩

/-- With a mask the file must be the one of the mask; its units and metadata are not read again. -/
theorem c94_masked (d : Disk) (f m g n : Nat) (w : World) (b : Borrows w m n g) (hn : n < w.handles.length) :
    ((∃ i, (load d (.path f) (some m) w).2 = .ok i) ↔ g = f ∧ ∀ k < (d.groups f).length, d.bad f (.fields k) = none) ∧
      ∀ h, IsOpen w h f → ((∃ i, (load d (.handle h) (some m) w).2 = .ok i) ↔
        (n = h ∨ g = f) ∧ ∀ k < (d.groups f).length, d.bad f (.fields k) = none) := by
  constructor
  · rw [load, opened_path_eq]
    obtain ⟨_, t⟩ := at_load_mask d f w.handles.length m ⟨g, some n, false⟩
      ⟨w.handles ++ [⟨f, .temp w.providers.length, true⟩], w.providers ++ [⟨f, none, true⟩]⟩ ⟨⟨f, .temp w.providers.length, true⟩, by simp, rfl, rfl⟩
      (knows_append (knows_one b))
    refine t.trans ?_
    have : n ≠ w.handles.length := by omega
    simp [this]
  · intro h o
    have := (opened_handle (body := fun n => fileName n >>= fun f => dataset d f (some m) (some n)) o
      (at_load_mask d f h m ⟨g, some n, false⟩) (knows_one b)).2
    exact this.trans (by simp)

/-! ## The object returned -/

private def Returns {α : Type} (a : α) (p : Prog α) : Prop := ∀ w w' b, p w = (w', .ok b) → b = a

private theorem Returns.ret {α : Type} (a : α) : Returns a (Prog.ret a) := by
  intro w w' b e
  cases e
  rfl

private theorem Returns.bind {α β : Type} {a : β} {p : Prog α} {k : α → Prog β} (s : ∀ x, Returns a (k x)) : Returns a (p >>= k) := by
  intro w w' b e
  rw [bind_def] at e
  unfold Prog.andThen at e
  rcases hp : p w with ⟨v, r⟩
  rw [hp] at e
  cases r with
  | ok x => exact s x v w' b e
  | error x => cases e

/-- The rest of `SWIFTDataset.__init__`. -/
private def rest (d : Disk) (m : Option Nat) (i : Nat) : Prog Nat :=
  getUnits d i m >>= fun _ => getMetadata d i m >>= fun _ => createDatasets d i >>= fun _ => closeManaged i >>= fun _ => Prog.ret i

private theorem dataset_eq (d : Disk) (f : Nat) (m h : Option Nat) : dataset d f m h = (new f h >>= rest d m) := rfl

private theorem rest_returns (d : Disk) (m : Option Nat) (i : Nat) : Returns i (rest d m i) :=
  .bind fun _ => .bind fun _ => .bind fun _ => .bind fun _ => .ret i

private theorem at_rest (d : Disk) (f h i : Nat) : At f h [(i, ⟨f, some h, false⟩)] (rest d none i) (Loads d f) :=
  ((at_getUnits d f h i false (.head _)).bind fun _ => (at_getMetadata d f h i false (.head _)).bind fun _ =>
    (at_create d f h i false (.head _)).bind fun _ => (at_close (.head _)).bind fun _ => at_ret i).congr (by
      unfold Loads
      constructor
      · rintro ⟨a, ⟨b, c, e⟩, g, -⟩
        exact ⟨a, b, c, fun k hk => ⟨e k hk, g k hk⟩⟩
      · rintro ⟨a, b, c, e⟩
        exact ⟨a, ⟨b, c, fun k hk => (e k hk).1⟩, fun k hk => (e k hk).2, trivial, trivial⟩)

private theorem dataset_object {d : Disk} {f h i : Nat} {w w' : World} (o : IsOpen w h f)
    (e : dataset d f none (some h) w = (w', .ok i)) : i = w.providers.length ∧ Borrows w' i h f ∧ Loads d f := by
  have e' : rest d none w.providers.length ⟨w.handles, w.providers ++ [⟨f, some h, false⟩]⟩ = (w', .ok i) := by
    rw [dataset_eq, bind_def] at e
    unfold Prog.andThen at e
    rw [new_eq o] at e
    exact e
  have hi := rest_returns d none _ _ _ _ e'
  subst hi
  have o' : IsOpen ⟨w.handles, w.providers ++ [⟨f, some h, false⟩]⟩ h f := o
  have q : Knows [(w.providers.length, ⟨f, some h, false⟩)] ⟨w.handles, w.providers ++ [⟨f, some h, false⟩]⟩ := knows_one (by simp)
  obtain ⟨s, t⟩ := at_rest d f h w.providers.length _ o' q
  rw [e'] at s t
  exact ⟨rfl, s.knows q _ (.head _), t.mp ⟨_, rfl⟩⟩

private theorem load_path_object {d : Disk} {f i : Nat} {w w' : World} (e : load d (.path f) none w = (w', .ok i)) :
    i = w.providers.length + 1 ∧ Borrows w' i w.handles.length f ∧ Loads d f := by
  rw [load, opened_path_eq] at e
  have o : IsOpen ⟨w.handles ++ [⟨f, .temp w.providers.length, true⟩], w.providers ++ [⟨f, none, true⟩]⟩ w.handles.length f :=
    ⟨⟨f, .temp w.providers.length, true⟩, by simp, rfl, rfl⟩
  rw [bind_def] at e
  unfold Prog.andThen at e
  rw [name_eq o] at e
  dsimp only at e
  rcases hd : dataset d f none (some w.handles.length)
    ⟨w.handles ++ [⟨f, .temp w.providers.length, true⟩], w.providers ++ [⟨f, none, true⟩]⟩ with ⟨v, r⟩
  rw [hd] at e
  dsimp only at e
  have e1 : v.close w.handles.length = w' := congrArg Prod.fst e
  have e2 : r = .ok i := congrArg Prod.snd e
  subst e2
  obtain ⟨a, b, c⟩ := dataset_object o hd
  refine ⟨by rw [a]; simp, ?_, c⟩
  rw [← e1]
  exact b

private theorem load_handle_object {d : Disk} {f h i : Nat} {w w' : World} (o : IsOpen w h f)
    (e : load d (.handle h) none w = (w', .ok i)) : i = w.providers.length + 1 ∧ Borrows w' i h f ∧ Loads d f := by
  rw [load, opened_handle_eq _ o] at e
  have o' : IsOpen ⟨w.handles, w.providers ++ [⟨f, some h, false⟩]⟩ h f := o
  rw [bind_def] at e
  unfold Prog.andThen at e
  rw [name_eq o'] at e
  obtain ⟨a, b, c⟩ := dataset_object o' e
  exact ⟨by rw [a]; simp, b, c⟩

/-- The dataset that `load` returns and all objects below it read through the same handle: the one that is closed by now for a
path, the user's otherwise. -/
theorem c94_objects (d : Disk) (f i : Nat) (w w' : World) :
    (load d (.path f) none w = (w', .ok i) → Borrows w' i w.handles.length f ∧ (∀ g, ¬ IsOpen w' w.handles.length g) ∧
      ∀ j, w.providers.length < j → j < w'.providers.length → Borrows w' j w.handles.length f) ∧
      ∀ h, IsOpen w h f → load d (.handle h) none w = (w', .ok i) → Borrows w' i h f ∧ IsOpen w' h f ∧
        ∀ j, w.providers.length ≤ j → j < w'.providers.length → Borrows w' j h f := by
  constructor
  · intro e
    have := (opened_path (at_load d f) (knows_nil w)).1
    rw [show opened (.path f) (fun n => fileName n >>= fun f => dataset d f none (some n)) w = (w', .ok i) from e] at this
    obtain ⟨s1, l, s2, s3⟩ := this
    dsimp only at s1 s2
    refine ⟨(load_path_object e).2.1, ?_, fun j h1 h2 => ?_⟩
    · rintro g ⟨x, a, b, -⟩
      rw [s1] at a
      simp at a
      rw [← a] at b
      cases b
    · unfold Borrows
      rw [s2] at h2 ⊢
      obtain ⟨k, rfl⟩ : ∃ k, j = w.providers.length + (k + 1) := ⟨j - w.providers.length - 1, by omega⟩
      have hk : k < l.length := by simp at h2; omega
      rw [List.getElem?_append_right (by omega), Nat.add_sub_cancel_left, List.getElem?_cons_succ, List.getElem?_eq_getElem hk,
        s3 _ (List.getElem_mem hk)]
  · intro h o e
    have := (opened_handle (body := fun n => fileName n >>= fun f => dataset d f none (some n)) o (at_load d f h) (knows_nil w)).1
    rw [show opened (.handle h) (fun n => fileName n >>= fun f => dataset d f none (some n)) w = (w', .ok i) from e] at this
    refine ⟨(load_handle_object o e).2.1, this.isOpen o, ?_⟩
    obtain ⟨_, l, s2, s3⟩ := this
    intro j h1 h2
    dsimp only at s2
    unfold Borrows
    rw [s2] at h2 ⊢
    have hk : j - w.providers.length < l.length := by simp at h2; omega
    rw [List.getElem?_append_right h1, List.getElem?_eq_getElem hk, s3 _ (List.getElem_mem hk)]

/-! ## Reading later, reloading -/

private theorem getHandle_closed {w : World} {i h f : Nat} (o : ∀ g, ¬ IsOpen w h g) :
    w.getHandle i ⟨f, some h, false⟩ = (w, some .runtime) := by
  have : w.truthy (some h) = false := by
    unfold World.truthy
    dsimp only
    cases hx : w.handles[h]? with
    | none => rfl
    | some x =>
      dsimp only
      cases hb : x.isOpen with
      | false => rfl
      | true => exact absurd ⟨x, hx, hb, rfl⟩ (o x.file)
  unfold World.getHandle
  rw [this]
  rfl

private theorem use_closed {w : World} {i h f : Nat} (b : Borrows w i h f) (o : ∀ g, ¬ IsOpen w h g) :
    useHandle i w = (w, .error .runtime) := by
  unfold useHandle
  rw [b]
  dsimp only
  rw [getHandle_closed o]

private theorem use_bind_closed {β : Type} {w : World} {i h f : Nat} (b : Borrows w i h f) (o : ∀ g, ¬ IsOpen w h g) (k : Nat → Prog β) :
    (useHandle i >>= k) w = (w, .error .runtime) := by
  rw [bind_def]
  unfold Prog.andThen
  rw [use_closed b o]

private theorem own_bind {β : Type} {w : World} {i : Nat} {p : Provider} (b : w.providers[i]? = some p) (k : Nat → Prog β) :
    (ownFile i >>= k) w = k p.file w := by
  rw [bind_def]
  unfold Prog.andThen ownFile
  rw [b]

private theorem create_closed {d : Disk} {w : World} {i h f : Nat} (b : Borrows w i h f) (o : ∀ g, ¬ IsOpen w h g) :
    createDatasets d i w = (w, if d.groups f = [] then .ok () else .error .runtime) := by
  unfold createDatasets
  rw [own_bind b]
  dsimp only
  cases hg : d.groups f with
  | nil => rfl
  | cons c l =>
    rw [if_neg (by simp), List.zipIdx_cons]
    unfold each Prog.andThen
    rw [use_bind_closed b o]

/-- `get_units` and `get_metadata` say that they can be called again; after `load(path)` they and `handle` raise RuntimeError. -/
theorem c94_reload_fails (d : Disk) (f i : Nat) (w w' : World) (e : load d (.path f) none w = (w', .ok i)) :
    useHandle i w' = (w', .error .runtime) ∧ getUnits d i none w' = (w', .error .runtime) ∧
      getMetadata d i none w' = (w', .error .runtime) ∧ (d.groups f ≠ [] → createDatasets d i w' = (w', .error .runtime)) := by
  obtain ⟨b, o, -⟩ := (c94_objects d f i w w').1 e
  refine ⟨use_closed b o, use_bind_closed b o _, use_bind_closed b o _, fun hg => ?_⟩
  rw [create_closed b o, if_neg hg]

/-- After `load(handle)` they can. -/
theorem c94_reload (d : Disk) (h f i : Nat) (w w' : World) (o : IsOpen w h f) (e : load d (.handle h) none w = (w', .ok i)) :
    useHandle i w' = (w', .ok h) ∧ (getUnits d i none w').2 = .ok () ∧ (getMetadata d i none w').2 = .ok () ∧
      (createDatasets d i w').2 = .ok () := by
  obtain ⟨b, o', -⟩ := ((c94_objects d f i w w').2 h o e)
  obtain ⟨-, -, l1, l2, l3, l4⟩ := load_handle_object o e
  have q := knows_one b
  refine ⟨use_eq o' b, ?_, ?_, ?_⟩
  · obtain ⟨a, x⟩ := (at_getUnits d f h i false (.head _) w' o' q).2.mpr l1
    exact x
  · obtain ⟨a, x⟩ := (at_getMetadata d f h i false (.head _) w' o' q).2.mpr ⟨l2, l3, fun k hk => (l4 k hk).1⟩
    exact x
  · obtain ⟨a, x⟩ := (at_create d f h i false (.head _) w' o' q).2.mpr fun k hk => (l4 k hk).2
    exact x

/-- What reading gives. -/
private def outcome (d : Disk) (f k : Nat) : Except Err Unit :=
  match d.bad f (.data k) with
  | none => .ok ()
  | some e => .error e

private theorem look_open {d : Disk} {w : World} {h f k : Nat} (o : IsOpen w h f) : look d h (.data k) w = (w, outcome d f k) := by
  obtain ⟨x, a, b, rfl⟩ := o
  unfold look outcome
  rw [a]
  dsimp only
  rw [if_pos b]
  cases d.bad x.file (.data k) <;> rfl

private theorem read_open {d : Disk} {w : World} {i h f k : Nat} (b : Borrows w i h f) (o : IsOpen w h f) :
    withOpen i (fun n => look d n (.data k)) w = (w, outcome d f k) := by
  unfold withOpen
  rw [b]
  dsimp only
  rw [if_pos (truthy_of o)]
  exact look_open o

private theorem read_closed {d : Disk} {w : World} {i h f k : Nat} (b : Borrows w i h f) (o : ∀ g, ¬ IsOpen w h g) :
    withOpen i (fun n => look d n (.data k)) w = (⟨w.handles ++ [⟨f, .temp i, false⟩], w.providers⟩, outcome d f k) := by
  have : w.truthy (some h) = false := by
    unfold World.truthy
    dsimp only
    cases hx : w.handles[h]? with
    | none => rfl
    | some x =>
      dsimp only
      cases hb : x.isOpen with
      | false => rfl
      | true => exact absurd ⟨x, hx, hb, rfl⟩ (o x.file)
  unfold withOpen
  rw [b]
  dsimp only
  rw [this, if_neg (by simp)]
  have o' : IsOpen (w.openNew f (.temp i)).1 w.handles.length f := ⟨⟨f, .temp i, true⟩, by simp [World.openNew], rfl, rfl⟩
  rw [look_open o']
  refine Prod.ext ?_ rfl
  show World.close _ _ = _
  unfold World.close World.openNew
  dsimp only
  rw [modify_last]

/-! ## Any sequence of commands -/

/-- Only handles of the user are open; every object that a user can hold borrows a handle of its own file. -/
private def Tidy (w : World) : Prop :=
  (∀ x ∈ w.handles, x.isOpen = true → x.owner = .user) ∧
    ∀ p ∈ w.providers, p = ⟨p.file, none, true⟩ ∨ ∃ (h : Nat) (x : Handle), p = ⟨p.file, some h, false⟩ ∧ w.handles[h]? = some x ∧ x.file = p.file

private theorem Tidy.same {f h : Nat} {w w' : World} (t : Tidy w) (o : IsOpen w h f) (s : Same f h w w') : Tidy w' := by
  obtain ⟨s1, l, s2, s3⟩ := s
  obtain ⟨x, a, b, c⟩ := o
  refine ⟨by rw [s1]; exact t.1, fun p hp => ?_⟩
  rw [s2] at hp
  rw [s1]
  rcases List.mem_append.mp hp with hp | hp
  · exact t.2 p hp
  · have := s3 p hp
    subst this
    exact .inr ⟨h, x, rfl, a, c⟩

private theorem Tidy.append {w : World} {y : Handle} {l : List Provider} (t : Tidy w) (hy : y.isOpen = true → y.owner = .user)
    (hl : ∀ p ∈ l, p = ⟨y.file, none, true⟩ ∨ p = ⟨y.file, some w.handles.length, false⟩) : Tidy ⟨w.handles ++ [y], w.providers ++ l⟩ := by
  refine ⟨fun x hx => ?_, fun p hp => ?_⟩
  · rcases List.mem_append.mp hx with hx | hx
    · exact t.1 x hx
    · rw [List.mem_singleton.mp hx]
      exact hy
  · rcases List.mem_append.mp hp with hp | hp
    · rcases t.2 p hp with e | ⟨h, x, e, a, c⟩
      · exact .inl e
      · refine .inr ⟨h, x, e, ?_, c⟩
        have := (List.getElem?_eq_some_iff.mp a).1
        show (w.handles ++ [y])[h]? = _
        rw [List.getElem?_append_left this, a]
    · rcases hl p hp with e | e
      · subst e
        exact .inl rfl
      · subst e
        exact .inr ⟨w.handles.length, y, rfl, by simp, rfl⟩

private theorem Tidy.after {f : Nat} {w w' : World} (t : Tidy w) (s : After f w w') : Tidy w' := by
  obtain ⟨s1, l, s2, s3⟩ := s
  have := t.append (y := ⟨f, .temp w.providers.length, false⟩) (l := ⟨f, none, true⟩ :: l) (by simp) (by
    intro p hp
    rcases List.mem_cons.mp hp with rfl | hp
    · exact .inl rfl
    · exact .inr (s3 p hp))
  rw [← s1, ← s2] at this
  exact this

private theorem Tidy.close {w : World} (t : Tidy w) (h : Nat) : Tidy (w.close h) := by
  refine ⟨fun x hx ho => ?_, fun p hp => ?_⟩
  · obtain ⟨j, hj⟩ := List.mem_iff_getElem?.mp hx
    change (w.handles.modify h _)[j]? = _ at hj
    rw [List.getElem?_modify] at hj
    cases hy : w.handles[j]? with
    | none => rw [hy] at hj; cases hj
    | some y =>
      rw [hy] at hj
      by_cases e : h = j
      · simp [e] at hj
        rw [← hj] at ho
        cases ho
      · simp [e] at hj
        subst hj
        exact t.1 y (List.mem_of_getElem? hy) ho
  · rcases t.2 p hp with e | ⟨k, x, e, a, c⟩
    · exact .inl e
    · refine .inr ⟨k, if h = k then { x with isOpen := false } else x, e, ?_, ?_⟩
      · show (w.handles.modify h _)[k]? = _
        rw [List.getElem?_modify, a]
        rfl
      · split
        · exact c
        · exact c

/-- What one command does: nothing to the handles there are. -/
private def Grows (w w' : World) : Prop := Tidy w' ∧ ∃ e, w'.handles = w.handles ++ e

private theorem Grows.refl {w : World} (t : Tidy w) : Grows w w := ⟨t, [], by simp⟩

private theorem Grows.same {f h : Nat} {w w' : World} (t : Tidy w) (o : IsOpen w h f) (s : Same f h w w') : Grows w w' :=
  ⟨t.same o s, [], by simpa using s.1⟩

private theorem Grows.after {f : Nat} {w w' : World} (t : Tidy w) (s : After f w w') : Grows w w' := ⟨t.after s, _, s.1⟩

private theorem grows_opened {α : Type} {L : List (Nat × Provider)} {body : Nat → Prog α} {c : Nat → Nat → Prop} {w : World} (t : Tidy w)
    (s : ∀ f h, At f h L (body h) (c f h)) (q : Knows L w) (x : Source) : Grows w (opened x body w).1 := by
  cases x with
  | path f => exact .after t (opened_path (s f) q).1
  | handle h =>
    by_cases o : ∃ f, IsOpen w h f
    · obtain ⟨f, o⟩ := o
      exact .same t o (opened_handle o (s f h) q).1
    · rw [opened_closed body fun f hf => o ⟨f, hf⟩]
      exact .refl t

private theorem held_borrows {w : World} {i : Nat} (t : Tidy w) (a : held i w = true) :
    ∃ (f h : Nat) (x : Handle), Borrows w i h f ∧ w.handles[h]? = some x ∧ x.file = f := by
  unfold held at a
  cases hp : w.providers[i]? with
  | none => rw [hp] at a; cases a
  | some p =>
    rw [hp] at a
    dsimp only at a
    rcases t.2 p (List.mem_of_getElem? hp) with e | ⟨h, x, e, b, c⟩
    · rw [e] at a
      cases a
    · exact ⟨p.file, h, x, by unfold Borrows; rw [hp, ← e], b, c⟩

private theorem open_or {w : World} {i h f : Nat} {x : Handle} (_ : Borrows w i h f) (a : w.handles[h]? = some x) (c : x.file = f) :
    IsOpen w h f ∨ ∀ g, ¬ IsOpen w h g := by
  cases hx : x.isOpen with
  | true => exact .inl ⟨x, a, hx, c⟩
  | false =>
    refine .inr fun g ⟨y, p, q, _⟩ => ?_
    rw [a] at p
    cases p
    rw [hx] at q
    cases q

private theorem grows_method {α : Type} {p : Prog α} {w : World} {i : Nat} (t : Tidy w)
    (s : ∀ f h, Borrows w i h f → IsOpen w h f → Grows w (p w).1)
    (s' : ∀ f h, Borrows w i h f → (∀ g, ¬ IsOpen w h g) → Grows w (p w).1) : Grows w (method i p w).1 := by
  unfold method
  by_cases a : held i w = true
  · rw [if_pos a]
    obtain ⟨f, h, x, b, c, e⟩ := held_borrows t a
    rcases open_or b c e with o | o
    · exact s f h b o
    · exact s' f h b o
  · rw [if_neg a]
    exact .refl t

private theorem same_world (i m : Nat) (w : World) : (sameFile i m w).1 = w := by
  unfold sameFile
  split
  · split <;> rfl
  · rfl

private theorem grows_step {d : Disk} {w : World} (t : Tidy w) (c : Cmd) (hc : ∀ h, c ≠ .close h) : Grows w (Opening.step d w c) := by
  cases c with
  | open_ f =>
    have := t.append (y := ⟨f, .user, true⟩) (l := []) (by simp) (by simp)
    rw [List.append_nil] at this
    exact ⟨this, _, rfl⟩
  | close h => exact absurd rfl (hc h)
  | validate s => exact grows_opened (c := fun f _ => d.bad f .code = none) t (fun _ _ => at_look .code) (knows_nil w) s
  | mask s => exact grows_opened (c := fun f _ => Masks d f) t (fun f h => at_mask d f h) (knows_nil w) s
  | load s m =>
    show Grows w (if m.all (held · w) then (load d s m w).1 else w)
    by_cases a : m.all (held · w) = true
    · rw [if_pos a]
      cases m with
      | none => exact grows_opened (c := fun f _ => Loads d f) t (fun f h => at_load d f h) (knows_nil w) s
      | some i =>
        obtain ⟨g, n, x, b, -, -⟩ := held_borrows t (show held i w = true from a)
        exact grows_opened (c := fun f h => (some n = some h ∨ g = f) ∧ ∀ k < (d.groups f).length, d.bad f (.fields k) = none) t
          (fun f h => at_load_mask d f h i ⟨g, some n, false⟩) (knows_one b) s
    · rw [if_neg a]
      exact .refl t
  | read i k =>
    refine grows_method t (fun f h b o => ?_) fun f h b o => ?_
    · rw [read_open b o]
      exact .refl t
    · rw [read_closed b o]
      exact ⟨by simpa using t.append (y := ⟨f, .temp i, false⟩) (l := []) (by simp) (by simp), _, rfl⟩
  | «attribute» i =>
    refine grows_method t (fun f h b o => ?_) fun f h b o => ?_
    · rw [use_eq o b]
      exact .refl t
    · rw [use_closed b o]
      exact .refl t
  | getUnits i m =>
    refine grows_method t (fun f h b o => ?_) fun f h b o => ?_
    · cases m with
      | none => exact .same t o (at_getUnits d f h i false (.head _) w o (knows_one b)).1
      | some m =>
        rw [show (getUnits d i (some m) w).1 = w from same_world i m w]
        exact .refl t
    · cases m with
      | none =>
        rw [show getUnits d i none w = (w, .error .runtime) from use_bind_closed b o _]
        exact .refl t
      | some m =>
        rw [show (getUnits d i (some m) w).1 = w from same_world i m w]
        exact .refl t
  | getMetadata i m =>
    refine grows_method t (fun f h b o => ?_) fun f h b o => ?_
    · cases m with
      | none => exact .same t o (at_getMetadata d f h i false (.head _) w o (knows_one b)).1
      | some m =>
        rw [show (getMetadata d i (some m) w).1 = w from same_world i m w]
        exact .refl t
    · cases m with
      | none =>
        rw [show getMetadata d i none w = (w, .error .runtime) from use_bind_closed b o _]
        exact .refl t
      | some m =>
        rw [show (getMetadata d i (some m) w).1 = w from same_world i m w]
        exact .refl t
  | createDatasets i =>
    refine grows_method t (fun f h b o => ?_) fun f h b o => ?_
    · exact .same t o (at_create d f h i false (.head _) w o (knows_one b)).1
    · rw [create_closed b o]
      exact .refl t
  | closeManaged i =>
    have e : ∀ f h, Borrows w i h f → closeManaged i w = (w, .ok ()) := by
      intro f h b
      unfold closeManaged
      rw [b]
      rfl
    refine grows_method t (fun f h b _ => ?_) fun f h b _ => ?_
    · rw [e f h b]
      exact .refl t
    · rw [e f h b]
      exact .refl t

private theorem tidy_step {d : Disk} {w : World} (t : Tidy w) (c : Cmd) : Tidy (Opening.step d w c) := by
  by_cases hc : ∀ h, c ≠ .close h
  · exact (grows_step t c hc).1
  · cases c with
    | close h => exact t.close h
    | _ => exact absurd (fun _ e => by cases e) hc

private theorem tidy_run (d : Disk) (l : List Cmd) : ∀ w, Tidy w → Tidy (Opening.run d w l) := by
  induction l with
  | nil => exact fun w t => t
  | cons c l ih => exact fun w t => ih _ (tidy_step t c)

private theorem tidy_start : Tidy Handles.start := ⟨fun _ h => absurd h (by simp [Handles.start]), fun _ h => absurd h (by simp [Handles.start])⟩

/-- Whatever is called and whatever raises, only the user leaves files open. -/
theorem c94_history (d : Disk) (l : List Cmd) : ∀ x ∈ (Opening.run d Handles.start l).handles, x.isOpen = true → x.owner = .user :=
  (tidy_run d l _ tidy_start).1

/-- What the user opened stays open until the user closes it, and what was closed stays closed. -/
theorem c94_user (d : Disk) (l l' : List Cmd) (h : Nat) (hh : h < (Opening.run d Handles.start l).handles.length) (hc : .close h ∉ l') :
    (Opening.run d (Opening.run d Handles.start l) l').handles[h]? = (Opening.run d Handles.start l).handles[h]? := by
  have t := tidy_run d l _ tidy_start
  generalize Opening.run d Handles.start l = w at hh t
  induction l' generalizing w with
  | nil => rfl
  | cons c l' ih =>
    have key : (Opening.step d w c).handles[h]? = w.handles[h]? := by
      by_cases a : ∀ k, c ≠ .close k
      · obtain ⟨e, he⟩ := (grows_step (d := d) t c a).2
        rw [he, List.getElem?_append_left hh]
      · cases c with
        | close k =>
          have : k ≠ h := fun e => hc (by rw [e]; exact .head _)
          show (w.handles.modify k _)[h]? = _
          rw [List.getElem?_modify]
          simp [this]
        | _ => exact absurd (fun _ e => by cases e) a
    have := ih (fun m => hc (.tail _ m)) (Opening.step d w c)
      ((List.getElem?_eq_some_iff.mp (key.trans (List.getElem?_eq_getElem hh))).1) (tidy_step t c)
    exact this.trans key

/-- An object that a user holds can be read after any calls, whatever has been closed: its file is opened again. -/
theorem c94_read (d : Disk) (l : List Cmd) (i k : Nat) (p : Provider) (hp : (Opening.run d Handles.start l).providers[i]? = some p)
    (hh : held i (Opening.run d Handles.start l) = true) :
    (d.bad p.file (.data k) = none →
      (method i (withOpen i fun n => look d n (.data k)) (Opening.run d Handles.start l)).2 = .ok ()) ∧
      ∀ e, d.bad p.file (.data k) = some e →
        (method i (withOpen i fun n => look d n (.data k)) (Opening.run d Handles.start l)).2 = .error e := by
  have t := tidy_run d l _ tidy_start
  generalize Opening.run d Handles.start l = w at hp hh t
  obtain ⟨f, h, x, b, c, e⟩ := held_borrows t hh
  have : p.file = f := by
    unfold Borrows at b
    rw [hp] at b
    cases b
    rfl
  rw [this]
  have key : (method i (withOpen i fun n => look d n (.data k)) w).2 = outcome d f k := by
    unfold method
    rw [if_pos hh]
    rcases open_or b c e with o | o
    · rw [read_open b o]
    · rw [read_closed b o]
  rw [key]
  unfold outcome
  exact ⟨fun h => by rw [h], fun e h => by rw [h]⟩

/-! ## Classes used directly -/

private theorem use_first {i f n : Nat} {m : Bool} {w w' : World} {β : Type} (k : Nat → Prog β) (e : useHandle i w = (w', .ok n))
    (o : IsOpen w' n f) (q : w'.providers[i]? = some ⟨f, some n, m⟩) : (useHandle i >>= k) w = (useHandle i >>= k) w' := by
  rw [bind_def]
  unfold Prog.andThen
  rw [e, use_eq o q]

/-- The world in which a path has been opened by an object of its own. -/
private def own (f : Nat) (w : World) : World :=
  ⟨w.handles ++ [⟨f, .provider w.providers.length, true⟩], w.providers ++ [⟨f, some w.handles.length, true⟩]⟩

private theorem own_open (f : Nat) (w : World) : IsOpen (own f w) w.handles.length f :=
  ⟨⟨f, .provider w.providers.length, true⟩, by simp [own], rfl, rfl⟩

private theorem own_object (f : Nat) (w : World) : (own f w).providers[w.providers.length]? = some ⟨f, some w.handles.length, true⟩ := by
  simp [own]

private theorem own_use (f : Nat) (w : World) :
    useHandle w.providers.length ⟨w.handles, w.providers ++ [⟨f, none, true⟩]⟩ = (own f w, .ok w.handles.length) := by
  unfold useHandle
  have : (w.providers ++ [(⟨f, none, true⟩ : Provider)])[w.providers.length]? = some ⟨f, none, true⟩ := by simp
  rw [this]
  simp [World.getHandle, World.truthy, World.openNew, own]

private theorem bind_outcome {α β : Type} {f h : Nat} {L : List (Nat × Provider)} {p : Prog α} {c : Prop} (s : At f h L p c) {w : World}
    (o : IsOpen w h f) (q : Knows L w) (k : α → Prog β) :
    (∃ w' a, Same f h w w' ∧ c ∧ (p >>= k) w = k a w') ∨ ∃ w' e, Same f h w w' ∧ ¬ c ∧ (p >>= k) w = (w', .error e) := by
  obtain ⟨s1, s2⟩ := s w o q
  rw [bind_def]
  unfold Prog.andThen
  rcases hp : p w with ⟨w', r⟩
  rw [hp] at s1 s2
  cases r with
  | ok a => exact .inl ⟨w', a, s1, s2.mp ⟨a, rfl⟩, rfl⟩
  | error e =>
    refine .inr ⟨w', e, s1, fun hc => ?_, rfl⟩
    obtain ⟨a, x⟩ := s2.mpr hc
    cases x

private theorem finish {f i : Nat} {w w' : World} (q : w'.providers[i]? = some ⟨f, some w.handles.length, true⟩) (x : Handle)
    (e : w'.handles = w.handles ++ [x]) :
    ∃ v, (closeManaged i >>= fun _ => Prog.ret i) w' = (v, .ok i) ∧ v.handles = w.handles ++ [{ x with isOpen := false }] ∧
      v.providers = w'.providers := by
  rw [bind_def]
  unfold Prog.andThen closeManaged
  rw [q]
  dsimp only [World.closeIfManager]
  refine ⟨_, rfl, ?_, rfl⟩
  show List.modify _ _ _ = _
  rw [e]
  exact modify_last _ _ _

/-- An object of its own, used first by `p` and closed afterwards: closed if nothing raises, open for good otherwise. -/
private theorem direct {α : Type} {f : Nat} {w : World} {c : Prop} (p : Prog α) (hp : ∃ k : Nat → Prog α, p = (useHandle w.providers.length >>= k))
    (s : At f w.handles.length [(w.providers.length, ⟨f, some w.handles.length, true⟩)] p c) :
    (c → ∃ v, (p >>= fun _ => closeManaged w.providers.length >>= fun _ => Prog.ret w.providers.length)
        ⟨w.handles, w.providers ++ [⟨f, none, true⟩]⟩ = (v, .ok w.providers.length) ∧
        v.handles = w.handles ++ [⟨f, .provider w.providers.length, false⟩] ∧
        v.providers[w.providers.length]? = some ⟨f, some w.handles.length, true⟩) ∧
      (¬ c → ∃ v e, (p >>= fun _ => closeManaged w.providers.length >>= fun _ => Prog.ret w.providers.length)
        ⟨w.handles, w.providers ++ [⟨f, none, true⟩]⟩ = (v, .error e) ∧
        v.handles = w.handles ++ [⟨f, .provider w.providers.length, true⟩]) := by
  obtain ⟨k, hk⟩ := hp
  have first : p ⟨w.handles, w.providers ++ [⟨f, none, true⟩]⟩ = p (own f w) := by
    rw [hk]
    exact use_first k (own_use f w) (own_open f w) (own_object f w)
  have e0 : ∀ (j : α → Prog Nat), (p >>= j) ⟨w.handles, w.providers ++ [⟨f, none, true⟩]⟩ = (p >>= j) (own f w) := by
    intro j
    rw [bind_def]
    unfold Prog.andThen
    rw [first]
  rw [e0]
  have q := knows_one (own_object f w)
  rcases bind_outcome s (own_open f w) q
    (fun _ => closeManaged w.providers.length >>= fun _ => Prog.ret w.providers.length) with ⟨w', a, s1, hc, e⟩ | ⟨w', a, s1, hc, e⟩
  · refine ⟨fun _ => ?_, fun h => absurd hc h⟩
    rw [e]
    have q' := s1.knows q _ (.head _)
    obtain ⟨v, v1, v2, v3⟩ := finish q' ⟨f, .provider w.providers.length, true⟩ s1.1
    exact ⟨v, v1, v2, by rw [v3]; exact q'⟩
  · refine ⟨fun h => absurd h hc, fun _ => ?_⟩
    exact ⟨w', a, e, s1.1⟩

private theorem new_none (f : Nat) (w : World) : new f none w = (⟨w.handles, w.providers ++ [⟨f, none, true⟩]⟩, .ok w.providers.length) := rfl

private theorem assoc {α β γ : Type} (p : Prog α) (k : α → Prog β) (j : β → Prog γ) : (p >>= fun a => k a >>= j) = (p >>= k) >>= j := by
  funext w
  show Prog.andThen p _ w = Prog.andThen (Prog.andThen p k) j w
  unfold Prog.andThen
  rcases p w with ⟨w', r⟩
  cases r <;> rfl

private theorem direct_dataset (d : Disk) (f : Nat) (w : World) :
    (Loads d f → ∃ v, dataset d f none none w = (v, .ok w.providers.length) ∧
        v.handles = w.handles ++ [⟨f, .provider w.providers.length, false⟩] ∧
        v.providers[w.providers.length]? = some ⟨f, some w.handles.length, true⟩) ∧
      (¬ Loads d f → ∃ v e, dataset d f none none w = (v, .error e) ∧
        v.handles = w.handles ++ [⟨f, .provider w.providers.length, true⟩]) := by
  have e : dataset d f none none w = ((getUnits d w.providers.length none >>= fun _ => getMetadata d w.providers.length none >>= fun _ =>
      createDatasets d w.providers.length) >>= fun _ => closeManaged w.providers.length >>= fun _ => Prog.ret w.providers.length)
        ⟨w.handles, w.providers ++ [⟨f, none, true⟩]⟩ := by
    rw [← assoc]
    have : ∀ j : Unit → Prog Nat, ((getMetadata d w.providers.length none >>= fun _ => createDatasets d w.providers.length) >>= j) =
        (getMetadata d w.providers.length none >>= fun _ => createDatasets d w.providers.length >>= j) := fun j => (assoc _ _ _).symm
    simp only [this]
    rfl
  rw [e]
  have s := ((at_getUnits d f w.handles.length w.providers.length true (L := [(w.providers.length, ⟨f, some w.handles.length, true⟩)])
    (.head _)).bind fun _ => (at_getMetadata d f w.handles.length w.providers.length true (.head _)).bind fun _ =>
    (at_create d f w.handles.length w.providers.length true (.head _)))
  refine direct (w := w) _ ⟨fun n => (ownFile w.providers.length >>= fun f => units d f (some n) >>= fun _ => Prog.ret ()) >>= fun _ =>
      getMetadata d w.providers.length none >>= fun _ => createDatasets d w.providers.length, ?_⟩ (s.congr ?_)
  · exact (assoc (useHandle w.providers.length) (fun n => ownFile w.providers.length >>= fun f => units d f (some n) >>= fun _ => Prog.ret ())
      _).symm
  · unfold Loads
    constructor
    · rintro ⟨a, ⟨b, c, e⟩, g⟩
      exact ⟨a, b, c, fun k hk => ⟨e k hk, g k hk⟩⟩
    · rintro ⟨a, b, c, e⟩
      exact ⟨a, ⟨b, c, fun k hk => (e k hk).1⟩, fun k hk => (e k hk).2⟩

private theorem direct_units (d : Disk) (f : Nat) (w : World) :
    (d.bad f .units = none → ∃ v, units d f none w = (v, .ok w.providers.length) ∧
        v.handles = w.handles ++ [⟨f, .provider w.providers.length, false⟩]) ∧
      (d.bad f .units ≠ none → ∃ v e, units d f none w = (v, .error e) ∧
        v.handles = w.handles ++ [⟨f, .provider w.providers.length, true⟩]) := by
  have e : units d f none w = ((useHandle w.providers.length >>= fun n => look d n .units) >>= fun _ =>
      closeManaged w.providers.length >>= fun _ => Prog.ret w.providers.length) ⟨w.handles, w.providers ++ [⟨f, none, true⟩]⟩ := by
    rw [← assoc]
    rfl
  rw [e]
  have := direct (f := f) (w := w) (c := d.bad f .units = none)
    (useHandle w.providers.length >>= fun n => look d n .units) ⟨_, rfl⟩ (at_use (.head _) (at_look .units))
  exact ⟨fun h => by obtain ⟨v, a, b, -⟩ := this.1 h; exact ⟨v, a, b⟩, this.2⟩

/-- `SWIFTDataset(path)` and `SWIFTUnits(path)` open one handle and close it if nothing raises. -/
theorem c94_direct (d : Disk) (f : Nat) (w : World) :
    (Loads d f → ∃ i, (dataset d f none none w).2 = .ok i ∧
      (dataset d f none none w).1.handles = w.handles ++ [⟨f, .provider w.providers.length, false⟩]) ∧
      (d.bad f .units = none → ∃ i, (units d f none w).2 = .ok i ∧
        (units d f none w).1.handles = w.handles ++ [⟨f, .provider w.providers.length, false⟩]) := by
  refine ⟨fun h => ?_, fun h => ?_⟩
  · obtain ⟨v, a, b, -⟩ := (direct_dataset d f w).1 h
    rw [a]
    exact ⟨_, rfl, b⟩
  · obtain ⟨v, a, b⟩ := (direct_units d f w).1 h
    rw [a]
    exact ⟨_, rfl, b⟩

/-- If anything raises they leave the file open, and the object that could close it is lost. -/
theorem c94_direct_fails (d : Disk) (f : Nat) (w : World) :
    (¬ Loads d f → (∃ e, (dataset d f none none w).2 = .error e) ∧
      (dataset d f none none w).1.handles = w.handles ++ [⟨f, .provider w.providers.length, true⟩]) ∧
      (d.bad f .units ≠ none → (∃ e, (units d f none w).2 = .error e) ∧
        (units d f none w).1.handles = w.handles ++ [⟨f, .provider w.providers.length, true⟩]) := by
  refine ⟨fun h => ?_, fun h => ?_⟩
  · obtain ⟨v, e, a, b⟩ := (direct_dataset d f w).2 h
    rw [a]
    exact ⟨⟨_, rfl⟩, b⟩
  · obtain ⟨v, e, a, b⟩ := (direct_units d f w).2 h
    rw [a]
    exact ⟨⟨_, rfl⟩, b⟩

/-- A dataset made by `SWIFTDataset(path)` opens the file again for `get_units` and leaves it open. -/
theorem c94_direct_reload_fails (d : Disk) (f i : Nat) (w w' : World) (e : dataset d f none none w = (w', .ok i)) :
    (getUnits d i none w').2 = .ok () ∧ (getUnits d i none w').1.handles = w'.handles ++ [⟨f, .provider i, true⟩] := by
  have hl : Loads d f := by
    by_cases h : Loads d f
    · exact h
    · obtain ⟨v, x, a, -⟩ := (direct_dataset d f w).2 h
      rw [e] at a
      cases a
  obtain ⟨v, a, b, c⟩ := (direct_dataset d f w).1 hl
  rw [e] at a
  obtain ⟨rfl, hi⟩ := Prod.mk.inj a
  have hi := Except.ok.inj hi
  have hi' : i < w'.providers.length := by
    rw [hi]
    exact (List.getElem?_eq_some_iff.mp c).1
  have u : useHandle i w' = (⟨w'.handles ++ [⟨f, .provider i, true⟩], w'.providers.set i ⟨f, some w'.handles.length, true⟩⟩, .ok w'.handles.length) := by
    unfold useHandle
    rw [← hi] at c
    rw [c]
    simp [World.getHandle, World.truthy, World.openNew, b, hi']
  have o : IsOpen ⟨w'.handles ++ [⟨f, .provider i, true⟩], w'.providers.set i ⟨f, some w'.handles.length, true⟩⟩ w'.handles.length f :=
    ⟨⟨f, .provider i, true⟩, by simp, rfl, rfl⟩
  have q : (⟨w'.handles ++ [⟨f, .provider i, true⟩], w'.providers.set i ⟨f, some w'.handles.length, true⟩⟩ : World).providers[i]? =
      some ⟨f, some w'.handles.length, true⟩ := by simp [hi']
  have e1 : getUnits d i none w' = getUnits d i none ⟨w'.handles ++ [⟨f, .provider i, true⟩], w'.providers.set i ⟨f, some w'.handles.length, true⟩⟩ :=
    use_first _ u o q
  rw [e1]
  obtain ⟨s1, s2⟩ := at_getUnits d f w'.handles.length i true (.head _) _ o (knows_one q)
  refine ⟨?_, s1.1⟩
  obtain ⟨_, x⟩ := s2.mpr hl.1
  exact x

/-- `SWIFTDataset(path, mask)` of a file without particles raises AttributeError: nothing was opened, and `None` is closed. -/
theorem c94_direct_mask_fails (d : Disk) (f m n : Nat) (w : World) (b : Borrows w m n f) (hg : d.groups f = []) :
    (dataset d f (some m) none w).2 = .error .attribute ∧ (dataset d f (some m) none w).1.handles = w.handles := by
  have q : (w.providers ++ [(⟨f, none, true⟩ : Provider)])[w.providers.length]? = some ⟨f, none, true⟩ := by simp
  have q' : (w.providers ++ [(⟨f, none, true⟩ : Provider)])[m]? = some ⟨f, some n, false⟩ :=
    (knows_append (hs := w.handles) (l := [(⟨f, none, true⟩ : Provider)]) (knows_one b)) _ (.head _)
  have e : sameFile w.providers.length m ⟨w.handles, w.providers ++ [⟨f, none, true⟩]⟩ =
      (⟨w.handles, w.providers ++ [⟨f, none, true⟩]⟩, .ok ()) := by
    unfold sameFile
    rw [q, q']
    simp
  have c : createDatasets d w.providers.length ⟨w.handles, w.providers ++ [⟨f, none, true⟩]⟩ =
      (⟨w.handles, w.providers ++ [⟨f, none, true⟩]⟩, .ok ()) := by
    unfold createDatasets
    rw [own_bind q]
    dsimp only
    rw [hg]
    rfl
  have : dataset d f (some m) none w = (⟨w.handles, w.providers ++ [⟨f, none, true⟩]⟩, .error .attribute) := by
    rw [dataset_eq, bind_def]
    unfold Prog.andThen
    rw [new_none]
    dsimp only
    unfold rest
    rw [show getUnits d w.providers.length (some m) = sameFile w.providers.length m from rfl,
      show getMetadata d w.providers.length (some m) = sameFile w.providers.length m from rfl]
    rw [bind_def]
    unfold Prog.andThen
    rw [e]
    dsimp only
    rw [bind_def]
    unfold Prog.andThen
    rw [e]
    dsimp only
    rw [bind_def]
    unfold Prog.andThen
    rw [c]
    dsimp only
    rw [bind_def]
    unfold Prog.andThen closeManaged
    dsimp only
    rw [q]
    rfl
  rw [this]
  exact ⟨rfl, rfl⟩

/-! ## Examples -/

/-- Two files: one with two groups, one whose second group cannot be read. -/
private def exDisk : Disk where
  groups f := if f < 2 then [2, 0] else []
  bad f s := if f = 1 ∧ s = .fields 1 then some .key else none

private theorem exDisk_loads : Loads exDisk 0 := ⟨rfl, rfl, rfl, fun _ _ => ⟨rfl, rfl⟩⟩

example : ∃ i, (load exDisk (.path 0) none Handles.start).2 = .ok i :=
  (opened_path (at_load exDisk 0) (knows_nil _)).2.mpr exDisk_loads

example : (load exDisk (.path 0) none Handles.start).2 = .ok 1 ∧ (load exDisk (.path 1) none Handles.start).2 = .error .key ∧
    (load exDisk (.path 1) none Handles.start).1.handles = [⟨1, .temp 0, false⟩] := by decide +kernel

example : (dataset exDisk 1 none none Handles.start).2 = .error .key ∧
    (dataset exDisk 1 none none Handles.start).1.handles = [⟨1, .provider 0, true⟩] := by decide +kernel

-- the user's handle stays open; the dataset loaded from it is read after it is closed
example : let w := Opening.run exDisk Handles.start [.open_ 0, .load (.handle 0) none, .close 0, .read 1 0, .getUnits 1 none]
    w.handles = [⟨0, .user, false⟩, ⟨0, .temp 1, false⟩] ∧ held 1 w = true := by decide +kernel

-- a mask and a dataset from it
example : let w := (makeMask exDisk (.path 0) Handles.start).1
    (makeMask exDisk (.path 0) Handles.start).2 = .ok 5 ∧ Borrows w 5 0 0 ∧ (load exDisk (.path 0) (some 5) w).2 = .ok 7 ∧
      (load exDisk (.path 1) (some 5) w).2 = .error .assertion := by
  unfold Borrows
  decide +kernel

example : let w := (makeMask exDisk (.path 2) Handles.start).1
    Borrows w 3 0 2 ∧ (dataset exDisk 2 (some 3) none w).2 = .error .attribute := by
  unfold Borrows
  decide +kernel

end Verif.Props
