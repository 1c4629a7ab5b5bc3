import Verif.Lemmas.Handles

/-!
# C22: who closes file handles

Programs are arbitrary sequences of opening and closing by the user, construction of objects from a path or from a
handle, the `handle` property, `_close_handle_if_manager`, `with object.open_file():` blocks and `try` blocks, nested to
any depth. All statements are about every program run from the empty state.
-/

namespace Verif.Props
open Verif Verif.Handles

/-- C22: a handle that is open and later closed was closed by the user's `close()` in the program, or it was opened by
some object's `handle` property and that very object was asked to close it. -/
theorem c22_closed_by_owner (before after : Ops) (h : Nat) (o : Owner)
    (hopen : OpenBy (run start before).1 h o)
    (hclosed : ¬ OpenBy (run (run start before).1 after).1 h o) :
    after.userCloses h ∨ ∃ i, o = .provider i ∧ after.asksClose i := by
  obtain ⟨x, e, ho, hx⟩ := hopen
  obtain ⟨y, e', oy, -, -, d⟩ := (run_ok _ (inv_run before) after).2.old h x e
  rcases hy : y.isOpen with _ | _
  · rcases d hx hy with u | ⟨i, u, v⟩
    · exact Or.inl u
    · exact Or.inr ⟨i, ho ▸ u, v⟩
  · exact absurd ⟨y, e', oy.trans ho, hy⟩ hclosed

/-- C22: an object never closes a handle the user opened. -/
theorem c22_given_never_closed (before after : Ops) (h : Nat)
    (hopen : OpenBy (run start before).1 h .user) (hno : ¬ after.userCloses h) :
    OpenBy (run (run start before).1 after).1 h .user := by
  refine Classical.byContradiction fun hc => ?_
  rcases c22_closed_by_owner before after h .user hopen hc with u | ⟨i, u, -⟩
  · exact hno u
  · cases u

/-- The user opens a file, two objects share the handle, both are asked to close, one block raises. -/
def sharing : Ops :=
  .cons (.mk 7 (some 0)) <| .cons (.mk 7 (some 0)) <| .cons (.closeIfManager 0) <|
  .cons (.attempt (.cons (.withFile 1 (.cons .raise .nil)) .nil)) <| .cons (.closeIfManager 1) .nil

example : OpenBy (run start (.cons (.userOpen 7) .nil)).1 0 .user ∧ ¬ sharing.userCloses 0 ∧
    (run (run start (.cons (.userOpen 7) .nil)).1 sharing).2 = none := by
  refine ⟨⟨⟨7, .user, true⟩, by decide +kernel, rfl, rfl⟩, ?_, by decide +kernel⟩
  simp [sharing, Ops.userCloses, Op.userCloses]

/-- C22: asking an object to close leaves no handle it opened open, whatever happened before, and whether or not the call
raises. -/
theorem c22_close_releases (before : Ops) (i h : Nat) :
    ¬ OpenBy (step (run start before).1 (.closeIfManager i)).1 h (.provider i) := by
  have hw := inv_run before
  rintro ⟨x, e, o, ho⟩
  have hw' := (step_ok _ hw (.closeIfManager i)).1
  obtain ⟨p', hp', hh', hm'⟩ := hw'.current i h x e ho o
  simp only [step] at e hp'
  cases hp : (run start before).1.providers[i]? with
  | none => simp [hp] at hp'
  | some p =>
    simp only [hp, World.closeIfManager] at e hp'
    cases hm : p.manager with
    | false =>
      simp only [hm, Bool.false_eq_true, if_false] at hp'
      rw [hp] at hp'; cases hp'
      rw [hm] at hm'; cases hm'
    | true =>
      cases hh : p.handle with
      | none =>
        simp only [hm, hh, if_true] at hp'
        rw [hp] at hp'; cases hp'
        rw [hh] at hh'; cases hh'
      | some n =>
        simp only [hm, hh, if_true] at e hp'
        have : p = p' := by
          have q : (run start before).1.providers[i]? = some p' := hp'
          rw [hp] at q; exact Option.some.inj q
        subst this
        rw [hh] at hh'; cases hh'
        rw [close_get] at e
        obtain ⟨y, -, rfl⟩ := Option.map_eq_some_iff.mp e
        simp at ho

/-- Three programs that end with an open handle owned by object 0. -/
example : OpenBy (run start (.cons (.mk 3 none) <| .cons (.getHandle 0) .nil)).1 0 (.provider 0) :=
  ⟨⟨3, .provider 0, true⟩, by decide +kernel, rfl, rfl⟩

/-- C22: at most one handle opened by an object is open at any time, and it is the one the object holds: the `handle`
property never loses track of an open handle. -/
theorem c22_one_open_handle (ops : Ops) (i h k : Nat)
    (h1 : OpenBy (run start ops).1 h (.provider i)) (h2 : OpenBy (run start ops).1 k (.provider i)) : h = k := by
  obtain ⟨x, e, o, ho⟩ := h1
  obtain ⟨y, e', o', ho'⟩ := h2
  obtain ⟨p, a, b, -⟩ := (inv_run ops).current i h x e ho o
  obtain ⟨q, a', b', -⟩ := (inv_run ops).current i k y e' ho' o'
  rw [a] at a'; cases a'
  rw [b] at b'; exact Option.some.inj b'

/-- An object that was asked to close and then used again holds a second handle; the first one is closed. -/
example : (run start (.cons (.mk 3 none) <| .cons (.getHandle 0) <| .cons (.closeIfManager 0) <|
    .cons (.getHandle 0) .nil)).1.handles.map (·.isOpen) = [false, true] := by decide +kernel

/-- C22: when a program ends, normally or with an exception, every temporary handle opened by a `with object.open_file()`
block in it is closed. -/
theorem c22_temporaries_closed (ops : Ops) (h i : Nat) : ¬ OpenBy (run start ops).1 h (.temp i) := by
  rintro ⟨x, e, o, ho⟩
  have := (run_ok start inv_start ops).2.temp h x i (by simp [start]) e o
  rw [this] at ho; cases ho

/-- Nested blocks, left by an exception. -/
example : (run start (.cons (.mk 3 none) <| .cons (.withFile 0 (.cons (.withFile 0 (.cons .raise .nil)) .nil)) .nil)) =
    ({ handles := [⟨3, .temp 0, false⟩, ⟨3, .temp 0, false⟩], providers := [⟨3, none, true⟩] }, some .runtime) := by
  decide +kernel

/-- C22 (last clause, for the `handle` property): an object built on an open handle raises RuntimeError once that handle
is closed, and opens nothing, whatever happens in between.

Partial: the full statement also asks this of `open_file`, which is what field reads use, and of handles that were
already closed at construction; both fail, see `c22_open_file_reopens_fails` and `c22_closed_at_construction_fails`. -/
theorem c22_closed_external_raises_partial (before after : Ops) (f h : Nat) (o : Owner)
    (hopen : OpenBy (run start before).1 h o)
    (hclosed : ¬ OpenBy (run (step (run start before).1 (.mk f (some h))).1 after).1 h o) :
    let w := (run (step (run start before).1 (.mk f (some h))).1 after).1
    step w (.getHandle (run start before).1.providers.length) = (w, some .runtime) := by
  intro w
  have hw := inv_run before
  obtain ⟨x, e, ho, hx⟩ := hopen
  have hlt := (List.getElem?_eq_some_iff.mp e).1
  have hgx := (List.getElem?_eq_some_iff.mp e).2
  have hmk := step_ok _ hw (.mk f (some h))
  have hr := run_ok _ hmk.1 after
  have hp : (step (run start before).1 (.mk f (some h))).1.providers[(run start before).1.providers.length]? =
      some { file := f, handle := some h, manager := false } := by
    simp [step, hlt, World.mkProvider, World.truthy, hgx, hx]
  obtain ⟨q, hq, -, -, s⟩ := hr.2.objs _ _ hp
  have hq' := s rfl
  subst hq'
  have ex : (step (run start before).1 (.mk f (some h))).1.handles[h]? = some x := by
    simp [step, hlt, World.mkProvider, hgx]
  obtain ⟨y, ey, oy, -⟩ := hr.2.old h x ex
  have hy : y.isOpen = false := by
    cases hy : y.isOpen with
    | false => rfl
    | true => exact absurd ⟨y, ey, oy.trans ho, hy⟩ hclosed
  simp only [step]
  rw [show w.providers[(run start before).1.providers.length]? = _ from hq]
  have ey' : w.handles[h]? = some y := ey
  simp [World.getHandle, World.truthy, ey', hy]

example : ¬ OpenBy (run (step (run start (.cons (.userOpen 7) .nil)).1 (.mk 7 (some 0))).1
    (.cons (.userClose 0) .nil)).1 0 .user := by
  rintro ⟨x, e, -, o⟩
  have : (run (step (run start (.cons (.userOpen 7) .nil)).1 (.mk 7 (some 0))).1
    (.cons (.userClose 0) .nil)).1.handles[0]? = some ⟨7, .user, false⟩ := by decide +kernel
  rw [this] at e; cases e; cases o

/-- C22 fails for `open_file`: after the user closed the handle they had given, a block on the object runs its body on a
handle of its own instead of raising. -/
theorem c22_open_file_reopens_fails : ∃ before : Ops,
    (run start before).1.handles = [⟨7, .user, false⟩] ∧
    (run start before).1.providers = [⟨7, some 0, false⟩] ∧
    (step (run start before).1 (.withFile 0 .nil)).2 = none ∧
    (step (run start before).1 (.withFile 0 .nil)).1.handles = [⟨7, .user, false⟩, ⟨7, .temp 0, false⟩] :=
  ⟨.cons (.userOpen 7) <| .cons (.mk 7 (some 0)) <| .cons (.userClose 0) .nil, by decide +kernel, by decide +kernel,
    by decide +kernel, by decide +kernel⟩

/-- C22 fails for a handle that is already closed when it is given: the object takes itself for the manager and its
`handle` property opens the file again. -/
theorem c22_closed_at_construction_fails : ∃ before : Ops,
    (run start before).1.handles = [⟨7, .user, false⟩] ∧
    (run start before).1.providers = [⟨7, some 0, true⟩] ∧
    (step (run start before).1 (.getHandle 0)).2 = none ∧
    (step (run start before).1 (.getHandle 0)).1.handles = [⟨7, .user, false⟩, ⟨7, .provider 0, true⟩] :=
  ⟨.cons (.userOpen 7) <| .cons (.userClose 0) <| .cons (.mk 7 (some 0)) .nil, by decide +kernel, by decide +kernel,
    by decide +kernel, by decide +kernel⟩

/-- C22: asking an object that never opened its file to close raises AttributeError (`None.close()`) and changes
nothing. -/
theorem c22_close_unopened_raises (before : Ops) (f : Nat) :
    let w := (step (run start before).1 (.mk f none)).1
    step w (.closeIfManager (run start before).1.providers.length) = (w, some .attribute) := by
  simp [step, World.mkProvider, World.truthy, World.closeIfManager]

end Verif.Props
