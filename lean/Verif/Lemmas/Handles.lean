import Verif.Spec.Handles

/-! Invariant of the handle state machine and the frame relation between the states before and after a program. -/

namespace Verif.Handles
open Verif

/-- The invariant. -/
structure Inv (w : World) : Prop where
  valid : ∀ (i : Nat) (p : Provider) (n : Nat), w.providers[i]? = some p → p.handle = some n → n < w.handles.length
  managed : ∀ (i : Nat) (p : Provider) (n : Nat) (x : Handle), w.providers[i]? = some p → p.manager = true → p.handle = some n → w.handles[n]? = some x →
    x.owner = .provider i ∨ x.isOpen = false
  current : ∀ (i n : Nat) (x : Handle), w.handles[n]? = some x → x.isOpen = true → x.owner = .provider i →
    ∃ p : Provider, w.providers[i]? = some p ∧ p.handle = some n ∧ p.manager = true

/-- What a program may change: `U h` = the user closes `h`, `D i` = object `i` is asked to close. -/
structure Rel (U D : Nat → Prop) (w w' : World) : Prop where
  len : w.handles.length ≤ w'.handles.length
  old : ∀ (n : Nat) (x : Handle), w.handles[n]? = some x → ∃ y : Handle, w'.handles[n]? = some y ∧ y.owner = x.owner ∧ y.file = x.file ∧
    (x.isOpen = false → y.isOpen = false) ∧
    (x.isOpen = true → y.isOpen = false → U n ∨ ∃ i, x.owner = .provider i ∧ D i)
  temp : ∀ (n : Nat) (y : Handle) (i : Nat), w.handles.length ≤ n → w'.handles[n]? = some y → y.owner = .temp i → y.isOpen = false
  objs : ∀ (i : Nat) (p : Provider), w.providers[i]? = some p → ∃ q : Provider, w'.providers[i]? = some q ∧ q.file = p.file ∧
    q.manager = p.manager ∧ (p.manager = false → q = p)

theorem Rel.refl (U D : Nat → Prop) (w : World) : Rel U D w w where
  len := Nat.le_refl _
  old n x h := ⟨x, h, rfl, rfl, id, fun a b => by simp [a] at b⟩
  temp n y i h e _ := by
    have := (List.getElem?_eq_some_iff.mp e).1
    omega
  objs i p h := ⟨p, h, rfl, rfl, fun _ => rfl⟩

theorem Rel.mono {U D U' D' : Nat → Prop} {w w' : World} (h : Rel U D w w') (hU : ∀ n, U n → U' n)
    (hD : ∀ n, D n → D' n) : Rel U' D' w w' where
  len := h.len
  old n x e := by
    obtain ⟨y, a, b, c, d, f⟩ := h.old n x e
    refine ⟨y, a, b, c, d, fun p q => ?_⟩
    rcases f p q with u | ⟨i, u, v⟩
    · exact Or.inl (hU _ u)
    · exact Or.inr ⟨i, u, hD _ v⟩
  temp := h.temp
  objs := h.objs

theorem Rel.trans {U D : Nat → Prop} {a b c : World} (h : Rel U D a b) (k : Rel U D b c) : Rel U D a c where
  len := Nat.le_trans h.len k.len
  old n x e := by
    obtain ⟨y, e1, o1, f1, c1, d1⟩ := h.old n x e
    obtain ⟨z, e2, o2, f2, c2, d2⟩ := k.old n y e1
    refine ⟨z, e2, o2.trans o1, f2.trans f1, fun q => c2 (c1 q), fun q r => ?_⟩
    cases hy : y.isOpen with
    | false => exact d1 q hy
    | true =>
      rcases d2 hy r with u | ⟨i, u, v⟩
      · exact Or.inl u
      · exact Or.inr ⟨i, o1 ▸ u, v⟩
  temp n z i hn e o := by
    by_cases hb : b.handles.length ≤ n
    · exact k.temp n z i hb e o
    · have hlt : n < b.handles.length := by omega
      obtain ⟨y, e1, o1, -, c1, -⟩ := k.old n b.handles[n] (List.getElem?_eq_getElem hlt)
      rw [e1] at e; cases e
      exact c1 (h.temp n _ i hn (List.getElem?_eq_getElem hlt) (o1 ▸ o))
  objs i p e := by
    obtain ⟨q, e1, f1, m1, s1⟩ := h.objs i p e
    obtain ⟨r, e2, f2, m2, s2⟩ := k.objs i q e1
    refine ⟨r, e2, f2.trans f1, m2.trans m1, fun hp => ?_⟩
    rw [s2 (m1.trans hp), s1 hp]

theorem close_get (w : World) (h n : Nat) :
    (w.close h).handles[n]? = (w.handles[n]?).map (fun x => if h = n then { x with isOpen := false } else x) := by
  simp only [World.close, List.getElem?_modify]
  by_cases e : h = n <;> simp [e]

theorem inv_close {w : World} (hw : Inv w) (h : Nat) : Inv (w.close h) where
  valid i p n e q := by
    have := hw.valid i p n e q
    simpa [World.close] using this
  managed i p n x e m q f := by
    rw [close_get] at f
    obtain ⟨y, g, rfl⟩ := Option.map_eq_some_iff.mp f
    have := hw.managed i p n y e m q g
    split <;> simp_all
  current i n x f o ow := by
    rw [close_get] at f
    obtain ⟨y, g, rfl⟩ := Option.map_eq_some_iff.mp f
    by_cases e : h = n
    · simp [e] at o
    · simp only [e, if_false] at o ow
      exact hw.current i n y g o ow

theorem inv_openNew {w : World} (hw : Inv w) (f : Nat) (o : Owner) (ho : ∀ i, o ≠ .provider i) :
    Inv (w.openNew f o).1 where
  valid i p n e q := by
    have := hw.valid i p n e q
    simp only [World.openNew, List.length_append, List.length_cons, List.length_nil]
    omega
  managed i p n x e m q g := by
    have hv := hw.valid i p n e q
    simp only [World.openNew] at g
    rw [List.getElem?_append_left hv] at g
    exact hw.managed i p n x e m q g
  current i n x g op ow := by
    simp only [World.openNew] at g
    by_cases hn : n < w.handles.length
    · rw [List.getElem?_append_left hn] at g
      exact hw.current i n x g op ow
    · rw [List.getElem?_append_right (by omega)] at g
      have : x = { file := f, owner := o, isOpen := true } := by
        rcases Nat.eq_zero_or_pos (n - w.handles.length) with z | z
        · rw [z] at g; simpa using g.symm
        · rw [List.getElem?_eq_none (by simp; omega)] at g; cases g
      subst this
      exact absurd ow (ho i)

theorem rel_openNew (U D : Nat → Prop) (w : World) (f : Nat) (o : Owner) (ho : ∀ i, o ≠ .temp i) :
    Rel U D w (w.openNew f o).1 where
  len := by simp [World.openNew]
  old n x e := by
    have hn := (List.getElem?_eq_some_iff.mp e).1
    refine ⟨x, ?_, rfl, rfl, id, fun a b => by simp [a] at b⟩
    simp only [World.openNew]
    rw [List.getElem?_append_left hn, e]
  temp n y i hn e ow := by
    simp only [World.openNew] at e
    rw [List.getElem?_append_right hn] at e
    rcases Nat.eq_zero_or_pos (n - w.handles.length) with z | z
    · rw [z] at e
      have : y = { file := f, owner := o, isOpen := true } := by simpa using e.symm
      subst this
      exact absurd ow (ho i)
    · rw [List.getElem?_eq_none (by simp; omega)] at e; cases e
  objs i p e := ⟨p, e, rfl, rfl, fun _ => rfl⟩

theorem rel_close (U D : Nat → Prop) (w : World) (h : Nat)
    (hh : ∀ x : Handle, w.handles[h]? = some x → x.isOpen = true → U h ∨ ∃ i, x.owner = .provider i ∧ D i) :
    Rel U D w (w.close h) where
  len := by simp [World.close]
  old n x e := by
    refine ⟨_, by rw [close_get, e]; rfl, ?_⟩
    by_cases q : h = n
    · subst q
      simp only [if_true]
      exact ⟨trivial, trivial, fun _ => trivial, fun o _ => hh x e o⟩
    · simp only [q, if_false]
      exact ⟨trivial, trivial, id, fun a b => by simp [a] at b⟩
  temp n y i hn e _ := by
    have := (List.getElem?_eq_some_iff.mp e).1
    simp [World.close] at this
    omega
  objs i p e := ⟨p, e, rfl, rfl, fun _ => rfl⟩

theorem not_truthy {w : World} {n : Nat} {x : Handle} (h : w.truthy (some n) = false) (e : w.handles[n]? = some x) :
    x.isOpen = false := by
  simpa [World.truthy, e] using h

theorem inv_mk {w : World} (hw : Inv w) (f : Nat) (h : Option Nat) (hv : ∀ n, h = some n → n < w.handles.length) :
    Inv (w.mkProvider f h) where
  valid i p n e q := by
    simp only [World.mkProvider] at e ⊢
    by_cases hi : i < w.providers.length
    · rw [List.getElem?_append_left hi] at e
      exact hw.valid i p n e q
    · rw [List.getElem?_append_right (by omega)] at e
      rcases Nat.eq_zero_or_pos (i - w.providers.length) with z | z
      · rw [z] at e
        simp only [List.getElem?_cons_zero, Option.some.injEq] at e
        subst e
        exact hv n q
      · rw [List.getElem?_eq_none (by simp; omega)] at e; cases e
  managed i p n x e m q g := by
    simp only [World.mkProvider] at e g
    by_cases hi : i < w.providers.length
    · rw [List.getElem?_append_left hi] at e
      exact hw.managed i p n x e m q g
    · rw [List.getElem?_append_right (by omega)] at e
      rcases Nat.eq_zero_or_pos (i - w.providers.length) with z | z
      · rw [z] at e
        simp only [List.getElem?_cons_zero, Option.some.injEq] at e
        subst e
        simp only at q m
        subst q
        exact Or.inr (not_truthy (by simpa using m) g)
      · rw [List.getElem?_eq_none (by simp; omega)] at e; cases e
  current i n x g o ow := by
    obtain ⟨p, a, b⟩ := hw.current i n x g o ow
    refine ⟨p, ?_, b⟩
    simp only [World.mkProvider]
    rw [List.getElem?_append_left (List.getElem?_eq_some_iff.mp a).1, a]

theorem rel_mk (U D : Nat → Prop) (w : World) (f : Nat) (h : Option Nat) : Rel U D w (w.mkProvider f h) where
  len := Nat.le_refl _
  old n x e := ⟨x, e, rfl, rfl, id, fun a b => by simp [a] at b⟩
  temp n y i hn e _ := by
    have := (List.getElem?_eq_some_iff.mp e).1
    simp only [World.mkProvider] at this
    omega
  objs i p e := by
    refine ⟨p, ?_, rfl, rfl, fun _ => rfl⟩
    simp only [World.mkProvider]
    rw [List.getElem?_append_left (List.getElem?_eq_some_iff.mp e).1, e]

theorem inv_getHandle {w : World} (hw : Inv w) (i : Nat) (p : Provider) (hp : w.providers[i]? = some p) :
    Inv (w.getHandle i p).1 := by
  unfold World.getHandle
  cases ht : w.truthy p.handle with
  | true => simpa using hw
  | false =>
    cases hm : p.manager with
    | false => simpa using hw
    | true =>
      have hi := (List.getElem?_eq_some_iff.mp hp).1
      simp only [Bool.false_eq_true, if_false, if_true, World.openNew]
      refine ⟨?_, ?_, ?_⟩
      · intro j q n e b
        simp only [List.getElem?_set] at e
        simp only [List.length_append, List.length_cons, List.length_nil]
        by_cases hj : i = j
        · subst hj
          simp only [hi, if_true, Option.some.injEq] at e
          subst e
          simp only [Option.some.injEq] at b
          omega
        · simp only [hj, if_false] at e
          have := hw.valid j q n e b
          omega
      · intro j q n x e m b g
        simp only [List.getElem?_set] at e
        by_cases hj : i = j
        · subst hj
          simp only [hi, if_true, Option.some.injEq] at e
          subst e
          simp only [Option.some.injEq] at b
          subst b
          simp only [List.getElem?_concat_length, Option.some.injEq] at g
          subst g
          exact Or.inl rfl
        · simp only [hj, if_false] at e
          have hv := hw.valid j q n e b
          rw [List.getElem?_append_left hv] at g
          exact hw.managed j q n x e m b g
      · intro j n x g o ow
        by_cases hn : n < w.handles.length
        · rw [List.getElem?_append_left hn] at g
          obtain ⟨q, a, b, c⟩ := hw.current j n x g o ow
          by_cases hj : i = j
          · subst hj
            rw [hp] at a; cases a
            rw [b] at ht
            rw [not_truthy ht g] at o
            cases o
          · refine ⟨q, ?_, b, c⟩
            simp [hj, a]
        · rw [List.getElem?_append_right (by omega)] at g
          rcases Nat.eq_zero_or_pos (n - w.handles.length) with z | z
          · rw [z] at g
            simp only [List.getElem?_cons_zero, Option.some.injEq] at g
            subst g
            simp only [Owner.provider.injEq] at ow
            subst ow
            refine ⟨{ p with handle := some w.handles.length }, ?_, ?_, hm⟩
            · simp [hi, hm]
            · simp only [Option.some.injEq]; omega
          · rw [List.getElem?_eq_none (by simp; omega)] at g; cases g

theorem rel_getHandle (U D : Nat → Prop) (w : World) (i : Nat) (p : Provider) (hp : w.providers[i]? = some p) :
    Rel U D w (w.getHandle i p).1 := by
  unfold World.getHandle
  cases ht : w.truthy p.handle with
  | true => simpa using Rel.refl U D w
  | false =>
    cases hm : p.manager with
    | false => simpa using Rel.refl U D w
    | true =>
      have hi := (List.getElem?_eq_some_iff.mp hp).1
      have r := rel_openNew U D w p.file (.provider i) (by intro j h; cases h)
      simp only [Bool.false_eq_true, if_false, if_true]
      refine ⟨r.len, r.old, r.temp, ?_⟩
      intro j q e
      by_cases hj : i = j
      · subst hj
        rw [hp] at e; cases e
        refine ⟨{ p with handle := some w.handles.length }, ?_, rfl, rfl, fun h => ?_⟩
        · simp [World.openNew, hi, hm]
        · rw [hm] at h; cases h
      · exact ⟨q, by simp [World.openNew, hj, e], rfl, rfl, fun _ => rfl⟩

theorem inv_closeIfManager {w : World} (hw : Inv w) (p : Provider) : Inv (w.closeIfManager p).1 := by
  unfold World.closeIfManager
  cases p.manager with
  | false => simpa using hw
  | true =>
    cases p.handle with
    | none => simpa using hw
    | some h => simpa using inv_close hw h

theorem rel_closeIfManager {U D : Nat → Prop} {w : World} (hw : Inv w) (i : Nat) (p : Provider)
    (hp : w.providers[i]? = some p) (hD : D i) : Rel U D w (w.closeIfManager p).1 := by
  unfold World.closeIfManager
  cases hm : p.manager with
  | false => simpa using Rel.refl U D w
  | true =>
    cases hh : p.handle with
    | none => simpa using Rel.refl U D w
    | some h =>
      simp only [if_true]
      refine rel_close U D w h fun x e o => ?_
      rcases hw.managed i p h x hp hm hh e with q | q
      · exact Or.inr ⟨i, q, hD⟩
      · rw [q] at o; cases o

/-- A `with` block over a temporary handle. -/
theorem rel_with {U D : Nat → Prop} {w w1 : World} (f i : Nat) (h : Rel U D (w.openNew f (.temp i)).1 w1) :
    Rel U D w (w1.close w.handles.length) where
  len := by
    have := h.len
    simp only [World.openNew, List.length_append, List.length_cons, List.length_nil] at this
    simp only [World.close, List.length_modify]
    omega
  old n x e := by
    have hn := (List.getElem?_eq_some_iff.mp e).1
    have e' : (w.openNew f (.temp i)).1.handles[n]? = some x := by
      simp only [World.openNew]
      rw [List.getElem?_append_left hn, e]
    obtain ⟨y, a, b⟩ := h.old n x e'
    refine ⟨y, ?_, b⟩
    rw [close_get, a, Option.map_some, if_neg (by omega)]
  temp n y j hn e ow := by
    rw [close_get] at e
    obtain ⟨z, a, rfl⟩ := Option.map_eq_some_iff.mp e
    by_cases q : w.handles.length = n
    · simp [q]
    · simp only [q, if_false] at ow ⊢
      refine h.temp n z j ?_ a ow
      simp only [World.openNew, List.length_append, List.length_cons, List.length_nil]
      omega
  objs := h.objs

mutual
theorem step_ok (w : World) (hw : Inv w) (op : Op) :
    Inv (step w op).1 ∧ Rel (fun h => op.userCloses h) (fun i => op.asksClose i) w (step w op).1 := by
  cases op with
  | userOpen f =>
    exact ⟨inv_openNew hw f .user (by intro i h; cases h), rel_openNew _ _ w f .user (by intro i h; cases h)⟩
  | userClose h =>
    simp only [step]
    split
    · exact ⟨inv_close hw h, rel_close _ _ w h fun x e o => Or.inl (by simp [Op.userCloses])⟩
    · exact ⟨hw, Rel.refl _ _ w⟩
  | mk f h =>
    simp only [step]
    cases h with
    | none => exact ⟨inv_mk hw f none (by simp), rel_mk _ _ w f none⟩
    | some n =>
      dsimp only
      split
      · rename_i hn
        exact ⟨inv_mk hw f (some n) (by rintro m ⟨⟩; exact hn), rel_mk _ _ w f (some n)⟩
      · exact ⟨hw, Rel.refl _ _ w⟩
  | getHandle i =>
    simp only [step]
    split
    · rename_i p hp
      exact ⟨inv_getHandle hw i p hp, rel_getHandle _ _ w i p hp⟩
    · exact ⟨hw, Rel.refl _ _ w⟩
  | closeIfManager i =>
    simp only [step]
    split
    · rename_i p hp
      exact ⟨inv_closeIfManager hw p, rel_closeIfManager hw i p hp (by simp [Op.asksClose])⟩
    · exact ⟨hw, Rel.refl _ _ w⟩
  | withFile i body =>
    simp only [step, Op.userCloses, Op.asksClose]
    split
    · rename_i p hp
      split
      · exact run_ok w hw body
      · have h := run_ok (w.openNew p.file (.temp i)).1 (inv_openNew hw _ _ (by intro j h; cases h)) body
        exact ⟨inv_close h.1 _, rel_with _ _ h.2⟩
    · exact ⟨hw, Rel.refl _ _ w⟩
  | attempt body =>
    simp only [step, Op.userCloses, Op.asksClose]
    exact run_ok w hw body
  | raise => exact ⟨hw, Rel.refl _ _ w⟩

theorem run_ok (w : World) (hw : Inv w) (ops : Ops) :
    Inv (run w ops).1 ∧ Rel (fun h => ops.userCloses h) (fun i => ops.asksClose i) w (run w ops).1 := by
  cases ops with
  | nil => exact ⟨hw, Rel.refl _ _ w⟩
  | cons op rest =>
    have h := step_ok w hw op
    simp only [run, Ops.userCloses, Ops.asksClose]
    split
    · rename_i w' e
      rw [e] at h
      have k := run_ok w' h.1 rest
      exact ⟨k.1, (h.2.mono (fun _ => Or.inl) (fun _ => Or.inl)).trans (k.2.mono (fun _ => Or.inr) (fun _ => Or.inr))⟩
    · rename_i w' er e
      rw [e] at h
      exact ⟨h.1, h.2.mono (fun _ => Or.inl) (fun _ => Or.inl)⟩
end

theorem inv_start : Inv start where
  valid i p n e := by simp [start] at e
  managed i p n x e := by simp [start] at e
  current i n x e := by simp [start] at e

/-- Every state a program reaches satisfies the invariant. -/
theorem inv_run (ops : Ops) : Inv (run start ops).1 := (run_ok start inv_start ops).1

end Verif.Handles
