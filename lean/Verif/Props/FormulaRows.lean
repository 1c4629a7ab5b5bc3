import Verif.Spec.FormulaRows
import Verif.Props.Formulas
import Verif.Props.Mask

/-!
# Formulas of the rows of arrays (C115)
-/

namespace Verif.Props
open Verif Verif.Cosmo Verif.Formulas Verif.Spec

private theorem valueAt_map {α β : Type} (f : α → β) (l : List α) (i : Int) : valueAt (l.map f) i = (valueAt l i).map f := by
  unfold valueAt
  split_ifs <;> simp

private theorem select_map {α β : Type} (f : α → β) (l : List α) (rows : List Int) : select (l.map f) rows = (select l rows).map (Option.map f) := by
  simp [select, valueAt_map]

private theorem rows_map {α β : Type} (f : α → β) {l l' : List α} {rows : List Int} (h : l'.map some = select l rows) :
    (l'.map f).map some = select (l.map f) rows := by
  rw [select_map, ← h]
  simp

private theorem rows_zip {α β γ : Type} (f : α → β → γ) {l : List α} {m : List β} : ∀ {rows : List Int} {l' : List α} {m' : List β},
    l'.map some = select l rows → m'.map some = select m rows → (List.zipWith f l' m').map some = select (List.zipWith f l m) rows
  | [], [], [], _, _ => rfl
  | [], [], _ :: _, _, h => by simp [select] at h
  | [], _ :: _, _, h, _ => by simp [select] at h
  | _ :: _, [], _, h, _ => by simp [select] at h
  | _ :: _, _ :: _, [], _, h => by simp [select] at h
  | i :: rows, x :: l', y :: m', h1, h2 => by
    simp only [select, List.map_cons, List.cons.injEq] at h1 h2
    have ih := rows_zip f (rows := rows) h1.2 h2.2
    simp only [select, List.map_cons, List.zipWith_cons_cons, List.cons.injEq]
    refine ⟨?_, ih⟩
    have e1 := h1.1
    have e2 := h2.1
    unfold valueAt at e1 e2 ⊢
    by_cases hi : i < 0
    · rw [if_pos hi] at e1; cases e1
    · rw [if_neg hi] at e1 e2 ⊢
      simp [List.getElem?_zipWith, ← e1, ← e2]

private theorem rows_length {α : Type} {l l' : List α} {rows : List Int} (h : l'.map some = select l rows) : l'.length = rows.length := by
  have := congrArg List.length h
  simpa [select] using this

/-- The results of a formula of all rows (there are `n`) and of the formula of the rows `rows`. -/
private def Rel (n : Nat) (rows : List Int) (o p : Opd) : Prop :=
  (∃ c, o = .plain [c] ∧ p = .plain [c]) ∨ ∃ x y, o = .cosmo x ∧ p = .cosmo y ∧ RowsOfArray rows x y ∧ x.val.length = n

private def RelE (n : Nat) (rows : List Int) (A B : Except Err Opd) : Prop :=
  (∃ e, A = .error e ∧ B = .error e) ∨ ∃ o p, A = .ok o ∧ B = .ok p ∧ Rel n rows o p

private theorem relE_bind {n : Nat} {rows : List Int} {A B : Except Err Opd} {g g' : Opd → Except Err Opd} (h : RelE n rows A B)
    (hg : ∀ o p, Rel n rows o p → RelE n rows (g o) (g' p)) : RelE n rows (A.bind g) (B.bind g') := by
  rcases h with ⟨e, rfl, rfl⟩ | ⟨o, p, rfl, rfl, h⟩
  · exact .inl ⟨e, rfl, rfl⟩
  · exact hg o p h

private theorem rel_factor {rows : List Int} {x y : Arr} (h : RowsOfArray rows x y) : y.factor = x.factor := by
  unfold Arr.factor
  rw [h.cf]

private theorem rel_convertToComoving {n : Nat} {rows : List Int} {x y : Arr} (h : RowsOfArray rows x y) (hn : x.val.length = n) :
    (∃ e, x.convertToComoving = .error e ∧ y.convertToComoving = .error e) ∨
      ∃ x' y', x.convertToComoving = .ok x' ∧ y.convertToComoving = .ok y' ∧ RowsOfArray rows x' y' ∧ x'.val.length = n := by
  unfold Arr.convertToComoving
  rw [h.comoving, h.vt, rel_factor h]
  split_ifs
  · exact .inr ⟨x, y, rfl, rfl, h, hn⟩
  · exact .inl ⟨_, rfl, rfl⟩
  · cases x.factor with
    | error e => exact .inl ⟨e, rfl, rfl⟩
    | ok r => exact .inr ⟨_, _, rfl, rfl, ⟨rows_map _ h.vals, rfl, h.cf, rfl⟩, by simpa using hn⟩

private theorem rel_convertToPhysical {n : Nat} {rows : List Int} {x y : Arr} (h : RowsOfArray rows x y) (hn : x.val.length = n) :
    (∃ e, x.convertToPhysical = .error e ∧ y.convertToPhysical = .error e) ∨
      ∃ x' y', x.convertToPhysical = .ok x' ∧ y.convertToPhysical = .ok y' ∧ RowsOfArray rows x' y' ∧ x'.val.length = n := by
  unfold Arr.convertToPhysical
  rw [h.comoving, rel_factor h]
  cases x.comoving with
  | none => exact .inl ⟨_, rfl, rfl⟩
  | some b => cases b with
    | false => exact .inr ⟨x, y, rfl, rfl, h, hn⟩
    | true => cases x.factor with
      | error e => exact .inl ⟨e, rfl, rfl⟩
      | ok r => exact .inr ⟨_, _, rfl, rfl, ⟨rows_map _ h.vals, rfl, h.cf, h.vt⟩, by simpa using hn⟩

private theorem rel_toComoving {n : Nat} {rows : List Int} {x y : Arr} (h : RowsOfArray rows x y) (hn : x.val.length = n) :
    (∃ e, x.toComoving = .error e ∧ y.toComoving = .error e) ∨
      ∃ x' y', x.toComoving = .ok x' ∧ y.toComoving = .ok y' ∧ RowsOfArray rows x' y' ∧ x'.val.length = n := by
  unfold Arr.toComoving
  rw [h.vt, h.comoving]
  split_ifs
  · exact .inl ⟨_, rfl, rfl⟩
  · exact rel_convertToComoving h hn

private theorem rel_toPhysical {n : Nat} {rows : List Int} {x y : Arr} (h : RowsOfArray rows x y) (hn : x.val.length = n) :
    (∃ e, x.toPhysical = .error e ∧ y.toPhysical = .error e) ∨
      ∃ x' y', x.toPhysical = .ok x' ∧ y.toPhysical = .ok y' ∧ RowsOfArray rows x' y' ∧ x'.val.length = n := by
  unfold Arr.toPhysical
  rw [h.vt, h.comoving]
  split_ifs
  · exact .inl ⟨_, rfl, rfl⟩
  · exact rel_convertToPhysical h hn

private theorem rel_attrs {n : Nat} {rows : List Int} {l m : List Opd} (h : List.Forall₂ (Rel n rows) l m) :
    flags m = flags l ∧ m.map Opd.cf = l.map Opd.cf ∧ m.map Opd.vt = l.map Opd.vt ∧ anyFixed m = anyFixed l := by
  induction h with
  | nil => exact ⟨rfl, rfl, rfl, rfl⟩
  | cons h _ ih =>
    obtain ⟨i1, i2, i3, i4⟩ := ih
    rcases h with ⟨c, rfl, rfl⟩ | ⟨x, y, rfl, rfl, h, -⟩
    · exact ⟨i1, by simp [i2, Opd.cf], by simp [i3, Opd.vt], i4⟩
    · exact ⟨by simp [flags, i1, h.comoving], by simp [i2, Opd.cf, h.cf], by simp [i3, Opd.vt, h.vt], by simp [anyFixed, i4, h.vt]⟩

private theorem rel_allToComoving {n : Nat} {rows : List Int} {l m : List Opd} (h : List.Forall₂ (Rel n rows) l m) :
    (∃ e, allToComoving l = .error e ∧ allToComoving m = .error e) ∨
      ∃ l' m', allToComoving l = .ok l' ∧ allToComoving m = .ok m' ∧ List.Forall₂ (Rel n rows) l' m' := by
  induction h with
  | nil => exact .inr ⟨[], [], rfl, rfl, .nil⟩
  | @cons o p l m h hl ih =>
    have tail : ∀ {o' p' : Opd}, Rel n rows o' p' →
        (∃ e, (allToComoving l).map (fun r => o' :: r) = .error e ∧ (allToComoving m).map (fun r => p' :: r) = .error e) ∨
        ∃ l' m', (allToComoving l).map (fun r => o' :: r) = .ok l' ∧ (allToComoving m).map (fun r => p' :: r) = .ok m' ∧ List.Forall₂ (Rel n rows) l' m' := by
      intro o' p' h'
      rcases ih with ⟨e, e1, e2⟩ | ⟨l', m', e1, e2, hf⟩
      · exact .inl ⟨e, by rw [e1]; rfl, by rw [e2]; rfl⟩
      · exact .inr ⟨_, _, by rw [e1]; rfl, by rw [e2]; rfl, .cons h' hf⟩
    rcases h with ⟨c, rfl, rfl⟩ | ⟨x, y, rfl, rfl, h, hn⟩
    · exact tail (.inl ⟨c, rfl, rfl⟩)
    · simp only [allToComoving]
      rw [h.comoving]
      split_ifs
      · exact tail (.inr ⟨x, y, rfl, rfl, h, hn⟩)
      · rcases rel_toComoving h hn with ⟨e, e1, e2⟩ | ⟨x', y', e1, e2, h', hn'⟩
        · exact .inl ⟨e, by rw [e1], by rw [e2]⟩
        · rw [e1, e2]
          exact tail (.inr ⟨x', y', rfl, rfl, h', hn'⟩)

private theorem rel_allToPhysical {n : Nat} {rows : List Int} {l m : List Opd} (h : List.Forall₂ (Rel n rows) l m) :
    (∃ e, allToPhysical l = .error e ∧ allToPhysical m = .error e) ∨
      ∃ l' m', allToPhysical l = .ok l' ∧ allToPhysical m = .ok m' ∧ List.Forall₂ (Rel n rows) l' m' := by
  induction h with
  | nil => exact .inr ⟨[], [], rfl, rfl, .nil⟩
  | @cons o p l m h hl ih =>
    have tail : ∀ {o' p' : Opd}, Rel n rows o' p' →
        (∃ e, (allToPhysical l).map (fun r => o' :: r) = .error e ∧ (allToPhysical m).map (fun r => p' :: r) = .error e) ∨
        ∃ l' m', (allToPhysical l).map (fun r => o' :: r) = .ok l' ∧ (allToPhysical m).map (fun r => p' :: r) = .ok m' ∧ List.Forall₂ (Rel n rows) l' m' := by
      intro o' p' h'
      rcases ih with ⟨e, e1, e2⟩ | ⟨l', m', e1, e2, hf⟩
      · exact .inl ⟨e, by rw [e1]; rfl, by rw [e2]; rfl⟩
      · exact .inr ⟨_, _, by rw [e1]; rfl, by rw [e2]; rfl, .cons h' hf⟩
    rcases h with ⟨c, rfl, rfl⟩ | ⟨x, y, rfl, rfl, h, hn⟩
    · exact tail (.inl ⟨c, rfl, rfl⟩)
    · simp only [allToPhysical]
      rw [h.comoving]
      split_ifs
      · exact tail (.inr ⟨x, y, rfl, rfl, h, hn⟩)
      · rcases rel_toPhysical h hn with ⟨e, e1, e2⟩ | ⟨x', y', e1, e2, h', hn'⟩
        · exact .inl ⟨e, by rw [e1], by rw [e2]⟩
        · rw [e1, e2]
          exact tail (.inr ⟨x', y', rfl, rfl, h', hn'⟩)

private theorem rel_prepare {n : Nat} {rows : List Int} {l m : List Opd} (h : List.Forall₂ (Rel n rows) l m) :
    (∃ e, prepare true l [] = .error e ∧ prepare true m [] = .error e) ∨
      ∃ p q, prepare true l [] = .ok p ∧ prepare true m [] = .ok q ∧ List.Forall₂ (Rel n rows) p.args q.args ∧ q.cfs = p.cfs ∧
        q.comoving = p.comoving ∧ q.vt = p.vt ∧ p.cfs = l.map Opd.cf := by
  obtain ⟨h1, h2, h3, h4⟩ := rel_attrs h
  unfold prepare
  simp only [h1, h2, h3, h4]
  split_ifs
  · exact .inr ⟨_, _, rfl, rfl, h, rfl, rfl, rfl, rfl⟩
  · exact .inr ⟨_, _, rfl, rfl, h, rfl, rfl, rfl, rfl⟩
  · exact .inr ⟨_, _, rfl, rfl, h, rfl, rfl, rfl, rfl⟩
  · exact .inl ⟨_, rfl, rfl⟩
  · exact .inr ⟨_, _, rfl, rfl, h, rfl, rfl, rfl, rfl⟩
  · rcases rel_allToComoving h with ⟨e, e1, e2⟩ | ⟨l', m', e1, e2, hf⟩
    · rw [e1, e2]; exact .inl ⟨e, rfl, rfl⟩
    · rw [e1, e2]; exact .inr ⟨_, _, rfl, rfl, hf, rfl, rfl, rfl, rfl⟩
  · rcases rel_allToPhysical h with ⟨e, e1, e2⟩ | ⟨l', m', e1, e2, hf⟩
    · rw [e1, e2]; exact .inl ⟨e, rfl, rfl⟩
    · rw [e1, e2]; exact .inr ⟨_, _, rfl, rfl, hf, rfl, rfl, rfl, rfl⟩

private theorem bcast2_left {β : Type} (f : ℝ → ℝ → β) (c : ℝ) (ys : List ℝ) : bcast2 f [c] ys = .ok (ys.map (f c)) := by
  unfold bcast2
  match ys with
  | [] => rfl
  | [y] => rfl
  | y :: z :: ys => simp

private theorem bcast2_right {β : Type} (f : ℝ → ℝ → β) (c : ℝ) (xs : List ℝ) : bcast2 f xs [c] = .ok (xs.map (f · c)) := by
  unfold bcast2
  match xs with
  | [] => rfl
  | [x] => rfl
  | x :: z :: xs => simp

private theorem rel_bcast {β : Type} (f : ℝ → ℝ → β) {n : Nat} {rows : List Int} {o o' p p' : Opd} (ho : Rel n rows o o') (hp : Rel n rows p p') :
    (∃ v, bcast2 f o.vals p.vals = .ok [v] ∧ bcast2 f o'.vals p'.vals = .ok [v] ∧ ∃ c d, o = .plain [c] ∧ p = .plain [d]) ∨
      ∃ v v', bcast2 f o.vals p.vals = .ok v ∧ bcast2 f o'.vals p'.vals = .ok v' ∧ v'.map some = select v rows ∧ v.length = n := by
  rcases ho with ⟨c, rfl, rfl⟩ | ⟨x, x', rfl, rfl, hx, hnx⟩
  · rcases hp with ⟨d, rfl, rfl⟩ | ⟨y, y', rfl, rfl, hy, hny⟩
    · exact .inl ⟨f c d, bcast2_left f c [d], bcast2_left f c [d], c, d, rfl, rfl⟩
    · exact .inr ⟨_, _, bcast2_left f c _, bcast2_left f c _, rows_map _ hy.vals, by simpa [Opd.vals] using hny⟩
  · rcases hp with ⟨d, rfl, rfl⟩ | ⟨y, y', rfl, rfl, hy, hny⟩
    · exact .inr ⟨_, _, bcast2_right f d _, bcast2_right f d _, rows_map _ hx.vals, by simpa [Opd.vals] using hnx⟩
    · refine .inr ⟨List.zipWith f x.val y.val, List.zipWith f x'.val y'.val, ?_, ?_, rows_zip f hx.vals hy.vals, by simp [hnx, hny]⟩
      · simp [bcast2, Opd.vals, hnx, hny]
      · simp [bcast2, Opd.vals, rows_length hx.vals, rows_length hy.vals]

private theorem map_cons_ok {α : Type} {A : Except Err (List α)} {o : α} {r : List α} (h : A.map (fun t => o :: t) = .ok r) :
    ∃ t, A = .ok t ∧ r = o :: t := by
  cases A with
  | error e => cases h
  | ok t => exact ⟨t, rfl, (Except.ok.inj h).symm⟩

private theorem flags_allToComoving : ∀ (l r : List Opd), allToComoving l = .ok r → flags r = [] → flags l = []
  | [], _, _, _ => rfl
  | .plain v :: l, r, h, hr => by
    obtain ⟨t, e, rfl⟩ := map_cons_ok h
    exact flags_allToComoving l t e hr
  | .cosmo x :: l, r, h, hr => by
    simp only [allToComoving] at h
    split_ifs at h
    · obtain ⟨t, e, rfl⟩ := map_cons_ok h
      simp [flags] at hr
    · cases hx : x.toComoving with
      | error e => rw [hx] at h; cases h
      | ok y =>
        rw [hx] at h
        obtain ⟨t, e, rfl⟩ := map_cons_ok h
        simp [flags] at hr

private theorem flags_allToPhysical : ∀ (l r : List Opd), allToPhysical l = .ok r → flags r = [] → flags l = []
  | [], _, _, _ => rfl
  | .plain v :: l, r, h, hr => by
    obtain ⟨t, e, rfl⟩ := map_cons_ok h
    exact flags_allToPhysical l t e hr
  | .cosmo x :: l, r, h, hr => by
    simp only [allToPhysical] at h
    split_ifs at h
    · obtain ⟨t, e, rfl⟩ := map_cons_ok h
      simp [flags] at hr
    · cases hx : x.toPhysical with
      | error e => rw [hx] at h; cases h
      | ok y =>
        rw [hx] at h
        obtain ⟨t, e, rfl⟩ := map_cons_ok h
        simp [flags] at hr

private theorem flags_prepare {l : List Opd} {p : Prepared} (h : prepare true l [] = .ok p) (hp : flags p.args = []) : flags l = [] := by
  unfold prepare at h
  dsimp only at h
  split_ifs at h
  · cases h; exact hp
  · cases h; exact hp
  · cases h; exact hp
  · cases h; exact hp
  · cases e : allToComoving l with
    | error q => rw [e] at h; cases h
    | ok r =>
      rw [e] at h
      cases h
      exact flags_allToComoving l r e hp
  · cases e : allToPhysical l with
    | error q => rw [e] at h; cases h
    | ok r =>
      rw [e] at h
      cases h
      exact flags_allToPhysical l r e hp

private theorem rel_num2 {β : Type} (fn : ℝ → ℝ → β) {n : Nat} {rows : List Int} {o o' p p' : Opd} (ho : Rel n rows o o') (hp : Rel n rows p p')
    (hne : flags [o, p] ≠ []) :
    (∃ e, prepare true [o, p] [] = .error e ∧ prepare true [o', p'] [] = .error e) ∨
      ∃ P Q v v', prepare true [o, p] [] = .ok P ∧ prepare true [o', p'] [] = .ok Q ∧ Q.cfs = P.cfs ∧ Q.comoving = P.comoving ∧ Q.vt = P.vt ∧
        num2 fn (P.args.map Opd.vals) = .ok v ∧ num2 fn (Q.args.map Opd.vals) = .ok v' ∧ v'.map some = select v rows ∧ v.length = n := by
  have hf : List.Forall₂ (Rel n rows) [o, p] [o', p'] := .cons ho (.cons hp .nil)
  rcases rel_prepare hf with ⟨e, e1, e2⟩ | ⟨P, Q, e1, e2, ha, hcf, hc, hv, -⟩
  · exact .inl ⟨e, e1, e2⟩
  · refine .inr ⟨P, Q, ?_⟩
    have hlen : P.args.length = 2 := by
      unfold prepare at e1
      dsimp only at e1
      have l1 : ∀ (l r : List Opd), allToComoving l = .ok r → r.length = l.length := by
        intro l
        induction l with
        | nil => intro r h; cases h; rfl
        | cons q l ih =>
          intro r h
          cases q with
          | plain v =>
            obtain ⟨t, e, rfl⟩ := map_cons_ok h
            simp [ih t e]
          | cosmo x =>
            simp only [allToComoving] at h
            split_ifs at h
            · obtain ⟨t, e, rfl⟩ := map_cons_ok h
              simp [ih t e]
            · cases hx : x.toComoving with
              | error e => rw [hx] at h; cases h
              | ok y =>
                rw [hx] at h
                obtain ⟨t, e, rfl⟩ := map_cons_ok h
                simp [ih t e]
      have l2 : ∀ (l r : List Opd), allToPhysical l = .ok r → r.length = l.length := by
        intro l
        induction l with
        | nil => intro r h; cases h; rfl
        | cons q l ih =>
          intro r h
          cases q with
          | plain v =>
            obtain ⟨t, e, rfl⟩ := map_cons_ok h
            simp [ih t e]
          | cosmo x =>
            simp only [allToPhysical] at h
            split_ifs at h
            · obtain ⟨t, e, rfl⟩ := map_cons_ok h
              simp [ih t e]
            · cases hx : x.toPhysical with
              | error e => rw [hx] at h; cases h
              | ok y =>
                rw [hx] at h
                obtain ⟨t, e, rfl⟩ := map_cons_ok h
                simp [ih t e]
      split_ifs at e1
      · cases e1; rfl
      · cases e1; rfl
      · cases e1; rfl
      · cases e1; rfl
      · cases e : allToComoving [o, p] with
        | error q => rw [e] at e1; cases e1
        | ok r =>
          rw [e] at e1
          cases e1
          exact l1 _ r e
      · cases e : allToPhysical [o, p] with
        | error q => rw [e] at e1; cases e1
        | ok r =>
          rw [e] at e1
          cases e1
          exact l2 _ r e
    have hfl := fun h => hne (flags_prepare e1 h)
    revert ha hfl hlen
    generalize P.args = A
    generalize Q.args = B
    intro ha hlen hfl
    match A, B, ha with
    | [], _, _ => simp at hlen
    | [_], _, _ => simp at hlen
    | _ :: _ :: _ :: _, _, _ => simp at hlen
    | [a, b], [a', b'], .cons h1 (.cons h2 .nil) =>
      simp only [List.map_cons, List.map_nil, num2]
      rcases rel_bcast fn h1 h2 with ⟨v, -, -, c, d, rfl, rfl⟩ | ⟨v, v', b1, b2, hs, hn⟩
      · exact absurd rfl hfl
      · exact ⟨v, v', e1, e2, hcf, hc, hv, b1, b2, hs, hn⟩

private theorem rel_ufunc2 {u : Ufunc} {fn : ℝ → ℝ → ℝ} {n : Nat} {rows : List Int} {o o' p p' : Opd} (ho : Rel n rows o o') (hp : Rel n rows p p')
    (hne : flags [o, p] ≠ []) (hh : ∀ cfs, handle (registry u) cfs [o, p] = handle (registry u) cfs [o', p']) :
    RelE n rows ((ufunc u (num2 fn) [o, p]).map .cosmo) ((ufunc u (num2 fn) [o', p']).map .cosmo) := by
  unfold ufunc
  rcases rel_num2 fn ho hp hne with ⟨e, e1, e2⟩ | ⟨P, Q, v, v', e1, e2, hcf, hc, hv, n1, n2, hs, hn⟩
  · rw [e1, e2]
    exact .inl ⟨e, rfl, rfl⟩
  · rw [e1, e2]
    dsimp only
    rw [hcf, hh]
    cases handle (registry u) P.cfs [o', p'] with
    | error e => exact .inl ⟨e, rfl, rfl⟩
    | ok c =>
      dsimp only
      rw [n1, n2]
      exact .inr ⟨_, _, rfl, rfl, .inr ⟨_, _, rfl, rfl, ⟨hs, hc, rfl, hv⟩, hn⟩⟩

private theorem rel_ufunc1 {u : Ufunc} {fn : ℝ → ℝ} {n : Nat} {rows : List Int} {x y : Arr} (h : RowsOfArray rows x y) (hn : x.val.length = n)
    (hh : ∀ cfs, handle (registry u) cfs [.cosmo x] = handle (registry u) cfs [.cosmo y]) :
    RelE n rows ((ufunc u (num1 fn) [.cosmo x]).map .cosmo) ((ufunc u (num1 fn) [.cosmo y]).map .cosmo) := by
  have key : ∀ z : Arr, prepare true [.cosmo z] [] =
      .ok { args := [.cosmo z], kw := [], cfs := [z.cf], kwcfs := [], comoving := z.comoving, vt := z.vt } := by
    intro z
    rcases hz : z.comoving with _ | _ | _ <;> simp [prepare, flags, hz, Opd.cf, Opd.vt]
  unfold ufunc
  rw [key x, key y]
  dsimp only
  rw [h.cf, hh]
  cases handle (registry u) [x.cf] [.cosmo y] with
  | error e => exact .inl ⟨e, rfl, rfl⟩
  | ok c => exact .inr ⟨_, _, rfl, rfl, .inr ⟨_, _, rfl, rfl, ⟨rows_map fn h.vals, h.comoving, rfl, h.vt⟩, by simpa [Opd.vals] using hn⟩⟩

private theorem rel2 {n : Nat} {rows : List Int} (f : Bin) {o o' p p' : Opd} (ho : Rel n rows o o') (hp : Rel n rows p p') :
    RelE n rows (apply2 f o p) (apply2 f o' p') := by
  have hh : ∀ cfs, handle (registry f.ufunc) cfs [o, p] = handle (registry f.ufunc) cfs [o', p'] := by
    intro cfs
    rcases cfs with _ | ⟨a, _ | ⟨b, _ | ⟨c, l⟩⟩⟩ <;> cases f <;> rfl
  have ho' := ho
  have hp' := hp
  rcases ho' with ⟨c, rfl, rfl⟩ | ⟨x, x', rfl, rfl, -⟩
  · rcases hp' with ⟨d, rfl, rfl⟩ | ⟨y, y', rfl, rfl, -⟩
    · refine .inr ⟨.plain [f.fn c d], .plain [f.fn c d], ?_, ?_, .inl ⟨_, rfl, rfl⟩⟩ <;> simp [apply2, num2, bcast2_left, Except.map]
    · exact rel_ufunc2 ho hp (by simp [flags]) hh
  · rcases hp' with ⟨d, rfl, rfl⟩ | ⟨y, y', rfl, rfl, -⟩
    · exact rel_ufunc2 ho hp (by simp [flags]) hh
    · exact rel_ufunc2 ho hp (by simp [flags]) hh

private theorem rel {n : Nat} {rows : List Int} {env env' : Nat → Arr} (henv : ∀ i, RowsOfArray rows (env i) (env' i))
    (hn : ∀ i, (env i).val.length = n) : ∀ e, RowByRow e → RelE n rows (eval env e) (eval env' e)
  | .var i, _ => .inr ⟨_, _, rfl, rfl, .inr ⟨_, _, rfl, rfl, henv i, hn i⟩⟩
  | .nums v, ⟨c, hc⟩ => .inr ⟨_, _, rfl, rfl, .inl ⟨c, by rw [hc], by rw [hc]⟩⟩
  | .two f s t, h => relE_bind (rel henv hn s h.1) fun _ _ ho => relE_bind (rel henv hn t h.2) fun _ _ hp => rel2 f ho hp
  | .one f s, h => relE_bind (rel henv hn s h) fun o p ho => by
    rcases ho with ⟨c, rfl, rfl⟩ | ⟨x, y, rfl, rfl, hx, hn⟩
    · exact .inr ⟨_, _, rfl, rfl, .inl ⟨_, rfl, rfl⟩⟩
    · exact rel_ufunc1 hx hn (fun cfs => by rcases cfs with _ | ⟨a, _ | ⟨b, _ | ⟨c, l⟩⟩⟩ <;> cases f <;> rfl)
  | .pow s q, h => relE_bind (rel henv hn s h) fun o p ho => by
    rcases ho with ⟨c, rfl, rfl⟩ | ⟨x, y, rfl, rfl, hx, hn⟩
    · exact .inr ⟨_, _, rfl, rfl, .inl ⟨_, rfl, rfl⟩⟩
    · exact rel_ufunc2 (.inr ⟨x, y, rfl, rfl, hx, hn⟩) (.inl ⟨q, rfl, rfl⟩) (by simp [flags])
        (fun cfs => by rcases cfs with _ | ⟨a, _ | ⟨b, _ | ⟨c, l⟩⟩⟩ <;> rfl)
  | .whole _ _, h => h.elim
  | .physical s, h => relE_bind (rel henv hn s h) fun o p ho => by
    rcases ho with ⟨c, rfl, rfl⟩ | ⟨x, y, rfl, rfl, hx, hn⟩
    · exact .inl ⟨_, rfl, rfl⟩
    · simp only [applyTo, if_true]
      rcases rel_toPhysical hx hn with ⟨e, e1, e2⟩ | ⟨x', y', e1, e2, h', hn'⟩
      · exact .inl ⟨e, by rw [e1]; rfl, by rw [e2]; rfl⟩
      · exact .inr ⟨_, _, by rw [e1]; rfl, by rw [e2]; rfl, .inr ⟨x', y', rfl, rfl, h', hn'⟩⟩
  | .comoving s, h => relE_bind (rel henv hn s h) fun o p ho => by
    rcases ho with ⟨c, rfl, rfl⟩ | ⟨x, y, rfl, rfl, hx, hn⟩
    · exact .inl ⟨_, rfl, rfl⟩
    · simp only [applyTo, Bool.false_eq_true, if_false]
      rcases rel_toComoving hx hn with ⟨e, e1, e2⟩ | ⟨x', y', e1, e2, h', hn'⟩
      · exact .inl ⟨e, by rw [e1]; rfl, by rw [e2]; rfl⟩
      · exact .inr ⟨_, _, by rw [e1]; rfl, by rw [e2]; rfl, .inr ⟨x', y', rfl, rfl, h', hn'⟩⟩

/-- C115: a formula without functions of whole arrays, of some rows of arrays of equal lengths, gives these rows of the formula of the
arrays, with the same attributes; it fails with the same error if and only if the other one does. Rows may be repeated and in any order. -/
theorem c115_rows {n : Nat} {rows : List Int} {env env' : Nat → Arr} (henv : ∀ i, RowsOfArray rows (env i) (env' i))
    (hn : ∀ i, (env i).val.length = n) {e : Expr} (he : RowByRow e) :
    (∃ q, eval env e = .error q ∧ eval env' e = .error q) ∨
    (∃ c, eval env e = .ok (.plain [c]) ∧ eval env' e = .ok (.plain [c])) ∨
    ∃ x y, eval env e = .ok (.cosmo x) ∧ eval env' e = .ok (.cosmo y) ∧ RowsOfArray rows x y ∧ x.val.length = n := by
  rcases rel henv hn e he with h | ⟨o, p, e1, e2, ⟨c, rfl, rfl⟩ | ⟨x, y, rfl, rfl, h⟩⟩
  · exact .inl h
  · exact .inr (.inl ⟨c, e1, e2⟩)
  · exact .inr (.inr ⟨x, y, e1, e2, h⟩)

private theorem bind_ok {α β : Type} {A : Except Err α} {g : α → Except Err β} {b : β} (h : A.bind g = .ok b) : ∃ a, A = .ok a ∧ g a = .ok b := by
  cases A with
  | error e => cases h
  | ok a => exact ⟨a, rfl, h⟩

private theorem map_not_plain {A : Except Err Arr} {v : List ℝ} (h : A.map Opd.cosmo = .ok (.plain v)) : False := by
  cases A <;> cases h

private theorem plain_bare {env : Nat → Arr} : ∀ (e : Expr) {v : List ℝ}, eval env e = .ok (.plain v) → Bare e
  | .var i, v, h => by cases h
  | .nums v, _, _ => trivial
  | .two f s t, v, h => by
    obtain ⟨o, ho, h⟩ := bind_ok h
    obtain ⟨p, hp, h⟩ := bind_ok h
    cases o with
    | cosmo x => exact (map_not_plain h).elim
    | plain u => cases p with
      | cosmo y => exact (map_not_plain h).elim
      | plain w => exact ⟨plain_bare s ho, plain_bare t hp⟩
  | .one f s, v, h => by
    obtain ⟨o, ho, h⟩ := bind_ok h
    cases o with
    | cosmo x => exact (map_not_plain h).elim
    | plain u => exact plain_bare s ho
  | .pow s q, v, h => by
    obtain ⟨o, ho, h⟩ := bind_ok h
    cases o with
    | cosmo x => exact (map_not_plain h).elim
    | plain u => exact plain_bare s ho
  | .whole f s, v, h => by
    obtain ⟨o, ho, h⟩ := bind_ok h
    cases o with
    | cosmo x => cases h
    | plain u => exact plain_bare s ho
  | .physical s, v, h => by
    obtain ⟨o, ho, h⟩ := bind_ok h
    cases o with
    | cosmo x => exact (map_not_plain h).elim
    | plain u => cases h
  | .comoving s, v, h => by
    obtain ⟨o, ho, h⟩ := bind_ok h
    cases o with
    | cosmo x => exact (map_not_plain h).elim
    | plain u => cases h

/-- C115: a comparison of two formulas of some rows is these rows of the comparison. -/
theorem c115_compare {β : Type} {n : Nat} {rows : List Int} {env env' : Nat → Arr} (henv : ∀ i, RowsOfArray rows (env i) (env' i))
    (hn : ∀ i, (env i).val.length = n) {s t : Expr} (hs : RowByRow s) (ht : RowByRow t) (hb : ¬ (Bare s ∧ Bare t)) (u : Ufunc)
    (hu : registry u = .comparison) (r : ℝ → ℝ → β) :
    (∃ q, Formulas.compare u r env s t = .error q ∧ Formulas.compare u r env' s t = .error q) ∨
    ∃ v w, Formulas.compare u r env s t = .ok v ∧ Formulas.compare u r env' s t = .ok w ∧ w.map some = select v rows ∧ v.length = n := by
  unfold Formulas.compare
  rcases rel henv hn s hs with ⟨q, e1, e2⟩ | ⟨o, o', e1, e2, ho⟩
  · rw [e1, e2]; exact .inl ⟨q, rfl, rfl⟩
  rcases rel henv hn t ht with ⟨q, f1, f2⟩ | ⟨p, p', f1, f2, hp⟩
  · rw [e1, e2, f1, f2]; exact .inl ⟨q, rfl, rfl⟩
  rw [e1, e2, f1, f2]
  have hne : flags [o, p] ≠ [] := by
    intro h
    obtain ⟨v, w, rfl, rfl⟩ := not_flags_nil h
    exact hb ⟨plain_bare s e1, plain_bare t f1⟩
  have key : (∃ q, ufuncBool u (num2 r) [o, p] = .error q ∧ ufuncBool u (num2 r) [o', p'] = .error q) ∨
      ∃ v w, ufuncBool u (num2 r) [o, p] = .ok v ∧ ufuncBool u (num2 r) [o', p'] = .ok w ∧ w.map some = select v rows ∧ v.length = n := by
    unfold ufuncBool
    have hh : ∀ cfs, handle (registry u) cfs [o, p] = handle (registry u) cfs [o', p'] := by
      intro cfs
      rw [hu]
      rcases cfs with _ | ⟨a, _ | ⟨b, _ | ⟨c, l⟩⟩⟩ <;> rfl
    rcases rel_num2 r ho hp hne with ⟨e, g1, g2⟩ | ⟨P, Q, v, v', g1, g2, hcf, -, -, n1, n2, hs, hn⟩
    · rw [g1, g2]
      exact .inl ⟨e, rfl, rfl⟩
    · rw [g1, g2]
      dsimp only
      rw [hcf, hh]
      cases handle (registry u) P.cfs [o', p'] with
      | error e => exact .inl ⟨e, rfl, rfl⟩
      | ok c =>
        dsimp only
        exact .inr ⟨v, v', n1, n2, hs, hn⟩
  rcases ho with ⟨c, rfl, rfl⟩ | ⟨x, x', rfl, rfl, -⟩
  · rcases hp with ⟨d, rfl, rfl⟩ | ⟨y, y', rfl, rfl, -⟩
    · exact absurd rfl hne
    · exact key
  · exact key

section
open Verif.Accel Verif.Mask
variable {K : Type} [Field K] [LinearOrder K] [IsStrictOrderedRing K] {m : Nat}

/-- C115: the rows that a mask loads are the same for all fields, whatever their types and layouts are. -/
theorem c115_mask_rows (f : File K m) (hf : WF f) (ops : List (Op K)) (hi : ∀ op ∈ ops, IndicesOk f op) (k : Fin m) :
    ∃ rows : List Int, ∀ (α : Type) (ds : List α) (lay : Layout), ds.length = f.rows k → lay ≠ .remote → (∀ c, lay = .chunked c → 0 < c) →
      load (run f ops) lay ds k = .ok (select ds rows) := by
  have h0 := inv_run f hf ops hi
  have h1 := inv_toRanges f _ _ h0
  have hrep : ∃ r, (toRanges (run f ops)).rep = .ranges r := by
    cases hs : (run f ops).rep with
    | bools b => exact ⟨_, by unfold toRanges; rw [hs]⟩
    | ranges r => exact ⟨r, by unfold toRanges; rw [hs]; exact hs⟩
  obtain ⟨r, hr⟩ := hrep
  obtain ⟨_, hk⟩ := h1.ranges r hr
  obtain ⟨hg, hm, hsz, hst⟩ := hk k
  have hsize : ((toRanges (run f ops)).size k).toNat = (rowsOf (r k)).length := by rw [hsz]; simp
  refine ⟨rowsOf (r k), fun α ds lay hds hlay hc => ?_⟩
  unfold load
  rw [hr]
  dsimp only
  rw [hsize]
  have hib : InBounds ds.length (r k) := by rw [hds]; exact hg.inb
  cases lay with
  | remote => exact absurd rfl hlay
  | contiguous => exact c03_unchunked_read ds (r k) hib
  | chunked c =>
    unfold readRanges
    dsimp only
    by_cases hmb : meanBelow (r k) 500000 = true
    · rw [if_pos hmb]
      refine c03_chunked_read ds c (hc c rfl) (r k) ?_ hib hg.ord
      intro he
      rw [he] at hmb
      simp [meanBelow] at hmb
    · rw [if_neg hmb]
      exact c03_unchunked_read ds (r k) hib

/-- C115: a formula of fields read with a mask gives what the mask would load from a field that holds the formula of all rows, whatever
the layouts of the fields are. -/
theorem c115_masked (f : File K m) (hf : WF f) (ops : List (Op K)) (hi : ∀ op ∈ ops, IndicesOk f op) (k : Fin m) (lay : Nat → Layout)
    (hlay : ∀ i, lay i ≠ .remote ∧ ∀ c, lay i = .chunked c → 0 < c) {env env' : Nat → Arr} (hn : ∀ i, (env i).val.length = f.rows k)
    (hload : ∀ i, load (run f ops) (lay i) (env i).val k = .ok ((env' i).val.map some))
    (hattr : ∀ i, (env' i).comoving = (env i).comoving ∧ (env' i).cf = (env i).cf ∧ (env' i).vt = (env i).vt) {e : Expr} (he : RowByRow e) :
    (∃ q, eval env e = .error q ∧ eval env' e = .error q) ∨
    (∃ c, eval env e = .ok (.plain [c]) ∧ eval env' e = .ok (.plain [c])) ∨
    ∃ x y, eval env e = .ok (.cosmo x) ∧ eval env' e = .ok (.cosmo y) ∧ y.comoving = x.comoving ∧ y.cf = x.cf ∧ y.vt = x.vt ∧
      x.val.length = f.rows k ∧ ∀ l : Layout, l ≠ .remote → (∀ c, l = .chunked c → 0 < c) →
        load (run f ops) l x.val k = .ok (y.val.map some) := by
  obtain ⟨rows, hrows⟩ := c115_mask_rows f hf ops hi k
  have henv : ∀ i, RowsOfArray rows (env i) (env' i) := by
    intro i
    refine ⟨?_, (hattr i).1, (hattr i).2.1, (hattr i).2.2⟩
    have h := hrows ℝ (env i).val (lay i) (hn i) (hlay i).1 (hlay i).2
    rw [hload i] at h
    exact Except.ok.inj h
  rcases c115_rows (n := (env 0).val.length) henv (fun i => by have h1 := hn i; have h2 := hn 0; omega) he with h | h | ⟨x, y, e1, e2, h, hx⟩
  · exact .inl h
  · exact .inr (.inl h)
  · have hx' : x.val.length = f.rows k := by have h2 := hn 0; omega
    refine .inr (.inr ⟨x, y, e1, e2, h.comoving, h.cf, h.vt, hx', fun l hl hc => ?_⟩)
    rw [hrows ℝ x.val l hx' hl hc, h.vals]

/-! Example: `2 * x / y` for six comoving lengths and six physical speeds, of which a region of the box has the third and the fourth. -/

private noncomputable def allX : Arr := ⟨[1, 2, 3, 4, 5, 6], some true, some ⟨some 1, some (1 / 2)⟩, true⟩
private noncomputable def allY : Arr := ⟨[2, 2, 4, 4, 8, 8], some false, some ⟨some 0, some (1 / 2)⟩, true⟩
private noncomputable def someX : Arr := { allX with val := [3, 4] }
private noncomputable def someY : Arr := { allY with val := [4, 4] }
private noncomputable def allE : Nat → Arr
  | 0 => allX
  | _ => allY
private noncomputable def someE : Nat → Arr
  | 0 => someX
  | _ => someY
private def region : List (Op ℚ) := [.spatial [some [5 / 4, 9 / 4], none, none] false]
private noncomputable def quotient : Expr := .two .divide (.two .multiply (.nums [2]) (.var 0)) (.var 1)

private theorem two_rows {rows : List Int} (h : select (List.range 6) rows = [some 2, some 3]) : rows = [2, 3] := by
  have at' : ∀ (i : Int) (j : Nat), valueAt (List.range 6) i = some j → i = j := by
    intro i j hi
    unfold valueAt at hi
    split_ifs at hi with h0
    have := List.getElem?_eq_some_iff.1 hi
    obtain ⟨h1, h2⟩ := this
    rw [List.getElem_range] at h2
    omega
  match rows, h with
  | [a, b], h =>
    simp only [select, List.map_cons, List.map_nil, List.cons.injEq, and_true] at h
    rw [at' a 2 h.1, at' b 3 h.2]
    rfl
  | [], h => simp [select] at h
  | [_], h => simp [select] at h
  | _ :: _ :: _ :: _, h => simp [select] at h

private theorem region_loads (ds : List ℝ) (hd : ds.length = 6) (lay : Layout) (h1 : lay ≠ .remote) (h2 : ∀ c, lay = .chunked c → 0 < c) :
    load (run exFile region) lay ds 0 = .ok (select ds [2, 3]) := by
  have hi : ∀ op ∈ region, IndicesOk exFile op := by
    intro op hop
    rw [region, List.mem_singleton] at hop
    rw [hop]
    trivial
  obtain ⟨rows, hr⟩ := c115_mask_rows exFile exFile_wf region hi 0
  have e : load (run exFile region) .contiguous (List.range 6) 0 = .ok [some 2, some 3] := by decide +kernel
  have e2 := hr ℕ (List.range 6) .contiguous rfl (by simp) (by simp)
  rw [e] at e2
  rw [hr ℝ ds lay (by rw [hd]; rfl) h1 h2, two_rows (Except.ok.inj e2).symm]

example : ∃ x y, eval allE quotient = .ok (.cosmo x) ∧ eval someE quotient = .ok (.cosmo y) ∧ x.val.length = 6 ∧ y.val.length = 2 ∧
    load (run exFile region) (.chunked 4) x.val 0 = .ok (y.val.map some) ∧ y.phys = [3 / 4, 1] := by
  have hi : ∀ op ∈ region, IndicesOk exFile op := by
    intro op hop
    rw [region, List.mem_singleton] at hop
    rw [hop]
    trivial
  have hconv : ∀ i, Conv (1 / 2) (if i = 0 then 1 else 0) (someE i)
    | 0 => ⟨by norm_num, rfl, rfl, by simp [someE, someX, allX]⟩
    | _ + 1 => ⟨by norm_num, rfl, rfl, by simp [someE, someY, allY]⟩
  have hq : Dimension (fun i => if i = 0 then 1 else 0) quotient (0 + 1 - 0) := .div (.mul (.nums _) (.var 0)) (.var 1)
  have hm : (eval someE quotient).map Opd.phys = .ok [3 / 4, 1] := by
    rw [c114_value (by norm_num) hconv hq]
    simp only [quotient, meaning, someE, Arr.phys, someX, allX, someY, allY, Except.bind, bcast2, List.map_cons, List.map_nil, Real.rpow_one]
    norm_num [numbers2]
  rcases c115_masked exFile exFile_wf region hi 0 (fun _ => .chunked 4) (fun _ => ⟨by simp, by simp⟩) (env := allE) (env' := someE)
      (fun i => by cases i <;> rfl) (fun i => by
        rw [region_loads _ (by cases i <;> rfl) _ (by simp) (by simp)]
        cases i <;> rfl) (fun i => by cases i <;> exact ⟨rfl, rfl, rfl⟩) (e := quotient) ⟨⟨⟨2, rfl⟩, trivial⟩, trivial⟩ with
    ⟨q, e1, e2⟩ | ⟨c, e1, e2⟩ | ⟨x, y, e1, e2, -, -, -, hx, hl⟩
  · rw [e2] at hm; cases hm
  · rw [e2] at hm
    have := Except.ok.inj hm
    simp [Opd.phys] at this
  · rw [e2] at hm
    have hy : y.phys = [3 / 4, 1] := Except.ok.inj hm
    have hx6 : x.val.length = 6 := by have : (exFile.rows 0 : Int) = 6 := rfl; omega
    refine ⟨x, y, e1, e2, hx6, ?_, hl _ (by simp) (by simp), hy⟩
    have := hl .contiguous (by simp) (by simp)
    rw [region_loads _ hx6 _ (by simp) (by simp)] at this
    have := rows_length (Except.ok.inj this).symm
    simpa using this

/-- The comparison `x < y * x` of the two rows, and an order with repeated rows. -/
example : (∀ i, RowsOfArray [2, 3] (allE i) (someE i)) ∧ registry .less = .comparison ∧
    ¬ (Bare (.var 0) ∧ Bare (.two .multiply (.var 1) (.var 0))) ∧
    RowsOfArray [3, 1, 1] allX { allX with val := [4, 2, 2] } :=
  ⟨fun i => by cases i <;> exact ⟨rfl, rfl, rfl, rfl⟩, rfl, fun h => h.1, ⟨rfl, rfl, rfl, rfl⟩⟩

end

end Verif.Props
