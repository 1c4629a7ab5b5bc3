import Verif.Model.Fields
import Mathlib.Data.List.Count

/-!
# C21: lazily read fields

The specification is a plain table of values, one per field, that starts with the contents of the file and has no cache.
-/

namespace Verif.Props
open Verif Verif.Fields

variable {V : Type}

/-- What the file holds for a field; a missing dataset is shown as `None`. -/
def fileValue (src : Source V) (o : Nat) (n : String) : Except Err (Option V) :=
  match src o n with
  | none => .error .attribute
  | some (k, .error e) => if k = .dataset ∧ e = .key then .ok none else .error e
  | some (_, .ok v) => .ok (some v)

/-- How an operation changes the entry of field `(o, n)` in the table, without a cache. Assigning `None` is the same as
deleting. -/
def tableStep (src : Source V) (o : Nat) (n : String) (cur : Except Err (Option V)) : Op V → Except Err (Option V)
  | .get _ _ => cur
  | .set o' n' none => if o' = o ∧ n' = n then fileValue src o n else cur
  | .set o' n' (some x) => if o' = o ∧ n' = n ∧ (src o n).isSome then .ok (some x) else cur
  | .del o' n' => if o' = o ∧ n' = n then fileValue src o n else cur
  | .modify o' n' f => if o' = o ∧ n' = n then cur.map (fun (x : Option V) => x.map f) else cur

/-- The entry after a history. -/
def tableValue (src : Source V) (o : Nat) (n : String) (ops : List (Op V)) : Except Err (Option V) :=
  ops.foldl (tableStep src o n) (fileValue src o n)

/-- The operation is on field `(o, n)`. -/
def touches (o : Nat) (n : String) : Op V → Bool
  | .get o' n' => o' = o && n' = n
  | .set o' n' _ => o' = o && n' = n
  | .del o' n' => o' = o && n' = n
  | .modify o' n' _ => o' = o && n' = n

/-- The operation drops the value of field `(o, n)`. -/
def drops (o : Nat) (n : String) : Op V → Bool
  | .set o' n' none => o' = o && n' = n
  | .del o' n' => o' = o && n' = n
  | _ => false

private def abs (src : Source V) (s : State V) (o : Nat) (n : String) : Except Err (Option V) :=
  match src o n with
  | none => .error .attribute
  | some _ => match s.slots o ("_" ++ n) with
    | some v => .ok (some v)
    | none => fileValue src o n

private theorem slot_inj {a b : String} : ("_" ++ a = "_" ++ b) ↔ a = b := by
  constructor
  · intro h
    have := congrArg String.toList h
    simpa [String.toList_append, String.toList_inj] using this
  · rintro rfl; rfl

private theorem put_slot (s : State V) (o o' : Nat) (n n' : String) (v : Option V) :
    (s.put o n v).slots o' ("_" ++ n') = if o' = o ∧ n' = n then v else s.slots o' ("_" ++ n') := by
  simp [State.put]

private theorem changed_cases (o : Nat) (n : String) (f : V → V) (r : State V × Except Err (Option V)) :
    changed o n f r = r.1 ∨ ∃ v, changed o n f r = r.1.put o n (some v) := by
  obtain ⟨s, e | x | v⟩ := r
  · exact Or.inl rfl
  · exact Or.inl rfl
  · exact Or.inr ⟨f v, rfl⟩

private theorem get_abs (src : Source V) (s : State V) (o : Nat) (n : String) : (getField src s o n).2 = abs src s o n := by
  unfold getField abs fileValue
  cases h : src o n with
  | none => rfl
  | some kr =>
    obtain ⟨k, r⟩ := kr
    cases hs : s.slots o ("_" ++ n) with
    | some v => rfl
    | none =>
      cases r with
      | ok v => rfl
      | error e => by_cases hk : k = .dataset ∧ e = .key <;> simp [hk]

private theorem get_slot (src : Source V) (s : State V) (o o' : Nat) (n n' : String) :
    (getField src s o n).1.slots o' ("_" ++ n') = s.slots o' ("_" ++ n') ∨
    (o' = o ∧ n' = n ∧ s.slots o ("_" ++ n) = none ∧
      ∃ k v, src o n = some (k, .ok v) ∧ (getField src s o n).1.slots o' ("_" ++ n') = some v) := by
  unfold getField
  cases h : src o n with
  | none => exact Or.inl rfl
  | some kr =>
    obtain ⟨k, r⟩ := kr
    cases hs : s.slots o ("_" ++ n) with
    | some v => exact Or.inl rfl
    | none =>
      cases r with
      | error e =>
        refine Or.inl ?_
        by_cases hk : k = .dataset ∧ e = .key <;> simp [hk]
      | ok v =>
        simp only [put_slot]
        by_cases ho : o' = o ∧ n' = n
        · exact Or.inr ⟨ho.1, ho.2, trivial, k, v, rfl, by simp [ho]⟩
        · exact Or.inl (by simp [ho])

private theorem get_keep (src : Source V) (s : State V) (o o' : Nat) (n n' : String) :
    abs src (getField src s o n).1 o' n' = abs src s o' n' := by
  rcases get_slot src s o o' n n' with h | ⟨rfl, rfl, hs, k, v, hv, h⟩
  · simp only [abs, h]
  · simp [abs, h, hs, hv, fileValue]

private theorem step_abs (src : Source V) (s : State V) (op : Op V) (o : Nat) (n : String) :
    abs src (step src s op) o n = tableStep src o n (abs src s o n) op := by
  have hput : ∀ (t : State V) (o' : Nat) (n' : String) (v : Option V), abs src (t.put o' n' v) o n =
      if o = o' ∧ n = n' then (match src o n, v with
        | none, _ => .error .attribute
        | some _, some x => .ok (some x)
        | some _, none => fileValue src o n) else abs src t o n := by
    intro t o' n' v
    unfold abs
    rw [put_slot]
    by_cases h : o = o' ∧ n = n'
    · simp only [h, and_self, if_true]
      cases src o' n' <;> cases v <;> rfl
    · simp [h]
  cases op with
  | get o' n' => exact get_keep src s o' o n' n
  | set o' n' v =>
    simp only [step]
    by_cases h : o' = o ∧ n' = n
    · obtain ⟨rfl, rfl⟩ := h
      cases hs : src o' n' with
      | none => cases v <;> simp [tableStep, hs, abs, fileValue]
      | some kr => cases v <;> simp [tableStep, hs, hput]
    · have h' : ¬ (o = o' ∧ n = n') := fun q => h ⟨q.1.symm, q.2.symm⟩
      have h'' : ¬ (o' = o ∧ n' = n ∧ (src o n).isSome = true) := fun q => h ⟨q.1, q.2.1⟩
      cases v <;> split <;> simp only [tableStep, hput, if_neg h, if_neg h', if_neg h'']
  | del o' n' =>
    simp only [step]
    by_cases h : o' = o ∧ n' = n
    · obtain ⟨rfl, rfl⟩ := h
      cases hs : src o' n' with
      | none => simp [tableStep, hs, abs, fileValue]
      | some kr => simp [tableStep, hs, hput]
    · have h' : ¬ (o = o' ∧ n = n') := fun q => h ⟨q.1.symm, q.2.symm⟩
      split <;> simp only [tableStep, hput, if_neg h, if_neg h']
  | modify o' n' f =>
    simp only [step]
    have hg := get_abs src s o' n'
    have hk := get_keep src s o' o n' n
    generalize getField src s o' n' = q at *
    obtain ⟨s', r⟩ := q
    simp only at hg hk
    by_cases h : o' = o ∧ n' = n
    · obtain ⟨rfl, rfl⟩ := h
      simp only [tableStep, and_self, if_true, ← hg]
      cases r with
      | error e => simp only [changed, hk, ← hg]; rfl
      | ok x =>
        cases x with
        | none => simp only [changed, hk, ← hg]; rfl
        | some v =>
          simp only [changed, hput, and_self, if_true]
          cases hs : src o' n' with
          | none => simp [abs, hs] at hg
          | some kr => rfl
    · have h' : ¬ (o = o' ∧ n = n') := fun q => h ⟨q.1.symm, q.2.symm⟩
      simp only [tableStep, if_neg h]
      cases r with
      | error e => exact hk
      | ok x =>
        cases x with
        | none => exact hk
        | some v => simp only [changed, hput, if_neg h']; exact hk

private theorem run_abs (src : Source V) (ops : List (Op V)) (s : State V) (o : Nat) (n : String) :
    abs src (ops.foldl (step src) s) o n = ops.foldl (tableStep src o n) (abs src s o n) := by
  induction ops generalizing s with
  | nil => rfl
  | cons op ops ih => simp only [List.foldl_cons, ih, step_abs]

/-- C21: after any history of gets, assignments, deletions and in-place changes, over any number of objects and fields,
getting a field gives what a table without a cache would give: the last value assigned since the last deletion with the
in-place changes made since then, else the value in the file with the in-place changes made to it. -/
theorem c21_get (src : Source V) (ops : List (Op V)) (o : Nat) (n : String) :
    (getField src (run src ops) o n).2 = tableValue src o n ops := by
  rw [get_abs, run, run_abs, tableValue]
  congr 1
  unfold abs
  cases h : src o n <;> simp [fileValue, h, init]

/-- A source with two fields of one object. -/
def demoSrc : Source Int := fun o n =>
  if o = 0 ∧ n = "masses" then some (.dataset, .ok 5)
  else if o = 0 ∧ n = "coordinates" then some (.dataset, .ok 8) else none

example : tableValue demoSrc 0 "masses" [.get 0 "masses", .modify 0 "masses" (· + 1), .set 0 "coordinates" (some 2),
      .modify 0 "masses" (· * 10)] = .ok (some 60) ∧
    tableValue demoSrc 0 "masses" [.set 0 "masses" (some 1), .del 0 "masses"] = .ok (some 5) := by
  simp [tableValue, tableStep, fileValue, demoSrc, Except.map]

/-- C21: operations on other fields, of the same or another object, change neither the value of a field nor when the file
is read for it: only the operations on the field itself count. -/
theorem c21_independent (src : Source V) (ops : List (Op V)) (o : Nat) (n : String) :
    (getField src (run src ops) o n).2 = (getField src (run src (ops.filter (touches o n))) o n).2 ∧
    (run src ops).log.filter (· = (o, n)) = (run src (ops.filter (touches o n))).log.filter (· = (o, n)) := by
  have hgetlog : ∀ (s t : State V), s.slots o ("_" ++ n) = t.slots o ("_" ++ n) →
      s.log.filter (· = (o, n)) = t.log.filter (· = (o, n)) →
      (getField src s o n).1.slots o ("_" ++ n) = (getField src t o n).1.slots o ("_" ++ n) ∧
      (getField src s o n).1.log.filter (· = (o, n)) = (getField src t o n).1.log.filter (· = (o, n)) ∧
      (getField src s o n).2 = (getField src t o n).2 := by
    intro s t h1 h2
    unfold getField
    cases h : src o n with
    | none => exact ⟨h1, h2, rfl⟩
    | some kr =>
      obtain ⟨k, r⟩ := kr
      simp only [h1]
      cases ht : t.slots o ("_" ++ n) with
      | some v => exact ⟨by simp [h1, ht], h2, rfl⟩
      | none =>
        cases r with
        | ok v => simp [State.put, List.filter_append, h2]
        | error e => by_cases hk : k = .dataset ∧ e = .key <;> simp [hk, h1, ht, List.filter_append, h2]
  have hother : ∀ (s : State V) (op : Op V), touches o n op = false →
      (step src s op).slots o ("_" ++ n) = s.slots o ("_" ++ n) ∧
      (step src s op).log.filter (· = (o, n)) = s.log.filter (· = (o, n)) := by
    have hg : ∀ (s : State V) (o' : Nat) (n' : String), ¬ (o' = o ∧ n' = n) →
        (getField src s o' n').1.slots o ("_" ++ n) = s.slots o ("_" ++ n) ∧
        (getField src s o' n').1.log.filter (· = (o, n)) = s.log.filter (· = (o, n)) := by
      intro s o' n' hne
      refine ⟨?_, ?_⟩
      · rcases get_slot src s o' o n' n with h | ⟨a, b, -⟩
        · exact h
        · exact absurd ⟨a.symm, b.symm⟩ hne
      · have hf : ∀ l : List (Nat × String), (l ++ [(o', n')]).filter (· = (o, n)) = l.filter (· = (o, n)) := by
          intro l
          rw [List.filter_append]
          simp [hne]
        unfold getField
        cases h : src o' n' with
        | none => rfl
        | some kr =>
          obtain ⟨k, r⟩ := kr
          cases ht : s.slots o' ("_" ++ n') with
          | some v => rfl
          | none =>
            cases r with
            | ok v => exact hf _
            | error e => by_cases hk : k = .dataset ∧ e = .key <;> simp only [hk, if_true, if_false] <;> exact hf _
    have hp : ∀ (s : State V) (o' : Nat) (n' : String) (v : Option V), ¬ (o' = o ∧ n' = n) →
        (s.put o' n' v).slots o ("_" ++ n) = s.slots o ("_" ++ n) := by
      intro s o' n' v hne
      rw [put_slot, if_neg (fun q => hne ⟨q.1.symm, q.2.symm⟩)]
    intro s op ht
    cases op with
    | get o' n' => exact hg s o' n' (by simpa [touches] using ht)
    | set o' n' v =>
      have hne : ¬ (o' = o ∧ n' = n) := by simpa [touches] using ht
      simp only [step]
      split
      · exact ⟨hp s o' n' v hne, rfl⟩
      · exact ⟨rfl, rfl⟩
    | del o' n' =>
      have hne : ¬ (o' = o ∧ n' = n) := by simpa [touches] using ht
      simp only [step]
      split
      · exact ⟨hp s o' n' none hne, rfl⟩
      · exact ⟨rfl, rfl⟩
    | modify o' n' f =>
      have hne : ¬ (o' = o ∧ n' = n) := by simpa [touches] using ht
      have := hg s o' n' hne
      simp only [step]
      generalize getField src s o' n' = q at *
      obtain ⟨s', r⟩ := q
      rcases r with e | x | v
      · exact this
      · exact this
      · exact ⟨(hp s' o' n' _ hne).trans this.1, this.2⟩
  have hsame : ∀ (s t : State V) (op : Op V), touches o n op = true →
      s.slots o ("_" ++ n) = t.slots o ("_" ++ n) → s.log.filter (· = (o, n)) = t.log.filter (· = (o, n)) →
      (step src s op).slots o ("_" ++ n) = (step src t op).slots o ("_" ++ n) ∧
      (step src s op).log.filter (· = (o, n)) = (step src t op).log.filter (· = (o, n)) := by
    intro s t op ht h1 h2
    cases op with
    | get o' n' =>
      obtain ⟨rfl, rfl⟩ : o' = o ∧ n' = n := by simpa [touches] using ht
      exact ⟨(hgetlog s t h1 h2).1, (hgetlog s t h1 h2).2.1⟩
    | set o' n' v =>
      obtain ⟨rfl, rfl⟩ : o' = o ∧ n' = n := by simpa [touches] using ht
      simp only [step]
      split
      · exact ⟨by simp [put_slot], h2⟩
      · exact ⟨h1, h2⟩
    | del o' n' =>
      obtain ⟨rfl, rfl⟩ : o' = o ∧ n' = n := by simpa [touches] using ht
      simp only [step]
      split
      · exact ⟨by simp [put_slot], h2⟩
      · exact ⟨h1, h2⟩
    | modify o' n' f =>
      obtain ⟨rfl, rfl⟩ : o' = o ∧ n' = n := by simpa [touches] using ht
      obtain ⟨g1, g2, g3⟩ := hgetlog s t h1 h2
      simp only [step]
      generalize getField src s o' n' = q at *
      generalize getField src t o' n' = q' at *
      obtain ⟨s', r⟩ := q
      obtain ⟨t', r'⟩ := q'
      simp only at g1 g2 g3
      subst g3
      rcases r with e | x | v
      · exact ⟨g1, g2⟩
      · exact ⟨g1, g2⟩
      · exact ⟨by simp [changed, put_slot], g2⟩
  have main : ∀ (ops : List (Op V)) (s t : State V), s.slots o ("_" ++ n) = t.slots o ("_" ++ n) →
      s.log.filter (· = (o, n)) = t.log.filter (· = (o, n)) →
      (ops.foldl (step src) s).slots o ("_" ++ n) =
        ((ops.filter (touches o n)).foldl (step src) t).slots o ("_" ++ n) ∧
      (ops.foldl (step src) s).log.filter (· = (o, n)) =
        ((ops.filter (touches o n)).foldl (step src) t).log.filter (· = (o, n)) := by
    intro ops
    induction ops with
    | nil => intro s t h1 h2; exact ⟨h1, h2⟩
    | cons op ops ih =>
      intro s t h1 h2
      cases ht : touches o n op with
      | true =>
        rw [List.filter_cons_of_pos ht]
        have := hsame s t op ht h1 h2
        exact ih _ _ this.1 this.2
      | false =>
        rw [List.filter_cons_of_neg (by simp [ht])]
        have := hother s op ht
        exact ih _ _ (this.1.trans h1) (this.2.trans h2)
  have := main ops init init rfl rfl
  exact ⟨(hgetlog _ _ this.1 this.2).2.2, this.2⟩

private theorem reads_aux (src : Source V) (o : Nat) (n : String) (k : Kind) (v : V) (hsrc : src o n = some (k, .ok v))
    (mid : List (Op V)) : ∀ s : State V, (∀ op ∈ mid, drops o n op = false) →
      (mid.foldl (step src) s).log.count (o, n) ≤
        s.log.count (o, n) + (if (s.slots o ("_" ++ n)).isSome then 0 else 1) := by
  have hput : ∀ (s : State V) (o' : Nat) (n' : String) (x : V), (s.slots o ("_" ++ n)).isSome = true →
      ((s.put o' n' (some x)).slots o ("_" ++ n)).isSome = true := by
    intro s o' n' x h
    rw [put_slot]
    split <;> simp [h]
  have hg : ∀ (s : State V) (o' : Nat) (n' : String),
      (getField src s o' n').1.log.count (o, n) + (if ((getField src s o' n').1.slots o ("_" ++ n)).isSome then 0 else 1) ≤
        s.log.count (o, n) + (if (s.slots o ("_" ++ n)).isSome then 0 else 1) := by
    intro s o' n'
    by_cases hne : o' = o ∧ n' = n
    · obtain ⟨rfl, rfl⟩ := hne
      unfold getField
      rw [hsrc]
      cases hs : s.slots o' ("_" ++ n') with
      | some x => simp [hs]
      | none => simp [State.put, List.count_append]
    · have hsl : (getField src s o' n').1.slots o ("_" ++ n) = s.slots o ("_" ++ n) := by
        rcases get_slot src s o' o n' n with h | ⟨a, b, -⟩
        · exact h
        · exact absurd ⟨a.symm, b.symm⟩ hne
      have hc : ∀ l : List (Nat × String), (l ++ [(o', n')]).count (o, n) = l.count (o, n) := by
        intro l
        have h0 : [(o', n')].count (o, n) = 0 := by
          refine List.count_eq_zero.mpr ?_
          simp only [List.mem_singleton, Prod.mk.injEq]
          exact fun q => hne ⟨q.1.symm, q.2.symm⟩
        rw [List.count_append, h0, Nat.add_zero]
      rw [hsl]
      apply Nat.add_le_add_right
      unfold getField
      cases h : src o' n' with
      | none => exact Nat.le_refl _
      | some kr =>
        obtain ⟨k', r⟩ := kr
        cases ht : s.slots o' ("_" ++ n') with
        | some v => exact Nat.le_refl _
        | none =>
          cases r with
          | ok v => exact Nat.le_of_eq (hc _)
          | error e =>
            by_cases hk : k' = .dataset ∧ e = .key <;> simp only [hk, if_true, if_false] <;> exact Nat.le_of_eq (hc _)
  have hstep : ∀ (s : State V) (op : Op V), drops o n op = false →
      (step src s op).log.count (o, n) + (if ((step src s op).slots o ("_" ++ n)).isSome then 0 else 1) ≤
        s.log.count (o, n) + (if (s.slots o ("_" ++ n)).isSome then 0 else 1) := by
    have hp' : ∀ (s : State V) (o' : Nat) (n' : String) (x : V),
        (s.put o' n' (some x)).log.count (o, n) +
          (if ((s.put o' n' (some x)).slots o ("_" ++ n)).isSome then 0 else 1) ≤
        s.log.count (o, n) + (if (s.slots o ("_" ++ n)).isSome then 0 else 1) := by
      intro s o' n' x
      refine Nat.add_le_add_left ?_ _
      cases hs : (s.slots o ("_" ++ n)).isSome with
      | true => simp [hput s o' n' x hs]
      | false => simp only [Bool.false_eq_true, if_false]; split <;> omega
    have hpn : ∀ (s : State V) (o' : Nat) (n' : String), ¬ (o' = o ∧ n' = n) →
        (s.put o' n' none).log.count (o, n) +
          (if ((s.put o' n' none).slots o ("_" ++ n)).isSome then 0 else 1) ≤
        s.log.count (o, n) + (if (s.slots o ("_" ++ n)).isSome then 0 else 1) := by
      intro s o' n' hne
      have h' : ¬ (o = o' ∧ n = n') := fun q => hne ⟨q.1.symm, q.2.symm⟩
      rw [put_slot, if_neg h']
      exact Nat.le_refl _
    intro s op hd
    cases op with
    | get o' n' => exact hg s o' n'
    | set o' n' x =>
      simp only [step]
      split
      · cases x with
        | some x => exact hp' s o' n' x
        | none => exact hpn s o' n' (by simpa [drops] using hd)
      · exact Nat.le_refl _
    | del o' n' =>
      simp only [step]
      split
      · exact hpn s o' n' (by simpa [drops] using hd)
      · exact Nat.le_refl _
    | modify o' n' f =>
      have := hg s o' n'
      rcases changed_cases o' n' f (getField src s o' n') with h | ⟨v, h⟩
      · simp only [step, h]; exact this
      · simp only [step, h]; exact Nat.le_trans (hp' _ o' n' _) this
  induction mid with
  | nil => intro s _; simp
  | cons op mid ih =>
    intro s hd
    exact Nat.le_trans (ih _ fun op h => hd op (List.mem_cons_of_mem _ h)) (hstep s op (hd op (List.mem_cons_self ..)))

/-- C21: between two deletions of a field that the file holds, the file is read at most once for it, whatever else
happens. -/
theorem c21_read_once (src : Source V) (before mid : List (Op V)) (o : Nat) (n : String) (k : Kind) (v : V)
    (hsrc : src o n = some (k, .ok v)) (hmid : ∀ op ∈ mid, drops o n op = false) :
    (run src (before ++ mid)).log.count (o, n) ≤ (run src before).log.count (o, n) + 1 := by
  have := reads_aux src o n k v hsrc mid (run src before) hmid
  rw [run, List.foldl_append]
  refine Nat.le_trans this (Nat.add_le_add_left ?_ _)
  split <;> omega

/-- C21: from an assignment (or a get) to the next deletion the file is not read for the field. -/
theorem c21_not_read_while_held (src : Source V) (before mid : List (Op V)) (o : Nat) (n : String) (k : Kind) (v : V)
    (hsrc : src o n = some (k, .ok v)) (op : Op V) (hop : op = .get o n ∨ ∃ x, op = .set o n (some x))
    (hmid : ∀ op ∈ mid, drops o n op = false) :
    (run src (before ++ op :: mid)).log.count (o, n) = (run src (before ++ [op])).log.count (o, n) := by
  have hle := reads_aux src o n k v hsrc mid (run src (before ++ [op])) hmid
  have hmono : ∀ (l : List (Op V)) (s : State V), s.log.count (o, n) ≤ (l.foldl (step src) s).log.count (o, n) := by
    have hg : ∀ (s : State V) (o' : Nat) (n' : String), s.log.count (o, n) ≤ (getField src s o' n').1.log.count (o, n) := by
      intro s o' n'
      unfold getField
      cases h : src o' n' with
      | none => exact Nat.le_refl _
      | some kr =>
        obtain ⟨k', r⟩ := kr
        cases ht : s.slots o' ("_" ++ n') with
        | some v => exact Nat.le_refl _
        | none =>
          cases r with
          | ok v => simp [State.put, List.count_append]
          | error e => by_cases hk : k' = .dataset ∧ e = .key <;> simp [hk, List.count_append]
    intro l
    induction l with
    | nil => intro s; exact Nat.le_refl _
    | cons op l ih =>
      intro s
      refine Nat.le_trans ?_ (ih _)
      cases op with
      | get o' n' => exact hg s o' n'
      | set o' n' x => simp only [step]; split <;> exact Nat.le_refl _
      | del o' n' => simp only [step]; split <;> exact Nat.le_refl _
      | modify o' n' f =>
        have := hg s o' n'
        simp only [step]
        generalize getField src s o' n' = q at *
        obtain ⟨s', r⟩ := q
        rcases r with e | x | v <;> exact this
  have hsome : ((run src (before ++ [op])).slots o ("_" ++ n)).isSome = true := by
    rw [run, List.foldl_append]
    rcases hop with rfl | ⟨x, rfl⟩
    · simp only [List.foldl_cons, List.foldl_nil, step, getField, hsrc]
      split <;> simp [put_slot, *]
    · simp [step, hsrc, put_slot]
  rw [hsome] at hle
  simp only [if_true, Nat.add_zero] at hle
  have heq : run src (before ++ op :: mid) = mid.foldl (step src) (run src (before ++ [op])) := by
    simp [run, List.foldl_append]
  rw [heq]
  exact Nat.le_antisymm hle (hmono mid _)

example : demoSrc 0 "masses" = some (.dataset, .ok 5) ∧
    (run demoSrc [.get 0 "masses", .get 0 "coordinates", .get 0 "masses", .modify 0 "masses" (· + 1),
      .del 0 "masses", .get 0 "masses", .get 0 "masses"]).log = [(0, "masses"), (0, "coordinates"), (0, "masses")] := by
  refine ⟨by simp [demoSrc], by decide +kernel⟩

end Verif.Props
