import Verif.Spec.Compression

/-!
# The compression of results of operations (C103)
-/

namespace Verif.Props
open Verif Verif.Compression
open Verif.Spec (AllHave Behind Occurs)

private theorem retComp_pair {args : List Arg} {b : Bool} {c : Comp} :
    retComp args = .pair b c ↔ args ≠ [] ∧ ∀ a ∈ args, a.entry = (b, c) := by
  unfold retComp
  cases args with
  | nil => simp
  | cons a l =>
    simp only [List.map_cons, List.all_map, List.mem_cons, forall_eq_or_imp, ne_eq, reduceCtorEq, not_false_eq_true, true_and]
    constructor
    · intro h
      split at h
      · rename_i hl
        injection h with h1 h2
        refine ⟨by rw [← h1, ← h2], fun x hx => ?_⟩
        have := List.all_eq_true.mp hl x hx
        simp only [Function.comp, decide_eq_true_eq] at this
        rw [this, ← h1, ← h2]
      · cases h
    · rintro ⟨h1, h2⟩
      have : (l.all ((fun q => decide (q = a.entry)) ∘ Arg.entry)) = true := by
        rw [List.all_eq_true]
        intro x hx
        simp [h2 x hx, h1]
      rw [if_pos this, h1]

private theorem retComp_not_text {args : List Arg} {s : List Char} : retComp args ≠ .text s := by
  unfold retComp
  split
  · simp
  · split <;> simp

private theorem entry_true {a : Arg} {c : Comp} : a.entry = (true, c) ↔ a = .array c := by
  cases a <;> simp [Arg.entry]

private theorem entry_false {a : Arg} {c : Comp} : a.entry = (false, c) ↔ a = .bare ∧ c = .none := by
  cases a <;> simp [Arg.entry, eq_comm]

private theorem ret_behind {s : List Char} {args : List Ex} (ih : ∀ e ∈ args, ∀ n, eval e = .array (Spec.wrapped s n) ↔ Behind s n e) (n : Nat) :
    Arg.array (retComp (args.map eval)) = .array (Spec.wrapped s n) ↔ ∃ k, n = k + 1 ∧ args ≠ [] ∧ ∀ e ∈ args, Behind s k e := by
  cases n with
  | zero =>
    simp only [Spec.wrapped, Arg.array.injEq]
    constructor
    · exact fun h => absurd h retComp_not_text
    · rintro ⟨k, hk, _⟩; omega
  | succ n =>
    simp only [Spec.wrapped, Arg.array.injEq, retComp_pair, ne_eq, List.map_eq_nil_iff, List.mem_map, forall_exists_index, and_imp,
      forall_apply_eq_imp_iff₂, entry_true]
    constructor
    · rintro ⟨h1, h2⟩
      exact ⟨n, rfl, h1, fun e he => (ih e he n).mp (h2 e he)⟩
    · rintro ⟨k, hk, h1, h2⟩
      obtain rfl : n = k := by omega
      exact ⟨h1, fun e he => (ih e he n).mpr (h2 e he)⟩

/-- C103: what the attribute is. It is the text inside of `n` pairs exactly if all arrays have this compression and each is behind exactly
`n` operations. -/
theorem c103_wrapped (s : List Char) (n : Nat) (e : Ex) : eval e = .array (Spec.wrapped s n) ↔ Behind s n e := by
  match e with
  | .bare => exact ⟨fun h => by simp [eval] at h, fun h => by cases h⟩
  | .array c =>
    constructor
    · intro h
      cases c with
      | none => cases n <;> simp [eval, Comp.of, Spec.wrapped] at h
      | some t =>
        cases n with
        | zero =>
          simp only [eval, Comp.of, Spec.wrapped, Arg.array.injEq, Comp.text.injEq] at h
          subst h
          exact .array
        | succ n => simp [eval, Comp.of, Spec.wrapped] at h
    · intro h; cases h; simp [eval, Comp.of, Spec.wrapped]
  | .keep e =>
    have ih := c103_wrapped s n e
    constructor
    · intro h; exact .keep (ih.mp (by simpa [eval] using h))
    · intro h; cases h with | keep h => simpa [eval] using ih.mpr h
  | .op args =>
    have ih : ∀ e ∈ args, ∀ n, eval e = .array (Spec.wrapped s n) ↔ Behind s n e := fun e he n => c103_wrapped s n e
    constructor
    · intro h
      rw [eval, ret_behind ih] at h
      obtain ⟨k, rfl, h1, h2⟩ := h
      exact .op h1 h2
    · intro h
      cases h with
      | op h1 h2 => rw [eval, ret_behind ih]; exact ⟨_, rfl, h1, h2⟩
  | .list args none =>
    have ih : ∀ e ∈ args, ∀ n, eval e = .array (Spec.wrapped s n) ↔ Behind s n e := fun e he n => c103_wrapped s n e
    constructor
    · intro h
      rw [eval] at h
      rw [ret_behind ih] at h
      obtain ⟨k, rfl, h1, h2⟩ := h
      exact .list h1 h2
    · intro h
      cases h with
      | list h1 h2 => rw [eval]; rw [ret_behind ih]; exact ⟨_, rfl, h1, h2⟩
  | .list args (some t) =>
    constructor
    · intro h
      cases n with
      | zero =>
        simp only [eval, Spec.wrapped, Arg.array.injEq, Comp.text.injEq] at h
        subst h
        exact .listGiven
      | succ n => simp [eval, Spec.wrapped] at h
    · intro h; cases h; simp [eval, Spec.wrapped]
  | .again e none =>
    have ih := c103_wrapped s n e
    constructor
    · intro h; exact .again (ih.mp (by simpa [eval] using h))
    · intro h; cases h with | again h => simpa [eval] using ih.mpr h
  | .again e (some t) =>
    constructor
    · intro h
      cases n with
      | zero =>
        simp only [eval, Spec.wrapped, Arg.array.injEq, Comp.text.injEq] at h
        subst h
        exact .againGiven
      | succ n => simp [eval, Spec.wrapped] at h
    · intro h; cases h; simp [eval, Spec.wrapped]
termination_by e

/-- C103: a text in the attribute of a result, however deep, is the compression of all arrays that it was computed from: there are no
false descriptions. -/
theorem c103_honest (s : List Char) (e : Ex) (c : Comp) (h : eval e = .array c) (ho : Occurs s c) : AllHave s e := by
  have key : ∀ args : List Ex, (∀ e ∈ args, ∀ c, eval e = .array c → Occurs s c → AllHave s e) → Occurs s (retComp (args.map eval)) →
      args ≠ [] ∧ ∀ e ∈ args, AllHave s e := by
    intro args ih ho
    generalize hr : retComp (args.map eval) = r at ho
    cases ho with
    | here => exact absurd hr retComp_not_text
    | @inside b c ho =>
      rw [retComp_pair] at hr
      obtain ⟨h1, h2⟩ := hr
      refine ⟨by simpa using h1, fun e he => ?_⟩
      have := h2 (eval e) (List.mem_map_of_mem he)
      cases b with
      | true => exact ih e he c (entry_true.mp this) ho
      | false => rw [entry_false] at this; rw [this.2] at ho; cases ho
  match e with
  | .bare => simp [eval] at h
  | .array d =>
    cases d with
    | none => simp only [eval, Comp.of, Arg.array.injEq] at h; subst h; cases ho
    | some t => simp only [eval, Comp.of, Arg.array.injEq] at h; subst h; cases ho; exact .array
  | .keep e => exact .keep (c103_honest s e c (by simpa [eval] using h) ho)
  | .op args =>
    have := key args (fun e he c => c103_honest s e c) (by simp only [eval, Arg.array.injEq] at h; rwa [h])
    exact .op this.1 this.2
  | .list args none =>
    have := key args (fun e he c => c103_honest s e c) (by simp only [eval, Arg.array.injEq] at h; rwa [h])
    exact .list this.1 this.2
  | .list args (some t) => simp only [eval, Arg.array.injEq] at h; subst h; cases ho; exact .listGiven
  | .again e none => exact .again (c103_honest s e c (by simpa [eval] using h) ho)
  | .again e (some t) => simp only [eval, Arg.array.injEq] at h; subst h; cases ho; exact .againGiven
termination_by e

/-- C103, the part that holds. Full statement: the compression of a value is `s` if all arrays that it is computed from have compression
`s`, and None otherwise. It holds for copies, views, slices, conversions and constructors; after an operation it is never a text
(`c103_operation_fails`). -/
theorem c103_kept_partial (s : List Char) (e : Ex) : eval e = .array (.text s) ↔ Behind s 0 e := c103_wrapped s 0 e

/-- C103: operands with different compressions, and arrays together with objects that have none, give None. -/
theorem c103_mixed (args : List Ex) (e f : Ex) (he : e ∈ args) (hf : f ∈ args) (hne : eval e ≠ eval f) : eval (.op args) = .array .none := by
  simp only [eval, Arg.array.injEq]
  cases hr : retComp (args.map eval) with
  | none => rfl
  | text s => exact absurd hr retComp_not_text
  | pair b c =>
    rw [retComp_pair] at hr
    have h1 := hr.2 (eval e) (List.mem_map_of_mem he)
    have h2 := hr.2 (eval f) (List.mem_map_of_mem hf)
    refine absurd ?_ hne
    cases b with
    | true => rw [entry_true] at h1 h2; rw [h1, h2]
    | false => rw [entry_false] at h1 h2; rw [h1.1, h2.1]

/-- C103: `np.block` gives what an operation on the items gives. -/
theorem c103_block (items : List Arg) : blockComp items = retComp items := by
  have h1 : ∀ a : Arg, retComp [a] = .pair a.entry.1 a.entry.2 := fun a => by simp [retComp]
  have h2 : ∀ a x : Arg, (decide (retComp [x] = retComp [a])) = decide (x.entry = a.entry) := by
    intro a x; rw [h1, h1]; simp [Prod.ext_iff]
  cases items with
  | nil => rfl
  | cons a l =>
    have hb : blockComp (a :: l) = if (l.all fun x => decide (retComp [x] = retComp [a])) then retComp [a] else .none := by
      simp [blockComp, Function.comp_def]
    have hr : retComp (a :: l) = if (l.all fun x => decide (x.entry = a.entry)) then .pair a.entry.1 a.entry.2 else .none := by
      simp [retComp, Function.comp_def]
    rw [hb, hr, h1 a, ← h1 a]
    simp only [h2]

/-- C103 fails for operations: no operation gives a text, not even on arrays that all have the same compression. -/
theorem c103_operation_fails (args : List Ex) (s : List Char) : eval (.op args) ≠ .array (.text s) := by
  simp only [eval, ne_eq, Arg.array.injEq]
  exact retComp_not_text

/-- C103 fails: the sum of three arrays with the same compression has none. -/
theorem c103_three_fails (s : List Char) :
    eval (.op [.op [.array (some s), .array (some s)], .array (some s)]) = .array .none :=
  c103_mixed _ (.op [.array (some s), .array (some s)]) (.array (some s)) (by simp) (by simp)
    (by rw [(c103_wrapped s 1 _).mpr (.op (by simp) (by simp; exact .array)), (c103_wrapped s 0 _).mpr .array]; simp [Spec.wrapped])

/-- C103 fails: an array made from a list of numbers has a pair for its compression. -/
theorem c103_list_fails : eval (.list [.bare, .bare] none) = .array (.pair false .none) := by
  simp [eval, retComp, Arg.entry]

/-- Example: the square root of the sum of two compressed arrays, one of them a slice. -/
example : Behind "DMantissa9".toList 2 (.op [.op [.keep (.array (some "DMantissa9".toList)), .array (some "DMantissa9".toList)]]) :=
  .op (by simp) (by simp; exact .op (by simp) (by simp; exact ⟨.keep .array, .array⟩))

/-- Example for `c103_honest`: this attribute has the text inside. -/
example : Occurs "DMantissa9".toList (.pair true (.pair true (.text "DMantissa9".toList))) := .inside (.inside .here)

/-- Example for `c103_mixed`: an array and a number. -/
example : eval (.array (some "DMantissa9".toList)) ≠ eval .bare := by simp [eval]

end Verif.Props
