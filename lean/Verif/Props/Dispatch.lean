import Verif.Spec.Dispatch
import Mathlib.Data.List.Basic
import Mathlib.Data.List.Perm.Basic
import Mathlib.Logic.Basic
import Mathlib.Tactic.Tauto
import Mathlib.Tactic.Common

/-! # C82: calls reach the package's functions, and results have the class that fits their shape -/

namespace Verif.Props
open Verif Verif.Dispatch Verif.Spec

set_option linter.unusedSimpArgs false
set_option linter.unusedVariables false

private theorem sub_trans {a b c : Cls} (h : sub a b = true) (k : sub b c = true) : sub a c = true := by
  cases a <;> cases b <;> cases c <;> simp_all [sub]

private theorem sub_antisymm {a b : Cls} (h : sub a b = true) (k : sub b a = true) : a = b := by
  cases a <;> cases b <;> simp_all [sub]

private theorem mem_insert (c d : Cls) (l : List Cls) : d ∈ Dispatch.insert c l ↔ d = c ∨ d ∈ l := by
  induction l with
  | nil => simp [Dispatch.insert]
  | cons e l ih =>
    unfold Dispatch.insert
    by_cases h : sub c e = true
    · rw [if_pos h]; simp
    · rw [if_neg h]
      simp only [List.mem_cons, ih]
      tauto

private theorem mem_collectFrom (d : Cls) (l : List Cls) : ∀ acc : List Cls,
    d ∈ collectFrom acc l ↔ d ∈ acc ∨ d ∈ l := by
  induction l with
  | nil => intro acc; simp [collectFrom]
  | cons c l ih =>
    intro acc
    unfold collectFrom
    rw [ih]
    by_cases h : c ∈ acc
    · rw [if_pos h]
      constructor
      · rintro (k | k)
        · exact Or.inl k
        · exact Or.inr (List.mem_cons_of_mem _ k)
      · rintro (k | k)
        · exact Or.inl k
        · rcases List.mem_cons.1 k with k | k
          · exact Or.inl (k ▸ h)
          · exact Or.inr k
    · rw [if_neg h, mem_insert]
      simp only [List.mem_cons]
      tauto

/-- Every class is asked, and no other. -/
private theorem mem_collect (d : Cls) (l : List Cls) : d ∈ collect l ↔ d ∈ l := by
  unfold collect
  rw [mem_collectFrom]
  simp

/-- No class is asked after a class it derives from. -/
private def Ordered (l : List Cls) : Prop := l.Pairwise (fun a b => sub b a = false)

private theorem insert_ordered (c : Cls) (l : List Cls) (hc : c ∉ l) (h : Ordered l) : Ordered (Dispatch.insert c l) := by
  induction l with
  | nil => simp [Dispatch.insert, Ordered]
  | cons e l ih =>
    unfold Dispatch.insert
    have he := List.pairwise_cons.1 h
    by_cases k : sub c e = true
    · rw [if_pos k]
      refine List.pairwise_cons.2 ⟨?_, h⟩
      intro d hd
      by_contra hdc
      have hdc' : sub d c = true := by simpa using hdc
      have hde := sub_trans hdc' k
      rcases List.mem_cons.1 hd with hd | hd
      · subst hd
        exact hc (by rw [sub_antisymm k hdc']; exact List.mem_cons_self)
      · have := he.1 d hd
        rw [hde] at this
        exact absurd this (by simp)
    · rw [if_neg k]
      refine List.pairwise_cons.2 ⟨?_, ih (fun m => hc (List.mem_cons_of_mem _ m)) he.2⟩
      intro d hd
      rcases (mem_insert c d l).1 hd with hd | hd
      · subst hd; simpa using k
      · exact he.1 d hd

private theorem collect_ordered (l : List Cls) : Ordered (collect l) := by
  have : ∀ (l acc : List Cls), Ordered acc → Ordered (collectFrom acc l) := by
    intro l
    induction l with
    | nil => intro acc h; exact h
    | cons c l ih =>
      intro acc h
      unfold collectFrom
      apply ih
      by_cases k : c ∈ acc
      · rw [if_pos k]; exact h
      · rw [if_neg k]; exact insert_ordered c acc k h
  exact this l [] List.Pairwise.nil

private theorem ask_some (f : Fn) (other : ℕ → List Cls → Bool) (types : List Cls) (i : Impl) (l : List Cls)
    (h : ∃ c ∈ l, method f other types c = some i)
    (k : ∀ c ∈ l, method f other types c = some i ∨ method f other types c = none) : ask f other types l = .ok i := by
  induction l with
  | nil => obtain ⟨c, hc, -⟩ := h; simp at hc
  | cons d l ih =>
    unfold ask
    rcases k d List.mem_cons_self with e | e
    · rw [e]
    · rw [e]
      dsimp only
      apply ih
      · obtain ⟨c, hc, hi⟩ := h
        rcases List.mem_cons.1 hc with hc | hc
        · subst hc; rw [e] at hi; exact absurd hi (by simp)
        · exact ⟨c, hc, hi⟩
      · exact fun c hc => k c (List.mem_cons_of_mem _ hc)

private theorem ask_none (f : Fn) (other : ℕ → List Cls → Bool) (types : List Cls) (l : List Cls)
    (k : ∀ c ∈ l, method f other types c = none) : ask f other types l = .error .typeErr := by
  induction l with
  | nil => rfl
  | cons d l ih =>
    unfold ask
    rw [k d List.mem_cons_self]
    exact ih (fun c hc => k c (List.mem_cons_of_mem _ hc))

private theorem ask_cases (f : Fn) (other : ℕ → List Cls → Bool) (types : List Cls) (l : List Cls) :
    ask f other types l = .error .typeErr ∨ ∃ c ∈ l, ∃ i, method f other types c = some i ∧ ask f other types l = .ok i := by
  induction l with
  | nil => exact Or.inl rfl
  | cons d l ih =>
    unfold ask
    cases e : method f other types d with
    | some i => exact Or.inr ⟨d, List.mem_cons_self, i, e, rfl⟩
    | none =>
      dsimp only
      rcases ih with h | ⟨c, hc, i, hi, h⟩
      · exact Or.inl h
      · exact Or.inr ⟨c, List.mem_cons_of_mem _ hc, i, hi, h⟩

/-- Skipping the last class, `ndarray`. -/
private theorem ask_before (f : Fn) (other : ℕ → List Cls → Bool) (types : List Cls) (i : Impl) (l : List Cls)
    (ho : Ordered l) (hn : ∀ c ∈ l, ¬ IsForeign c)
    (h : ∃ c ∈ l, c ≠ .ndarray ∧ method f other types c = some i)
    (k : ∀ c ∈ l, c ≠ .ndarray → method f other types c = some i ∨ method f other types c = none) :
    ask f other types l = .ok i := by
  induction l with
  | nil => obtain ⟨c, hc, -⟩ := h; simp at hc
  | cons d l ih =>
    have ho' := List.pairwise_cons.1 ho
    have hd : d ≠ .ndarray := by
      rintro rfl
      obtain ⟨c, hc, hcn, -⟩ := h
      rcases List.mem_cons.1 hc with hc | hc
      · exact hcn hc
      · have := ho'.1 c hc
        have hf := hn c (List.mem_cons_of_mem _ hc)
        cases c with
        | foreign n => exact hf ⟨n, rfl⟩
        | ndarray => exact hcn rfl
        | unytArray => exact absurd this (by decide)
        | unytQuantity => exact absurd this (by decide)
        | cosmoArray => exact absurd this (by decide)
        | cosmoQuantity => exact absurd this (by decide)
    unfold ask
    rcases k d List.mem_cons_self hd with e | e
    · rw [e]
    · rw [e]
      dsimp only
      apply ih ho'.2 (fun c hc => hn c (List.mem_cons_of_mem _ hc))
      · obtain ⟨c, hc, hcn, hi⟩ := h
        rcases List.mem_cons.1 hc with hc | hc
        · subst hc; rw [e] at hi; exact absurd hi (by simp)
        · exact ⟨c, hc, hcn, hi⟩
      · exact fun c hc => k c (List.mem_cons_of_mem _ hc)

private theorem nonempty_call (f : Fn) (other : ℕ → List Cls → Bool) (args : List Cls) (h : args ≠ []) :
    call f other args = ask f other (collect args) (collect args) := by
  unfold call
  have : args.isEmpty = false := by cases args <;> simp_all
  rw [this]
  simp

private theorem all_cosmo {types : List Cls} (h : ∀ c ∈ types, IsCosmo c ∨ c = .ndarray) :
    types.all (fun t => sub t .cosmoArray || t == .ndarray) = true := by
  rw [List.all_eq_true]
  intro t ht
  rcases h t ht with (rfl | rfl) | rfl <;> decide

private theorem all_unyt {types : List Cls} (h : ∀ c ∈ types, ¬ IsForeign c) :
    types.all (fun t => sub t .unytArray || t == .ndarray) = true := by
  rw [List.all_eq_true]
  intro t ht
  have hf := h t ht
  cases t with
  | foreign n => exact absurd ⟨n, rfl⟩ hf
  | _ => rfl

private theorem all_nd {types : List Cls} (h : ∀ c ∈ types, ¬ IsForeign c) :
    types.all (fun t => sub t .ndarray) = true := by
  rw [List.all_eq_true]
  intro t ht
  have hf := h t ht
  cases t with
  | foreign n => exact absurd ⟨n, rfl⟩ hf
  | _ => rfl

/-- Arguments of the package and plain arrays, in any order and number: the package's function runs if there is one, else
unyt's, else numpy's. -/
theorem c82_package (f : Fn) (other : ℕ → List Cls → Bool) (args : List Cls) (hs : f.unsupported = false)
    (hc : ∃ c ∈ args, IsCosmo c) (hall : ∀ c ∈ args, IsCosmo c ∨ c = .ndarray) :
    call f other args = .ok (if f.package then .package else if f.unyt then .unyt else .numpy) := by
  have hne : args ≠ [] := by rintro rfl; simp at hc
  rw [nonempty_call f other args hne]
  have hall' : ∀ c ∈ collect args, IsCosmo c ∨ c = .ndarray := fun c h => hall c ((mem_collect c args).1 h)
  have hm : cosmoAF f (collect args) = some (if f.package then .package else if f.unyt then .unyt else .numpy) := by
    unfold cosmoAF
    rw [hs, all_cosmo hall']
    cases f.package <;> cases f.unyt <;> rfl
  have hmeth : ∀ c, IsCosmo c → method f other (collect args) c
      = some (if f.package then .package else if f.unyt then .unyt else .numpy) := by
    rintro c (rfl | rfl) <;> exact hm
  apply ask_before
  · exact collect_ordered args
  · rintro c h ⟨n, rfl⟩
    rcases hall' _ h with (h | h) | h <;> simp at h
  · obtain ⟨c, h, hi⟩ := hc
    refine ⟨c, (mem_collect c args).2 h, ?_, hmeth c hi⟩
    rcases hi with rfl | rfl <;> simp
  · intro c h hcn
    rcases hall' c h with hi | hi
    · exact Or.inl (hmeth c hi)
    · exact absurd hi hcn

/-- A function unyt refuses is refused for arguments of the package and of unyt. -/
theorem c82_unsupported (f : Fn) (other : ℕ → List Cls → Bool) (args : List Cls) (hs : f.unsupported = true)
    (hne : args ≠ []) (hall : ∀ c ∈ args, HasUnits c) : call f other args = .error .typeErr := by
  rw [nonempty_call f other args hne]
  apply ask_none
  intro c h
  rcases hall c ((mem_collect c args).1 h) with (rfl | rfl) | (rfl | rfl) <;>
    simp [method, unytAF, cosmoAF, hs]

/-- A plain array among the arguments and the refusal is lost: numpy's function runs on the bare numbers. -/
theorem c82_unsupported_fails (f : Fn) (other : ℕ → List Cls → Bool) (args : List Cls) (hs : f.unsupported = true)
    (hn : Cls.ndarray ∈ args) (hall : ∀ c ∈ args, ¬ IsForeign c) : call f other args = .ok .numpy := by
  have hne : args ≠ [] := by rintro rfl; simp at hn
  rw [nonempty_call f other args hne]
  have hall' : ∀ c ∈ collect args, ¬ IsForeign c := fun c h => hall c ((mem_collect c args).1 h)
  have hnd : method f other (collect args) .ndarray = some .numpy := by
    simp only [method, ndarrayAF]
    rw [all_nd hall', if_pos rfl]
  apply ask_some
  · exact ⟨.ndarray, (mem_collect _ args).2 hn, hnd⟩
  · intro c h
    cases c with
    | foreign n => exact absurd ⟨n, rfl⟩ (hall' _ h)
    | ndarray => exact Or.inl hnd
    | unytArray => right; simp [method, unytAF, hs]
    | unytQuantity => right; simp [method, unytAF, hs]
    | cosmoArray => right; simp [method, cosmoAF, hs]
    | cosmoQuantity => right; simp [method, cosmoAF, hs]

/-- One argument of unyt that is not of the package and the package's function is not reached, whatever the table says:
unyt's runs, or numpy's. -/
theorem c82_unyt_bypass_fails (f : Fn) (other : ℕ → List Cls → Bool) (args : List Cls) (hs : f.unsupported = false)
    (hu : ∃ c ∈ args, IsUnyt c) (hall : ∀ c ∈ args, ¬ IsForeign c) :
    call f other args = .ok (if f.unyt then .unyt else .numpy) := by
  have hne : args ≠ [] := by rintro rfl; simp at hu
  rw [nonempty_call f other args hne]
  have hall' : ∀ c ∈ collect args, ¬ IsForeign c := fun c h => hall c ((mem_collect c args).1 h)
  have hm : unytAF f (collect args) = some (if f.unyt then .unyt else .numpy) := by
    unfold unytAF
    rw [hs, all_unyt hall']
    cases f.unyt <;> rfl
  obtain ⟨u, hua, hu⟩ := hu
  have hun : (collect args).all (fun t => sub t .cosmoArray || t == .ndarray) = false := by
    rw [List.all_eq_false]
    refine ⟨u, (mem_collect u args).2 hua, ?_⟩
    rcases hu with rfl | rfl <;> decide
  have hcm : cosmoAF f (collect args) = none := by
    unfold cosmoAF
    rw [hs, hun]
    rfl
  apply ask_before
  · exact collect_ordered args
  · exact hall'
  · refine ⟨u, (mem_collect u args).2 hua, ?_, ?_⟩
    · rcases hu with rfl | rfl <;> simp
    · rcases hu with rfl | rfl <;> exact hm
  · intro c h hcn
    cases c with
    | foreign n => exact absurd ⟨n, rfl⟩ (hall' _ h)
    | ndarray => exact absurd rfl hcn
    | unytArray => exact Or.inl hm
    | unytQuantity => exact Or.inl hm
    | cosmoArray => exact Or.inr hcm
    | cosmoQuantity => exact Or.inr hcm

/-- With an argument of an unrelated class neither the package, unyt nor numpy computes anything: that class does, or the
call is refused. -/
theorem c82_foreign (f : Fn) (other : ℕ → List Cls → Bool) (args : List Cls) (hf : ∃ c ∈ args, IsForeign c) :
    call f other args = .error .typeErr ∨ ∃ n, Cls.foreign n ∈ args ∧ call f other args = .ok (.foreign n) := by
  have hne : args ≠ [] := by rintro rfl; simp at hf
  rw [nonempty_call f other args hne]
  obtain ⟨_, ha, n, rfl⟩ := hf
  have hmem := (mem_collect _ args).2 ha
  have h1 : (collect args).all (fun t => sub t .cosmoArray || t == .ndarray) = false := by
    rw [List.all_eq_false]; exact ⟨_, hmem, by simp [sub]⟩
  have h2 : (collect args).all (fun t => sub t .unytArray || t == .ndarray) = false := by
    rw [List.all_eq_false]; exact ⟨_, hmem, by simp [sub]⟩
  have h3 : (collect args).all (fun t => sub t .ndarray) = false := by
    rw [List.all_eq_false]; exact ⟨_, hmem, by simp [sub]⟩
  rcases ask_cases f other (collect args) (collect args) with h | ⟨c, hc, i, hi, h⟩
  · exact Or.inl h
  · cases c with
    | foreign m =>
      refine Or.inr ⟨m, (mem_collect _ args).1 hc, ?_⟩
      rw [h]
      simp only [method] at hi
      split at hi
      · rw [Option.some.inj hi]
      · simp at hi
    | ndarray => simp [method, ndarrayAF, h3] at hi
    | unytArray => simp [method, unytAF, h2] at hi
    | unytQuantity => simp [method, unytAF, h2] at hi
    | cosmoArray => simp [method, cosmoAF, h1] at hi
    | cosmoQuantity => simp [method, cosmoAF, h1] at hi

/-- The order and the repetition of the arguments play no part. -/
theorem c82_order (f : Fn) (other : ℕ → List Cls → Bool) (args args' : List Cls) (h : ∀ c, c ∈ args ↔ c ∈ args')
    (hall : ∀ c ∈ args, ¬ IsForeign c) : call f other args = call f other args' := by
  have hall' : ∀ c ∈ args', ¬ IsForeign c := fun c hc => hall c ((h c).2 hc)
  by_cases hne : args = []
  · subst hne
    have : args' = [] := by
      rw [List.eq_nil_iff_forall_not_mem]
      intro c hc
      exact absurd ((h c).2 hc) (by simp)
    rw [this]
  have hne' : args' ≠ [] := by
    rintro rfl
    apply hne
    rw [List.eq_nil_iff_forall_not_mem]
    intro c hc
    exact absurd ((h c).1 hc) (by simp)
  cases hs : f.unsupported with
  | true =>
    by_cases hn : Cls.ndarray ∈ args
    · rw [c82_unsupported_fails f other args hs hn hall, c82_unsupported_fails f other args' hs ((h _).1 hn) hall']
    · have hu : ∀ c ∈ args, HasUnits c := by
        intro c hc
        cases c with
        | foreign n => exact absurd ⟨n, rfl⟩ (hall _ hc)
        | ndarray => exact absurd hc hn
        | unytArray => exact Or.inl (Or.inl rfl)
        | unytQuantity => exact Or.inl (Or.inr rfl)
        | cosmoArray => exact Or.inr (Or.inl rfl)
        | cosmoQuantity => exact Or.inr (Or.inr rfl)
      rw [c82_unsupported f other args hs hne hu,
        c82_unsupported f other args' hs hne' (fun c hc => hu c ((h c).2 hc))]
  | false =>
    by_cases hu : ∃ c ∈ args, IsUnyt c
    · have hu' : ∃ c ∈ args', IsUnyt c := by
        obtain ⟨c, hc, k⟩ := hu
        exact ⟨c, (h c).1 hc, k⟩
      rw [c82_unyt_bypass_fails f other args hs hu hall, c82_unyt_bypass_fails f other args' hs hu' hall']
    · have hcn : ∀ c ∈ args, IsCosmo c ∨ c = .ndarray := by
        intro c hc
        cases c with
        | foreign n => exact absurd ⟨n, rfl⟩ (hall _ hc)
        | ndarray => exact Or.inr rfl
        | unytArray => exact absurd ⟨_, hc, Or.inl rfl⟩ hu
        | unytQuantity => exact absurd ⟨_, hc, Or.inr rfl⟩ hu
        | cosmoArray => exact Or.inl (Or.inl rfl)
        | cosmoQuantity => exact Or.inl (Or.inr rfl)
      by_cases hc : ∃ c ∈ args, IsCosmo c
      · have hc' : ∃ c ∈ args', IsCosmo c := by
          obtain ⟨c, k, i⟩ := hc
          exact ⟨c, (h c).1 k, i⟩
        rw [c82_package f other args hs hc hcn,
          c82_package f other args' hs hc' (fun c k => hcn c ((h c).2 k))]
      · have hnd : ∀ (l : List Cls), l ≠ [] → (∀ c, c ∈ l ↔ c ∈ args) → call f other l = .ok .numpy := by
          intro l hl hmem
          have honly : ∀ c ∈ collect l, c = .ndarray := by
            intro c k
            have := (hmem c).1 ((mem_collect c l).1 k)
            rcases hcn c this with i | i
            · exact absurd ⟨c, this, i⟩ hc
            · exact i
          rw [nonempty_call f other l hl]
          have hmeth : method f other (collect l) .ndarray = some .numpy := by
            simp only [method, ndarrayAF]
            rw [all_nd (by rintro c k ⟨n, rfl⟩; simpa using honly _ k), if_pos rfl]
          apply ask_some
          · cases l with
            | nil => exact absurd rfl hl
            | cons d l =>
              have hd := (mem_collect d (d :: l)).2 List.mem_cons_self
              exact ⟨.ndarray, by rw [honly d hd] at hd; rw [honly d ((mem_collect d (d :: l)).2 List.mem_cons_self)]; exact hd, hmeth⟩
          · intro c k
            rw [honly c k]
            exact Or.inl hmeth
        rw [hnd args hne (fun c => Iff.rfl), hnd args' hne' (fun c => (h c).symm)]

/-- The last registration of a function counts and the others are not seen. -/
theorem c82_registry {N F : Type} [DecidableEq N] (before after : List (N × F)) (name : N) (func : F)
    (h : ∀ e ∈ after, e.1 ≠ name) : registered (before ++ (name, func) :: after) name = some func := by
  unfold registered
  rw [List.foldl_append, List.foldl_cons]
  generalize List.foldl (fun t e => implements t e.1 e.2) (fun _ => none) before = t
  have key : ∀ (l : List (N × F)) (s : N → Option F), (∀ e ∈ l, e.1 ≠ name) → s name = some func →
      l.foldl (fun t e => implements t e.1 e.2) s name = some func := by
    intro l
    induction l with
    | nil => intro s _ hs; exact hs
    | cons e l ih =>
      intro s hl hs
      rw [List.foldl_cons]
      apply ih
      · exact fun e he => hl e (List.mem_cons_of_mem _ he)
      · unfold implements
        rw [if_neg (fun k => hl e List.mem_cons_self k.symm)]
        exact hs
  exact key after _ h (by simp [implements])

/-- A function that is not registered is not in the table. -/
theorem c82_registry_none {N F : Type} [DecidableEq N] (l : List (N × F)) (name : N) (h : ∀ e ∈ l, e.1 ≠ name) :
    registered l name = none := by
  unfold registered
  have key : ∀ (l : List (N × F)) (s : N → Option F), (∀ e ∈ l, e.1 ≠ name) →
      l.foldl (fun t e => implements t e.1 e.2) s name = s name := by
    intro l
    induction l with
    | nil => intro s _; rfl
    | cons e l ih =>
      intro s hl
      rw [List.foldl_cons, ih _ (fun e he => hl e (List.mem_cons_of_mem _ he))]
      unfold implements
      rw [if_neg (fun k => hl e List.mem_cons_self k.symm)]
  exact key l _ h

/-! ## Results -/

section Results
variable {V A : Type}

/-- An array with units becomes an array of the package whose class fits its shape; numbers and shape stay; the attributes
stay if there were any. -/
theorem c82_kind (null : A) (o : Obj V A) (h : HasUnits o.cls) :
    ensure null (.arr o) = .arr ⟨kindOf o.shape, o.shape, o.val, if o.isCosmo then o.attrs else null⟩ := by
  obtain ⟨cls, shape, val, attrs⟩ := o
  rcases h with (h | h) | (h | h) <;> dsimp only at h <;> subst h <;> cases shape <;>
    simp [ensure, promoteMatch, promoteObj, matchObj, view, sub, kindOf, Obj.isCosmo]

/-- Each element of a tuple likewise. -/
theorem c82_kind_tuple (null : A) (l : List (Obj V A)) (h : ∀ o ∈ l, HasUnits o.cls) :
    ensure null (.tup (l.map .arr)) =
      .tup (l.map (fun o => .arr ⟨kindOf o.shape, o.shape, o.val, if o.isCosmo then o.attrs else null⟩)) := by
  simp only [ensure, List.map_map]
  congr 1
  apply List.map_congr_left
  intro o ho
  exact c82_kind null o (h o ho)

/-- Arrays without units and results that are no arrays are left as they are. -/
theorem c82_bare (null : A) (o : Obj V A) (h : ¬ HasUnits o.cls) : ensure null (.arr o) = .arr o := by
  obtain ⟨cls, shape, val, attrs⟩ := o
  cases cls <;> simp_all [HasUnits, IsUnyt, IsCosmo] <;>
    simp [ensure, promoteMatch, promoteObj, matchObj, view, sub]

/-- A tuple within a tuple is not looked into: what it holds keeps unyt's class. -/
theorem c82_nested_fails (null : A) (l : List (Res V A)) : ensure null (.tup [.tup l]) = .tup [.tup l] := by
  simp [ensure, promoteMatch]

/-- `x[...]`, `take`, `reshape`, `round`: whatever object with units unyt returns, the result is of the package, fits its
shape and has the attributes of `x`. -/
theorem c82_methods (null : A) (raw : Obj V A → Res V A) (x o : Obj V A) (hx : IsCosmo x.cls) (hr : raw x = .arr o)
    (h : HasUnits o.cls) : ensured null raw x = .arr ⟨kindOf o.shape, o.shape, o.val, x.attrs⟩ := by
  unfold ensured
  rw [hr, c82_kind null o h]
  have hx' : x.isCosmo = true := by
    unfold Obj.isCosmo
    rcases hx with e | e <;> rw [e] <;> rfl
  have hk : sub (kindOf o.shape) .cosmoArray = true := by
    unfold kindOf; split <;> rfl
  simp [copyAttrs, Obj.isCosmo, hk, hx'] at hx' ⊢
  rw [hx']
  simp

/-- Multiplication by a unit, for any unit: the class fits and the attributes are kept. -/
theorem c82_mul_unit (null : A) (unit : Obj V A → Res V A) (x : Obj V A) (hx : IsCosmo x.cls)
    (hu : ∀ o : Obj V A, IsUnyt o.cls → ∃ v, unit o = .arr ⟨o.cls, o.shape, v, o.attrs⟩) :
    ∃ v, mulUnit null unit x = .arr ⟨kindOf x.shape, x.shape, v, x.attrs⟩ := by
  have hcls : IsUnyt (if x.shape.isEmpty then Cls.unytQuantity else Cls.unytArray) := by
    split
    · exact Or.inr rfl
    · exact Or.inl rfl
  obtain ⟨v, hv⟩ := hu { x with cls := if x.shape.isEmpty then Cls.unytQuantity else Cls.unytArray } hcls
  refine ⟨v, ?_⟩
  exact c82_methods null (fun x => unit { x with cls := if x.shape.isEmpty then .unytQuantity else .unytArray }) x _ hx hv
    (Or.inl hcls)

/-- The result of a ufunc that returns one object with units. -/
theorem c82_ufunc (null a : A) (o : Obj V A) (h : HasUnits o.cls) :
    ufuncResult null a (.arr o) = .arr ⟨kindOf o.shape, o.shape, o.val, a⟩ := by
  unfold ufuncResult
  rw [c82_kind null o h]
  have hk : sub (kindOf o.shape) .cosmoArray = true := by
    unfold kindOf; split <;> rfl
  simp [attach, Obj.isCosmo, hk]

/-- The results of a ufunc that returns several (`divmod`, `modf`, `frexp`). -/
theorem c82_ufunc_tuple (null a : A) (l : List (Obj V A)) (h : ∀ o ∈ l, HasUnits o.cls) :
    ufuncResult null a (.tup (l.map .arr)) = .tup (l.map (fun o => .arr ⟨kindOf o.shape, o.shape, o.val, a⟩)) := by
  unfold ufuncResult
  rw [c82_kind_tuple null l h]
  simp only [List.map_map]
  congr 1
  apply List.map_congr_left
  intro o ho
  have hk : sub (kindOf o.shape) .cosmoArray = true := by
    unfold kindOf; split <;> rfl
  simp [attach, Obj.isCosmo, hk]

/-- The result of a wrapped numpy function: of the package, with the attributes computed for it, and fitting its shape as
far as unyt's result does. -/
theorem c82_wrapped (null a : A) (o : Obj V A) (h : HasUnits o.cls) :
    ∃ c, IsCosmo c ∧ (c = .cosmoQuantity ↔ sub o.cls .unytQuantity = true) ∧
      returnHelper null a (.arr o) = .arr ⟨c, o.shape, o.val, a⟩ := by
  obtain ⟨cls, shape, val, attrs⟩ := o
  rcases h with (h | h) | (h | h) <;> dsimp only at h <;> subst h
  · exact ⟨.cosmoArray, Or.inl rfl, by simp [sub], rfl⟩
  · exact ⟨.cosmoQuantity, Or.inr rfl, by simp [sub], rfl⟩
  · exact ⟨.cosmoArray, Or.inl rfl, by simp [sub], rfl⟩
  · exact ⟨.cosmoQuantity, Or.inr rfl, by simp [sub], rfl⟩

/-- A wrapped function that returns a tuple (`np.linalg.svd`): nothing is attached, unyt's objects come out. -/
theorem c82_wrapped_tuple_fails (null a : A) (l : List (Res V A)) : returnHelper null a (.tup l) = .tup l := rfl

/-- A wrapped function for which unyt returns an array without dimensions: the result is a `cosmo_array` of shape `()`. -/
theorem c82_wrapped_fails (null a : A) (v : V) : ∃ o : Obj V A, HasUnits o.cls ∧ o.shape = [] ∧
    ∃ r : Obj V A, returnHelper null a (.arr o) = .arr r ∧ ¬ Fits r :=
  ⟨⟨.unytArray, [], v, a⟩, Or.inl (Or.inl rfl), rfl, ⟨.cosmoArray, [], v, a⟩, rfl, by simp [Fits, kindOf]⟩

/-- `flatten` and `ravel` of a quantity: numpy returns an object of the same class with one element, and so a
`cosmo_quantity` of shape `(1,)` comes out. -/
theorem c82_flatten_fails (x : Obj V A) (hx : x.cls = .cosmoQuantity) (raw : Obj V A → Res V A)
    (hr : raw x = .arr { x with shape := [1] }) :
    ∃ r : Obj V A, propagated raw x = .arr r ∧ r.cls = .cosmoQuantity ∧ r.shape = [1] ∧ ¬ Fits r := by
  obtain ⟨cls, shape, val, attrs⟩ := x
  dsimp only at hx
  subst hx
  refine ⟨⟨.cosmoQuantity, [1], val, attrs⟩, ?_, rfl, rfl, ?_⟩
  · unfold propagated
    rw [hr]
    simp [copyAttrs, Obj.isCosmo, sub]
  · simp [Fits, kindOf]

/-- `squeeze` copies no attributes: they are kept if numpy's result is of the package. -/
theorem c82_squeeze (null : A) (raw : Obj V A → Res V A) (x o : Obj V A) (hr : raw x = .arr o) (h : IsCosmo o.cls)
    (ha : o.attrs = x.attrs) : squeezed null raw x = .arr ⟨kindOf o.shape, o.shape, o.val, x.attrs⟩ := by
  unfold squeezed
  rw [hr, c82_kind null o (Or.inr h)]
  have : o.isCosmo = true := by
    unfold Obj.isCosmo
    rcases h with e | e <;> rw [e] <;> rfl
  rw [this, if_pos rfl, ha]

/-- An object without units keeps its attributes when a ufunc returns it. -/
theorem c82_ufunc_bare (null a : A) (o : Obj V A) (h : ¬ HasUnits o.cls) : ufuncResult null a (.arr o) = .arr o := by
  unfold ufuncResult
  rw [c82_bare null o h]
  have : o.isCosmo = false := by
    unfold Obj.isCosmo
    cases hc : o.cls <;> simp_all [HasUnits, IsUnyt, IsCosmo, sub]
  simp [attach, this]

/-- A method called on an object that is not of the package changes nothing of what it returns. -/
theorem c82_methods_foreign (raw : Obj V A → Res V A) (x : Obj V A) (hx : ¬ IsCosmo x.cls) : propagated raw x = raw x := by
  have : x.isCosmo = false := by
    unfold Obj.isCosmo
    cases hc : x.cls <;> simp_all [IsCosmo, sub]
  unfold propagated
  cases raw x <;> simp [copyAttrs, this]

end Results

/-- A call without arrays is answered by numpy, for a function of the package too. -/
theorem c82_no_arrays (f : Fn) (other : ℕ → List Cls → Bool) : call f other [] = .ok .numpy := rfl

/-- `np.concatenate` of a `cosmo_array` and an `ndarray` reaches the package; with a `unyt_array` it reaches unyt, in either
order; `x[0]` is a `cosmo_quantity`. -/
example : call ⟨false, true, true⟩ (fun _ _ => false) [.ndarray, .cosmoArray] = .ok .package
    ∧ call ⟨false, true, true⟩ (fun _ _ => false) [.unytArray, .cosmoArray] = .ok .unyt
    ∧ call ⟨false, true, true⟩ (fun _ _ => false) [.cosmoQuantity, .unytArray] = .ok .unyt
    ∧ call ⟨true, false, false⟩ (fun _ _ => false) [.cosmoArray] = .error .typeErr
    ∧ call ⟨false, true, true⟩ (fun _ _ => true) [.cosmoArray, .foreign 3] = .ok (.foreign 3)
    ∧ collect [.ndarray, .unytArray, .cosmoArray, .cosmoQuantity, .ndarray]
        = [.cosmoQuantity, .cosmoArray, .unytArray, .ndarray]
    ∧ ensured (V := ℕ) (A := ℕ) 0 (fun o => .arr ⟨.unytQuantity, [], o.val, 0⟩) ⟨.cosmoArray, [3], 7, 5⟩
        = .arr ⟨.cosmoQuantity, [], 7, 5⟩ := by
  refine ⟨by decide, by decide, by decide, by decide, by decide, by decide, rfl⟩

end Verif.Props
