import Verif.Spec.Names
import Batteries.Data.Char.AsciiCasing
import Mathlib.Data.List.Forall2
import Mathlib.Data.List.Nodup
import Mathlib.Tactic.Linarith
import Mathlib.Tactic.Common

/-!
# Names, file types and particle types (C33, C34, C50)
-/

namespace Verif.Props
open Verif Verif.Names Verif.Spec

private theorem upper_iff (c : Char) : upper c = c.isUpper := by
  simp only [upper, Char.isUpper, Char.le_def, ge_iff_le, Bool.decide_and]

private theorem lowDigit_iff (c : Char) : lowDigit c = (c.isLower || c.isDigit) := by
  simp only [lowDigit, Char.isLower, Char.isDigit, Char.le_def, ge_iff_le]

private theorem not_lowDigit_of_upper {c : Char} (h : upper c = true) : lowDigit c = false := by
  simp only [upper, lowDigit, Char.le_def, Bool.and_eq_true, decide_eq_true_eq, Bool.or_eq_false_iff, Bool.and_eq_false_iff,
    decide_eq_false_iff_not, UInt32.le_iff_toNat_le] at *
  have e1 : ('A' : Char).val.toNat = 65 := rfl
  have e2 : ('Z' : Char).val.toNat = 90 := rfl
  have e3 : ('a' : Char).val.toNat = 97 := rfl
  have e4 : ('z' : Char).val.toNat = 122 := rfl
  have e5 : ('0' : Char).val.toNat = 48 := rfl
  have e6 : ('9' : Char).val.toNat = 57 := rfl
  omega

/-- The expected result with the character before the list. -/
private def mark : Option Char → Str → Str
  | _, [] => []
  | p, c :: l => (if (p.any lowDigit) && upper c then ['_', c] else [c]) ++ mark (some c) l

private theorem mark_upper {b : Char} (h : upper b = true) (l : Str) : mark (some b) l = mark none l := by
  cases l with
  | nil => rfl
  | cons c l => simp [mark, not_lowDigit_of_upper h]

private theorem resub_mark : ∀ l : Str, resub l = mark none l
  | [] => rfl
  | [a] => by simp [resub, mark]
  | a :: b :: l => by
    unfold resub
    by_cases h : (lowDigit a && upper b) = true
    · have hb : upper b = true := (Bool.and_eq_true _ _ ▸ h).2
      rw [if_pos h, resub_mark l, ← mark_upper hb]
      simp only [mark, Option.any_none, Option.any_some, Bool.false_and, Bool.false_eq_true, if_false, h, if_true]
      rfl
    · rw [if_neg h, resub_mark (b :: l)]
      simp only [mark, Option.any_none, Option.any_some, Bool.false_and, Bool.false_eq_true, if_false, h]
      rfl

private theorem mark_map (p : Option Char) (l : Str) :
    (mark p l).map Char.toLower = (List.range l.length).flatMap (fun i =>
      let c := l[i]?.getD ' '
      let q := if i = 0 then p else l[i - 1]?
      if (q.any lowDigit) && upper c then ['_', c.toLower] else [c.toLower]) := by
  induction l generalizing p with
  | nil => rfl
  | cons c l ih =>
    rw [List.length_cons, List.range_succ_eq_map, List.flatMap_cons, List.flatMap_map]
    simp only [mark, List.map_append]
    congr 1
    · by_cases h : ((p.any lowDigit) && upper c) = true
      · simp [h]
      · simp [h]
    · rw [ih]
      apply List.flatMap_congr
      intro i hi
      have : i < l.length := List.mem_range.mp hi
      cases i with
      | zero => simp
      | succ i => simp

/-- C34: the Python name puts an underscore exactly before the upper case letters that follow a lower case letter or a
digit, and is in lower case otherwise. -/
theorem c34_positions (name : Str) : snake name = snakeAt name := by
  unfold snake snakeAt
  rw [resub_mark, mark_map]
  apply List.flatMap_congr
  intro i hi
  have hi : i < name.length := List.mem_range.mp hi
  cases i with
  | zero => simp
  | succ i => simp [upper_iff, lowDigit_iff, List.getElem?_eq_getElem (by omega : i < name.length)]

example : snake "HIIMassFractionsOfH2Gas".toList = "hiimass_fractions_of_h2_gas".toList := by decide +kernel

private theorem mem_snake {name : Str} {c : Char} (h : c ∈ snake name) : ∃ d : Char, c = d.toLower := by
  unfold snake at h
  rw [List.mem_map] at h
  obtain ⟨d, -, rfl⟩ := h
  exact ⟨d, rfl⟩

/-- C34: a Python name has no upper case letters. -/
theorem c34_lower (name : Str) : ∀ c : Char, c ∈ snake name → c.isUpper = false := by
  intro c h
  obtain ⟨d, rfl⟩ := mem_snake h
  exact Char.isUpper_toLower_eq_false d

private theorem toLower_underscore (c : Char) : c.toLower = '_' ↔ c = '_' := by
  constructor
  · intro h
    by_cases hc : c.isUpper = true
    · have h2 : c.toLower.isLower = true := by
        rw [Char.isLower_toLower_eq_isAlpha]
        simp [Char.isAlpha, hc]
      rw [h] at h2
      exact absurd h2 (by decide)
    · rwa [Char.toLower_eq_of_not_isUpper hc] at h
  · rintro rfl
    decide

private theorem mark_filter (p : Option Char) (l : Str) : (mark p l).filter (· != '_') = l.filter (· != '_') := by
  induction l generalizing p with
  | nil => rfl
  | cons c l ih =>
    simp only [mark, List.filter_append, ih]
    split <;> simp [List.filter_cons] <;> split <;> rfl

/-- C34: apart from underscores the letters of the name are those of the field, in order. -/
theorem c34_letters (name : Str) :
    (snake name).filter (· != '_') = (name.filter (· != '_')).map Char.toLower := by
  unfold snake
  rw [resub_mark, ← mark_filter none name, List.filter_map]
  congr 1
  apply List.filter_congr
  intro c _
  have := toLower_underscore c
  rw [Bool.eq_iff_iff, Function.comp_apply, bne_iff_ne, bne_iff_ne, ne_eq, ne_eq, this]

private theorem mark_noupper (p : Option Char) (l : Str) (h : ∀ c : Char, c ∈ l → upper c = false) : mark p l = l := by
  induction l generalizing p with
  | nil => rfl
  | cons c l ih =>
    simp [mark, h c (List.mem_cons_self ..), ih _ (fun d hd => h d (List.mem_cons_of_mem _ hd))]

/-- C34: a name that has been converted stays the same. -/
theorem c34_idempotent (name : Str) : snake (snake name) = snake name := by
  have h : mark none (snake name) = snake name :=
    mark_noupper none _ (fun c hc => by rw [upper_iff]; exact c34_lower name c hc)
  have e : snake (snake name) = (resub (snake name)).map Char.toLower := rfl
  rw [e, resub_mark, h]
  rw [List.map_congr_left (g := id), List.map_id]
  intro c hc
  obtain ⟨d, rfl⟩ := mem_snake hc
  exact Char.toLower_toLower_eq_toLower d

private theorem foldl_last {α β : Type} [DecidableEq α] (key : β → α) {γ : Type} (val : β → γ) (l : List β) (d : α → Option γ) (n : α) :
    l.foldl (fun d f => fun n => if n = key f then some (val f) else d n) d n =
      match (l.reverse.find? (fun f => n = key f)) with
      | some f => some (val f)
      | none => d n := by
  induction l generalizing d with
  | nil => rfl
  | cons f l ih =>
    rw [List.foldl_cons, ih, List.reverse_cons, List.find?_append]
    cases h : List.find? (fun f => decide (n = key f)) l.reverse with
    | some g => simp
    | none =>
      by_cases hn : n = key f <;> simp [hn]

/-- C34: if no two fields and no attribute share a Python name, each field is read under its own name. -/
theorem c34_fields (group : Str) (keys present attrs : List Str) (k : Str) (hk : k ∈ keys)
    (hp : group ++ '/' :: k ∉ present) (hd : (keys.map snake).Nodup) (ha : ∀ a : Str, a ∈ attrs → snake a ≠ snake k) :
    datasetTable (loadFieldNames group keys present) attrs (snake k) = some (.field (group ++ '/' :: k)) := by
  unfold datasetTable loadGroupAttributes
  simp only [foldl_last (fun a => snake a) (fun a => a), foldl_last (fun f : Str × Str => f.2) (fun f => Target.field f.1)]
  have h1 : List.find? (fun f => decide (snake k = snake f)) attrs.reverse = none := by
    rw [List.find?_eq_none]
    intro a h
    simpa using fun e => ha a (List.mem_reverse.mp h) e.symm
  rw [h1]
  simp only
  cases h2 : List.find? (fun f : Str × Str => decide (snake k = f.2)) (loadFieldNames group keys present).reverse with
  | none =>
    rw [List.find?_eq_none] at h2
    have := h2 (group ++ '/' :: k, snake k) (by
      rw [List.mem_reverse, loadFieldNames, List.mem_map]
      exact ⟨k, List.mem_filter.mpr ⟨hk, by simpa using hp⟩, rfl⟩)
    simp at this
  | some f =>
    have hf := List.mem_of_find?_eq_some h2
    have he := List.find?_some h2
    rw [List.mem_reverse, loadFieldNames, List.mem_map] at hf
    obtain ⟨j, hj, rfl⟩ := hf
    have hj := (List.mem_filter.mp hj).1
    have : j = k := List.inj_on_of_nodup_map hd hj hk (by simpa using he : snake k = snake j).symm
    rw [this]

/-- C34: two fields whose names agree up to case and underscores share a Python name, and only one can be read. -/
theorem c34_collision_fails :
    ∃ keys : List Str, keys.Nodup ∧ ∀ name : Str,
      datasetTable (loadFieldNames "PartType0".toList keys []) [] name ≠ some (.field "PartType0/FooBar".toList) := by
  refine ⟨["FooBar".toList, "Foo_Bar".toList], by decide +kernel, ?_⟩
  intro name
  have h : loadFieldNames "PartType0".toList ["FooBar".toList, "Foo_Bar".toList] [] =
    [("PartType0/FooBar".toList, "foo_bar".toList), ("PartType0/Foo_Bar".toList, "foo_bar".toList)] := by decide +kernel
  rw [h]
  by_cases hn : name = "foo_bar".toList
  · subst hn; decide +kernel
  · have : name ≠ ['f', 'o', 'o', '_', 'b', 'a', 'r'] := hn
    simp [datasetTable, loadGroupAttributes, this]

/-- C34: an attribute of the group hides the field with the same Python name. -/
theorem c34_attribute_fails :
    datasetTable (loadFieldNames "PartType0".toList ["Masses".toList] []) ["Masses".toList] "masses".toList =
      some (.attr "Masses".toList) := by
  decide +kernel

/-- C33: a file type is accepted exactly when it is documented, and gives the documented reader. -/
theorem c33_known (t : String) (k : Kind) : discriminate (some t) = .ok k ↔ (t, k) ∈ fileTypes := by
  simp only [discriminate, Option.getD_some, fileTypes, List.mem_cons, Prod.mk.injEq, List.not_mem_nil, or_false]
  constructor
  · intro h
    split at h
    · rename_i h1; cases h; rcases h1 with rfl | rfl <;> simp
    split at h
    · rename_i h1; cases h; subst h1; simp
    split at h
    · rename_i h1; cases h; rcases h1 with rfl | rfl <;> simp
    split at h
    · rename_i h1; cases h; rcases h1 with rfl | rfl <;> simp
    · cases h
  · rintro (⟨rfl, rfl⟩ | ⟨rfl, rfl⟩ | ⟨rfl, rfl⟩ | ⟨rfl, rfl⟩ | ⟨rfl, rfl⟩ | ⟨rfl, rfl⟩ | ⟨rfl, rfl⟩) <;> decide

example : discriminate (some "SOAPSubset") = .ok .soap := (c33_known _ _).mpr (by decide)

/-- C33: an unknown type raises ValueError. -/
theorem c33_unknown (t : String) (h : ∀ k : Kind, (t, k) ∉ fileTypes) : discriminate (some t) = .error .value := by
  cases e : discriminate (some t) with
  | ok k => exact absurd ((c33_known t k).mp e) (h k)
  | error err =>
    simp only [discriminate] at e
    split at e; · cases e
    split at e; · cases e
    split at e; · cases e
    split at e; · cases e
    exact e.symm

/-- C33: a file without a type is a snapshot. -/
theorem c33_missing : discriminate none = .ok .snapshot := by decide

private theorem rename_cases {t : String} {u : Option String} (h : renameType (some t) = .ok u) :
    (t = "FullVolume" ∧ u = some "VolumeSubset") ∨ (t = "SOAP" ∧ u = some "SOAPSubset") ∨ (t = "FOF" ∧ u = some "FOFSubset") ∨
      (t = "VolumeSubset" ∧ u = some "VolumeSubset") ∨ (t = "SOAPSubset" ∧ u = some "SOAPSubset") ∨
      (t = "FOFSubset" ∧ u = some "FOFSubset") := by
  simp only [renameType, renameTable, List.lookup] at h
  by_cases h1 : t = "FullVolume"
  · subst h1; cases h; simp
  by_cases h2 : t = "SOAP"
  · subst h2; cases h; simp
  by_cases h3 : t = "FOF"
  · subst h3; cases h; simp
  by_cases h4 : t = "VolumeSubset"
  · subst h4; cases h; simp
  by_cases h5 : t = "SOAPSubset"
  · subst h5; cases h; simp
  by_cases h6 : t = "FOFSubset"
  · subst h6; cases h; simp
  simp [h1, h2, h3, h4, h5, h6, beq_eq_false_iff_ne.mpr] at h

/-- C33: the type written for a subset has the reader of its source. -/
theorem c33_subset_reader (t u : Option String) (h : renameType t = .ok u) : discriminate u = discriminate t := by
  cases t with
  | none => cases h; rfl
  | some t =>
    rcases rename_cases h with ⟨rfl, rfl⟩ | ⟨rfl, rfl⟩ | ⟨rfl, rfl⟩ | ⟨rfl, rfl⟩ | ⟨rfl, rfl⟩ | ⟨rfl, rfl⟩ <;> decide

example : renameType (some "SOAP") = .ok (some "SOAPSubset") := by decide

/-- C33: the type of a subset of a subset is that of the subset. -/
theorem c33_subset_twice (t u : Option String) (h : renameType t = .ok u) : renameType u = .ok u := by
  cases t with
  | none => cases h; rfl
  | some t =>
    rcases rename_cases h with ⟨rfl, rfl⟩ | ⟨rfl, rfl⟩ | ⟨rfl, rfl⟩ | ⟨rfl, rfl⟩ | ⟨rfl, rfl⟩ | ⟨rfl, rfl⟩ <;> decide

/-- C33: every file that can be masked has a subset type. -/
theorem c33_subset_total (t : Option String) (k : Kind) (h : discriminate t = .ok k) (hm : maskingValid k = true) :
    ∃ u : Option String, renameType t = .ok u := by
  cases t with
  | none => exact ⟨none, rfl⟩
  | some t =>
    rw [c33_known] at h
    simp only [fileTypes, List.mem_cons, Prod.mk.injEq, List.not_mem_nil, or_false] at h
    rcases h with ⟨rfl, rfl⟩ | ⟨rfl, rfl⟩ | ⟨rfl, rfl⟩ | ⟨rfl, rfl⟩ | ⟨rfl, rfl⟩ | ⟨rfl, rfl⟩ | ⟨rfl, rfl⟩
    · exact ⟨some "VolumeSubset", by decide⟩
    · exact ⟨some "VolumeSubset", by decide⟩
    · exact absurd hm (by decide)
    · exact ⟨some "SOAPSubset", by decide⟩
    · exact ⟨some "SOAPSubset", by decide⟩
    · exact ⟨some "FOFSubset", by decide⟩
    · exact ⟨some "FOFSubset", by decide⟩

/-- C33: a type that cannot be read cannot be written either, so a subset is always readable. -/
theorem c33_subset_readable (t u : Option String) (h : renameType t = .ok u) : ∃ k : Kind, discriminate u = .ok k := by
  cases t with
  | none => cases h; exact ⟨_, rfl⟩
  | some t =>
    rcases rename_cases h with ⟨rfl, rfl⟩ | ⟨rfl, rfl⟩ | ⟨rfl, rfl⟩ | ⟨rfl, rfl⟩ | ⟨rfl, rfl⟩ | ⟨rfl, rfl⟩
    · exact ⟨.snapshot, by decide⟩
    · exact ⟨.soap, by decide⟩
    · exact ⟨.fof, by decide⟩
    · exact ⟨.snapshot, by decide⟩
    · exact ⟨.soap, by decide⟩
    · exact ⟨.fof, by decide⟩

theorem partType_inj {i j : Nat} (h : partType i = partType j) : i = j := by
  unfold partType at h
  have h := List.append_cancel_left h
  rw [← Nat.ofDigitChars_ten_toDigits (n := i), h, Nat.ofDigitChars_ten_toDigits]

private theorem lookup_part (i : Nat) :
    particleNames.lookup (partType i) = (typeNames[i]?).map String.toList := by
  by_cases h : i < 8
  · have : ∀ i : Nat, i < 8 → particleNames.lookup (partType i) = (typeNames[i]?).map String.toList := by decide +kernel
    exact this i h
  · have e : typeNames[i]? = none := by simp [typeNames]; omega
    rw [e, Option.map_none, List.lookup_eq_none_iff]
    intro p hp
    have : ∃ j : Nat, j < 8 ∧ p.1 = partType j := by
      have : ∀ p ∈ particleNames, ∃ j : Nat, j < 8 ∧ p.1 = partType j := by decide +kernel
      exact this p hp
    obtain ⟨j, hj, e⟩ := this
    rw [e]
    simp only [bne_iff_ne, ne_eq] at *
    intro e
    exact h (by rw [partType_inj e]; exact hj)

/-- C50: without `CanHaveTypes` the present groups are those of the types with particles, once each, in order. -/
theorem c50_present (h : Header) (hn : h.hasType = none) (i : Nat) :
    (partType i ∈ presentGroups h ↔ nOf h i ≠ 0) := by
  unfold presentGroups presentTypes nOf
  rw [List.mem_map]
  simp only [hn, Option.getD_none, List.mem_filter, List.mem_range, bne_iff_ne]
  constructor
  · rintro ⟨j, ⟨hj, h0⟩, e⟩
    rw [← partType_inj e]
    exact h0
  · intro h0
    refine ⟨i, ⟨?_, h0⟩, rfl⟩
    by_contra hc
    rw [List.getElem?_eq_none (by omega)] at h0
    exact h0 rfl

example : presentGroups ⟨none, [3, 0, 0, 0, 5]⟩ = ["PartType0".toList, "PartType4".toList] := by decide +kernel

/-- C50: with `CanHaveTypes` the present groups are those it declares. -/
theorem c50_declared (h : Header) (v : List Int) (hn : h.hasType = some v) (i : Nat) :
    (partType i ∈ presentGroups h ↔ ∃ x : Int, v[i]? = some x ∧ x ≠ 0) := by
  unfold presentGroups presentTypes
  rw [List.mem_map]
  simp only [hn, Option.getD_some, List.mem_filter, List.mem_range, bne_iff_ne]
  constructor
  · rintro ⟨j, ⟨hj, h0⟩, e⟩
    rw [← partType_inj e]
    rw [List.getElem?_eq_getElem hj] at h0 ⊢
    exact ⟨_, rfl, h0⟩
  · rintro ⟨x, hx, h0⟩
    exact ⟨i, ⟨(List.getElem?_eq_some_iff.mp hx).1, by rw [hx]; exact h0⟩, rfl⟩

/-- C50: a group is listed once and only types of the file are listed. -/
theorem c50_distinct (h : Header) :
    (presentGroups h).Nodup ∧ ∀ g : Str, g ∈ presentGroups h → ∃ i : Nat, g = partType i := by
  constructor
  · unfold presentGroups presentTypes
    exact List.Nodup.map (fun i j e => partType_inj e) (List.nodup_range.filter _)
  · intro g hg
    obtain ⟨i, -, rfl⟩ := List.mem_map.mp hg
    exact ⟨i, rfl⟩

private theorem names_ok {l : List Nat} {ns : List Str}
    (h : (l.map partType).mapM (fun g => match particleNames.lookup g with
      | some n => (Except.ok n : Except Err Str)
      | none => .error .key) = .ok ns) :
    List.Forall₂ (fun i n => ∃ s : String, typeNames[i]? = some s ∧ n = s.toList) l ns := by
  induction l generalizing ns with
  | nil => cases h; exact .nil
  | cons i l ih =>
    rw [List.map_cons, List.mapM_cons, lookup_part] at h
    cases e : typeNames[i]? with
    | none => rw [e] at h; cases h
    | some s =>
      rw [e] at h
      simp only [Option.map_some, bind, Except.bind] at h
      cases e2 : (l.map partType).mapM (fun g => match particleNames.lookup g with
        | some n => (Except.ok n : Except Err Str)
        | none => .error .key) with
      | error _ => rw [e2] at h; cases h
      | ok r =>
        rw [e2] at h
        cases h
        exact .cons ⟨s, e, rfl⟩ (ih e2)

/-- C50: the lists of groups and names run in parallel: the name at a position is the documented name of the type there. -/
theorem c50_aligned (h : Header) (ns : List Str) (hn : presentGroupNames h = .ok ns) :
    List.Forall₂ (fun g n => ∃ (i : Nat) (s : String), g = partType i ∧ typeNames[i]? = some s ∧ n = s.toList)
      (presentGroups h) ns := by
  unfold presentGroups
  rw [List.forall₂_map_left_iff]
  exact (names_ok hn).imp (fun i n ⟨s, e, e2⟩ => ⟨i, s, rfl, e, e2⟩)

/-- C50: the Python names are distinct. -/
theorem c50_names_distinct (h : Header) (ns : List Str) (hn : presentGroupNames h = .ok ns) : ns.Nodup := by
  have h1 := names_ok hn
  have h2 : (presentTypes h).Nodup := List.nodup_range.filter _
  have inj : ∀ i : Nat, i < 8 → ∀ j : Nat, j < 8 → (typeNames[i]?).map String.toList = (typeNames[j]?).map String.toList → i = j := by
    decide +kernel
  have lt : ∀ (i : Nat) (s : String), typeNames[i]? = some s → i < 8 := fun i s e => by
    have := (List.getElem?_eq_some_iff.mp e).1
    exact this
  clear hn
  generalize presentTypes h = l at h1 h2
  induction h1 with
  | nil => exact List.nodup_nil
  | cons hr ht ih =>
    rename_i i n l ns
    rw [List.nodup_cons] at h2 ⊢
    refine ⟨?_, ih h2.2⟩
    intro hm
    obtain ⟨s, e, rfl⟩ := hr
    obtain ⟨k, hk, e2⟩ := List.mem_iff_getElem.mp hm
    have hl := ht.length_eq
    obtain ⟨s', e', e3⟩ := List.forall₂_iff_get.mp ht |>.2 k (by omega) hk
    simp only [List.get_eq_getElem] at e' e3
    have : i = l[k] := inj _ (lt _ _ e) _ (lt _ _ e') (by rw [e, e', Option.map_some, Option.map_some, ← e3, e2])
    exact h2.1 (this ▸ List.getElem_mem _)

/-- C50: the names exist exactly when the file has no type beyond the eight documented ones; otherwise KeyError. -/
theorem c50_names_exist (h : Header) :
    (∃ ns : List Str, presentGroupNames h = .ok ns) ↔ ∀ i : Nat, partType i ∈ presentGroups h → i < 8 := by
  constructor
  · rintro ⟨ns, hn⟩ i hi
    have h1 := c50_aligned h ns hn
    obtain ⟨k, hk, e⟩ := List.mem_iff_getElem.mp hi
    obtain ⟨j, s, e1, e2, -⟩ := (List.forall₂_iff_get.mp h1).2 k hk (by rw [← h1.length_eq]; exact hk)
    simp only [List.get_eq_getElem] at e1
    rw [e] at e1
    rw [partType_inj e1]
    exact (List.getElem?_eq_some_iff.mp e2).1
  · intro hi
    unfold presentGroupNames presentGroups at *
    generalize presentTypes h = l at hi
    induction l with
    | nil => exact ⟨[], rfl⟩
    | cons i l ih =>
      obtain ⟨ns, hn⟩ := ih (fun j hj => hi j (List.mem_cons_of_mem _ hj))
      have : i < 8 := hi i (List.mem_cons_self ..)
      have e : typeNames[i]? = some typeNames[i] := List.getElem?_eq_getElem this
      refine ⟨typeNames[i].toList :: ns, ?_⟩
      rw [List.map_cons, List.mapM_cons, lookup_part, e, hn]
      rfl

/-- C50: a file with a ninth type cannot be opened. -/
theorem c50_ninth_type_fails :
    presentGroupNames ⟨none, [1, 0, 0, 0, 0, 0, 0, 0, 1]⟩ = .error .key := by decide +kernel

/-- C50: a type that has particles and is not declared in `CanHaveTypes` is not listed. -/
theorem c50_undeclared_fails :
    nOf ⟨some [1, 0], [1, 7]⟩ 1 = 7 ∧ partType 1 ∉ presentGroups ⟨some [1, 0], [1, 7]⟩ := by decide +kernel

private theorem split_append (h t : Str) (hh : '/' ∉ h) : split (h ++ '/' :: t) = h :: split t := by
  induction h with
  | nil =>
    rw [List.nil_append, split]
    cases e : split t with
    | nil =>
      cases t with
      | nil => cases e
      | cons c l =>
        rw [split] at e
        split at e
        · cases e
        · split at e <;> cases e
    | cons w ws => simp
  | cons c h ih =>
    rw [List.mem_cons, not_or] at hh
    rw [List.cons_append, split, ih hh.2]
    simp [Ne.symm hh.1]

private theorem split_plain (h : Str) (hh : '/' ∉ h) : split h = [h] := by
  induction h with
  | nil => rfl
  | cons c h ih =>
    rw [List.mem_cons, not_or] at hh
    rw [split, ih hh.2]
    simp [Ne.symm hh.1]

private theorem soap_name (g v u : Str) (hg : (g, u) ∈ soapNames) (hv : '/' ∉ v) :
    soapName (g ++ '/' :: v) = .ok (u ++ '_' :: v.map Char.toLower) := by
  have h1 : ∀ p ∈ soapNames, '/' ∉ p.1 ∧ soapNames.lookup p.1 = some p.2 ∧ p.2.map Char.toLower = p.2 := by decide +kernel
  obtain ⟨a, b, c⟩ := h1 _ hg
  unfold soapName
  rw [split_append _ _ a, split_plain _ hv]
  simp only [b, List.map_cons, c, List.map_nil, join]

/-- C50: the Python name of a SOAP group `type/variant` is the documented name of the type, an underscore, and the variant in
lower case; the name of its class is that of the type and the variant, with one capital each. -/
theorem c50_soap_name (g u c : String) (v : Str) (hg : (g, u, c) ∈ soapTypes) (hv : '/' ∉ v) :
    soapName (g.toList ++ '/' :: v) = .ok (u.toList ++ '_' :: v.map Char.toLower) ∧
      soapNice (g.toList ++ '/' :: v) = .ok (c.toList ++ capitalize v) := by
  have h1 : ∀ p ∈ soapTypes, (p.1.toList, p.2.1.toList) ∈ soapNames := by decide +kernel
  have h2 : ∀ p ∈ soapTypes, '/' ∉ p.1.toList ∧ (soapNices.lookup p.1.toList).map capitalize = some p.2.2.toList := by decide +kernel
  refine ⟨soap_name _ _ _ (h1 _ hg) hv, ?_⟩
  obtain ⟨a, b⟩ := h2 _ hg
  unfold soapNice
  rw [split_append _ _ a, split_plain _ hv]
  cases hl : soapNices.lookup g.toList with
  | none => rw [hl] at b; cases b
  | some w =>
    rw [hl] at b
    have b' : capitalize w = c.toList := Option.some.inj b
    simp [hl, b']

/-- C50: SOAP groups of another type are refused. -/
theorem c50_soap_unknown (g v : Str) (hg : '/' ∉ g) (hu : ∀ p ∈ soapTypes, p.1.toList ≠ g) :
    soapName (g ++ '/' :: v) = .error .key ∧ soapNice (g ++ '/' :: v) = .error .key := by
  have h1 : ∀ p ∈ soapNames, ∃ q ∈ soapTypes, q.1.toList = p.1 := by decide +kernel
  have h2 : ∀ p ∈ soapNices, ∃ q ∈ soapTypes, q.1.toList = p.1 := by decide +kernel
  have e1 : soapNames.lookup g = none := by
    rw [List.lookup_eq_none_iff]
    intro p hp
    obtain ⟨q, hq, e⟩ := h1 p hp
    exact bne_iff_ne.2 fun h => hu q hq (e.trans h.symm)
  have e2 : soapNices.lookup g = none := by
    rw [List.lookup_eq_none_iff]
    intro p hp
    obtain ⟨q, hq, e⟩ := h2 p hp
    exact bne_iff_ne.2 fun h => hu q hq (e.trans h.symm)
  unfold soapName soapNice
  rw [split_append _ _ hg]
  simp only [e1, e2, and_self]

example : soapNice "SO/200_Crit".toList = .ok "Sphericaloverdensity200_crit".toList := by decide +kernel
example : soapName "SO/200_Crit".toList = .ok "spherical_overdensity_200_crit".toList := by decide +kernel

/-- C50: SOAP groups `type/variant` share a Python name only if the type is the same and the variants differ in case only. -/
theorem c50_soap_distinct (g g' : String) (v v' n : Str) (hgt : g ∈ soapTypes.map Prod.fst) (hgt' : g' ∈ soapTypes.map Prod.fst)
    (hv : '/' ∉ v) (hv' : '/' ∉ v') (h : soapName (g.toList ++ '/' :: v) = .ok n) (h' : soapName (g'.toList ++ '/' :: v') = .ok n) :
    g = g' ∧ v.map Char.toLower = v'.map Char.toLower := by
  have hmem : ∀ p ∈ soapTypes, (p.1.toList, p.2.1.toList) ∈ soapNames := by decide +kernel
  obtain ⟨⟨g0, u0, _⟩, hp, hg0⟩ := List.mem_map.1 hgt
  obtain ⟨⟨g0', u0', _⟩, hp', hg0'⟩ := List.mem_map.1 hgt'
  dsimp only at hg0 hg0'
  subst hg0 hg0'
  have hg := hmem _ hp
  have hg' := hmem _ hp'
  dsimp only at h h' hg hg' ⊢
  generalize u0.toList = u at hg
  generalize u0'.toList = u' at hg'
  rw [soap_name _ v u hg hv] at h
  rw [soap_name _ v' u' hg' hv'] at h'
  injection h with h
  injection h' with h'
  rw [← h'] at h
  have key : ∀ p ∈ soapNames, ∀ q ∈ soapNames, (p.2 ++ ['_']) <+: (q.2 ++ ['_']) → p = q := by decide +kernel
  have e1 : u ++ '_' :: v.map Char.toLower = (u ++ ['_']) ++ v.map Char.toLower := by simp
  have e2 : u' ++ '_' :: v'.map Char.toLower = (u' ++ ['_']) ++ v'.map Char.toLower := by simp
  rw [e1, e2] at h
  have hp1 : (u ++ ['_']) <+: (u ++ ['_']) ++ v.map Char.toLower := List.prefix_append _ _
  have hp2 : (u' ++ ['_']) <+: (u ++ ['_']) ++ v.map Char.toLower := h ▸ List.prefix_append _ _
  have : (g0.toList, u) = (g0'.toList, u') := by
    rcases Nat.le_total (u ++ ['_']).length (u' ++ ['_']).length with hl | hl
    · exact key _ hg _ hg' (List.prefix_of_prefix_length_le hp1 hp2 hl)
    · exact (key _ hg' _ hg (List.prefix_of_prefix_length_le hp2 hp1 hl)).symm
  obtain ⟨hgg, hu⟩ := Prod.mk.inj this
  subst hu
  exact ⟨String.toList_injective hgg, List.append_cancel_left h⟩

/-- C50: SOAP groups with further levels can share a Python name. -/
theorem c50_soap_levels_fails : soapName "SO/A/B".toList = soapName "SO/a_b".toList := by decide +kernel

/-- C58: named columns keep their order and number; they are all put in lower case or all left as they are, and the first
happens exactly when there are at most 1.01 capitals per name. -/
theorem c58_format (names out : List Str) (h : formatColumns names = .ok out) :
    out.length = names.length ∧ (out = names.map (List.map Char.toLower) ∨ out = names) ∧
      (((names.map (List.countP Char.isUpper)).sum * 100 < 101 * names.length) → out = names.map (List.map Char.toLower)) ∧
      (¬ ((names.map (List.countP Char.isUpper)).sum * 100 < 101 * names.length) → out = names) := by
  have hc : numCapitals = List.countP Char.isUpper := by
    funext s
    exact List.countP_congr (fun c _ => by rw [upper_iff])
  unfold formatColumns at h
  rw [hc] at h
  split at h
  · cases h
  rename_i h0
  have hpos : (0 : ℚ) < names.length := by exact_mod_cast Nat.pos_of_ne_zero h0
  have hiff : ((((names.map (List.countP Char.isUpper)).sum : Nat) : ℚ) / names.length < 101 / 100) ↔
      (names.map (List.countP Char.isUpper)).sum * 100 < 101 * names.length := by
    rw [div_lt_div_iff₀ hpos (by norm_num)]
    exact_mod_cast Iff.rfl
  split at h <;> rename_i h1 <;> cases h
  · exact ⟨by simp, .inl rfl, fun _ => rfl, fun h2 => absurd (hiff.mp h1) h2⟩
  · exact ⟨rfl, .inr rfl, fun h2 => absurd (hiff.mpr h2) h1, fun _ => rfl⟩

example : formatColumns ["Helium".toList, "Carbon".toList] = .ok ["helium".toList, "carbon".toList] := by decide +kernel
example : formatColumns ["HI".toList, "HeII".toList] = .ok ["HI".toList, "HeII".toList] := by decide +kernel

private theorem columnTable_eq (names : List Str) (n : Str) :
    columnTable names n = match (names.zipIdx.reverse.find? (fun f => n = f.1)) with
      | some f => some f.2
      | none => none := by
  unfold columnTable
  rw [foldl_last (fun f : Str × Nat => f.1) (fun f => f.2)]
  cases List.find? (fun f : Str × Nat => decide (n = f.1)) names.zipIdx.reverse <;> rfl

/-- C58: the name of a column reads a column with that name. -/
theorem c58_sound (names : List Str) (n : Str) (i : Nat) (h : columnTable names n = some i) : names[i]? = some n := by
  rw [columnTable_eq] at h
  split at h
  · rename_i f hf
    cases h
    have h1 := List.mem_of_find?_eq_some hf
    have h2 := List.find?_some hf
    rw [List.mem_reverse] at h1
    have := List.mem_zipIdx_iff_getElem?.mp h1
    rw [this]
    simpa using (by simpa using h2 : n = f.1).symm
  · cases h

/-- C58: every name reads a column. -/
theorem c58_complete (names : List Str) (n : Str) (hn : n ∈ names) : ∃ i : Nat, columnTable names n = some i := by
  rw [columnTable_eq]
  cases h : names.zipIdx.reverse.find? (fun f => n = f.1) with
  | some f => exact ⟨f.2, rfl⟩
  | none =>
    rw [List.find?_eq_none] at h
    obtain ⟨i, hi, e⟩ := List.mem_iff_getElem.mp hn
    have := h (n, i) (by
      rw [List.mem_reverse, List.mem_zipIdx_iff_getElem?]
      exact List.getElem?_eq_some_iff.mpr ⟨hi, e⟩)
    simp at this

/-- C58: if the names are distinct as used, each reads its own column. -/
theorem c58_columns (names out : List Str) (h : formatColumns names = .ok out) (hd : out.Nodup) (i : Nat)
    (hi : i < names.length) : ∃ n : Str, out[i]? = some n ∧ columnTable out n = some i := by
  have hl := (c58_format names out h).1
  have hi' : i < out.length := by omega
  refine ⟨out[i], List.getElem?_eq_getElem hi', ?_⟩
  obtain ⟨j, hj⟩ := c58_complete out out[i] (List.getElem_mem hi')
  obtain ⟨hj2, e⟩ := List.getElem?_eq_some_iff.mp (c58_sound _ _ _ hj)
  rw [hj, (List.Nodup.getElem_inj_iff hd).mp e]

/-- C58: columns whose names differ in case only are merged: the first cannot be read. -/
theorem c58_case_fails : ∃ out : List Str, formatColumns ["He".toList, "he".toList] = .ok out ∧
    out[0]? = some "he".toList ∧ columnTable out "he".toList = some 1 :=
  ⟨["he".toList, "he".toList], by decide +kernel⟩

/-- C58: a field with an empty list of columns makes the file unreadable. -/
theorem c58_empty_fails : formatColumns [] = .error .value := rfl

end Verif.Props
