import Verif.Model.Mapping
import Verif.Spec.Mapping
import Verif.Props.Names
import Mathlib.Data.List.Infix
import Batteries.Data.Char.AsciiCasing
import Mathlib.Data.List.Nodup
import Mathlib.Tactic.Linarith
import Mathlib.Tactic.NormNum

/-!
# C65: mapping tables
-/

namespace Verif.Props
open Verif Verif.Names Verif.Mapping
open Verif.Spec (AsciiLetter StartsWithKey)

private theorem findSome_reverse_range {α : Type} (f : Nat → Option α) (n k : Nat) (a : α) (hk : k < n) (h : f k = some a)
    (hb : ∀ i, k < i → i < n → f i = none) : (List.range n).reverse.findSome? f = some a := by
  induction n with
  | zero => omega
  | succ n ih =>
    rw [List.range_succ, List.reverse_append, List.reverse_singleton, List.singleton_append, List.findSome?_cons]
    by_cases e : k = n
    · subst e
      simp [h]
    · rw [hb n (by omega) (by omega)]
      exact ih (by omega) (fun i h1 h2 => hb i h1 (by omega))

private theorem find_reverse_range (f : Nat → Bool) (n k : Nat) (hk : k < n) (h : f k = true)
    (hb : ∀ i, k < i → i < n → f i = false) : (List.range n).reverse.find? f = some k := by
  induction n with
  | zero => omega
  | succ n ih =>
    rw [List.range_succ, List.reverse_append, List.reverse_singleton, List.singleton_append, List.find?_cons]
    by_cases e : k = n
    · subst e
      simp [h]
    · rw [hb n (by omega) (by omega)]
      exact ih (by omega) (fun i h1 h2 => hb i h1 (by omega))

private theorem matchTail_eq (y : Str) (hy : ∀ c ∈ y, letter c) : matchTail (y ++ "Mapping".toList) = some y := by
  unfold matchTail
  rw [find_reverse_range _ _ y.length (by simp; omega)]
  · simp
  · simp only [List.take_left, List.drop_left, Bool.and_eq_true]
    exact ⟨by simpa using hy, by decide⟩
  · intro i h1 _
    have : "Mapping".toList.isPrefixOf ((y ++ "Mapping".toList).drop i) = false := by
      rw [Bool.eq_false_iff]
      intro hc
      have hl := (List.isPrefixOf_iff_prefix.1 hc).length_le
      simp only [List.length_drop, List.length_append] at hl
      have : "Mapping".toList.length = 7 := by decide
      omega
    rw [this, Bool.and_false]

private theorem to_infix (y : Str) (h : "To".toList <:+: y ++ "Mapping".toList) : "To".toList <:+: y := by
  induction y with
  | nil => exact absurd h (by decide)
  | cons c y ih =>
    rw [List.cons_append, List.infix_cons_iff] at h
    rcases h with ⟨t, ht⟩ | h
    · have ht : c = 'T' ∧ y ++ "Mapping".toList = 'o' :: t := by simpa [eq_comm] using ht
      cases y with
      | nil => simp at ht
      | cons d y =>
        rw [List.cons_append, List.cons.injEq] at ht
        obtain ⟨rfl, rfl, _⟩ := ht
        exact (List.prefix_append ['T', 'o'] y).isInfix
    · exact (ih h).trans (List.suffix_cons c y).isInfix

private theorem letter_iff (c : Char) : letter c = true ↔ AsciiLetter c := by
  unfold AsciiLetter letter
  constructor
  · intro h
    simp only [Bool.or_eq_true, Bool.and_eq_true, decide_eq_true_eq, Char.le_def, UInt32.le_iff_toNat_le] at h
    have h' : (97 ≤ c.toNat ∧ c.toNat ≤ 122) ∨ (65 ≤ c.toNat ∧ c.toNat ≤ 90) := h
    have key : ∀ n : Fin 123, ((97 ≤ n.1 ∧ n.1 ≤ 122) ∨ (65 ≤ n.1 ∧ n.1 ≤ 90)) →
        Char.ofNat n.1 ∈ "abcdefghijklmnopqrstuvwxyzABCDEFGHIJKLMNOPQRSTUVWXYZ".toList := by decide +kernel
    have := key ⟨c.toNat, by omega⟩ h'
    rwa [Char.ofNat_toNat] at this
  · intro h
    have key : "abcdefghijklmnopqrstuvwxyzABCDEFGHIJKLMNOPQRSTUVWXYZ".toList.all
        (fun c => (decide ('a' ≤ c) && decide (c ≤ 'z')) || (decide ('A' ≤ c) && decide (c ≤ 'Z'))) = true := by decide +kernel
    exact List.all_eq_true.1 key c h

/-- The two names of a key are found, unless the second contains `To`. -/
theorem c65_key (x y : Str) (hx : ∀ c ∈ x, AsciiLetter c) (hy : ∀ c ∈ y, AsciiLetter c) (hto : ¬ "To".toList <:+: y) :
    matchKey (x ++ "To".toList ++ y ++ "Mapping".toList) = some (x, y) := by
  replace hx : ∀ c ∈ x, letter c := fun c h => (letter_iff c).2 (hx c h)
  replace hy : ∀ c ∈ y, letter c := fun c h => (letter_iff c).2 (hy c h)
  unfold matchKey
  refine findSome_reverse_range _ _ x.length _ (by simp; omega) ?_ ?_
  · have e1 : (x ++ "To".toList ++ y ++ "Mapping".toList).take x.length = x := by simp
    have e2 : (x ++ "To".toList ++ y ++ "Mapping".toList).drop x.length = "To".toList ++ (y ++ "Mapping".toList) := by simp
    have e3 : (x ++ "To".toList ++ y ++ "Mapping".toList).drop (x.length + 2) = y ++ "Mapping".toList := by
      rw [← List.drop_drop, e2]
      rfl
    rw [e1, e2, e3, matchTail_eq y hy]
    have e4 : x.all letter = true := by simpa using hx
    have e5 : "To".toList.isPrefixOf ("To".toList ++ (y ++ "Mapping".toList)) = true :=
      List.isPrefixOf_iff_prefix.2 (List.prefix_append _ _)
    simp [e4, e5]
  · intro i h1 h2
    have hno : "To".toList.isPrefixOf ((x ++ "To".toList ++ y ++ "Mapping".toList).drop i) = false := by
      rw [Bool.eq_false_iff]
      intro hc
      have hp := List.isPrefixOf_iff_prefix.1 hc
      obtain ⟨k, rfl⟩ : ∃ k, i = x.length + 1 + k := ⟨i - (x.length + 1), by omega⟩
      have e : (x ++ "To".toList ++ y ++ "Mapping".toList).drop (x.length + 1 + k) = ('o' :: (y ++ "Mapping".toList)).drop k := by
        rw [← List.drop_drop, ← List.drop_drop]
        simp
      rw [e] at hp
      cases k with
      | zero =>
        rw [List.drop_zero] at hp
        obtain ⟨t, ht⟩ := hp
        simp at ht
      | succ k =>
        rw [List.drop_succ_cons] at hp
        exact hto (to_infix y (hp.isInfix.trans (List.drop_suffix k _).isInfix))
    rw [hno, Bool.and_false]
    rfl

/-- A second name that contains `To` is taken apart at its last `To`. -/
theorem c65_key_fails : matchKey "ElementToTotalMapping".toList = some ("ElementTo".toList, "tal".toList) ∧
    ∀ (K : Type) (data : List (List K)), mappings [("ElementMass".toList, ["H".toList]), ("TotalDust".toList, ["Iron".toList])]
      [("ElementToTotalMapping".toList, data)] = .error .index := by
  constructor
  · decide +kernel
  · intro K data
    have e1 : matchKey "ElementToTotalMapping".toList = some ("ElementTo".toList, "tal".toList) := by decide +kernel
    have e2 : "Mapping".toList.isSuffixOf "ElementToTotalMapping".toList = true := by decide +kernel
    have e3 : columnsOf [("ElementMass".toList, ["H".toList]), ("TotalDust".toList, ["Iron".toList])] "ElementTo".toList
      = .error .index := by decide +kernel
    have e4 : ("ElementTo".toList = "Grain".toList) = False := by simp
    simp only [mappings, List.filter_cons, e2, if_true, List.filter_nil, List.foldlM_cons, List.foldlM_nil, mapOne, e1, e4, if_false,
      e3]
    rfl

section
variable {K : Type}

/-- A sequence of assignments, each of which may raise. -/
private def sets {V : Type} (L : List (Str × Except Err V)) (s : Dict V) : Except Err (Dict V) :=
  L.foldlM (fun s p => match p.2 with
    | .error e => .error e
    | .ok v => .ok (s.set p.1 v)) s

private theorem sets_append {V : Type} (L M : List (Str × Except Err V)) (s : Dict V) :
    sets (L ++ M) s = (sets L s).bind (sets M) := by
  simp only [sets, List.foldlM_append]
  rfl

private theorem sets_ok {V : Type} (L : List (Str × Except Err V)) (s : Dict V) (h : ∀ p ∈ L, ∃ v, p.2 = .ok v) :
    ∃ s', sets L s = .ok s' := by
  induction L generalizing s with
  | nil => exact ⟨s, rfl⟩
  | cons p L ih =>
    obtain ⟨n, x⟩ := p
    obtain ⟨v, hv⟩ := h (n, x) (by simp)
    simp only at hv
    subst hv
    exact ih _ (fun p hp => h p (by simp [hp]))

private theorem sets_all {V : Type} (L : List (Str × Except Err V)) (s s' : Dict V) (h : sets L s = .ok s') :
    ∀ p ∈ L, ∃ v, p.2 = .ok v := by
  induction L generalizing s with
  | nil => simp
  | cons p L ih =>
    obtain ⟨n, x⟩ := p
    rcases x with e | v
    · simp [sets, List.foldlM_cons, bind, Except.bind] at h
    · intro q hq
      rcases List.mem_cons.1 hq with rfl | hq
      · exact ⟨v, rfl⟩
      · exact ih _ h q hq

private theorem sets_other {V : Type} (L : List (Str × Except Err V)) (s s' : Dict V) (h : sets L s = .ok s') (n : Str)
    (hn : ∀ p ∈ L, p.1 ≠ n) : s' n = s n := by
  induction L generalizing s with
  | nil =>
    simp only [sets, List.foldlM_nil, pure, Except.pure, Except.ok.injEq] at h
    rw [h]
  | cons p L ih =>
    obtain ⟨m, x⟩ := p
    rcases x with e | v
    · simp [sets, List.foldlM_cons, bind, Except.bind] at h
    · rw [ih _ h (fun p hp => hn p (by simp [hp]))]
      simp [Dict.set, Ne.symm (hn (m, .ok v) (by simp))]

private theorem sets_get {V : Type} (L : List (Str × Except Err V)) (s s' : Dict V) (h : sets L s = .ok s') (n : Str) (v : V)
    (hv : (n, .ok v) ∈ L) (hu : ∀ p ∈ L, p.1 = n → p.2 = .ok v) : s' n = some v := by
  induction L generalizing s with
  | nil => simp at hv
  | cons p L ih =>
    obtain ⟨m, x⟩ := p
    rcases x with e | w
    · simp [sets, List.foldlM_cons, bind, Except.bind] at h
    · by_cases hin : ∃ q ∈ L, q.1 = n
      · obtain ⟨q, hq, hqn⟩ := hin
        have hq2 := hu q (by simp [hq]) hqn
        exact ih _ h (by rw [← hqn, ← hq2]; exact hq) (fun p hp => hu p (by simp [hp]))
      · push Not at hin
        rw [sets_other L _ _ h n hin]
        rcases List.mem_cons.1 hv with e | hv
        · simp only [Prod.mk.injEq, Except.ok.injEq] at e
          simp [Dict.set, e.1, e.2]
        · exact absurd rfl (hin _ hv)

private def tableL (data : List (List K)) (xs ys : List Str) : List (Str × Except Err K) :=
  xs.zipIdx.flatMap (fun x => ys.zipIdx.map (fun y => (entryName x.1 y.1, at2 data x.2 y.2)))

private theorem table_eq (data : List (List K)) (xs ys : List Str) :
    mappingTable data xs ys = sets (tableL data xs ys) (fun _ => none) := by
  have inner : ∀ (x : Str × Nat) (l : List (Str × Nat)) (s : Dict K), l.foldlM (setEntry data x) s =
      sets (l.map (fun y => (entryName x.1 y.1, at2 data x.2 y.2))) s := by
    intro x l
    induction l with
    | nil => intro s; rfl
    | cons y l ih =>
      intro s
      rw [List.foldlM_cons, List.map_cons, ← List.singleton_append, sets_append]
      simp only [setEntry, sets, List.foldlM_cons, List.foldlM_nil]
      cases at2 data x.2 y.2 with
      | error e => rfl
      | ok v => exact ih _
  have outer : ∀ (l : List (Str × Nat)) (s : Dict K), l.foldlM (fun t x => ys.zipIdx.foldlM (setEntry data x) t) s =
      sets (l.flatMap (fun x => ys.zipIdx.map (fun y => (entryName x.1 y.1, at2 data x.2 y.2)))) s := by
    intro l
    induction l with
    | nil => intro s; rfl
    | cons x l ih =>
      intro s
      rw [List.foldlM_cons, List.flatMap_cons, sets_append, inner]
      cases sets (ys.zipIdx.map (fun y => (entryName x.1 y.1, at2 data x.2 y.2))) s with
      | error e => rfl
      | ok s => exact ih s
  exact outer _ _

private theorem mem_tableL (data : List (List K)) (xs ys : List Str) (p : Str × Except Err K) :
    p ∈ tableL data xs ys ↔ ∃ i j x y, xs[i]? = some x ∧ ys[j]? = some y ∧ p = (entryName x y, at2 data i j) := by
  simp only [tableL, List.mem_flatMap, List.mem_map, Prod.exists, List.mem_zipIdx_iff_getElem?]
  constructor
  · rintro ⟨x, i, hx, y, j, hy, rfl⟩
    exact ⟨i, j, x, y, hx, hy, rfl⟩
  · rintro ⟨i, j, x, y, hx, hy, rfl⟩
    exact ⟨x, i, hx, y, j, hy, rfl⟩

private theorem lower_underscore (c : Char) : c.toLower = '_' → c = '_' := by
  intro h
  by_cases hc : c.isUpper = true
  · have h2 : c.toLower.isLower = true := by
      rw [Char.isLower_toLower_eq_isAlpha]
      simp [Char.isAlpha, hc]
    rw [h] at h2
    exact absurd h2 (by decide)
  · rwa [Char.toLower_eq_of_not_isUpper hc] at h

private theorem split_underscore (a b r t : Str) (ha : '_' ∉ a) (hb : '_' ∉ b) (h : a ++ '_' :: r = b ++ '_' :: t) :
    a = b ∧ r = t := by
  induction a generalizing b with
  | nil =>
    cases b with
    | nil => simpa using h
    | cons d b =>
      simp only [List.nil_append, List.cons_append, List.cons.injEq] at h
      exact absurd (by simp [← h.1]) hb
  | cons c a ih =>
    cases b with
    | nil =>
      simp only [List.nil_append, List.cons_append, List.cons.injEq] at h
      exact absurd (by simp [h.1]) ha
    | cons d b =>
      simp only [List.cons_append, List.cons.injEq] at h
      have := ih b (fun hm => ha (by simp [hm])) (fun hm => hb (by simp [hm])) h.2
      exact ⟨by rw [h.1, this.1], this.2⟩

private theorem entryName_inj (x y x' y' : Str) (hx : '_' ∉ x) (hx' : '_' ∉ x') (h : entryName x y = entryName x' y') :
    x.map Char.toLower = x'.map Char.toLower ∧ y.map Char.toLower = y'.map Char.toLower := by
  have key : ∀ z : Str, '_' ∉ z → '_' ∉ z.map Char.toLower := by
    intro z hz hm
    obtain ⟨c, hc, e⟩ := List.mem_map.1 hm
    exact hz (lower_underscore c e ▸ hc)
  have h' : x.map Char.toLower ++ '_' :: ('t' :: 'o' :: '_' :: y.map Char.toLower) =
      x'.map Char.toLower ++ '_' :: ('t' :: 'o' :: '_' :: y'.map Char.toLower) := by
    simpa [entryName] using h
  obtain ⟨e1, e2⟩ := split_underscore _ _ _ _ (key x hx) (key x' hx') h'
  exact ⟨e1, by simpa using e2⟩

/-- The entries of a table: the names of a row and a column, in lower case and joined by `_to_`, give the number in that row and
column, if the names are different and those of the rows have no underscore; there are no other entries; and a table is made
exactly if there is a number for every pair of names. -/
theorem c65_table (data : List (List K)) (xs ys : List Str) :
    ((∃ t, mappingTable data xs ys = .ok t) ↔ ys = [] ∨
      (∀ i < xs.length, ∃ r, data[i]? = some r ∧ ys.length ≤ r.length)) ∧
    ∀ t, mappingTable data xs ys = .ok t →
      ((xs.map (List.map Char.toLower)).Nodup → (ys.map (List.map Char.toLower)).Nodup → (∀ x ∈ xs, '_' ∉ x) →
        ∀ (i j : Nat) (x y : Str), xs[i]? = some x → ys[j]? = some y → ∃ r v, data[i]? = some r ∧ r[j]? = some v ∧
          t (x.map Char.toLower ++ ['_', 't', 'o', '_'] ++ y.map Char.toLower) = some v) ∧
      ∀ n v, t n = some v → ∃ (i j : Nat) (x y : Str) (r : List K), xs[i]? = some x ∧ ys[j]? = some y ∧
        n = x.map Char.toLower ++ ['_', 't', 'o', '_'] ++ y.map Char.toLower ∧ data[i]? = some r ∧ r[j]? = some v := by
  have hat : ∀ i j v, at2 data i j = .ok v ↔ ∃ r, data[i]? = some r ∧ r[j]? = some v := by
    intro i j v
    simp only [at2]
    cases h1 : data[i]? with
    | none => simp
    | some r => cases h2 : r[j]? with
      | none => simp [h2]
      | some w => simp [h2]
  have hen : ∀ x y : Str, entryName x y = x.map Char.toLower ++ ['_', 't', 'o', '_'] ++ y.map Char.toLower := by
    intro x y
    simp [entryName]
  rw [table_eq]
  refine ⟨⟨?_, ?_⟩, fun t ht => ⟨?_, ?_⟩⟩
  · rintro ⟨t, ht⟩
    by_cases hy : ys = []
    · exact .inl hy
    refine .inr fun i hi => ?_
    have hpos : 0 < ys.length := List.length_pos_iff.2 hy
    have hall := sets_all _ _ _ ht
    obtain ⟨v, hv⟩ := hall _ ((mem_tableL data xs ys _).2 ⟨i, ys.length - 1, xs[i], ys[ys.length - 1],
      List.getElem?_eq_getElem hi, List.getElem?_eq_getElem (by omega), rfl⟩)
    obtain ⟨r, hr, hrv⟩ := (hat _ _ _).1 hv
    refine ⟨r, hr, ?_⟩
    obtain ⟨hlt, _⟩ := List.getElem?_eq_some_iff.1 hrv
    omega
  · intro h
    apply sets_ok
    intro p hp
    obtain ⟨i, j, x, y, hx, hy, rfl⟩ := (mem_tableL data xs ys p).1 hp
    obtain ⟨hi, _⟩ := List.getElem?_eq_some_iff.1 hx
    obtain ⟨hj, _⟩ := List.getElem?_eq_some_iff.1 hy
    rcases h with rfl | h
    · simp at hj
    obtain ⟨r, hr, hl⟩ := h i hi
    exact ⟨r[j]'(by omega), (hat _ _ _).2 ⟨r, hr, List.getElem?_eq_getElem (by omega)⟩⟩
  · intro hxn hyn hu i j x y hx hy
    obtain ⟨v, hv⟩ := sets_all _ _ _ ht _ ((mem_tableL data xs ys _).2 ⟨i, j, x, y, hx, hy, rfl⟩)
    simp only at hv
    obtain ⟨r, hr, hrv⟩ := (hat _ _ _).1 hv
    refine ⟨r, v, hr, hrv, ?_⟩
    rw [← hen]
    refine sets_get _ _ _ ht _ _ (hv ▸ (mem_tableL data xs ys _).2 ⟨i, j, x, y, hx, hy, rfl⟩) ?_
    intro p hp hpn
    obtain ⟨i', j', x', y', hx', hy', rfl⟩ := (mem_tableL data xs ys p).1 hp
    obtain ⟨e1, e2⟩ := entryName_inj _ _ _ _ (hu x' (List.mem_of_getElem? hx')) (hu x (List.mem_of_getElem? hx)) hpn
    have hi : i' = i := by
      obtain ⟨hi, e⟩ := List.getElem?_eq_some_iff.1 hx
      obtain ⟨hi', e'⟩ := List.getElem?_eq_some_iff.1 hx'
      exact (List.Nodup.getElem_inj_iff hxn (hi := by simpa using hi') (hj := by simpa using hi)).1 (by simp [e, e', e1])
    have hj : j' = j := by
      obtain ⟨hi, e⟩ := List.getElem?_eq_some_iff.1 hy
      obtain ⟨hi', e'⟩ := List.getElem?_eq_some_iff.1 hy'
      exact (List.Nodup.getElem_inj_iff hyn (hi := by simpa using hi') (hj := by simpa using hi)).1 (by simp [e, e', e2])
    rw [hi, hj]
    exact hv
  · intro n v hn
    have key : ∀ (L : List (Str × Except Err K)) (s s' : Dict K), sets L s = .ok s' → s' n = some v →
        s n = some v ∨ (n, .ok v) ∈ L := by
      intro L
      induction L with
      | nil =>
        intro s s' h h'
        simp only [sets, List.foldlM_nil, pure, Except.pure, Except.ok.injEq] at h
        exact .inl (h ▸ h')
      | cons p L ih =>
        intro s s' h h'
        obtain ⟨m, x⟩ := p
        rcases x with e | w
        · simp [sets, List.foldlM_cons, bind, Except.bind] at h
        · rcases ih _ _ h h' with h'' | h''
          · simp only [Dict.set] at h''
            split at h''
            · next e =>
              simp only [Option.some.injEq] at h''
              exact .inr (by simp [e, h''])
            · exact .inl h''
          · exact .inr (by simp [h''])
    rcases key _ _ _ ht hn with h | h
    · simp at h
    · obtain ⟨i, j, x, y, hx, hy, e⟩ := (mem_tableL data xs ys _).1 h
      simp only [Prod.mk.injEq] at e
      obtain ⟨r, hr, hv⟩ := (hat i j v).1 e.2.symm
      exact ⟨i, j, x, y, r, hx, hy, by rw [e.1, hen], hr, hv⟩

/-- The table of a key, if the key has the form of one. -/
private def tableOf (named : List (Str × List Str)) (p : Str × List (List K)) : Except Err (Option (Dict K)) :=
  match matchKey p.1 with
  | none => .ok none
  | some (x, y) =>
    match columnsOf named (if x = "Grain".toList then "Dust".toList else x) with
    | .error e => .error e
    | .ok xs => match columnsOf named y with
      | .error e => .error e
      | .ok ys => match mappingTable p.2 xs ys with
        | .error e => .error e
        | .ok t => .ok (some t)

private theorem mapOne_eq (named : List (Str × List Str)) (s : Dict (Dict K)) (p : Str × List (List K)) :
    mapOne named s p = match tableOf named p with
      | .error e => .error e
      | .ok none => .ok s
      | .ok (some t) => .ok (s.set (snake p.1) t) := by
  simp only [mapOne, tableOf]
  rcases matchKey p.1 with _ | ⟨x, y⟩
  · rfl
  simp only
  cases columnsOf named (if x = "Grain".toList then "Dust".toList else x) with
  | error e => rfl
  | ok xs =>
    simp only
    cases columnsOf named y with
    | error e => rfl
    | ok ys =>
      simp only
      cases mappingTable p.2 xs ys <;> rfl

private theorem fold_other (named : List (Str × List Str)) (n : Str) (l : List (Str × List (List K))) :
    ∀ s s' : Dict (Dict K), l.foldlM (mapOne named) s = .ok s' → (∀ p ∈ l, snake p.1 ≠ n) → s' n = s n := by
  induction l with
  | nil =>
    intro s s' h _
    simp only [List.foldlM_nil, pure, Except.pure, Except.ok.injEq] at h
    rw [h]
  | cons p l ih =>
    intro s s' h hn
    rw [List.foldlM_cons, mapOne_eq] at h
    have hn' : ∀ p ∈ l, snake p.1 ≠ n := fun p hp => hn p (by simp [hp])
    rcases hT : tableOf named p with e | _ | t <;> rw [hT] at h
    · simp [bind, Except.bind] at h
    · exact ih s s' h hn'
    · rw [ih _ s' h hn']
      simp [Dict.set, Ne.symm (hn p (by simp))]

private theorem fold_get (named : List (Str × List Str)) (l : List (Str × List (List K))) :
    ∀ s s' : Dict (Dict K), l.foldlM (mapOne named) s = .ok s' → (l.map (fun p => snake p.1)).Nodup → ∀ p ∈ l,
      ∃ o, tableOf named p = .ok o ∧ s' (snake p.1) = match o with
        | some t => some t
        | none => s (snake p.1) := by
  induction l with
  | nil => simp
  | cons q l ih =>
    intro s s' h hn p hp
    rw [List.foldlM_cons, mapOne_eq] at h
    rw [List.map_cons, List.nodup_cons] at hn
    have hq : ∀ p ∈ l, snake p.1 ≠ snake q.1 := fun p hp e => hn.1 (by rw [← e]; exact List.mem_map_of_mem hp)
    rcases hT : tableOf named q with e | _ | t
    · simp [hT, bind, Except.bind] at h
    · rw [hT] at h
      rcases List.mem_cons.1 hp with rfl | hp
      · exact ⟨none, hT, fold_other named _ l s s' h hq⟩
      · exact ih s s' h hn.2 p hp
    · rw [hT] at h
      rcases List.mem_cons.1 hp with rfl | hp
      · exact ⟨some t, hT, by rw [fold_other named _ l _ s' h hq]; simp [Dict.set]⟩
      · obtain ⟨o, ho, hs⟩ := ih _ s' h hn.2 p hp
        refine ⟨o, ho, ?_⟩
        rw [hs]
        cases o with
        | some t => rfl
        | none => simp [Dict.set, hq p hp]

private theorem columnsOf_eq (named : List (Str × List Str)) (x c : Str) (xs : List Str) (hm : (c, xs) ∈ named)
    (hc : x <+: c) (hu : ∀ p ∈ named, x <+: p.1 → p.2 = xs) : columnsOf named x = .ok xs := by
  unfold columnsOf
  have hmem : (c, xs) ∈ named.filter (fun p => x.isPrefixOf p.1) := by
    simp [hm, List.isPrefixOf_iff_prefix, hc]
  cases e : named.filter (fun p => x.isPrefixOf p.1) with
  | nil => simp [e] at hmem
  | cons p l =>
    have : p ∈ named.filter (fun p => x.isPrefixOf p.1) := by simp [e]
    simp only [List.mem_filter, List.isPrefixOf_iff_prefix] at this
    simp [hu p this.1 this.2]

/-- The table that the metadata has for `XToYMapping`: under the snake case name of the key, with the names of the columns that
start with `X` and `Y` (`Dust` for `Grain`), if those names are the same for all columns that do. -/
theorem c65_mappings (named : List (Str × List Str)) (datasets : List (Str × List (List K))) (s : Dict (Dict K))
    (hs : mappings named datasets = .ok s) (hd : (datasets.map (fun p => snake p.1)).Nodup)
    (x y : Str) (hx : ∀ c ∈ x, AsciiLetter c) (hy : ∀ c ∈ y, AsciiLetter c) (hto : ¬ "To".toList <:+: y) (data : List (List K))
    (hk : (x ++ "To".toList ++ y ++ "Mapping".toList, data) ∈ datasets) (x' : Str)
    (hx' : x' = if x = "Grain".toList then "Dust".toList else x) (cx cy : Str) (xs ys : List Str)
    (h1 : (cx, xs) ∈ named ∧ x' <+: cx) (h2 : (cy, ys) ∈ named ∧ y <+: cy)
    (h3 : ∀ p ∈ named, x' <+: p.1 → p.2 = xs) (h4 : ∀ p ∈ named, y <+: p.1 → p.2 = ys) :
    ∃ t, s (Spec.snakeAt (x ++ "To".toList ++ y ++ "Mapping".toList)) = some t ∧ mappingTable data xs ys = .ok t := by
  have hk' : (x ++ "To".toList ++ y ++ "Mapping".toList, data) ∈ datasets.filter (fun p => "Mapping".toList.isSuffixOf p.1) := by
    rw [List.mem_filter]
    exact ⟨hk, by rw [List.isSuffixOf_iff_suffix]; exact List.suffix_append _ _⟩
  have hd' : ((datasets.filter (fun p => "Mapping".toList.isSuffixOf p.1)).map (fun p => snake p.1)).Nodup :=
    List.Nodup.sublist (List.filter_sublist.map _) hd
  obtain ⟨o, ho, hs'⟩ := fold_get named _ _ s hs hd' _ hk'
  simp only [tableOf, c65_key x y hx hy hto, ← hx', columnsOf_eq named x' cx xs h1.1 h1.2 h3,
    columnsOf_eq named y cy ys h2.1 h2.2 h4] at ho
  rw [← c34_positions]
  cases e : mappingTable data xs ys with
  | error e' => simp [e] at ho
  | ok t =>
    simp only [e, Except.ok.injEq] at ho
    subst ho
    exact ⟨t, hs', rfl⟩

/-- A key that no named column belongs to raises IndexError. -/
theorem c65_refused (named : List (Str × List Str)) (x y : Str) (hx : ∀ c ∈ x, AsciiLetter c) (hy : ∀ c ∈ y, AsciiLetter c)
    (hto : ¬ "To".toList <:+: y) (data : List (List K)) (hg : x ≠ "Grain".toList)
    (h : (∀ p ∈ named, ¬ x <+: p.1) ∨ ∀ p ∈ named, ¬ y <+: p.1) :
    mappings named [(x ++ "To".toList ++ y ++ "Mapping".toList, data)] = .error .index := by
  have hc : ∀ z, (∀ p ∈ named, ¬ z <+: p.1) → columnsOf named z = .error .index := by
    intro z hz
    have e : named.filter (fun p => z.isPrefixOf p.1) = [] := by
      rw [List.filter_eq_nil_iff]
      intro p hp
      rw [List.isPrefixOf_iff_prefix]
      exact hz p hp
    simp [columnsOf, e]
  have he : ∀ z e, columnsOf named z = .error e → e = .index := by
    intro z e h
    unfold columnsOf at h
    split at h <;> simp at h
    exact h.symm
  have hsuf : "Mapping".toList.isSuffixOf (x ++ "To".toList ++ y ++ "Mapping".toList) = true := by
    rw [List.isSuffixOf_iff_suffix]
    exact List.suffix_append _ _
  have : mapOne named (fun _ => none : Dict (Dict K)) (x ++ "To".toList ++ y ++ "Mapping".toList, data) = .error .index := by
    rw [mapOne_eq]
    simp only [tableOf, c65_key x y hx hy hto, hg, if_false]
    rcases h with h | h
    · rw [hc x h]
    · cases e : columnsOf named x with
      | error e' => rw [he x e' e]
      | ok xs => simp only [hc y h]
  simp only [mappings, List.filter_cons, hsuf, if_true, List.filter_nil, List.foldlM_cons, this]
  rfl

private theorem matchTail_inv {r y : Str} (h : matchTail r = some y) :
    (∀ c ∈ y, AsciiLetter c) ∧ ∃ rest, r = y ++ "Mapping".toList ++ rest := by
  unfold matchTail at h
  obtain ⟨j, hj, rfl⟩ := Option.map_eq_some_iff.1 h
  have hp := List.find?_some hj
  rw [Bool.and_eq_true, List.all_eq_true, List.isPrefixOf_iff_prefix] at hp
  obtain ⟨rest, hr⟩ := hp.2
  refine ⟨fun c hc => (letter_iff c).1 (hp.1 c hc), rest, ?_⟩
  rw [List.append_assoc, hr, List.take_append_drop]

private theorem matchKey_inv {s : Str} {p : Str × Str} (h : matchKey s = some p) : StartsWithKey s := by
  unfold matchKey at h
  obtain ⟨i, -, hi⟩ := List.exists_of_findSome?_eq_some h
  split at hi
  · rename_i hp
    obtain ⟨y, hy, -⟩ := Option.map_eq_some_iff.1 hi
    obtain ⟨h1, rest, h2⟩ := matchTail_inv hy
    rw [Bool.and_eq_true, List.all_eq_true, List.isPrefixOf_iff_prefix] at hp
    obtain ⟨t, ht⟩ := hp.2
    refine ⟨s.take i, y, rest, fun c hc => (letter_iff c).1 (hp.1 c hc), h1, ?_⟩
    rw [← List.drop_drop, ← ht] at h2
    have e : t = y ++ "Mapping".toList ++ rest := h2
    calc s = s.take i ++ ("To".toList ++ t) := by rw [ht, List.take_append_drop]
      _ = _ := by rw [e]; simp only [List.append_assoc]
  · cases hi

/-- A dataset whose name has another form is ignored, whatever is in it and wherever it is. -/
theorem c65_ignored (named : List (Str × List Str)) (before after : List (Str × List (List K))) (k : Str) (data : List (List K))
    (h : ¬ StartsWithKey k ∨ ¬ "Mapping".toList <:+ k) :
    mappings named (before ++ (k, data) :: after) = mappings named (before ++ after) := by
  unfold mappings
  rw [List.filter_append, List.filter_append, List.filter_cons]
  split
  · rename_i hs
    have h1 : ¬ StartsWithKey k := h.resolve_right (fun hc => hc (List.isSuffixOf_iff_suffix.1 hs))
    have h2 : matchKey k = none := by
      cases e : matchKey k with
      | none => rfl
      | some p => exact absurd (matchKey_inv e) h1
    rw [List.foldlM_append, List.foldlM_append]
    congr 1
    funext s
    rw [List.foldlM_cons]
    have : mapOne named s (k, data) = .ok s := by simp [mapOne, h2]
    rw [this]
    rfl
  · rfl

private theorem foldlM_errors {α β : Type} (g : β → α → Except Err β) (hg : ∀ b a e, g b a = .error e → e = .index) (l : List α) :
    ∀ b e, l.foldlM g b = .error e → e = .index := by
  induction l with
  | nil => intro b e h; cases h
  | cons a l ih =>
    intro b e h
    rw [List.foldlM_cons] at h
    cases hb : g b a with
    | error e' => rw [hb] at h; cases h; exact hg _ _ _ hb
    | ok b' => rw [hb] at h; exact ih b' e h

/-- All that can go wrong is an IndexError: a name that no column starts with, or a table with too few rows or columns. -/
theorem c65_errors (named : List (Str × List Str)) (datasets : List (Str × List (List K))) (e : Err)
    (h : mappings named datasets = .error e) : e = .index := by
  have ha : ∀ (data : List (List K)) i j e, at2 data i j = .error e → e = .index := by
    intro data i j e h
    unfold at2 at h
    split at h
    · cases h; rfl
    · split at h
      · cases h; rfl
      · cases h
  have ht : ∀ (data : List (List K)) xs ys e, mappingTable data xs ys = .error e → e = .index := by
    intro data xs ys e h
    refine foldlM_errors _ ?_ _ _ _ h
    intro t x e h
    refine foldlM_errors _ ?_ _ _ _ h
    intro t y e h
    unfold setEntry at h
    split at h
    · cases h
    · rename_i e' he
      cases h
      exact ha _ _ _ _ he
  have hc : ∀ z e, columnsOf named z = .error e → e = .index := by
    intro z e h
    unfold columnsOf at h
    split at h
    · cases h
    · cases h; rfl
  refine foldlM_errors _ ?_ _ _ _ h
  intro s p e h
  unfold mapOne at h
  split at h
  · cases h
  · dsimp only at h
    split at h
    · rename_i e' he; cases h; exact hc _ _ he
    · split at h
      · rename_i e' he; cases h; exact hc _ _ he
      · split at h
        · rename_i e' he; cases h; exact ht _ _ _ _ he
        · cases h

end

/-! Two elements and three grains. -/

private def namedEx : List (Str × List Str) :=
  [("DustMassFractions".toList, ["Graphite".toList, "Silicates".toList]),
    ("ElementMassFractions".toList, ["Hydrogen".toList, "Carbon".toList, "Iron".toList])]

private def dataEx : List (List Rat) := [[0, 1, 0], [1 / 4, 1 / 2, 1 / 8]]

private def readEx (a b : String) : Except Err (Option Rat) :=
  match mappings namedEx [("GrainToElementMapping".toList, dataEx), ("Other".toList, [])] with
  | .ok s => .ok ((s a.toList).bind (fun t => t b.toList))
  | .error e => .error e

example : readEx "grain_to_element_mapping" "silicates_to_carbon" = .ok (some (1 / 2)) ∧
    readEx "grain_to_element_mapping" "graphite_to_iron" = .ok (some 0) ∧
    readEx "grain_to_element_mapping" "iron_to_graphite" = .ok none := by decide +kernel

/-- The hypotheses of `c65_mappings` and `c65_table` hold for it. -/
example : (namedEx[0]?.map fun p => ("Dust".toList.isPrefixOf p.1)) = some true ∧
    (namedEx.filter fun p => "Element".toList.isPrefixOf p.1).length = 1 ∧
    (namedEx.map Prod.snd).all (fun xs => (xs.map (List.map Char.toLower)).Nodup ∧ ∀ x ∈ xs, '_' ∉ x) := by decide +kernel

/-- A dataset without `To` in its name, and one with a digit in it. -/
example : ¬ StartsWithKey "ElementMapping".toList := by
  rintro ⟨x, y, rest, -, -, h⟩
  have : "To".toList <:+: "ElementMapping".toList := ⟨x, y ++ "Mapping".toList ++ rest, by rw [h]; simp only [List.append_assoc]⟩
  exact absurd this (by decide)

example : readEx "grain_to_element_mapping" "silicates_to_carbon" = .ok (some (1 / 2)) ∧
    (match mappings namedEx [("Grain2ToElementMapping".toList, dataEx)] with
      | .ok s => (s "grain2_to_element_mapping".toList).isNone
      | .error _ => false) = true := by decide +kernel

/-- With several named columns that start with the name, the first is taken, whatever its columns are: the entries are then those
of other columns, and the numbers of the remaining rows are left out without a message. -/
theorem c65_prefix_fails : ∃ s : Dict (Dict Rat), mappings [("DustA".toList, ["Iron".toList]),
      ("Dust".toList, ["Graphite".toList, "Silicates".toList]), ("Element".toList, ["Carbon".toList])]
      [("DustToElementMapping".toList, [[1], [2]])] = .ok s ∧
    (s "dust_to_element_mapping".toList).bind (fun t => t "iron_to_carbon".toList) = some 1 ∧
    (s "dust_to_element_mapping".toList).bind (fun t => t "silicates_to_carbon".toList) = none := by
  refine ⟨_, rfl, ?_, ?_⟩ <;> decide +kernel

/-- Names with underscores can give the same entry for two pairs; the later pair is kept. -/
theorem c65_underscore_fails : ∃ t : Dict Rat, mappingTable [[1, 2], [3, 4]] ["a".toList, "a_to".toList]
      ["to_b".toList, "b".toList] = .ok t ∧ t "a_to_to_b".toList = some 4 := by
  refine ⟨_, rfl, ?_⟩
  decide +kernel

end Verif.Props
