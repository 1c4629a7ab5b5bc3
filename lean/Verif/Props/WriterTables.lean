import Verif.Props.Writer
import Verif.Model.WriterTables

/-!
# C97: the tables in a written file: numbers of types, counts, masses and exponents
-/

namespace Verif.Props
open Verif Verif.Names Verif.WriterTables

private theorem digit_not_letter (c : Char) (h : c.isDigit = true) : ("PartType".toList.contains c) = false := by
  cases hc : "PartType".toList.contains c with
  | false => rfl
  | true =>
    rw [List.contains_iff_mem] at hc
    have : ∀ x ∈ "PartType".toList, x.isDigit = false := by decide
    rw [this c hc] at h
    cases h

private theorem dropWhile_digits (t : Str) (h : ∀ c ∈ t, c.isDigit = true) :
    t.dropWhile (fun c => "PartType".toList.contains c) = t := by
  cases t with
  | nil => rfl
  | cons c cs => rw [List.dropWhile_cons_of_neg (by rw [digit_not_letter c (h c (by simp))]; decide)]

private theorem strip_digits (t : Str) (h : ∀ c ∈ t, c.isDigit = true) : strip "PartType".toList ("PartType".toList ++ t) = t := by
  have h1 : ("PartType".toList ++ t).dropWhile (fun c => "PartType".toList.contains c) = t := by
    rw [List.dropWhile_append_of_pos (by decide), dropWhile_digits t h]
  unfold strip
  rw [h1, dropWhile_digits _ (fun c hc => h c (List.mem_reverse.1 hc)), List.reverse_reverse]

private theorem parse_digits (t : Str) (h : ∀ c ∈ t, c.isDigit = true) (acc : Nat) :
    parseDigits acc t = .ok (t.foldl (fun n c => 10 * n + (c.toNat - '0'.toNat)) acc) := by
  induction t generalizing acc with
  | nil => rfl
  | cons c cs ih =>
    unfold parseDigits
    rw [if_pos (h c (by simp)), ih (fun x hx => h x (by simp [hx]))]
    rfl

private theorem parse_toDigits (n : Nat) : parseInt (Nat.toDigits 10 n) = .ok (n : Int) := by
  have hd : ∀ c ∈ Nat.toDigits 10 n, c.isDigit = true := fun c hc => Nat.isDigit_of_mem_toDigits (by decide) (by decide) hc
  have hv : (Nat.toDigits 10 n).foldl (fun n c => 10 * n + (c.toNat - '0'.toNat)) 0 = n := by
    have := Nat.ofDigitChars_ten_toDigits (n := n)
    rw [Nat.ofDigitChars_eq_foldl] at this
    exact this
  have hne : Nat.toDigits 10 n ≠ [] := Nat.toDigits_ne_nil
  generalize Nat.toDigits 10 n = t at hd hv hne
  cases t with
  | nil => exact absurd rfl hne
  | cons c cs =>
    have hc := hd c (by simp)
    have h1 : c ≠ '-' := by rintro rfl; exact absurd hc (by decide)
    have h2 : c ≠ '+' := by rintro rfl; exact absurd hc (by decide)
    have h3 : parseInt (c :: cs) = (parseNat (c :: cs)).map fun (n : Nat) => (n : Int) := by
      unfold parseInt
      split
      · rename_i heq
        exact absurd (List.cons.inj heq).1 h1
      · rename_i heq
        exact absurd (List.cons.inj heq).1 h2
      · rfl
    rw [h3]
    show (parseDigits 0 (c :: cs)).map _ = _
    rw [parse_digits _ hd, hv]
    rfl

/-- **C97**: the number of the type `PartType<n>` is `n`, for every `n`; a text without `PartType` stays as it is. -/
theorem c97_number (n : Nat) (s : Str) (hs : ¬ "PartType".toList <:+: s) :
    typeNumber (partType n) = .ok (.inl (n : Int)) ∧ typeNumber s = .ok (.inr s) := by
  constructor
  · unfold typeNumber
    have hp : "PartType".toList <:+: partType n := (List.prefix_append _ _).isInfix
    rw [if_pos hp]
    unfold partType
    rw [strip_digits _ (fun c hc => Nat.isDigit_of_mem_toDigits (by decide) (by decide) hc), parse_toDigits]
    rfl
  · unfold typeNumber
    rw [if_neg hs]

/-- **C97**: text after the digits is not accepted, nor text before the name, whatever it is made of, if it is not made of the letters of
the name. -/
theorem c97_not_number (n : Nat) (c : Char) (hc : c ∉ "PartType".toList) (hd : c.isDigit = false) (h1 : c ≠ '+') (h2 : c ≠ '-') :
    typeNumber (partType n ++ [c]) = .error .value ∧ typeNumber (c :: partType n) = .error .value := by
  have hcf : "PartType".toList.contains c = false := by
    cases h : "PartType".toList.contains c with
    | false => rfl
    | true => exact absurd (List.contains_iff_mem.1 h) hc
  have hdig : ∀ x ∈ Nat.toDigits 10 n, x.isDigit = true := fun x hx => Nat.isDigit_of_mem_toDigits (by decide) (by decide) hx
  have hbad : ∀ (acc : Nat) (u v : Str), parseDigits acc (u ++ c :: v) = .error .value := by
    intro acc u v
    induction u generalizing acc with
    | nil =>
      show parseDigits acc (c :: v) = _
      unfold parseDigits
      rw [if_neg (by rw [hd]; decide)]
    | cons x u ih =>
      show parseDigits acc (x :: (u ++ c :: v)) = _
      unfold parseDigits
      split
      · exact ih _
      · rfl
  have hbad' : ∀ x ∈ Nat.toDigits 10 n, x ≠ '-' ∧ x ≠ '+' := by
    intro x hx
    have := hdig x hx
    constructor <;> (rintro rfl; exact absurd this (by decide))
  have hint : ∀ (x : Char) (xs u v : Str), x :: xs = u ++ c :: v → x ≠ '-' → x ≠ '+' → parseInt (x :: xs) = .error .value := by
    intro x xs u v he hx1 hx2
    have h3 : parseInt (x :: xs) = (parseNat (x :: xs)).map fun (n : Nat) => (n : Int) := by
      unfold parseInt
      split
      · rename_i heq
        exact absurd (List.cons.inj heq).1 hx1
      · rename_i heq
        exact absurd (List.cons.inj heq).1 hx2
      · rfl
    rw [h3]
    show (parseDigits 0 (x :: xs)).map _ = _
    rw [he, hbad]
    rfl
  constructor
  · unfold typeNumber partType
    rw [if_pos ⟨[], Nat.toDigits 10 n ++ [c], by simp⟩]
    have hs : strip "PartType".toList ("PartType".toList ++ Nat.toDigits 10 n ++ [c]) = Nat.toDigits 10 n ++ [c] := by
      unfold strip
      rw [List.append_assoc, List.dropWhile_append_of_pos (by decide)]
      have h3 : (Nat.toDigits 10 n ++ [c]).dropWhile (fun c => "PartType".toList.contains c) = Nat.toDigits 10 n ++ [c] := by
        cases ht : Nat.toDigits 10 n with
        | nil => exact absurd ht Nat.toDigits_ne_nil
        | cons x xs =>
          rw [List.cons_append, List.dropWhile_cons_of_neg]
          rw [digit_not_letter x (hdig x (by simp [ht]))]
          decide
      rw [h3, List.reverse_append, List.reverse_singleton, List.singleton_append, List.dropWhile_cons_of_neg (by rw [hcf]; decide)]
      simp
    rw [hs]
    cases ht : Nat.toDigits 10 n with
    | nil => exact absurd ht Nat.toDigits_ne_nil
    | cons x xs =>
      have hx := hbad' x (by simp [ht])
      rw [List.cons_append, hint x (xs ++ [c]) (x :: xs) [] (by simp) hx.1 hx.2]
      rfl
  · unfold typeNumber partType
    rw [if_pos ⟨[c], Nat.toDigits 10 n, by simp⟩]
    have hs : ∃ xs, strip "PartType".toList (c :: ("PartType".toList ++ Nat.toDigits 10 n)) = c :: xs := by
      unfold strip
      rw [List.dropWhile_cons_of_neg (by rw [hcf]; decide)]
      have hr : (c :: ("PartType".toList ++ Nat.toDigits 10 n)).reverse.dropWhile (fun c => "PartType".toList.contains c) =
          (c :: ("PartType".toList ++ Nat.toDigits 10 n)).reverse := by
        rw [List.reverse_cons, List.reverse_append, List.append_assoc]
        cases ht : (Nat.toDigits 10 n).reverse with
        | nil => exact absurd (List.reverse_eq_nil_iff.1 ht) Nat.toDigits_ne_nil
        | cons x xs =>
          rw [List.cons_append, List.dropWhile_cons_of_neg]
          rw [digit_not_letter x (hdig x (by rw [← List.mem_reverse, ht]; simp))]
          decide
      rw [hr, List.reverse_reverse]
      exact ⟨_, rfl⟩
    obtain ⟨xs, hs⟩ := hs
    rw [hs, hint c xs [] xs rfl h2 h1]
    rfl

/-- **C97**: the name of a type without a number is not accepted, with a sign or without. -/
theorem c97_no_number : typeNumber "PartType".toList = .error .value ∧ typeNumber "PartType-".toList = .error .value ∧
    typeNumber "PartType+".toList = .error .value := by
  refine ⟨?_, ?_, ?_⟩ <;> rfl

/-- **C97**, negation for other tables of types: a negative number counts from the end of the table, and is an IndexError if there is no
such place. -/
theorem c97_negative_fails : tables [(partType 0, "a".toList), (partType 1, "b".toList), ("PartType-2".toList, "c".toList)] ["a".toList, "c".toList]
      (fun n => if n = "a".toList then 3 else 7) (fun _ => .ok (1 : ℚ)) = .ok ([7, 0], [1, 0]) ∧
    tables [(partType 0, "a".toList), (partType 1, "b".toList), ("PartType-3".toList, "c".toList)] ["c".toList]
      (fun _ => 7) (fun _ => .ok (1 : ℚ)) = .error .index := by
  constructor <;> decide +kernel

/-- **C97**: a table with a key that is no type at all is a TypeError, before anything is written. -/
theorem c97_no_type {K : Type} [Zero K] (l₁ : List (Nat × Str)) (s n : Str) (l₂ : List (Str × Str)) (hs : ¬ "PartType".toList <:+: s)
    (names : List Str) (nPart : Str → Nat) (mass : Str → Except Err K) :
    tables ((l₁.map fun p => (partType p.1, p.2)) ++ (s, n) :: l₂) names nPart mass = .error .typeErr := by
  have hi : typeIndex s = .error .typeErr := by
    unfold typeIndex typeNumber
    rw [if_neg hs]
  have hm : (((l₁.map fun p => (partType p.1, p.2)) ++ (s, n) :: l₂).mapM fun t : Str × Str => typeIndex t.1) = .error .typeErr := by
    induction l₁ with
    | nil =>
      show ((s, n) :: l₂).mapM (fun t : Str × Str => typeIndex t.1) = _
      rw [List.mapM_cons, hi]
      rfl
    | cons p l ih =>
      show ((partType p.1, p.2) :: ((l.map fun p => (partType p.1, p.2)) ++ (s, n) :: l₂)).mapM (fun t : Str × Str => typeIndex t.1) = _
      rw [List.mapM_cons, ih]
      have : typeIndex (partType p.1) = .ok (p.1 : Int) := by
        unfold typeIndex
        rw [(c97_number p.1 [] (by decide)).1]
      rw [this]
      rfl
  unfold tables
  rw [hm]
  rfl

/-- A table of types: their numbers and their names. -/
private def typeTable (nums : List (Nat × Str)) : List (Str × Str) := nums.map fun p => (partType p.1, p.2)

private theorem index_partType (n : Nat) : typeIndex (partType n) = .ok (n : Int) := by
  unfold typeIndex
  rw [(c97_number n [] (by decide)).1]

private theorem mapM_index (nums : List (Nat × Str)) :
    (typeTable nums).mapM (fun t => typeIndex t.1) = .ok (nums.map fun p => (p.1 : Int)) := by
  induction nums with
  | nil => rfl
  | cons p nums ih =>
    show ((partType p.1, p.2) :: typeTable nums).mapM (fun t => typeIndex t.1) = _
    rw [List.mapM_cons, ih, index_partType]
    rfl

private theorem foldl_max (l : List Int) (a : Int) :
    (l.foldl max a ∈ a :: l) ∧ ∀ x ∈ a :: l, x ≤ l.foldl max a := by
  induction l generalizing a with
  | nil => simp
  | cons b l ih =>
    obtain ⟨h1, h2⟩ := ih (max a b)
    rw [List.foldl_cons]
    constructor
    · rcases List.mem_cons.1 h1 with h | h
      · rw [h]
        rcases max_choice a b with h | h <;> rw [h] <;> simp
      · simp [h]
    · intro x hx
      have hm := h2 (max a b) (by simp)
      simp only [List.mem_cons] at hx
      rcases hx with rfl | rfl | hx
      · exact (le_max_left _ _).trans hm
      · exact (le_max_right _ _).trans hm
      · exact h2 x (by simp [hx])

private theorem assign_ok {β : Type} (l : List β) (n : Nat) (x : β) (h : n < l.length) : assign l (n : Int) x = .ok (l.set n x) := by
  unfold assign
  have h1 : ¬ (n : Int) < 0 := by omega
  simp only [if_neg h1]
  rw [if_pos ⟨by omega, by omega⟩]
  rfl

section
variable {K : Type} (names : List Str) (nPart : Str → Nat) (mass : Str → Except Err K)

private theorem fill_ok (nums : List (Nat × Str)) (hd : (nums.map Prod.fst).Nodup) (L : Nat) (hL : ∀ p ∈ nums, p.1 < L)
    (hm : ∀ p ∈ nums, p.2 ∈ names → ∃ m, mass p.2 = .ok m) (acc : List Nat × List K) (h1 : acc.1.length = L) (h2 : acc.2.length = L) :
    ∃ counts masses, fill names nPart mass (typeTable nums) acc = .ok (counts, masses) ∧ counts.length = L ∧ masses.length = L ∧
      (∀ p ∈ nums, p.2 ∈ names → counts[p.1]? = some (nPart p.2) ∧ ∃ m, mass p.2 = .ok m ∧ masses[p.1]? = some m) ∧
      ∀ i, (∀ p ∈ nums, p.1 = i → p.2 ∉ names) → counts[i]? = acc.1[i]? ∧ masses[i]? = acc.2[i]? := by
  induction nums generalizing acc with
  | nil => exact ⟨acc.1, acc.2, rfl, h1, h2, fun p hp => (by cases hp), fun i _ => ⟨rfl, rfl⟩⟩
  | cons p nums ih =>
    have hd' := (List.nodup_cons.1 (show (p.1 :: nums.map Prod.fst).Nodup from hd))
    have hL' : ∀ q ∈ nums, q.1 < L := fun q hq => hL q (by simp [hq])
    have hm' : ∀ q ∈ nums, q.2 ∈ names → ∃ m, mass q.2 = .ok m := fun q hq => hm q (by simp [hq])
    show ∃ counts masses, fill names nPart mass ((partType p.1, p.2) :: typeTable nums) acc = .ok (counts, masses) ∧ _
    by_cases hp : p.2 ∈ names
    · obtain ⟨m, hmm⟩ := hm p (by simp) hp
      have hl := hL p (by simp)
      obtain ⟨counts, masses, e, l1, l2, g1, g2⟩ := ih hd'.2 hL' hm' (acc.1.set p.1 (nPart p.2), acc.2.set p.1 m)
        (by simpa using h1) (by simpa using h2)
      have hown := g2 p.1 (fun q hq he => absurd (List.mem_map.2 ⟨q, hq, he⟩) hd'.1)
      refine ⟨counts, masses, ?_, l1, l2, ?_, ?_⟩
      · unfold fill
        rw [if_pos (List.contains_iff_mem.2 hp), index_partType, hmm]
        show (do
          let counts ← assign acc.1 (p.1 : Int) (nPart p.2)
          let masses ← assign acc.2 (p.1 : Int) m
          fill names nPart mass (typeTable nums) (counts, masses)) = _
        rw [assign_ok _ _ _ (by omega), assign_ok _ _ _ (by omega)]
        exact e
      · intro q hq hqn
        rcases List.mem_cons.1 hq with rfl | hq
        · refine ⟨?_, m, hmm, ?_⟩
          · rw [hown.1]
            exact List.getElem?_set_self (by omega)
          · rw [hown.2]
            exact List.getElem?_set_self (by omega)
        · exact g1 q hq hqn
      · intro i hi
        have hne : p.1 ≠ i := fun h => hi p (by simp) h hp
        obtain ⟨a1, a2⟩ := g2 i (fun q hq => hi q (by simp [hq]))
        rw [a1, a2]
        exact ⟨List.getElem?_set_ne hne, List.getElem?_set_ne hne⟩
    · obtain ⟨counts, masses, e, l1, l2, g1, g2⟩ := ih hd'.2 hL' hm' acc h1 h2
      refine ⟨counts, masses, ?_, l1, l2, ?_, fun i hi => g2 i (fun q hq => hi q (by simp [hq]))⟩
      · unfold fill
        rw [if_neg (fun h => hp (List.contains_iff_mem.1 h))]
        exact e
      · intro q hq hqn
        rcases List.mem_cons.1 hq with rfl | hq
        · exact absurd hqn hp
        · exact g1 q hq hqn

variable [Zero K]

/-- **C97**: whatever types there are, the tables of counts and of masses have one place for every number up to the largest one; at the
number of every type that is written is its number of particles and its first mass, and everywhere else zero. -/
theorem c97_tables (nums : List (Nat × Str)) (h0 : nums ≠ []) (hd : (nums.map Prod.fst).Nodup)
    (hm : ∀ p ∈ nums, p.2 ∈ names → ∃ m, mass p.2 = .ok m) :
    ∃ counts masses, tables (nums.map fun p => (partType p.1, p.2)) names nPart mass = .ok (counts, masses) ∧
      counts.length = masses.length ∧ (∀ p ∈ nums, p.1 < counts.length) ∧ (∃ p ∈ nums, p.1 + 1 = counts.length) ∧
      (∀ p ∈ nums, p.2 ∈ names → counts[p.1]? = some (nPart p.2) ∧ ∃ m, mass p.2 = .ok m ∧ masses[p.1]? = some m) ∧
      ∀ i, i < counts.length → (∀ p ∈ nums, p.1 = i → p.2 ∉ names) → counts[i]? = some 0 ∧ masses[i]? = some 0 := by
  cases nums with
  | nil => exact absurd rfl h0
  | cons p0 rest =>
    obtain ⟨hmem, hmax⟩ := foldl_max (rest.map fun p => (p.1 : Int)) (p0.1 : Int)
    have hmem' : (rest.map fun p => (p.1 : Int)).foldl max (p0.1 : Int) ∈ (p0 :: rest).map fun p => (p.1 : Int) := hmem
    obtain ⟨q, hq, hqe⟩ := List.mem_map.1 hmem'
    have hb : ∀ p ∈ p0 :: rest, p.1 < q.1 + 1 := by
      intro p hp
      have : (p.1 : Int) ≤ (q.1 : Int) := by
        rw [hqe]
        exact hmax _ (List.mem_map.2 ⟨p, hp, rfl⟩ : (p.1 : Int) ∈ (p0 :: rest).map fun p => (p.1 : Int))
      omega
    obtain ⟨counts, masses, e, l1, l2, g1, g2⟩ := fill_ok names nPart mass (p0 :: rest) hd (q.1 + 1) hb hm
      (List.replicate (q.1 + 1) 0, List.replicate (q.1 + 1) 0) (by simp) (by simp)
    refine ⟨counts, masses, ?_, by omega, fun p hp => by rw [l1]; exact hb p hp, ⟨q, hq, l1.symm⟩, g1, ?_⟩
    · unfold tables
      show (do
        let numbers ← (typeTable (p0 :: rest)).mapM fun (t : Str × Str) => typeIndex t.1
        let top ← pyMax numbers
        let n := (top + 1).toNat
        fill names nPart mass (typeTable (p0 :: rest)) (List.replicate n 0, List.replicate n 0)) = _
      rw [mapM_index]
      show fill names nPart mass (typeTable (p0 :: rest)) (List.replicate ((rest.map fun p => (p.1 : Int)).foldl max (p0.1 : Int) + 1).toNat 0,
        List.replicate ((rest.map fun p => (p.1 : Int)).foldl max (p0.1 : Int) + 1).toNat 0) = _
      rw [← hqe, show ((q.1 : Int) + 1).toNat = q.1 + 1 by omega]
      exact e
    · intro i hi hn
      obtain ⟨a1, a2⟩ := g2 i hn
      rw [a1, a2]
      rw [l1] at hi
      exact ⟨by simp [hi], by simp [hi]⟩

/-- **C97**: if the masses of a type that is written can not be taken, there are no tables at all. -/
theorem c97_no_masses (nums : List (Nat × Str)) (p : Nat × Str) (hp : p ∈ nums) (hn : p.2 ∈ names) (e : Err)
    (he : mass p.2 = .error e) : ∃ e', tables (nums.map fun p => (partType p.1, p.2)) names nPart mass = .error e' := by
  have hfill : ∀ acc, ∃ e', fill names nPart mass (typeTable nums) acc = .error e' := by
    induction nums with
    | nil => cases hp
    | cons q nums ih =>
      intro acc
      show ∃ e', fill names nPart mass ((partType q.1, q.2) :: typeTable nums) acc = .error e'
      unfold fill
      by_cases hq : q.2 ∈ names
      · rw [if_pos (List.contains_iff_mem.2 hq), index_partType]
        show ∃ e', (do
          let counts ← assign acc.1 (q.1 : Int) (nPart q.2)
          let m ← mass q.2
          let masses ← assign acc.2 (q.1 : Int) m
          fill names nPart mass (typeTable nums) (counts, masses)) = .error e'
        cases assign acc.1 (q.1 : Int) (nPart q.2) with
        | error e1 => exact ⟨e1, rfl⟩
        | ok c1 =>
          rcases List.mem_cons.1 hp with rfl | hp
          · rw [he]
            exact ⟨e, rfl⟩
          · cases hm : mass q.2 with
            | error e1 => exact ⟨e1, rfl⟩
            | ok m =>
              show ∃ e', (do
                let masses ← assign acc.2 (q.1 : Int) m
                fill names nPart mass (typeTable nums) (c1, masses)) = .error e'
              cases assign acc.2 (q.1 : Int) m with
              | error e1 => exact ⟨e1, rfl⟩
              | ok m1 => exact ih hp (c1, m1)
      · rw [if_neg (fun h => hq (List.contains_iff_mem.1 h))]
        rcases List.mem_cons.1 hp with rfl | hp
        · exact absurd hn hq
        · exact ih hp acc
  unfold tables
  show ∃ e', (do
    let numbers ← (typeTable nums).mapM fun (t : Str × Str) => typeIndex t.1
    let top ← pyMax numbers
    let n := (top + 1).toNat
    fill names nPart mass (typeTable nums) (List.replicate n 0, List.replicate n 0)) = .error e'
  rw [mapM_index]
  cases ht : pyMax (nums.map fun p => (p.1 : Int)) with
  | error e1 =>
    refine ⟨e1, ?_⟩
    show (do
      let top ← pyMax (nums.map fun (p : Nat × Str) => (p.1 : Int))
      fill names nPart mass (typeTable nums) (List.replicate (top + 1).toNat 0, List.replicate (top + 1).toNat 0)) = _
    rw [ht]
    rfl
  | ok top =>
    obtain ⟨e', h⟩ := hfill (List.replicate (top + 1).toNat 0, List.replicate (top + 1).toNat 0)
    refine ⟨e', ?_⟩
    show (do
      let top ← pyMax (nums.map fun (p : Nat × Str) => (p.1 : Int))
      fill names nPart mass (typeTable nums) (List.replicate (top + 1).toNat 0, List.replicate (top + 1).toNat 0)) = _
    rw [ht]
    exact h

end

/-- The numbers and names of the eight types of the code. -/
private def eight : List (Nat × Str) := (List.range 8).map fun i => (i, ((particleNames[i]?).map Prod.snd).getD [])

private theorem eight_table : eight.map (fun p => (partType p.1, p.2)) = particleNames := by decide +kernel

private theorem eight_name (t : Nat) (h : t < 8) (p : Nat × Str) (hp : p ∈ eight) (hn : p.2 = ((particleNames[t]?).map Prod.snd).getD []) :
    p.1 = t := by
  have : ∀ t, t < 8 → ∀ p ∈ eight, p.2 = ((particleNames[t]?).map Prod.snd).getD [] → p.1 = t := by decide +kernel
  exact this t h p hp hn

/-- **C97**: with the types of the code the counts are those of `Verif/Model/Writer.lean`, about which C31 speaks: `written` are the
numbers, counts and flags of the types to write. -/
theorem c97_counts {K : Type} [Zero K] (written : List (Nat × Nat × Bool)) (h8 : ∀ x ∈ written, x.1 < 8)
    (hd : (written.map Prod.fst).Nodup) (nPart : Str → Nat) (mass : Str → Except Err K)
    (hn : ∀ x ∈ written, ∃ key name, particleNames[x.1]? = some (key, name) ∧ nPart name = x.2.1 ∧ ∃ m, mass name = .ok m) :
    ∃ masses, tables particleNames (written.map fun x => ((particleNames[x.1]?).map Prod.snd).getD []) nPart mass =
      .ok (Writer.numberOfParticles written, masses) ∧ masses.length = 8 := by
  have hname : ∀ p ∈ eight, p.2 ∈ (written.map fun x => ((particleNames[x.1]?).map Prod.snd).getD []) →
      ∃ x ∈ written, x.1 = p.1 ∧ nPart p.2 = x.2.1 ∧ ∃ m, mass p.2 = .ok m := by
    intro p hp hm
    obtain ⟨x, hx, hxe⟩ := List.mem_map.1 hm
    obtain ⟨key, name, h1, h2, h3⟩ := hn x hx
    have hpx := eight_name x.1 (h8 x hx) p hp hxe.symm
    rw [h1] at hxe
    have : p.2 = name := hxe.symm
    rw [this]
    exact ⟨x, hx, hpx.symm, h2, h3⟩
  obtain ⟨counts, masses, e, l1, l2, ⟨q, hq, l3⟩, g1, g2⟩ := c97_tables (written.map fun x => ((particleNames[x.1]?).map Prod.snd).getD [])
    nPart mass eight (by decide) (by decide +kernel) (fun p hp hm => by
      obtain ⟨x, -, -, -, h⟩ := hname p hp hm
      exact h)
  rw [eight_table] at e
  have hlen : counts.length = 8 := by
    have h7 := l2 (7, "sidm".toList) (by decide +kernel)
    have hq8 : ∀ p ∈ eight, p.1 < 8 := by decide +kernel
    have := hq8 q hq
    dsimp only at h7
    omega
  refine ⟨masses, ?_, by omega⟩
  have hc : counts = Writer.numberOfParticles written := by
    apply List.ext_getElem?
    intro i
    by_cases hi : i < 8
    · have hie : (i, ((particleNames[i]?).map Prod.snd).getD []) ∈ eight := List.mem_map.2 ⟨i, List.mem_range.2 hi, rfl⟩
      have hR : (Writer.numberOfParticles written)[i]? = some (((written.find? (fun x => x.1 == i)).map (fun x => x.2.1)).getD 0) := by
        unfold Writer.numberOfParticles
        rw [List.getElem?_map, List.getElem?_range hi, Option.map_some]
      rw [hR]
      cases hf : written.find? (fun x => x.1 == i) with
      | some x =>
        have hx := List.mem_of_find?_eq_some hf
        have hxi : x.1 = i := by simpa using List.find?_some hf
        have hmem : ((particleNames[i]?).map Prod.snd).getD [] ∈ written.map fun x => ((particleNames[x.1]?).map Prod.snd).getD [] :=
          List.mem_map.2 ⟨x, hx, by rw [hxi]⟩
        obtain ⟨y, hy, hy1, hy2, -⟩ := hname _ hie hmem
        have hyx : y = x := List.inj_on_of_nodup_map hd hy hx (hy1.trans hxi.symm)
        rw [(g1 _ hie hmem).1, hy2, hyx]
        rfl
      | none =>
        have hno : ∀ p ∈ eight, p.1 = i → p.2 ∉ written.map fun x => ((particleNames[x.1]?).map Prod.snd).getD [] := by
          intro p hp hpi hm
          obtain ⟨x, hx, hx1, -⟩ := hname p hp hm
          have := List.find?_eq_none.1 hf x hx
          simp [hx1, hpi] at this
        rw [(g2 i (by omega) hno).1]
        rfl
    · rw [List.getElem?_eq_none (by omega), List.getElem?_eq_none (by simp [Writer.numberOfParticles]; omega)]
  rw [← hc]
  exact e

/-! ## Exponents -/

private theorem fold_dims (l : List (Base × ℚ)) (hd : (l.map Prod.fst).Nodup) (d : Base → ℚ) (k : Base) :
    (∀ q, (k, q) ∈ l → l.foldl (fun d f k => if k = f.1 then f.2 else d k) d k = q) ∧
      ((∀ q, (k, q) ∉ l) → l.foldl (fun d f k => if k = f.1 then f.2 else d k) d k = d k) := by
  induction l generalizing d with
  | nil => exact ⟨fun q h => by (cases h), fun _ => rfl⟩
  | cons f l ih =>
    have hd' := List.nodup_cons.1 (show (f.1 :: l.map Prod.fst).Nodup from hd)
    obtain ⟨i1, i2⟩ := ih hd'.2 (fun k => if k = f.1 then f.2 else d k)
    rw [List.foldl_cons]
    constructor
    · intro q h
      rcases List.mem_cons.1 h with h | h
      · have hk : k = f.1 := by rw [← h]
        have hq : q = f.2 := by rw [← h]
        rw [i2 (fun q' hq' => hd'.1 (List.mem_map.2 ⟨(k, q'), hq', hk⟩)), if_pos hk, hq]
      · exact i1 q h
    · intro h
      have hk : k ≠ f.1 := by
        rintro rfl
        exact h f.2 (by simp)
      rw [i2 (fun q hq => h q (by simp [hq])), if_neg hk]

/-- **C97**: for a product of powers of base dimensions, in any order, `get_dimensions` gives the exponent of every base dimension, and
zero for those that are not in it. -/
theorem c97_dimensions (d : Base → ℚ) (product : List (Base × ℚ)) (hd : (product.map Prod.fst).Nodup)
    (h : ∀ k q, (k, q) ∈ product ↔ d k = q ∧ q ≠ 0) (k : Base) (hk : k ≠ .one) : getDimensions product k = d k := by
  unfold getDimensions
  cases product with
  | nil =>
    show (if k = .one then 1 else 0) = _
    rw [if_neg hk]
    by_contra hne
    have := (h k (d k)).2 ⟨rfl, fun h => hne h.symm⟩
    cases this
  | cons f l =>
    show (f :: l).foldl (fun d f k => if k = f.1 then f.2 else d k) (fun _ => 0) k = _
    obtain ⟨i1, i2⟩ := fold_dims (f :: l) hd (fun _ => 0) k
    by_cases hz : d k = 0
    · rw [i2 (fun q hq => by
        obtain ⟨a, b⟩ := (h k q).1 hq
        exact b (a ▸ hz)), hz]
    · exact i1 (d k) ((h k (d k)).2 ⟨rfl, hz⟩)

/-- **C97** fails for pure numbers: the dimension 1 gets the exponent one, where the documentation has zero for it. The five exponents that
are written are zero. -/
theorem c97_dimensionless_fails : getDimensions [] .one = 1 ∧ (written []).map Prod.snd = [0, 0, 0, 0, 0] := by decide +kernel

/-- **C97**: the five exponents in the file are those of current, length, mass, temperature and time; two products have the same five
exactly if they agree in these dimensions. -/
theorem c97_written (d d' : Base → ℚ) (product product' : List (Base × ℚ)) (hd : (product.map Prod.fst).Nodup)
    (hd' : (product'.map Prod.fst).Nodup) (h : ∀ k q, (k, q) ∈ product ↔ d k = q ∧ q ≠ 0) (h' : ∀ k q, (k, q) ∈ product' ↔ d' k = q ∧ q ≠ 0) :
    written product = [("U_I exponent", d .current), ("U_L exponent", d .length), ("U_M exponent", d .mass),
      ("U_T exponent", d .temperature), ("U_t exponent", d .time)] ∧
    (written product = written product' ↔ ∀ k ∈ [Base.current, .length, .mass, .temperature, .time], d k = d' k) := by
  have e : ∀ k, k ≠ Base.one → getDimensions product k = d k := fun k hk => c97_dimensions d product hd h k hk
  have e' : ∀ k, k ≠ Base.one → getDimensions product' k = d' k := fun k hk => c97_dimensions d' product' hd' h' k hk
  unfold written
  simp only [e _ (by decide : Base.current ≠ .one), e _ (by decide : Base.length ≠ .one), e _ (by decide : Base.mass ≠ .one),
    e _ (by decide : Base.temperature ≠ .one), e _ (by decide : Base.time ≠ .one), e' _ (by decide : Base.current ≠ .one),
    e' _ (by decide : Base.length ≠ .one), e' _ (by decide : Base.mass ≠ .one), e' _ (by decide : Base.temperature ≠ .one),
    e' _ (by decide : Base.time ≠ .one)]
  simp

/-- **C97** fails for angles, luminous intensities and magnitudes: they are not written, an angle looks like a pure number. -/
theorem c97_angle_fails : written [(.angle, 1)] = written [] ∧ written [(.luminous, 1)] = written [] ∧
    written [(.logarithmic, 1)] = written [] := by decide +kernel

/-! ## Examples -/

example : typeNumber "PartType0".toList = .ok (.inl 0) ∧ typeNumber "PartType12".toList = .ok (.inl 12) ∧
    typeNumber "gas".toList = .ok (.inr "gas".toList) ∧ typeNumber "PartTypeX".toList = .error .value := by decide +kernel

example : typeNumber (partType 7) = .ok (.inl 7) := (c97_number 7 [] (by decide)).1

example : typeNumber (partType 1 ++ ['_']) = .error .value :=
  (c97_not_number 1 '_' (by decide) (by decide) (by decide) (by decide)).1

/-- Two types with the numbers 3 and 1, of which one is written. -/
example : ∃ counts masses, tables ([(3, "a".toList), (1, "b".toList)].map fun p : Nat × Str => (partType p.1, p.2)) ["b".toList] (fun _ => 5)
    (fun _ => (.ok 2 : Except Err ℚ)) = .ok (counts, masses) ∧ counts = [0, 5, 0, 0] ∧ masses = [0, 2, 0, 0] :=
  ⟨_, _, rfl, by decide +kernel, by decide +kernel⟩

example : ∃ counts masses, tables ([(3, "a".toList), (1, "b".toList)].map fun p : Nat × Str => (partType p.1, p.2)) ["b".toList] (fun _ => 5)
    (fun _ => (.ok 2 : Except Err ℚ)) = .ok (counts, masses) ∧ counts.length = masses.length := by
  obtain ⟨c, m, h1, h2, -⟩ := c97_tables ["b".toList] (fun _ => 5) (fun _ => (.ok 2 : Except Err ℚ)) [(3, "a".toList), (1, "b".toList)] (by simp) (by decide)
    (fun _ _ _ => ⟨_, rfl⟩)
  exact ⟨c, m, h1, h2⟩

/-- Ten gas particles and thirty stars. -/
example : ∃ masses, tables particleNames ["gas".toList, "stars".toList] (fun s => if s = "gas".toList then 10 else 30)
    (fun _ => (.ok 2 : Except Err ℚ)) = .ok (Writer.numberOfParticles [(0, 10, false), (4, 30, false)], masses) ∧ masses.length = 8 :=
  c97_counts [(0, 10, false), (4, 30, false)] (by decide) (by decide) _ _ (by
    intro x hx
    simp only [List.mem_cons, List.not_mem_nil, or_false] at hx
    rcases hx with rfl | rfl
    · exact ⟨_, _, rfl, by decide, _, rfl⟩
    · exact ⟨_, _, rfl, by decide, _, rfl⟩)

example : ∃ e', tables ([(0, "gas".toList)].map fun p : Nat × Str => (partType p.1, p.2)) ["gas".toList] (fun _ => 5)
    (fun _ => (.error .index : Except Err ℚ)) = .error e' :=
  c97_no_masses _ _ _ [(0, "gas".toList)] (0, "gas".toList) (by simp) (by simp) .index rfl

/-- A velocity. -/
example : getDimensions [(.length, 1), (.time, -1)] .time = -1 ∧ getDimensions [(.length, 1), (.time, -1)] .mass = 0 := by decide +kernel

example : getDimensions [(.length, 1), (.time, -1)] .length =
    (fun k : Base => if k = .length then (1 : ℚ) else if k = .time then -1 else 0) .length :=
  c97_dimensions (fun k => if k = .length then 1 else if k = .time then -1 else 0) _ (by decide)
    (by
      intro k q
      by_cases h1 : k = .length
      · subst h1
        simp only [List.mem_cons, Prod.mk.injEq, List.not_mem_nil, or_false, reduceCtorEq, false_and, true_and, if_true]
        exact ⟨fun h => ⟨h.symm, by rw [h]; norm_num⟩, fun h => h.1.symm⟩
      · by_cases h2 : k = .time
        · subst h2
          simp only [List.mem_cons, Prod.mk.injEq, List.not_mem_nil, or_false, reduceCtorEq, false_and, true_and, false_or, if_true,
            if_false]
          exact ⟨fun h => ⟨h.symm, by rw [h]; norm_num⟩, fun h => h.1.symm⟩
        · simp only [List.mem_cons, Prod.mk.injEq, List.not_mem_nil, or_false, h1, h2, false_and, or_self, if_false, false_iff]
          exact fun h => h.2 h.1.symm) .length (by decide)

end Verif.Props
