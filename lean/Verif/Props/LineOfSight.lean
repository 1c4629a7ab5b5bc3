import Verif.Spec.LineOfSight
import Verif.Props.Names
import Batteries.Data.Char.AsciiCasing
import Mathlib.Data.List.Nodup
import Mathlib.Data.List.Sort
import Mathlib.Algebra.Field.Defs
import Mathlib.Algebra.Order.Field.Rat
import Mathlib.Tactic.Linarith

/-!
# C67: line-of-sight files
-/

namespace Verif.Props
open Verif Verif.Names Verif.LineOfSight Verif.Spec

private instance : Std.Total (fun a b : Str => a ≤ b) := ⟨List.le_total⟩

private instance : IsTrans Str (fun a b : Str => a ≤ b) := ⟨fun _ _ _ => List.le_trans⟩

private theorem ne_of_less {a b : Str} (h : a < b) : a ≠ b := by
  rintro rfl
  exact List.lt_irrefl _ h

/-- The groups of a line-of-sight file are the members whose name begins with `LOS_`, each once, sorted. -/
theorem c67_groups (keys : List Str) (hn : keys.Nodup) :
    (∀ g : Str, g ∈ LineOfSight.presentGroups keys ↔ g ∈ keys ∧ ∃ t : Str, g = "LOS_".toList ++ t) ∧
    (LineOfSight.presentGroups keys).Pairwise (· < ·) := by
  constructor
  · intro g
    unfold LineOfSight.presentGroups
    rw [List.mem_insertionSort, List.mem_filter, List.isPrefixOf_iff_prefix]
    exact ⟨fun ⟨h, t, e⟩ => ⟨h, t, e.symm⟩, fun ⟨h, t, e⟩ => ⟨h, t, e.symm⟩⟩
  · have hs := List.pairwise_insertionSort (fun a b : Str => a ≤ b)
      (keys.filter (fun k => "LOS_".toList.isPrefixOf k))
    have hd : (LineOfSight.presentGroups keys).Nodup := (List.perm_insertionSort _ _).nodup_iff.mpr (hn.filter _)
    refine (hs.and hd).imp ?_
    intro a b h
    rcases List.le_iff_lt_or_eq.mp h.1 with h1 | h1
    · exact h1
    · exact absurd h1 h.2

example : (LineOfSight.presentGroups ["Units".toList, "LOS_0001".toList, "LOS_0000".toList]).Pairwise (· < ·) :=
  (c67_groups _ (by decide +kernel)).2

private theorem strict_unique (l l' : List Str) (h : l.Pairwise (· < ·)) (h' : l'.Pairwise (· < ·)) (hm : ∀ g : Str, g ∈ l ↔ g ∈ l') :
    l = l' := by
  have hp : l.Perm l' := (List.perm_ext_iff_of_nodup (h.imp ne_of_less) (h'.imp ne_of_less)).mpr hm
  exact List.Perm.eq_of_pairwise (fun a b _ _ h1 h2 => absurd h1 (List.lt_asymm h2)) h h' hp

/-- The order in which the file lists its members does not matter. -/
theorem c67_file_order (keys keys' : List Str) (hn : keys.Nodup) (hp : keys.Perm keys') :
    LineOfSight.presentGroups keys = LineOfSight.presentGroups keys' := by
  have h := c67_groups keys hn
  have h' := c67_groups keys' (hp.nodup_iff.mp hn)
  refine strict_unique _ _ h.2 h'.2 ?_
  intro g
  rw [h.1, h'.1, hp.mem_iff]

example : LineOfSight.presentGroups ["LOS_1".toList, "LOS_0".toList] = LineOfSight.presentGroups ["LOS_0".toList, "LOS_1".toList] :=
  c67_file_order _ _ (by decide +kernel) (List.Perm.swap _ _ _)

private theorem padded_length (w n : Nat) : (padded w n).length = w := by
  induction w generalizing n with
  | zero => rfl
  | succ w ih => simp [padded, ih]

private theorem digit_lt {i j : Nat} (h : i < j) (hj : j < 10) : Char.ofNat (48 + i) < Char.ofNat (48 + j) := by
  have : ∀ j < 10, ∀ i < j, Char.ofNat (48 + i) < Char.ofNat (48 + j) := by decide
  exact this j hj i h

private theorem lt_append_same : ∀ (l l' : Str) (x y : Str), l.length = l'.length → l < l' → l ++ x < l' ++ y
  | [], [], _, _, _, h => absurd h (List.lt_irrefl _)
  | a :: l, b :: l', x, y, hl, h => by
    simp only [List.cons_append]
    rw [List.cons_lt_cons_iff] at h ⊢
    rcases h with h | ⟨e, h⟩
    · exact Or.inl h
    · exact Or.inr ⟨e, lt_append_same l l' x y (by simpa using hl) h⟩

private theorem append_lt_left (l x y : Str) (h : x < y) : l ++ x < l ++ y := by
  induction l with
  | nil => exact h
  | cons a l ih =>
    simp only [List.cons_append]
    rw [List.cons_lt_cons_iff]
    exact Or.inr ⟨rfl, ih⟩

private theorem padded_lt (w : Nat) : ∀ m n : Nat, m < n → n < 10 ^ w → padded w m < padded w n := by
  induction w with
  | zero => intro m n h h'; simp at h'; omega
  | succ w ih =>
    intro m n h h'
    unfold padded
    by_cases e : m / 10 = n / 10
    · rw [e]
      refine append_lt_left _ _ _ ?_
      rw [List.cons_lt_cons_iff]
      exact Or.inl (digit_lt (by omega) (by omega))
    · refine lt_append_same _ _ _ _ (by rw [padded_length, padded_length]) ?_
      refine ih _ _ (by omega) ?_
      rw [Nat.pow_succ] at h'
      omega

/-- The lines of sight `0 .. N-1` of a file, numbered with `w` digits, come in the order of their numbers. -/
theorem c67_order (keys : List Str) (hn : keys.Nodup) (w N : Nat) (hN : N ≤ 10 ^ w)
    (hk : ∀ t : Str, "LOS_".toList ++ t ∈ keys ↔ ∃ n : Nat, n < N ∧ t = padded w n) :
    LineOfSight.presentGroups keys = (List.range N).map (losGroup w) := by
  have h := c67_groups keys hn
  refine strict_unique _ _ h.2 ?_ ?_
  · rw [List.pairwise_map]
    refine (List.pairwise_lt_range (n := N)).imp_of_mem ?_
    intro m n _ hb hmn
    exact append_lt_left _ _ _ (padded_lt w m n hmn (by have := List.mem_range.mp hb; omega))
  · intro g
    rw [h.1, List.mem_map]
    constructor
    · rintro ⟨hg, t, rfl⟩
      obtain ⟨n, h1, h2⟩ := (hk t).mp hg
      exact ⟨n, List.mem_range.mpr h1, by rw [h2]; rfl⟩
    · rintro ⟨n, h1, rfl⟩
      exact ⟨(hk _).mpr ⟨n, List.mem_range.mp h1, rfl⟩, _, rfl⟩

example : LineOfSight.presentGroups ["Cosmology".toList, "LOS_0002".toList, "Units".toList, "LOS_0000".toList, "LOS_0001".toList] =
    (List.range 3).map (losGroup 4) := by decide +kernel

private theorem two_keys (t : Str) : "LOS_".toList ++ t ∈ ["LOS_1".toList, "Units".toList, "LOS_0".toList] ↔
    ∃ n : Nat, n < 2 ∧ t = padded 1 n := by
  have e0 : "LOS_0".toList = "LOS_".toList ++ padded 1 0 := by decide +kernel
  have e1 : "LOS_1".toList = "LOS_".toList ++ padded 1 1 := by decide +kernel
  have hu : "LOS_".toList ++ t ≠ "Units".toList := by
    intro h
    have : '_' ∈ "Units".toList := h ▸ List.mem_append_left _ (by decide +kernel)
    revert this
    decide +kernel
  constructor
  · intro h
    simp only [List.mem_cons, List.not_mem_nil, or_false, hu, false_or] at h
    rcases h with h | h
    · exact ⟨1, by omega, List.append_cancel_left (h.trans e1)⟩
    · exact ⟨0, by omega, List.append_cancel_left (h.trans e0)⟩
  · rintro ⟨n, hn, rfl⟩
    have : n = 0 ∨ n = 1 := by omega
    rcases this with rfl | rfl <;> decide +kernel

example : LineOfSight.presentGroups ["LOS_1".toList, "Units".toList, "LOS_0".toList] = (List.range 2).map (losGroup 1) :=
  c67_order _ (by decide +kernel) 1 2 (by omega) two_keys

/-- With more lines of sight than the digits allow the order is not that of the numbers: 10000 comes before 9999. -/
theorem c67_order_fails :
    LineOfSight.presentGroups ["LOS_9999".toList, "LOS_10000".toList] = ["LOS_10000".toList, "LOS_9999".toList] := by
  decide +kernel

private theorem padded_lower (w n : Nat) : (padded w n).map Char.toLower = padded w n := by
  induction w generalizing n with
  | zero => rfl
  | succ w ih =>
    have hd : ∀ d < 10, (Char.ofNat (48 + d)).toLower = Char.ofNat (48 + d) := by decide
    simp only [padded, List.map_append, ih, List.map_cons, List.map_nil, hd _ (Nat.mod_lt n (by omega : 10 > 0))]

/-- Group `i` of the file is the attribute number `i` of the data: the names are those of the groups, in lower case; numbered
lines of sight are `los_0000`, `los_0001`, ..., all different. -/
theorem c67_names (keys : List Str) (hn : keys.Nodup) (w N : Nat) (hN : N ≤ 10 ^ w)
    (hk : ∀ t : Str, "LOS_".toList ++ t ∈ keys ↔ ∃ n : Nat, n < N ∧ t = padded w n) :
    LineOfSight.presentGroupNames keys = (List.range N).map (losName w) ∧ (LineOfSight.presentGroupNames keys).Nodup := by
  have e : LineOfSight.presentGroupNames keys = (List.range N).map (losName w) := by
    unfold LineOfSight.presentGroupNames
    rw [c67_order keys hn w N hN hk, List.map_map]
    refine List.map_congr_left ?_
    intro n _
    show (losGroup w n).map Char.toLower = losName w n
    unfold losGroup losName
    rw [List.map_append, padded_lower]
    rfl
  refine ⟨e, ?_⟩
  rw [e]
  refine List.Pairwise.imp ne_of_less (?_ : List.Pairwise (· < ·) _)
  rw [List.pairwise_map]
  refine (List.pairwise_lt_range (n := N)).imp_of_mem ?_
  intro m n _ hb hmn
  exact append_lt_left _ _ _ (padded_lt w m n hmn (by have := List.mem_range.mp hb; omega))

example : LineOfSight.presentGroupNames ["Units".toList, "LOS_0001".toList, "LOS_0000".toList] =
    ["los_0000".toList, "los_0001".toList] := by decide +kernel

example : (LineOfSight.presentGroupNames ["LOS_1".toList, "Units".toList, "LOS_0".toList]).Nodup :=
  (c67_names _ (by decide +kernel) 1 2 (by omega) two_keys).2

/-- Groups whose names differ in case only get the same attribute; groups whose names differ by underscores get classes of the
same name. -/
theorem c67_names_fails :
    LineOfSight.presentGroupNames ["LOS_A".toList, "LOS_a".toList] = ["los_a".toList, "los_a".toList] ∧
    niceName "LOS_1_1".toList = niceName "LOS_11".toList := by
  decide +kernel

/-- What is read for the attribute `attr` of a group with attributes `attrs`: its values, in the units of the file. -/
private def field {K : Type} (a : K) (attrs : List (Str × List K)) (name : Str) : Except Err (Attr K) :=
  match loadGroupAttributes (attrs.map Prod.fst) name with
  | none => .error .attribute
  | some attrName => match attrs.lookup attrName with
    | none => .error .key
    | some v => .ok (parse a name v)

private def Good {K : Type} (a : K) (attrs : List (Str × List K)) (c : Cache K) : Prop :=
  ∀ (n : Str) (v : Attr K), c n = some v → field a attrs n = .ok v

private theorem read_ok {K : Type} (a : K) (attrs : List (Str × List K)) (c : Cache K) (hc : Good a attrs c) (name : Str) :
    (∀ v : Attr K, field a attrs name = .ok v → ∃ c' : Cache K, read a attrs c name = .ok (v, c') ∧ Good a attrs c') ∧
    (∀ e : Err, field a attrs name = .error e → read a attrs c name = .error e) := by
  unfold LineOfSight.read
  cases hl : loadGroupAttributes (attrs.map Prod.fst) name with
  | none =>
    constructor
    · intro v h
      simp [field, hl] at h
    · intro e h
      simpa [field, hl] using h
  | some attrName =>
    simp only [LineOfSight.get]
    cases hcn : c name with
    | some w =>
      have := hc name w hcn
      constructor
      · intro v h
        rw [this] at h
        cases h
        exact ⟨c, rfl, hc⟩
      · intro e h
        rw [this] at h
        cases h
    | none =>
      cases ha : attrs.lookup attrName with
      | none =>
        constructor
        · intro v h
          simp [field, hl, ha] at h
        · intro e h
          simpa [field, hl, ha] using h
      | some value =>
        constructor
        · intro v h
          have hv : parse a name value = v := by simpa [field, hl, ha] using h
          subst hv
          refine ⟨_, rfl, ?_⟩
          intro n x hx
          dsimp only at hx
          by_cases e : n = name
          · rw [if_pos e] at hx
            cases hx
            rw [e]
            exact h
          · rw [if_neg e] at hx
            exact hc n x hx
        · intro e h
          simp [field, hl, ha] at h

private theorem reads_ok {K : Type} (a : K) (attrs : List (Str × List K)) (c : Cache K) (hc : Good a attrs c) (ns : List Str)
    (vs : List (Attr K)) (c' : Cache K) (h : reads a attrs c ns = .ok (vs, c')) :
    ns.map (field a attrs) = vs.map .ok ∧ Good a attrs c' := by
  induction ns generalizing c vs c' with
  | nil =>
    simp only [reads] at h
    cases h
    exact ⟨rfl, hc⟩
  | cons n ns ih =>
    have hr := read_ok a attrs c hc n
    cases hf : field a attrs n with
    | error e => simp [reads, hr.2 e hf] at h
    | ok v =>
      obtain ⟨c1, h1, h2⟩ := hr.1 v hf
      simp only [reads, h1] at h
      cases h3 : reads a attrs c1 ns with
      | error e => simp [h3] at h
      | ok p =>
        simp only [h3] at h
        cases h
        have := ih c1 h2 p.1 p.2 h3
        exact ⟨by rw [List.map_cons, List.map_cons, hf, this.1], this.2⟩

private theorem attributes_fold (l : List Str) (d : Str → Option Str) (name : Str) :
    l.foldl (fun (d : Str → Option Str) a => fun n => if n = snake a then some a else d n) d name =
      match l.reverse.find? (fun a => name = snake a) with
      | some a => some a
      | none => d name := by
  induction l generalizing d with
  | nil => rfl
  | cons b l ih =>
    rw [List.foldl_cons, ih, List.reverse_cons, List.find?_append]
    cases l.reverse.find? (fun a => name = snake a) with
    | some a => rfl
    | none => by_cases e : name = snake b <;> simp [e]

private theorem attributes_eq (l : List Str) (name : Str) :
    loadGroupAttributes l name = l.reverse.find? (fun a => name = snake a) := by
  unfold loadGroupAttributes
  rw [attributes_fold]
  cases l.reverse.find? (fun a => name = snake a) <;> rfl

private theorem attributes_some (l : List Str) (nm : Str) (hm : nm ∈ l) (hu : ∀ b ∈ l, snake b = snake nm → b = nm) :
    loadGroupAttributes l (snake nm) = some nm := by
  rw [attributes_eq]
  cases h : l.reverse.find? (fun a => snake nm = snake a) with
  | none =>
    rw [List.find?_eq_none] at h
    exact absurd (decide_eq_true rfl) (h nm (List.mem_reverse.mpr hm))
  | some b =>
    have h1 := List.find?_some h
    have h2 := List.mem_of_find?_eq_some h
    rw [hu b (List.mem_reverse.mp h2) (by simpa using Eq.symm (of_decide_eq_true h1))]

private theorem lookup_mem {K : Type} : ∀ (l : List (Str × List K)) (nm : Str) (v : List K), (l.map Prod.fst).Nodup → (nm, v) ∈ l →
    l.lookup nm = some v
  | (k, w) :: l, nm, v, hn, hm => by
    rw [List.map_cons, List.nodup_cons] at hn
    rcases List.mem_cons.mp hm with h | h
    · cases h
      simp [List.lookup]
    · have : nm ≠ k := by
        rintro rfl
        exact hn.1 (List.mem_map.mpr ⟨_, h, rfl⟩)
      rw [List.lookup_cons, beq_eq_false_iff_ne.mpr this]
      exact lookup_mem l nm v hn.2 h

private theorem good_empty {K : Type} (a : K) (attrs : List (Str × List K)) : Good a attrs (fun _ => none) := by
  intro n v h
  cases h

private theorem field_mem {K : Type} (a : K) (attrs : List (Str × List K)) (hn : (attrs.map Prod.fst).Nodup) (nm : Str) (v : List K)
    (hm : (nm, v) ∈ attrs) (hu : ∀ b ∈ attrs.map Prod.fst, snake b = snake nm → b = nm) :
    field a attrs (snake nm) = .ok (parse a (snake nm) v) := by
  unfold field
  rw [attributes_some _ nm (List.mem_map.mpr ⟨_, hm, rfl⟩) hu]
  dsimp only
  rw [lookup_mem attrs nm v hn hm]

/-- Whatever was read before, the attribute of a group under its Python name has the values stored in the file; arrays with one
entry are single numbers. -/
theorem c67_values {K : Type} [Field K] (a : K) (attrs : List (Str × List K)) (hn : (attrs.map Prod.fst).Nodup) (nm : Str) (v : List K)
    (hm : (nm, v) ∈ attrs) (hu : ∀ b ∈ attrs.map Prod.fst, snake b = snake nm → b = nm)
    (before : List Str) (vs : List (Attr K)) (c : Cache K) (hb : reads a attrs (fun _ => none) before = .ok (vs, c)) :
    ∃ (x : Attr K) (c' : Cache K), read a attrs c (snake nm) = .ok (x, c') ∧ x.vals = v ∧ (x.single = true ↔ v.length = 1) := by
  obtain ⟨c', h, _⟩ := (read_ok a attrs c (reads_ok _ _ _ (good_empty a attrs) _ _ _ hb).2 (snake nm)).1 _ (field_mem a attrs hn nm v hm hu)
  exact ⟨_, c', h, rfl, by simp [parse]⟩

example : ∃ (x : Attr ℚ) (c' : Cache ℚ),
    read (1/2) [("Xpos".toList, [3]), ("NumParts".toList, [17])] (fun _ => none) "num_parts".toList = .ok (x, c') ∧
    x.vals = [17] ∧ (x.single = true ↔ [(17 : ℚ)].length = 1) :=
  c67_values (1/2) _ (by decide +kernel) "NumParts".toList [17] (by decide +kernel) (by decide +kernel) [] [] _ rfl

/-- The position of a line of sight is a comoving length: in the physical frame it is `a` times the number in the file. -/
theorem c67_positions {K : Type} [Field K] (a : K) (attrs : List (Str × List K)) (hn : (attrs.map Prod.fst).Nodup) (nm : Str)
    (v : List K) (hm : (nm, v) ∈ attrs) (hu : ∀ b ∈ attrs.map Prod.fst, snake b = snake nm → b = nm) (hp : losPosition nm)
    (before : List Str) (vs : List (Attr K)) (c : Cache K) (hb : reads a attrs (fun _ => none) before = .ok (vs, c)) :
    ∃ (x : Attr K) (c' : Cache K), read a attrs c (snake nm) = .ok (x, c') ∧ x.length = true ∧ x.comoving = true ∧
      x.vals = v ∧ losPhysical x = v.map (fun y => y * a) := by
  obtain ⟨c', h, _⟩ := (read_ok a attrs c (reads_ok _ _ _ (good_empty a attrs) _ _ _ hb).2 (snake nm)).1 _ (field_mem a attrs hn nm v hm hu)
  have hc : positions.contains (snake nm) = true := by
    rcases hp with rfl | rfl | rfl <;> decide +kernel
  refine ⟨_, c', h, hc, hc, rfl, ?_⟩
  unfold losPhysical parse
  simp only [hc, if_true, zpow_one]

example : ∃ (x : Attr ℚ) (c' : Cache ℚ),
    read (1/2) [("Xpos".toList, [3]), ("NumParts".toList, [17])] (fun _ => none) (snake "Xpos".toList) = .ok (x, c') ∧
    x.length = true ∧ x.comoving = true ∧ x.vals = [3] ∧ losPhysical x = [(3 : ℚ)].map (fun y => y * (1/2)) :=
  c67_positions (1/2) _ (by decide +kernel) "Xpos".toList [3] (by decide +kernel) (by decide +kernel) (Or.inl rfl) [] [] _ rfl

/-- Any other attribute is a number without unit that does not change between the frames. -/
theorem c67_others {K : Type} [Field K] (a : K) (attrs : List (Str × List K)) (hn : (attrs.map Prod.fst).Nodup) (nm : Str)
    (v : List K) (hm : (nm, v) ∈ attrs) (hu : ∀ b ∈ attrs.map Prod.fst, snake b = snake nm → b = nm)
    (hp : ∀ b : Str, losPosition b → snake nm ≠ snake b)
    (before : List Str) (vs : List (Attr K)) (c : Cache K) (hb : reads a attrs (fun _ => none) before = .ok (vs, c)) :
    ∃ (x : Attr K) (c' : Cache K), read a attrs c (snake nm) = .ok (x, c') ∧ x.length = false ∧ x.comoving = false ∧
      x.exponent = 0 ∧ x.vals = v ∧ losPhysical x = v := by
  obtain ⟨c', h, _⟩ := (read_ok a attrs c (reads_ok _ _ _ (good_empty a attrs) _ _ _ hb).2 (snake nm)).1 _ (field_mem a attrs hn nm v hm hu)
  have hc : positions.contains (snake nm) = false := by
    have hx : snake "Xpos".toList = "xpos".toList := by decide +kernel
    have hy : snake "Ypos".toList = "ypos".toList := by decide +kernel
    have hz : snake "Zpos".toList = "zpos".toList := by decide +kernel
    have h1 := hp _ (Or.inl rfl)
    have h2 := hp _ (Or.inr (Or.inl rfl))
    have h3 := hp _ (Or.inr (Or.inr rfl))
    rw [hx] at h1
    rw [hy] at h2
    rw [hz] at h3
    rw [← Bool.not_eq_true, List.contains_iff_mem]
    unfold positions
    simp only [List.mem_cons, List.not_mem_nil, or_false, not_or]
    exact ⟨h1, h2, h3⟩
  refine ⟨_, c', h, hc, hc, ?_, rfl, ?_⟩
  · unfold parse
    simp only [hc]
    rfl
  · unfold losPhysical parse
    simp only [hc]
    rfl

example : ∃ (x : Attr ℚ) (c' : Cache ℚ),
    read (1/2) [("Xpos".toList, [3]), ("NumParts".toList, [17])] (fun _ => none) (snake "NumParts".toList) = .ok (x, c') ∧
    x.length = false ∧ x.comoving = false ∧ x.exponent = 0 ∧ x.vals = [17] ∧ losPhysical x = [17] :=
  c67_others (1/2) _ (by decide +kernel) "NumParts".toList [17] (by decide +kernel) (by decide +kernel)
    (by rintro b (rfl | rfl | rfl) <;> decide +kernel) [] [] _ rfl

/-- A name that no attribute of the group has is refused. -/
theorem c67_refused {K : Type} (a : K) (attrs : List (Str × List K)) (name : Str) (hx : ∀ b ∈ attrs.map Prod.fst, snake b ≠ name)
    (c : Cache K) : read a attrs c name = .error .attribute := by
  unfold LineOfSight.read
  rw [attributes_eq, List.find?_eq_none.mpr]
  intro b hb
  simpa using fun e => hx b (List.mem_reverse.mp hb) e.symm

example : read (1/2 : ℚ) [("Xpos".toList, [3])] (fun _ => none) "ypos".toList = .error .attribute :=
  c67_refused _ _ _ (by decide +kernel) _

/-- Two attributes with the same Python name: the one that comes last in the file is read. -/
theorem c67_collision_fails (c : Cache ℚ) (h : c "xpos".toList = none) :
    (read (1/2 : ℚ) [("XPos".toList, [1]), ("Xpos".toList, [3]), ("xpos".toList, [5])] c "xpos".toList).map (fun p => p.1.vals) =
      .ok [5] := by
  have e : loadGroupAttributes (["XPos".toList, "Xpos".toList, "xpos".toList]) "xpos".toList = some "xpos".toList := by decide +kernel
  unfold LineOfSight.read
  simp only [List.map_cons, List.map_nil]
  rw [e]
  simp only [LineOfSight.get, h]
  rfl

end Verif.Props
