import Verif.Spec.MaskNames

/-!
# C99: the attributes of a mask

`mask.gas` and `mask.gas_size` are the mask and the size of the type, whatever was done before; other names raise AttributeError. A mask
can not be copied.
-/

namespace Verif.Props
open Verif Verif.MaskNames Verif.Spec

variable {shared : Option Name} {groups : List Name}

/-- What holds for every mask with a history. -/
private structure Inv (shared : Option Name) (groups : List Name) (o : Obj) : Prop where
  info : o metadataName = some (.metadata shared groups)
  mapping : o mappingCache = some .none ∨ o mappingCache = some (.table (mappingOf shared groups))
  sizes : o sizesCache = some .none ∨ o sizesCache = some (.table (sizesOf shared groups))
  list : o listCache = some .none ∨ o listCache = some (.names (listOf shared groups))

/-- Nothing but the caches differs. -/
private def Agree (o o' : Obj) : Prop := ∀ n, n ≠ mappingCache → n ≠ sizesCache → n ≠ listCache → o' n = o n

private theorem Agree.refl (o : Obj) : Agree o o := fun _ _ _ _ => rfl

private theorem Agree.trans {a b c : Obj} (h : Agree a b) (h' : Agree b c) : Agree a c :=
  fun n h1 h2 h3 => (h' n h1 h2 h3).trans (h n h1 h2 h3)

private theorem put_self (o : Obj) (n : Name) (v : Val) : put o n v n = some v := Function.update_self ..

private theorem put_ne (o : Obj) {n m : Name} (v : Val) (h : m ≠ n) : put o n v m = o m := Function.update_of_ne h ..

private theorem inv_fresh : Inv shared groups (fresh shared groups) := by
  constructor
  · rfl
  · exact .inl rfl
  · exact .inl rfl
  · exact .inl rfl

private theorem inv_mapping {o : Obj} (h : Inv shared groups o) : Inv shared groups (put o mappingCache (.table (mappingOf shared groups))) where
  info := by rw [put_ne _ _ (by decide)]; exact h.info
  mapping := .inr (put_self ..)
  sizes := by rw [put_ne _ _ (by decide)]; exact h.sizes
  list := by rw [put_ne _ _ (by decide)]; exact h.list

private theorem inv_sizes {o : Obj} (h : Inv shared groups o) : Inv shared groups (put o sizesCache (.table (sizesOf shared groups))) where
  info := by rw [put_ne _ _ (by decide)]; exact h.info
  mapping := by rw [put_ne _ _ (by decide)]; exact h.mapping
  sizes := .inr (put_self ..)
  list := by rw [put_ne _ _ (by decide)]; exact h.list

private theorem inv_list {o : Obj} (h : Inv shared groups o) : Inv shared groups (put o listCache (.names (listOf shared groups))) where
  info := by rw [put_ne _ _ (by decide)]; exact h.info
  mapping := by rw [put_ne _ _ (by decide)]; exact h.mapping
  sizes := by rw [put_ne _ _ (by decide)]; exact h.sizes
  list := .inr (put_self ..)

private theorem agree_put {o : Obj} {n : Name} {v : Val} (h : n = mappingCache ∨ n = sizesCache ∨ n = listCache) : Agree o (put o n v) := by
  intro m h1 h2 h3
  refine put_ne _ _ ?_
  rintro rfl
  rcases h with h | h | h
  · exact h1 h
  · exact h2 h
  · exact h3 h

/-- Lookups that keep masks right. -/
private def Good (shared : Option Name) (groups : List Name) (look : Obj → Name → Except Err (Obj × Val)) : Prop :=
  ∀ o n o' v, Inv shared groups o → look o n = .ok (o', v) → Inv shared groups o' ∧ Agree o o' ∧
    (n = metadataName → v = .metadata shared groups)

private theorem bind_ok {α β : Type} {x : Except Err α} {f : α → Except Err β} {b : β} (h : x.bind f = .ok b) : ∃ a, x = .ok a ∧ f a = .ok b := by
  cases x with
  | error e => cases h
  | ok a => exact ⟨a, rfl, h⟩

private theorem good_fallback {look : Obj → Name → Except Err (Obj × Val)} (hl : Good shared groups look) {o o' : Obj} {n : Name} {v : Val}
    (hi : Inv shared groups o) (h : fallback look o n = .ok (o', v)) : Inv shared groups o' ∧ Agree o o' := by
  unfold fallback at h
  obtain ⟨r, h1, h⟩ := bind_ok h
  obtain ⟨a, _, h⟩ := bind_ok h
  obtain ⟨q, h2, h⟩ := bind_ok h
  obtain ⟨b, _, h⟩ := bind_ok h
  obtain ⟨i1, a1, -⟩ := hl _ _ _ _ hi h1
  obtain ⟨i2, a2, -⟩ := hl _ _ _ _ i1 h2
  cases hf : find a b n with
  | none => rw [hf] at h; cases h
  | some u =>
    rw [hf] at h
    obtain ⟨i3, a3, -⟩ := hl _ _ _ _ i2 h
    exact ⟨i3, (a1.trans a2).trans a3⟩

private theorem good_cached {look : Obj → Name → Except Err (Obj × Val)} (hl : Good shared groups look) {cache : Name}
    {make : Option Name → List Name → Val} {again : Obj → Except Err (Obj × Val)}
    (hp : ∀ o, Inv shared groups o → Inv shared groups (put o cache (make shared groups)) ∧ Agree o (put o cache (make shared groups)))
    (ha : ∀ o o' v, Inv shared groups o → again o = .ok (o', v) → Inv shared groups o' ∧ Agree o o') {o o' : Obj} {v : Val}
    (hi : Inv shared groups o) (h : cached look cache make again o = .ok (o', v)) : Inv shared groups o' ∧ Agree o o' := by
  unfold cached at h
  obtain ⟨r, h1, h⟩ := bind_ok h
  obtain ⟨i1, a1, -⟩ := hl _ _ _ _ hi h1
  by_cases hr : r.2 ≠ .none
  · rw [if_pos hr] at h
    cases h
    exact ⟨i1, a1⟩
  · rw [if_neg hr] at h
    obtain ⟨m, hm, h⟩ := bind_ok h
    obtain ⟨q, h2, hq⟩ := bind_ok hm
    obtain ⟨i2, a2, e2⟩ := hl _ _ _ _ i1 h2
    have hm' : m = (q.1, shared, groups) := by
      unfold metaOf at hq
      rw [e2 rfl] at hq
      cases hq
      rfl
    subst hm'
    obtain ⟨i3, a3⟩ := hp _ i2
    obtain ⟨i4, a4⟩ := ha _ _ _ i3 h
    exact ⟨i4, ((a1.trans a2).trans a3).trans a4⟩

private theorem good_or {look : Obj → Name → Except Err (Obj × Val)} (hl : Good shared groups look) {o o' : Obj} {n : Name} {v : Val}
    {r : Except Err (Obj × Val)} (hr : ∀ o' v, r = .ok (o', v) → Inv shared groups o' ∧ Agree o o') (hi : Inv shared groups o)
    (h : orFallback look o n r = .ok (o', v)) : Inv shared groups o' ∧ Agree o o' := by
  unfold orFallback at h
  split at h
  · exact good_fallback hl hi h
  · exact hr _ _ h

private theorem getAttr_good (d : Nat) : Good shared groups (getAttr d) := by
  induction d with
  | zero => intro o n o' v _ h; cases h
  | succ d ih =>
    intro o n o' v hi h
    unfold getAttr at h
    by_cases h1 : n = mappingName
    · rw [if_pos h1] at h
      obtain ⟨a, b⟩ := good_or ih (fun o' v h => good_cached ih (fun o hi => ⟨inv_mapping hi, agree_put (.inl rfl)⟩)
        (fun o o' v hi h => ⟨(ih _ _ _ _ hi h).1, (ih _ _ _ _ hi h).2.1⟩) hi h) hi h
      exact ⟨a, b, fun e => absurd (h1.symm.trans e) (by decide)⟩
    rw [if_neg h1] at h
    by_cases h2 : n = sizesName
    · rw [if_pos h2] at h
      obtain ⟨a, b⟩ := good_or ih (fun o' v h => good_cached ih (fun o hi => ⟨inv_sizes hi, agree_put (.inr (.inl rfl))⟩)
        (fun o o' v hi h => ⟨(ih _ _ _ _ hi h).1, (ih _ _ _ _ hi h).2.1⟩) hi h) hi h
      exact ⟨a, b, fun e => absurd (h2.symm.trans e) (by decide)⟩
    rw [if_neg h2] at h
    by_cases h3 : n = listName
    · rw [if_pos h3] at h
      obtain ⟨a, b⟩ := good_or ih (fun o' v h => good_cached ih (fun o hi => ⟨inv_list hi, agree_put (.inr (.inr rfl))⟩)
        (fun o o' v hi h => ⟨(ih _ _ _ _ hi h).1, (ih _ _ _ _ hi h).2.1⟩) hi h) hi h
      exact ⟨a, b, fun e => absurd (h3.symm.trans e) (by decide)⟩
    rw [if_neg h3] at h
    cases ho : o n with
    | some w =>
      rw [ho] at h
      cases h
      refine ⟨hi, Agree.refl o, fun e => ?_⟩
      rw [e, hi.info] at ho
      exact (Option.some.inj ho).symm
    | none =>
      have hne : n ≠ metadataName := by
        rintro rfl
        rw [hi.info] at ho
        cases ho
      rw [ho] at h
      dsimp only at h
      by_cases hm : n ∈ methods
      · rw [if_pos hm] at h
        cases h
        exact ⟨hi, Agree.refl o, fun e => absurd e hne⟩
      · rw [if_neg hm] at h
        obtain ⟨a, b⟩ := good_fallback ih hi h
        exact ⟨a, b, fun e => absurd e hne⟩

private theorem reach_inv {o : Obj} (h : Reach shared groups o) : Inv shared groups o := by
  induction h with
  | made => exact inv_fresh
  | read _ hr ih => exact (getAttr_good _ _ _ _ _ ih hr).1
  | @store o n v _ hn ih =>
    have k : ∀ m ∈ kept, put o n v m = o m := fun m hm => put_ne _ _ (by rintro rfl; exact hn hm)
    refine ⟨?_, ?_, ?_, ?_⟩
    · rw [k metadataName (by decide)]; exact ih.info
    · rw [k mappingCache (by decide)]; exact ih.mapping
    · rw [k sizesCache (by decide)]; exact ih.sizes
    · rw [k listCache (by decide)]; exact ih.list

/-- C99. Reading attributes, of whatever name and whether it raises or not, changes nothing but the three tables that the class keeps. -/
theorem c99_reads (o o' : Obj) (h : Reach shared groups o) (d : Nat) (n : Name) (v : Val) (hr : getAttr d o n = .ok (o', v)) (m : Name)
    (hm : m ∉ kept.drop 1) : o' m = o m := by
  refine (getAttr_good d _ _ _ _ (reach_inv h) hr).2.1 m ?_ ?_ ?_
  · rintro rfl; exact hm (by decide)
  · rintro rfl; exact hm (by decide)
  · rintro rfl; exact hm (by decide)

private theorem stored {o : Obj} {n : Name} {v : Val} (h : o n = some v) (h1 : n ≠ mappingName) (h2 : n ≠ sizesName) (h3 : n ≠ listName)
    (d : Nat) : getAttr (d + 1) o n = .ok (o, v) := by
  unfold getAttr
  rw [if_neg h1, if_neg h2, if_neg h3, h]

private theorem cached_ok {look : Obj → Name → Except Err (Obj × Val)} {cache : Name} {make : Option Name → List Name → Val}
    {again : Obj → Except Err (Obj × Val)} {o : Obj} (hn : make shared groups ≠ .none)
    (hm : look o metadataName = .ok (o, .metadata shared groups))
    (hc : look o cache = .ok (o, .none) ∨ look o cache = .ok (o, make shared groups))
    (ha : again (put o cache (make shared groups)) = .ok (put o cache (make shared groups), make shared groups)) :
    ∃ o', cached look cache make again o = .ok (o', make shared groups) ∧ (o' = o ∨ o' = put o cache (make shared groups)) := by
  unfold cached
  rcases hc with hc | hc
  · refine ⟨put o cache (make shared groups), ?_, .inr rfl⟩
    rw [hc]
    dsimp only [Except.bind]
    rw [if_neg (fun h => h rfl), hm]
    exact ha
  · refine ⟨o, ?_, .inl rfl⟩
    rw [hc]
    dsimp only [Except.bind]
    rw [if_pos hn]

private theorem mapping_ok {o : Obj} (hi : Inv shared groups o) (d : Nat) :
    ∃ o', getAttr (d + 3) o mappingName = .ok (o', .table (mappingOf shared groups)) ∧ Inv shared groups o' ∧ Agree o o' := by
  have again : ∀ e, ∀ o : Obj, o mappingCache = some (.table (mappingOf shared groups)) →
      getAttr (e + 2) o mappingName = .ok (o, .table (mappingOf shared groups)) := by
    intro e o ho
    unfold getAttr
    rw [if_pos rfl]
    unfold cached
    rw [stored ho (by decide) (by decide) (by decide)]
    dsimp only [Except.bind]
    rw [if_pos (by intro h; cases h)]
    rfl
  obtain ⟨o', h, ho⟩ := cached_ok (look := getAttr (d + 2)) (cache := mappingCache) (make := fun s gs => .table (mappingOf s gs))
    (again := fun o => getAttr (d + 2) o mappingName) (o := o) (shared := shared) (groups := groups) (by intro h; cases h)
    (stored hi.info (by decide) (by decide) (by decide) _)
    (hi.mapping.imp (fun h => stored h (by decide) (by decide) (by decide) _) fun h => stored h (by decide) (by decide) (by decide) _)
    (again d _ (put_self ..))
  refine ⟨o', ?_, ?_⟩
  · unfold getAttr
    rw [if_pos rfl, h]
    rfl
  · rcases ho with rfl | rfl
    · exact ⟨hi, Agree.refl _⟩
    · exact ⟨inv_mapping hi, agree_put (.inl rfl)⟩

private theorem sizes_ok {o : Obj} (hi : Inv shared groups o) (d : Nat) :
    ∃ o', getAttr (d + 3) o sizesName = .ok (o', .table (sizesOf shared groups)) ∧ Inv shared groups o' ∧ Agree o o' := by
  have again : ∀ e, ∀ o : Obj, o sizesCache = some (.table (sizesOf shared groups)) →
      getAttr (e + 2) o sizesName = .ok (o, .table (sizesOf shared groups)) := by
    intro e o ho
    unfold getAttr
    rw [if_neg (by decide), if_pos rfl]
    unfold cached
    rw [stored ho (by decide) (by decide) (by decide)]
    dsimp only [Except.bind]
    rw [if_pos (by intro h; cases h)]
    rfl
  obtain ⟨o', h, ho⟩ := cached_ok (look := getAttr (d + 2)) (cache := sizesCache) (make := fun s gs => .table (sizesOf s gs))
    (again := fun o => getAttr (d + 2) o sizesName) (o := o) (shared := shared) (groups := groups) (by intro h; cases h)
    (stored hi.info (by decide) (by decide) (by decide) _)
    (hi.sizes.imp (fun h => stored h (by decide) (by decide) (by decide) _) fun h => stored h (by decide) (by decide) (by decide) _)
    (again d _ (put_self ..))
  refine ⟨o', ?_, ?_⟩
  · unfold getAttr
    rw [if_neg (by decide), if_pos rfl, h]
    rfl
  · rcases ho with rfl | rfl
    · exact ⟨hi, Agree.refl _⟩
    · exact ⟨inv_sizes hi, agree_put (.inr (.inl rfl))⟩

private theorem fallback_ok {o : Obj} (hi : Inv shared groups o) (n : Name) (d : Nat) :
    ∃ o', Inv shared groups o' ∧ Agree o o' ∧ fallback (getAttr (d + 3)) o n = (match find (mappingOf shared groups) (sizesOf shared groups) n with
      | none => .error .attribute
      | some u => getAttr (d + 3) o' u) := by
  obtain ⟨o1, h1, i1, a1⟩ := mapping_ok hi d
  obtain ⟨o2, h2, i2, a2⟩ := sizes_ok i1 d
  refine ⟨o2, i2, a1.trans a2, ?_⟩
  unfold fallback
  rw [h1]
  show (getAttr (d + 3) o1 sizesName).bind _ = _
  rw [h2]
  rfl

private theorem free_fallback {o : Obj} {n : Name} (h : Unclaimed o n) (d : Nat) : getAttr (d + 1) o n = fallback (getAttr d) o n := by
  obtain ⟨h0, h1, h2, h3, h4⟩ := h
  change n ≠ mappingName at h1
  change n ≠ sizesName at h2
  change n ≠ listName at h3
  rw [getAttr, if_neg h1, if_neg h2, if_neg h3, h0]
  dsimp only
  rw [if_neg h4]

private theorem lookup_map {l : List Name} {f g : Name → Name} (hf : ∀ a ∈ l, ∀ b ∈ l, f a = f b → g a = g b) {a : Name} (ha : a ∈ l) :
    (l.map fun x => (f x, g x)).lookup (f a) = some (g a) := by
  induction l with
  | nil => cases ha
  | cons b l ih =>
    rw [List.map_cons, List.lookup_cons]
    by_cases h : f a = f b
    · rw [beq_iff_eq.2 h, hf a ha b (by simp) h]
    · rw [beq_eq_false_iff_ne.2 h]
      rcases List.mem_cons.mp ha with rfl | ha
      · exact absurd rfl h
      · exact ih (fun x hx y hy => hf x (by simp [hx]) y (by simp [hy])) ha

private theorem lookup_none {l : List Name} {f g : Name → Name} {n : Name} (h : ∀ a ∈ l, f a ≠ n) : (l.map fun x => (f x, g x)).lookup n = none := by
  induction l with
  | nil => rfl
  | cons b l ih =>
    rw [List.map_cons, List.lookup_cons, beq_eq_false_iff_ne.2 (h b (by simp)).symm]
    exact ih fun a ha => h a (by simp [ha])

private theorem lookup_append {a b : List (Name × Name)} {n : Name} : (a ++ b).lookup n = (a.lookup n).or (b.lookup n) := by
  induction a with
  | nil => rfl
  | cons p a ih =>
    obtain ⟨k, v⟩ := p
    rw [List.cons_append, List.lookup_cons, List.lookup_cons]
    by_cases h : n = k
    · rw [beq_iff_eq.2 h]; rfl
    · rw [beq_eq_false_iff_ne.2 h]; exact ih

private theorem sized_inj {a b : Name} (h : sized a = sized b) : a = b := List.append_cancel_right h

private theorem mapping_eq : mappingOf shared groups = groups.map fun g => (g, place shared g) := by
  cases shared <;> rfl

private theorem sizes_eq : sizesOf shared groups = groups.map fun g => (sized g, sized (place shared g)) := by
  cases shared <;> rfl

private theorem find_group {g : Name} (hg : g ∈ groups) (hs : g ∉ groups.map fun x => x ++ "_size".toList) :
    find (mappingOf shared groups) (sizesOf shared groups) g = some (place shared g) := by
  unfold find
  rw [List.reverse_append, lookup_append, mapping_eq, sizes_eq, ← List.map_reverse, ← List.map_reverse,
    lookup_none (f := sized) (fun a ha h => hs (List.mem_map.2 ⟨a, List.mem_reverse.1 ha, h⟩)), Option.none_or]
  exact lookup_map (f := fun x => x) (fun a _ b _ h => by rw [h]) (List.mem_reverse.2 hg)

private theorem find_size {g : Name} (hg : g ∈ groups) :
    find (mappingOf shared groups) (sizesOf shared groups) (sized g) = some (sized (place shared g)) := by
  unfold find
  rw [List.reverse_append, lookup_append, sizes_eq, ← List.map_reverse,
    lookup_map (f := sized) (g := fun x => sized (place shared x)) (fun a _ b _ h => by rw [sized_inj h]) (List.mem_reverse.2 hg)]
  rfl

private theorem find_none {n : Name} (hg : n ∉ groups) (hs : n ∉ groups.map fun x => x ++ "_size".toList) :
    find (mappingOf shared groups) (sizesOf shared groups) n = none := by
  unfold find
  rw [List.reverse_append, lookup_append, mapping_eq, sizes_eq, ← List.map_reverse, ← List.map_reverse,
    lookup_none (f := sized) (fun a ha h => hs (List.mem_map.2 ⟨a, List.mem_reverse.1 ha, h⟩)), Option.none_or]
  exact lookup_none (f := fun x => x) (fun a ha h => hg (h ▸ List.mem_reverse.1 ha))

private theorem place_plain (g : Name) : place shared g ≠ mappingName ∧ place shared g ≠ sizesName ∧ place shared g ≠ listName ∧
    sized (place shared g) ≠ mappingName ∧ sized (place shared g) ≠ sizesName ∧ sized (place shared g) ≠ listName := by
  have h : ∃ t, place shared g = '_' :: t := by
    unfold place
    split
    · exact ⟨"shared".toList, by decide⟩
    · exact ⟨g, rfl⟩
  obtain ⟨t, h⟩ := h
  rw [h]
  refine ⟨?_, ?_, ?_, ?_, ?_, ?_⟩ <;>
  · intro e
    have e := (List.cons.inj e).1
    exact absurd e (by decide)

/-- C99. The attribute with the name of a type is the mask that is stored for it now, whatever has been done with the mask before; the
attribute with `_size` is its size. (What is stored under the names of the tables of the class is not a mask.) -/
theorem c99_type (o : Obj) (h : Reach shared groups o) (g : Name) (hg : g ∈ groups) (v w : Val) (hv : o (place shared g) = some v)
    (hw : o (place shared g ++ "_size".toList) = some w) (hp : place shared g ∉ kept ∧ place shared g ++ "_size".toList ∉ kept) (d : Nat) (hd : 4 ≤ d) :
    (Unclaimed o g → g ∉ groups.map (fun x => x ++ "_size".toList) → ∃ o', getAttr d o g = .ok (o', v) ∧ ∀ n ∉ kept, o' n = o n) ∧
    (Unclaimed o (g ++ "_size".toList) → ∃ o', getAttr d o (g ++ "_size".toList) = .ok (o', w) ∧ ∀ n ∉ kept, o' n = o n) := by
  obtain ⟨e, rfl⟩ := Nat.exists_eq_add_of_le hd
  rw [show 4 + e = e + 3 + 1 by omega]
  have hi := reach_inv h
  have ne : ∀ {n : Name}, n ∉ kept → n ≠ mappingCache ∧ n ≠ sizesCache ∧ n ≠ listCache := by
    intro n hn
    refine ⟨?_, ?_, ?_⟩ <;> (rintro rfl; exact hn (by decide))
  obtain ⟨p1, p2, p3, p4, p5, p6⟩ := place_plain (shared := shared) g
  constructor
  · intro hf hs
    obtain ⟨o', _, a, hfall⟩ := fallback_ok hi g e
    refine ⟨o', ?_, fun n hn => a n (ne hn).1 (ne hn).2.1 (ne hn).2.2⟩
    rw [free_fallback hf, hfall, find_group hg hs]
    have hv' : o' (place shared g) = some v := by rw [a _ (ne hp.1).1 (ne hp.1).2.1 (ne hp.1).2.2]; exact hv
    exact stored hv' p1 p2 p3 (e + 2)
  · intro hf
    obtain ⟨o', _, a, hfall⟩ := fallback_ok hi (sized g) e
    refine ⟨o', ?_, fun n hn => a n (ne hn).1 (ne hn).2.1 (ne hn).2.2⟩
    rw [free_fallback hf]
    show fallback (getAttr (e + 3)) o (sized g) = _
    rw [hfall, find_size hg]
    have hw' : o' (sized (place shared g)) = some w := by
      show o' (place shared g ++ "_size".toList) = some w
      rw [a _ (ne hp.2).1 (ne hp.2).2.1 (ne hp.2).2.2]; exact hw
    exact stored hw' p4 p5 p6 (e + 2)

/-- C99. A name that is neither stored nor a type nor the size of one raises AttributeError. -/
theorem c99_unknown (o : Obj) (h : Reach shared groups o) (n : Name) (hf : Unclaimed o n) (hg : n ∉ groups)
    (hs : n ∉ groups.map fun x => x ++ "_size".toList) (d : Nat) (hd : 4 ≤ d) :
    getAttr d o n = .error .attribute ∧ hasAttr d o n = .ok false := by
  obtain ⟨e, rfl⟩ := Nat.exists_eq_add_of_le hd
  rw [show 4 + e = e + 3 + 1 by omega]
  obtain ⟨o', _, _, hfall⟩ := fallback_ok (reach_inv h) n e
  have : getAttr (e + 3 + 1) o n = .error .attribute := by rw [free_fallback hf, hfall, find_none hg hs]
  exact ⟨this, by unfold hasAttr; rw [this]⟩

/-- C99. The masks that are brought up to date after a change are those of all types, or the one that they share. -/
theorem c99_updated (o : Obj) (h : Reach shared groups o) (d : Nat) (hd : 2 ≤ d) :
    ∃ o' l, getAttr d o "update_list".toList = .ok (o', .names l) ∧ (∀ g ∈ groups, place shared g ∈ l) ∧
      (∀ n ∈ l, shared.isSome = true ∨ ∃ g ∈ groups, n = place shared g) ∧ (shared.isSome = true → l.length = 1) := by
  obtain ⟨e, rfl⟩ := Nat.exists_eq_add_of_le hd
  rw [show 2 + e = e + 1 + 1 by omega]
  have hi := reach_inv h
  obtain ⟨o', hc, -⟩ := cached_ok (look := getAttr (e + 1)) (cache := listCache) (make := fun s gs => .names (listOf s gs))
    (again := fun o => getAttr (e + 1) o listCache) (o := o) (shared := shared) (groups := groups) (by intro h; cases h)
    (stored hi.info (by decide) (by decide) (by decide) _)
    (hi.list.imp (fun h => stored h (by decide) (by decide) (by decide) _) fun h => stored h (by decide) (by decide) (by decide) _)
    (stored (put_self ..) (by decide) (by decide) (by decide) _)
  refine ⟨o', listOf shared groups, ?_, ?_, ?_, ?_⟩
  · unfold getAttr
    rw [if_neg (by decide), if_neg (by decide), if_pos (by decide), hc]
    rfl
  · intro g hg
    cases shared with
    | none => exact List.mem_map.2 ⟨g, hg, rfl⟩
    | some s => exact List.mem_singleton.2 rfl
  · intro n hn
    cases shared with
    | none =>
      obtain ⟨g, hg, rfl⟩ := List.mem_map.1 hn
      exact .inr ⟨g, hg, rfl⟩
    | some s => exact .inl rfl
  · intro hs
    cases shared with
    | none => cases hs
    | some s => rfl

private theorem recursion (o : Obj) (h1 : o mappingCache = none) (h2 : o sizesCache = none) (h3 : o listCache = none) (d : Nat) :
    ∀ n, (o n = none ∧ n ∉ methods) ∨ n = mappingName → getAttr d o n = .error .runtime := by
  induction d with
  | zero => intros; rfl
  | succ d ih =>
    intro n hn
    have c : ∀ cache make again, o cache = none → cache ∉ methods → cached (getAttr d) cache make again o = .error .runtime := by
      intro cache make again hc hc'
      unfold cached
      rw [ih cache (.inl ⟨hc, hc'⟩)]
      rfl
    unfold getAttr
    by_cases e1 : n = mappingName
    · rw [if_pos e1, c _ _ _ h1 (by decide)]; rfl
    rw [if_neg e1]
    by_cases e2 : n = sizesName
    · rw [if_pos e2, c _ _ _ h2 (by decide)]; rfl
    rw [if_neg e2]
    by_cases e3 : n = listName
    · rw [if_pos e3, c _ _ _ h3 (by decide)]; rfl
    rcases hn with ⟨hn, hm⟩ | hn
    · rw [if_neg e3, hn]
      dsimp only
      rw [if_neg hm]
      unfold fallback
      rw [ih mappingName (.inr rfl)]
      rfl
    · exact absurd hn e1

/-- C99. On a mask whose attributes have not been set yet, every name that the class does not know recurses until Python gives up. -/
theorem c99_bare_fails (d : Nat) (n : Name) (hm : n ∉ methods) : getAttr d (fun _ => none) n = .error .runtime :=
  recursion _ rfl rfl rfl d n (.inl ⟨rfl, hm⟩)

/-- C99. So a mask can not be copied, nor read back from a pickle: whatever the mask and the depth that Python allows. -/
theorem c99_copy_fails (d : Nat) (o : Obj) : reconstruct d o = .error .runtime := by
  unfold reconstruct hasAttr
  rw [c99_bare_fails d _ (by decide)]
  rfl

/-- The mask of gas and its size, stored in a new mask of two types. -/
private def sampleMask : Obj :=
  put (put (fresh none ["gas".toList, "stars".toList]) "_gas".toList (.thing 7)) "_gas_size".toList (.thing 9)

private theorem sampleMask_reach : Reach none ["gas".toList, "stars".toList] sampleMask :=
  .store (.store .made (by decide)) (by decide)

/-- The hypotheses of `c99_type` and `c99_unknown` are met by a mask of two types. -/
example : (∃ o', getAttr 1000 sampleMask "gas".toList = .ok (o', .thing 7)) ∧
    (∃ o', getAttr 1000 sampleMask "gas_size".toList = .ok (o', .thing 9)) ∧
    getAttr 1000 sampleMask "halos".toList = .error .attribute := by
  have f : ∀ n ∈ ["gas".toList, "gas_size".toList, "halos".toList], Unclaimed sampleMask n := by
    intro n hn
    simp only [List.mem_cons, List.not_mem_nil, or_false] at hn
    rcases hn with rfl | rfl | rfl <;> exact ⟨rfl, by decide, by decide, by decide, by decide⟩
  have h := c99_type sampleMask sampleMask_reach "gas".toList (by decide) (.thing 7) (.thing 9) rfl rfl (by decide) 1000 (by omega)
  obtain ⟨a, ha, -⟩ := h.1 (f _ (by decide)) (by decide)
  obtain ⟨b, hb, -⟩ := h.2 (f _ (by decide))
  exact ⟨⟨a, ha⟩, ⟨b, hb⟩, (c99_unknown sampleMask sampleMask_reach _ (f _ (by decide)) (by decide) (by decide) 1000 (by omega)).1⟩

end Verif.Props
