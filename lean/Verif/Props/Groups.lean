import Verif.Spec.Groups
import Verif.Spec.Names

/-!
# C100: the groups of a dataset, for files of all kinds
-/

namespace Verif.Props
open Verif Verif.Names Verif.Groups Verif.Spec

private theorem bind_inv {α β : Type} {x : Except Err α} {g : α → Except Err β} {b : β} (h : x.bind g = .ok b) :
    ∃ a, x = .ok a ∧ g a = .ok b := by
  cases x with
  | error e => cases h
  | ok a => exact ⟨a, rfl, h⟩

private theorem map_inv {α β : Type} {x : Except Err α} {g : α → β} {b : β} (h : x.map g = .ok b) : ∃ a, x = .ok a ∧ b = g a := by
  cases x with
  | error e => cases h
  | ok a => exact ⟨a, rfl, (Except.ok.inj h).symm⟩

private theorem mapM_cons {α β : Type} (g : α → Except Err β) (a : α) (l : List α) :
    (a :: l).mapM g = (g a).bind fun b => (l.mapM g).bind fun bs => .ok (b :: bs) := by
  rw [List.mapM_cons]
  rfl

private theorem mapM_inv {α β : Type} {g : α → Except Err β} {l : List α} {bs : List β} (h : l.mapM g = .ok bs) :
    List.Forall₂ (fun a b => g a = .ok b) l bs := by
  induction l generalizing bs with
  | nil =>
    cases h
    exact .nil
  | cons a l ih =>
    rw [mapM_cons] at h
    obtain ⟨b, hb, h⟩ := bind_inv h
    obtain ⟨cs, hc, h⟩ := bind_inv h
    cases h
    exact .cons hb (ih hc)

private theorem mapM_ok {α β : Type} {g : α → Except Err β} {l : List α} (h : ∀ a ∈ l, ∃ b, g a = .ok b) : ∃ bs, l.mapM g = .ok bs := by
  induction l with
  | nil => exact ⟨[], rfl⟩
  | cons a l ih =>
    obtain ⟨b, hb⟩ := h a (by simp)
    obtain ⟨bs, hbs⟩ := ih fun x hx => h x (by simp [hx])
    exact ⟨b :: bs, by rw [mapM_cons, hb]; show (l.mapM g).bind _ = _; rw [hbs]; rfl⟩

private theorem propertiesName_inj {a b : Str} (h : propertiesName a = propertiesName b) : a = b := List.append_cancel_right h

/-! ## The loops -/

private theorem loadGroups_spec {f : Src} {gs : List Str} {named : List (Str × List Str)} (l : List (Str × Str)) :
    ∀ {d props : Str → Option Info}, loadGroups f gs named l d = .ok props →
      (∀ p ∈ l, ∃ i, groupInfo f gs named p.1 p.2 = .ok i) ∧
      (∀ n, n ∉ l.map Prod.snd → props (propertiesName n) = d (propertiesName n)) ∧
      (∀ l1 g n l2, l = l1 ++ (g, n) :: l2 → n ∉ l2.map Prod.snd →
        ∃ i, groupInfo f gs named g n = .ok i ∧ props (propertiesName n) = some i) := by
  induction l with
  | nil =>
    intro d props h
    cases h
    refine ⟨by simp, fun _ _ => rfl, ?_⟩
    intro l1 g n l2 h
    simp at h
  | cons p l ih =>
    intro d props h
    obtain ⟨g, n⟩ := p
    obtain ⟨i, hi, h⟩ := bind_inv h
    obtain ⟨h1, h2, h3⟩ := ih h
    refine ⟨?_, ?_, ?_⟩
    · intro p hp
      rcases List.mem_cons.1 hp with rfl | hp
      · exact ⟨i, hi⟩
      · exact h1 p hp
    · intro m hm
      rw [List.map_cons, List.mem_cons, not_or] at hm
      rw [h2 m hm.2, if_neg fun e => hm.1 (propertiesName_inj e)]
    · intro l1 g' n' l2 e hn
      cases l1 with
      | nil =>
        cases e
        exact ⟨i, hi, by rw [h2 n hn, if_pos rfl]⟩
      | cons q l1 =>
        injection e with _ e
        exact h3 l1 g' n' l2 e hn

private theorem loadGroups_ok {f : Src} {gs : List Str} {named : List (Str × List Str)} (l : List (Str × Str)) :
    ∀ (d : Str → Option Info), (∀ p ∈ l, ∃ i, groupInfo f gs named p.1 p.2 = .ok i) → ∃ props, loadGroups f gs named l d = .ok props := by
  induction l with
  | nil => intro d _; exact ⟨d, rfl⟩
  | cons p l ih =>
    intro d h
    obtain ⟨g, n⟩ := p
    obtain ⟨i, hi⟩ := h (g, n) (by simp)
    obtain ⟨props, hp⟩ := ih (fun m => if m = propertiesName n then some i else d m) fun p hp => h p (by simp [hp])
    exact ⟨props, by unfold loadGroups; rw [hi]; exact hp⟩

private theorem createDatasets_spec {k : Kind} {props : Str → Option Info} (l : List Str) : ∀ {d d' : Str → Option Group},
    createDatasets k props l d = .ok d' → (∀ n, n ∉ l → d' n = d n) ∧
      (∀ n ∈ l, ∃ i c, props (propertiesName n) = some i ∧ niceName k i.group = .ok c ∧ d' n = some ⟨c ++ "Dataset".toList, i⟩) := by
  induction l with
  | nil =>
    intro d d' h
    cases h
    exact ⟨fun _ _ => rfl, fun _ h => by cases h⟩
  | cons n l ih =>
    intro d d' h
    unfold createDatasets at h
    cases hp : props (propertiesName n) with
    | none => rw [hp] at h; cases h
    | some i =>
      rw [hp] at h
      obtain ⟨c, hc, h⟩ := bind_inv h
      obtain ⟨h1, h2⟩ := ih h
      refine ⟨?_, ?_⟩
      · intro m hm
        rw [List.mem_cons, not_or] at hm
        rw [h1 m hm.2, if_neg hm.1]
      · intro m hm
        by_cases hl : m ∈ l
        · exact h2 m hl
        · rcases List.mem_cons.1 hm with rfl | hm
          · exact ⟨i, c, hp, hc, by rw [h1 _ hl, if_pos rfl]⟩
          · exact absurd hm hl

private theorem createDatasets_ok {k : Kind} {props : Str → Option Info} (l : List Str) : ∀ (d : Str → Option Group),
    (∀ n ∈ l, ∃ i c, props (propertiesName n) = some i ∧ niceName k i.group = .ok c) → ∃ d', createDatasets k props l d = .ok d' := by
  induction l with
  | nil => intro d _; exact ⟨d, rfl⟩
  | cons n l ih =>
    intro d h
    obtain ⟨i, c, hi, hc⟩ := h n (by simp)
    obtain ⟨d', hd⟩ := ih (fun m => if m = n then some ⟨c ++ "Dataset".toList, i⟩ else d m) fun m hm => h m (by simp [hm])
    refine ⟨d', ?_⟩
    unfold createDatasets
    rw [hi]
    dsimp only
    rw [hc]
    exact hd

/-! ## Columns -/

private theorem lastPart_append (g k : Str) (hk : '/' ∉ k) : lastPart (g ++ '/' :: k) = k := by
  have split_ne : ∀ s, split s ≠ [] := by
    intro s
    induction s with
    | nil => simp [split]
    | cons c l ih =>
      unfold split
      cases h : split l with
      | nil => simp
      | cons w ws => dsimp only; split <;> simp
  have single : ∀ s : Str, '/' ∉ s → split s = [s] := by
    intro s
    induction s with
    | nil => intro _; rfl
    | cons c l ih =>
      intro h
      rw [List.mem_cons, not_or] at h
      unfold split
      rw [ih h.2]
      dsimp only
      rw [if_neg fun e => h.1 e.symm]
  have main : ∀ s : Str, (split (s ++ '/' :: k)).getLast? = some k := by
    intro s
    induction s with
    | nil =>
      show (split ('/' :: k)).getLast? = some k
      unfold split
      rw [single k hk]
      rfl
    | cons c l ih =>
      show (split (c :: (l ++ '/' :: k))).getLast? = some k
      unfold split
      cases h : split (l ++ '/' :: k) with
      | nil => exact absurd h (split_ne _)
      | cons w ws =>
        rw [h] at ih
        dsimp only
        split
        · rw [List.getLast?_cons_cons]; exact ih
        · cases ws with
          | nil =>
            -- impossible: the separator gives at least two parts
            exfalso
            have two : ∀ s : Str, 2 ≤ (split (s ++ '/' :: k)).length := by
              intro s
              induction s with
              | nil =>
                show 2 ≤ (split ('/' :: k)).length
                unfold split
                rw [single k hk]
                simp
              | cons c l ih =>
                show 2 ≤ (split (c :: (l ++ '/' :: k))).length
                unfold split
                cases h : split (l ++ '/' :: k) with
                | nil => exact absurd h (split_ne _)
                | cons w ws => rw [h] at ih; dsimp only; split <;> simp at ih ⊢ <;> omega
            have := two l
            rw [h] at this
            simp at this
          | cons v vs =>
            rw [List.getLast?_cons_cons] at ih ⊢
            exact ih
  unfold lastPart
  rw [List.getLastD_eq_getLast?, main g]
  rfl

private theorem decodeAll_ok {l : List (Option Str)} {v : List Str} (h : decodeAll l = .ok v) : l = v.map some := by
  have := mapM_inv h
  clear h
  induction this with
  | nil => rfl
  | @cons a b l bs hab _ ih =>
    cases a with
    | none => cases hab
    | some s =>
      cases hab
      rw [List.map_cons, ih]

private theorem decodeAll_some (v : List Str) : decodeAll (v.map some) = .ok v := by
  obtain ⟨w, hw⟩ := mapM_ok (g := fun x : Option Str => (match x with
    | some s => (.ok s : Except Err Str)
    | none => .error .value)) (l := v.map some) (by
      intro a ha
      obtain ⟨s, -, rfl⟩ := List.mem_map.1 ha
      exact ⟨s, rfl⟩)
  have hw : decodeAll (v.map some) = .ok w := hw
  have := decodeAll_ok hw
  rw [hw]
  congr 1
  exact (List.map_injective_iff.2 (Option.some_injective _) this).symm

private theorem lookup_decoded {t : List (Str × List (Option Str))} {named : List (Str × List Str)}
    (h : List.Forall₂ (fun p q => ((decodeAll p.2).map fun v => (p.1, v)) = .ok q) t named) (k : Str) (l : List Str) :
    named.lookup k = some l ↔ t.lookup k = some (l.map some) := by
  induction h with
  | nil => simp
  | @cons p q t named hpq _ ih =>
    obtain ⟨v, hv, rfl⟩ := map_inv hpq
    have hv' := decodeAll_ok hv
    obtain ⟨a, b⟩ := p
    change b = v.map some at hv'
    subst hv'
    rw [List.lookup_cons, List.lookup_cons]
    by_cases hk : k = a
    · rw [beq_iff_eq.2 hk]
      simp only [Option.some.injEq]
      constructor
      · rintro rfl; rfl
      · intro h; exact List.map_injective_iff.2 (Option.some_injective _) h
    · rw [beq_eq_false_iff_ne.2 hk]
      exact ih

private theorem named_lookup {f : Src} {named : List (Str × List Str)} (h : namedColumns f = .ok named) (k : Str) (l : List Str) :
    named.lookup k = some l ↔ GivenColumns f k l := by
  unfold namedColumns at h
  unfold GivenColumns
  cases hk : f.kind <;> rw [hk] at h <;> dsimp only at h
  · cases hc : f.columns with
    | none => rw [hc] at h; cases h; simp
    | some t => rw [hc] at h; rw [lookup_decoded (mapM_inv h)]; simp
  · cases hc : f.columns with
    | none => rw [hc] at h; cases h; simp
    | some t => rw [hc] at h; rw [lookup_decoded (mapM_inv h)]; simp
  · cases h; simp
  · cases h; simp

private theorem lookup_columns {named : List (Str × List Str)} {ps : List Str} {cs : List (Str × Option (List Str))}
    (h : List.Forall₂ (fun p q => ((columnsOf named p).map fun c => (p, c)) = .ok q) ps cs) {p : Str} (hp : p ∈ ps) :
    ∃ c, columnsOf named p = .ok c ∧ cs.lookup p = some c := by
  induction h with
  | nil => cases hp
  | @cons a q ps cs haq _ ih =>
    obtain ⟨c, hc, rfl⟩ := map_inv haq
    rw [List.lookup_cons]
    by_cases e : p = a
    · subst e
      exact ⟨c, hc, by simp⟩
    · rw [beq_eq_false_iff_ne.2 e]
      rcases List.mem_cons.1 hp with rfl | hp
      · exact absurd rfl e
      · exact ih hp

private theorem fields_eq (g : Str) (keys gs : List Str) :
    loadFieldNames g keys gs = ((keys.filter fun k => (g ++ '/' :: k) ∉ gs).map fun k => (g ++ '/' :: k, snake k)) := by
  unfold loadFieldNames
  congr 1
  refine List.filter_congr fun k _ => ?_
  simp [List.contains_eq_mem]

private theorem shows_of_info {f : Src} {gs : List Str} {named : List (Str × List Str)} (hn : namedColumns f = .ok named) {g n c : Str}
    {i : Info} (hi : groupInfo f gs named g n = .ok i) (hc : niceName f.kind i.group = .ok c) :
    ShowsGroup f gs g n ⟨c ++ "Dataset".toList, i⟩ := by
  unfold groupInfo at hi
  cases hm : f.members g with
  | none => rw [hm] at hi; cases hi
  | some keys =>
    rw [hm] at hi
    obtain ⟨cs, hcs, rfl⟩ := map_inv hi
    refine ⟨rfl, rfl, ⟨c, hc, rfl⟩, ⟨keys, hm, fields_eq ..⟩, ?_, rfl⟩
    intro keys' hk' k hk hs hgs
    rw [hm] at hk'
    cases hk'
    have hp : (g ++ '/' :: k) ∈ (loadFieldNames g keys gs).map Prod.fst := by
      rw [fields_eq, List.map_map]
      exact List.mem_map.2 ⟨k, List.mem_filter.2 ⟨hk, by simpa using hgs⟩, rfl⟩
    obtain ⟨c', hc', hl⟩ := lookup_columns (mapM_inv hcs) hp
    unfold columnsOf at hc'
    rw [lastPart_append _ _ hs] at hc'
    constructor
    · intro l hl'
      rw [(named_lookup hn k l).2 hl'] at hc'
      obtain ⟨o, ho, rfl⟩ := map_inv hc'
      exact ⟨o, ho, hl⟩
    · intro hno
      cases hlk : named.lookup k with
      | some l => exact absurd ((named_lookup hn k l).1 hlk) (hno l)
      | none => rw [hlk] at hc'; cases hc'; exact hl

/-! ## Names -/

private theorem names_length {f : Src} {gs ns : List Str} (hg : presentGroups f = .ok gs) (hn : presentGroupNames f = .ok ns) :
    gs.length = ns.length := by
  unfold Groups.presentGroups at hg
  unfold Groups.presentGroupNames at hn
  cases hk : f.kind <;> rw [hk] at hg hn <;> dsimp only at hg hn
  · cases hg
    exact (mapM_inv hn).length_eq
  · cases hg; cases hn
    simp [LineOfSight.presentGroupNames]
  · cases hs : f.subhaloTypes with
    | none => rw [hs] at hg; cases hg
    | some l =>
      rw [hs] at hg
      cases hg
      obtain ⟨l', hl, hn⟩ := bind_inv hn
      unfold Groups.presentGroups at hl
      rw [hk, hs] at hl
      cases hl
      exact (mapM_inv hn).length_eq
  · cases hg; cases hn; rfl

private theorem dataset_inv {f : Src} {d : Str → Option Group} (h : dataset f = .ok d) : ∃ named gs ns props, namedColumns f = .ok named ∧
    presentGroups f = .ok gs ∧ presentGroupNames f = .ok ns ∧ loadGroups f gs named (gs.zip ns) (fun _ => none) = .ok props ∧
    createDatasets f.kind props ns (fun _ => none) = .ok d := by
  unfold dataset at h
  obtain ⟨named, h1, h⟩ := bind_inv h
  obtain ⟨gs, h2, h⟩ := bind_inv h
  obtain ⟨ns, h3, h⟩ := bind_inv h
  obtain ⟨props, h4, h⟩ := bind_inv h
  exact ⟨named, gs, ns, props, h1, h2, h3, h4, h⟩

/-- C100. Each group that is present is shown under its name (if several have the same name: the last one), with a field for each of its
members that is not itself listed as a group, and with the names of columns that the file gives. -/
theorem c100_groups (f : Src) (d : Str → Option Group) (h : dataset f = .ok d) (gs ns : List Str) (hg : presentGroups f = .ok gs)
    (hn : presentGroupNames f = .ok ns) (i : Nat) (g n : Str) (hgi : gs[i]? = some g) (hni : ns[i]? = some n)
    (hl : ∀ j, i < j → ns[j]? ≠ some n) : ∃ D, d n = some D ∧ ShowsGroup f gs g n D := by
  obtain ⟨named, gs', ns', props, h1, h2, h3, h4, h5⟩ := dataset_inv h
  rw [hg] at h2; cases h2
  rw [hn] at h3; cases h3
  have hz : (gs.zip ns)[i]? = some (g, n) := List.getElem?_zip_eq_some.2 ⟨hgi, hni⟩
  obtain ⟨hi, hz'⟩ := List.getElem?_eq_some_iff.1 hz
  obtain ⟨-, -, k3⟩ := loadGroups_spec _ h4
  have hsplit : gs.zip ns = (gs.zip ns).take i ++ (g, n) :: (gs.zip ns).drop (i + 1) := by
    rw [← hz', ← List.drop_eq_getElem_cons hi, List.take_append_drop]
  have hno : n ∉ ((gs.zip ns).drop (i + 1)).map Prod.snd := by
    intro hmem
    obtain ⟨p, hp, hpn⟩ := List.mem_map.1 hmem
    obtain ⟨j, hj⟩ := List.mem_iff_getElem?.1 hp
    rw [List.getElem?_drop] at hj
    have := List.getElem?_zip_eq_some.1 (show (gs.zip ns)[i + 1 + j]? = some (p.1, p.2) from hj)
    exact hl (i + 1 + j) (by omega) (by rw [this.2, hpn])
  obtain ⟨inf, hinf, hprop⟩ := k3 _ _ _ _ hsplit hno
  obtain ⟨i', c, hi', hc, hd⟩ := (createDatasets_spec _ h5).2 n (List.mem_of_getElem? hni)
  rw [hprop] at hi'
  cases hi'
  exact ⟨_, hd, shows_of_info h1 hinf hc⟩

/-- C100. Nothing else is shown: the names are those of the groups that are present. -/
theorem c100_only (f : Src) (d : Str → Option Group) (h : dataset f = .ok d) (ns : List Str) (hn : presentGroupNames f = .ok ns) (n : Str) :
    d n ≠ none ↔ n ∈ ns := by
  obtain ⟨named, gs', ns', props, h1, h2, h3, h4, h5⟩ := dataset_inv h
  rw [hn] at h3; cases h3
  obtain ⟨k1, k2⟩ := createDatasets_spec _ h5
  constructor
  · intro hd
    by_contra hc
    exact hd (k1 n hc)
  · intro hm
    obtain ⟨i, c, -, -, hd⟩ := k2 n hm
    rw [hd]
    simp

/-! ## When a file can be opened -/

private theorem lookup_isSome {β : Type} (l : List (Str × β)) (g : Str) : (∃ b, l.lookup g = some b) ↔ g ∈ l.map Prod.fst := by
  induction l with
  | nil => simp
  | cons p l ih =>
    obtain ⟨a, b⟩ := p
    rw [List.lookup_cons, List.map_cons, List.mem_cons]
    by_cases e : g = a
    · rw [beq_iff_eq.2 e]; simp [e]
    · rw [beq_eq_false_iff_ne.2 e, ih]; simp [e]

private theorem nice_ok {f : Src} {gs ns : List Str} (hg : Groups.presentGroups f = .ok gs) (hn : Groups.presentGroupNames f = .ok ns)
    (g : Str) (hm : g ∈ gs) : ∃ c, niceName f.kind g = .ok c := by
  have key : ∀ {P : Str → Str → Prop} {l l' : List Str}, List.Forall₂ P l l' → ∀ a ∈ l, ∃ b, P a b := by
    intro P l l' h
    induction h with
    | nil => intro a ha; cases ha
    | cons hab _ ih =>
      intro a ha
      rcases List.mem_cons.1 ha with rfl | ha
      · exact ⟨_, hab⟩
      · exact ih a ha
  unfold Groups.presentGroups at hg
  unfold Groups.presentGroupNames at hn
  unfold niceName
  cases hk : f.kind <;> rw [hk] at hg hn <;> dsimp only at hg hn ⊢
  · cases hg
    obtain ⟨n, hn⟩ := key (mapM_inv hn) g hm
    have : ∃ b, particleNames.lookup g = some b := by
      cases hl : particleNames.lookup g with
      | none => rw [hl] at hn; cases hn
      | some b => exact ⟨b, rfl⟩
    have : ∃ c, particleClasses.lookup g = some c :=
      (lookup_isSome particleClasses g).2 ((lookup_isSome particleNames g).1 this : g ∈ particleNames.map Prod.fst)
    obtain ⟨c, hc⟩ := this
    exact ⟨c, by rw [hc]⟩
  · exact ⟨_, rfl⟩
  · cases hs : f.subhaloTypes with
    | none => rw [hs] at hg; cases hg
    | some l =>
      rw [hs] at hg
      cases hg
      obtain ⟨l', hl, hn⟩ := bind_inv hn
      unfold Groups.presentGroups at hl
      rw [hk, hs] at hl
      cases hl
      obtain ⟨n, hn⟩ := key (mapM_inv hn) g hm
      unfold soapName at hn
      unfold soapNice
      cases hsp : split g with
      | nil => rw [hsp] at hn; cases hn
      | cons a t =>
        rw [hsp] at hn
        dsimp only at hn ⊢
        have : ∃ b, soapNames.lookup a = some b := by
          cases hl : soapNames.lookup a with
          | none => rw [hl] at hn; cases hn
          | some b => exact ⟨b, rfl⟩
        obtain ⟨c, hc⟩ : ∃ c, soapNices.lookup a = some c :=
          (lookup_isSome soapNices a).2 ((lookup_isSome soapNames a).1 this : a ∈ soapNames.map Prod.fst)
        exact ⟨_, by rw [hc]⟩
  · exact ⟨_, rfl⟩

private theorem named_ok (f : Src) : (∃ named, namedColumns f = .ok named) ↔ ColumnsText f := by
  have main : ∀ t : List (Str × List (Option Str)),
      (∃ named, (t.mapM fun p => (decodeAll p.2).map fun v => (p.1, v)) = .ok named) ↔ ∀ p ∈ t, none ∉ p.2 := by
    intro t
    constructor
    · rintro ⟨named, h0⟩
      have h := mapM_inv h0
      clear h0
      induction h with
      | nil => intro p hp; cases hp
      | cons hab _ ih =>
        intro p hp
        rcases List.mem_cons.1 hp with rfl | hp
        · obtain ⟨v, hv, -⟩ := map_inv hab
          rw [decodeAll_ok hv]
          simp
        · exact ih p hp
    · intro h
      refine mapM_ok fun p hp => ?_
      have : p.2 = (p.2.filterMap id).map some := by
        have hp := h p hp
        generalize p.2 = l at hp
        induction l with
        | nil => rfl
        | cons a l ih =>
          cases a with
          | none => simp at hp
          | some s =>
            rw [List.filterMap_cons_some (by rfl), List.map_cons, ← ih fun h => hp (by simp [h])]
      exact ⟨_, by rw [this, decodeAll_some]; rfl⟩
  unfold namedColumns ColumnsText
  cases hk : f.kind <;> dsimp only
  · cases hc : f.columns with
    | none => simp
    | some t => simpa using main t
  · cases hc : f.columns with
    | none => simp
    | some t => simpa using main t
  · simp
  · simp

private theorem format_ok (l : List Str) : (∃ c, formatColumns l = .ok c) ↔ l ≠ [] := by
  unfold formatColumns
  constructor
  · rintro ⟨c, hc⟩ rfl
    cases hc
  · intro h
    rw [if_neg fun e => h (List.length_eq_zero_iff.1 e)]
    split
    · exact ⟨_, rfl⟩
    · exact ⟨_, rfl⟩

private theorem info_ok {f : Src} {gs : List Str} {named : List (Str × List Str)} (hn : namedColumns f = .ok named) (g n : Str)
    (hs : ∀ keys, f.members g = some keys → ∀ k ∈ keys, '/' ∉ k) :
    (∃ i, groupInfo f gs named g n = .ok i) ↔ ∃ keys, f.members g = some keys ∧ ∀ k ∈ keys, (g ++ '/' :: k) ∉ gs → ¬ GivenColumns f k [] := by
  unfold groupInfo
  cases hm : f.members g with
  | none =>
    constructor
    · rintro ⟨i, hi⟩; cases hi
    · rintro ⟨_, h, _⟩; cases h
  | some keys =>
    dsimp only
    have mem : ∀ p, p ∈ (loadFieldNames g keys gs).map Prod.fst ↔ ∃ k ∈ keys, (g ++ '/' :: k) ∉ gs ∧ p = g ++ '/' :: k := by
      intro p
      rw [fields_eq, List.map_map, List.mem_map]
      constructor
      · rintro ⟨k, hk, rfl⟩
        rw [List.mem_filter] at hk
        exact ⟨k, hk.1, by simpa using hk.2, rfl⟩
      · rintro ⟨k, hk, hg, rfl⟩
        exact ⟨k, List.mem_filter.2 ⟨hk, by simpa using hg⟩, rfl⟩
    constructor
    · rintro ⟨i, hi⟩
      obtain ⟨cs, hcs, -⟩ := map_inv hi
      refine ⟨keys, rfl, fun k hk hg hgiven => ?_⟩
      obtain ⟨c, hc, -⟩ := lookup_columns (mapM_inv hcs) ((mem _).2 ⟨k, hk, hg, rfl⟩)
      unfold columnsOf at hc
      rw [lastPart_append _ _ (hs keys hm k hk), (named_lookup hn k []).2 hgiven] at hc
      cases hc
    · rintro ⟨keys', h, hall⟩
      cases h
      obtain ⟨cs, hcs⟩ := mapM_ok (g := fun p => (columnsOf named p).map fun c => (p, c)) (l := (loadFieldNames g keys gs).map Prod.fst) (by
        intro p hp
        obtain ⟨k, hk, hg, rfl⟩ := (mem p).1 hp
        unfold columnsOf
        rw [lastPart_append _ _ (hs keys hm k hk)]
        cases hl : named.lookup k with
        | none => exact ⟨_, rfl⟩
        | some l =>
          have hne : l ≠ [] := by
            rintro rfl
            exact hall k hk hg ((named_lookup hn k []).1 hl)
          obtain ⟨c, hc⟩ := (format_ok l).2 hne
          dsimp only
          rw [hc]
          exact ⟨_, rfl⟩)
      exact ⟨_, by rw [hcs]; rfl⟩

/-- C100. A file can be opened exactly if the names of columns are text, the groups have names, every group that should be there is there,
and no field of one of them has an empty list of columns. (Names in a file have no slash.) -/
theorem c100_opens (f : Src) (hs : ∀ g keys, f.members g = some keys → ∀ k ∈ keys, '/' ∉ k) :
    (∃ d, dataset f = .ok d) ↔ ColumnsText f ∧ ∃ gs ns, Groups.presentGroups f = .ok gs ∧ Groups.presentGroupNames f = .ok ns ∧
      ∀ g ∈ gs, ∃ keys, f.members g = some keys ∧ ∀ k ∈ keys, (g ++ '/' :: k) ∉ gs → ¬ GivenColumns f k [] := by
  constructor
  · rintro ⟨d, h⟩
    obtain ⟨named, gs, ns, props, h1, h2, h3, h4, h5⟩ := dataset_inv h
    refine ⟨(named_ok f).1 ⟨named, h1⟩, gs, ns, h2, h3, fun g hg => ?_⟩
    obtain ⟨k1, -, -⟩ := loadGroups_spec _ h4
    have hz : g ∈ (gs.zip ns).map Prod.fst := by
      rw [List.map_fst_zip (names_length h2 h3).le]
      exact hg
    obtain ⟨p, hp, rfl⟩ := List.mem_map.1 hz
    exact (info_ok h1 p.1 p.2 (hs p.1)).1 (k1 p hp)
  · rintro ⟨hc, gs, ns, h2, h3, hall⟩
    obtain ⟨named, h1⟩ := (named_ok f).2 hc
    obtain ⟨props, h4⟩ := loadGroups_ok (f := f) (gs := gs) (named := named) (gs.zip ns) (fun _ => none) (by
      intro p hp
      exact (info_ok h1 p.1 p.2 (hs p.1)).2 (hall p.1 (List.of_mem_zip (a := p.1) (b := p.2) hp).1))
    obtain ⟨d, h5⟩ := createDatasets_ok (k := f.kind) (props := props) ns (fun _ => none) (by
      intro n hn
      obtain ⟨-, -, k3⟩ := loadGroups_spec _ h4
      have hz : n ∈ (gs.zip ns).map Prod.snd := by
        rw [List.map_snd_zip (names_length h2 h3).ge]
        exact hn
      obtain ⟨l1, g, l2, e, hno⟩ : ∃ l1 g l2, gs.zip ns = l1 ++ (g, n) :: l2 ∧ n ∉ l2.map Prod.snd := by
        generalize gs.zip ns = l at hz
        induction l with
        | nil => cases hz
        | cons p l ih =>
          by_cases hl : n ∈ l.map Prod.snd
          · obtain ⟨l1, g, l2, rfl, hno⟩ := ih hl
            exact ⟨p :: l1, g, l2, rfl, hno⟩
          · rw [List.map_cons, List.mem_cons] at hz
            rcases hz with rfl | hz
            · exact ⟨[], p.1, l, rfl, hl⟩
            · exact absurd hz hl
      obtain ⟨i, hi, hp⟩ := k3 l1 g n l2 e hno
      have hig : i.group = g := by
        unfold groupInfo at hi
        cases hm : f.members g with
        | none => rw [hm] at hi; cases hi
        | some keys =>
          rw [hm] at hi
          obtain ⟨cs, -, rfl⟩ := map_inv hi
          rfl
      have hgs : g ∈ gs := (List.of_mem_zip (a := g) (b := n) (by rw [e]; simp)).1
      obtain ⟨c, hc⟩ := nice_ok h2 h3 g hgs
      exact ⟨i, c, hp, by rw [hig]; exact hc⟩)
    refine ⟨d, ?_⟩
    unfold dataset
    rw [h1]
    dsimp only [Except.bind]
    rw [h2]
    dsimp only
    rw [h3]
    dsimp only
    rw [h4]
    exact h5

/-- C100. Without a group that should be there, nothing is opened, whatever else is in the file. -/
theorem c100_missing (f : Src) (gs : List Str) (hg : Groups.presentGroups f = .ok gs) (g : Str) (hm : g ∈ gs) (hn : f.members g = none) :
    ∀ d, dataset f ≠ .ok d := by
  intro d h
  obtain ⟨named, gs', ns, props, h1, h2, h3, h4, h5⟩ := dataset_inv h
  rw [hg] at h2; cases h2
  obtain ⟨k1, -, -⟩ := loadGroups_spec _ h4
  have hz : g ∈ (gs.zip ns).map Prod.fst := by
    rw [List.map_fst_zip (names_length hg h3).le]
    exact hm
  obtain ⟨p, hp, rfl⟩ := List.mem_map.1 hz
  obtain ⟨i, hi⟩ := k1 p hp
  unfold groupInfo at hi
  rw [hn] at hi
  cases hi

/-! ## Classes -/

private theorem last_index {α : Type} (l : List α) (a : α) (h : a ∈ l) : ∃ i : Nat, l[i]? = some a ∧ ∀ j : Nat, i < j → l[j]? ≠ some a := by
  induction l with
  | nil => cases h
  | cons b l ih =>
    by_cases hm : a ∈ l
    · obtain ⟨i, h1, h2⟩ := ih hm
      refine ⟨i + 1, by simpa using h1, fun j hj => ?_⟩
      obtain ⟨j, rfl⟩ : ∃ k, j = k + 1 := ⟨j - 1, by omega⟩
      simpa using h2 j (by omega)
    · have hb : a = b := (List.mem_cons.1 h).resolve_right hm
      subst hb
      refine ⟨0, rfl, fun j hj hc => ?_⟩
      obtain ⟨j, rfl⟩ : ∃ k, j = k + 1 := ⟨j - 1, by omega⟩
      exact hm (List.mem_of_getElem? (by simpa using hc))

/-- What is shown is one of the groups. -/
private theorem shown_group {f : Src} {d : Str → Option Group} (h : dataset f = .ok d) {gs ns : List Str} (hg : Groups.presentGroups f = .ok gs)
    (hn : Groups.presentGroupNames f = .ok ns) {n : Str} {D : Group} (hD : d n = some D) :
    ∃ (i : Nat) (g : Str), gs[i]? = some g ∧ ns[i]? = some n ∧ ShowsGroup f gs g n D := by
  have hm : n ∈ ns := (c100_only f d h ns hn n).1 (by rw [hD]; simp)
  obtain ⟨i, h1, h2⟩ := last_index ns n hm
  have hi : i < gs.length := by
    rw [names_length hg hn]
    exact (List.getElem?_eq_some_iff.1 h1).1
  obtain ⟨D', hD', hs⟩ := c100_groups f d h gs ns hg hn i gs[i] n (List.getElem?_eq_getElem hi) h1 h2
  rw [hD] at hD'
  cases hD'
  exact ⟨i, gs[i], List.getElem?_eq_getElem hi, h1, hs⟩

/-- C100. In a snapshot, each attribute is what the type of particles says: group, name and class belong together. -/
theorem c100_classes (f : Src) (hk : f.kind = .snapshot) (d : Str → Option Group) (h : dataset f = .ok d) (n : Str) (D : Group)
    (hD : d n = some D) : ∃ p ∈ typeClasses, D.info.group = p.1.toList ∧ n = p.2.1.toList ∧ D.className = p.2.2.toList := by
  obtain ⟨named, gs, ns, props, h1, h2, h3, h4, h5⟩ := dataset_inv h
  obtain ⟨i, g, hgi, hni, hs⟩ := shown_group h h2 h3 hD
  obtain ⟨c, hc, hcl⟩ := hs.className
  rw [hs.group, hcl]
  unfold Groups.presentGroups at h2
  unfold Groups.presentGroupNames at h3
  rw [hk] at h2 h3 hc
  dsimp only at h2 h3
  cases h2
  have h6 := mapM_inv h3
  have h7 : (match particleNames.lookup g with
      | some n => .ok n
      | none => .error .key : Except Err Str) = .ok n := by
    obtain ⟨hi, rfl⟩ := List.getElem?_eq_some_iff.1 hgi
    obtain ⟨hi', rfl⟩ := List.getElem?_eq_some_iff.1 hni
    exact (List.forall₂_iff_get.1 h6).2 i hi hi'
  have hl : particleNames.lookup g = some n := by
    split at h7
    · rename_i n' hn'
      cases h7
      exact hn'
    · cases h7
  have hc' : particleClasses.lookup g = some c := by
    unfold niceName at hc
    dsimp only at hc
    split at hc
    · rename_i n' hn'
      cases hc
      exact hn'
    · cases hc
  have table : ∀ p ∈ particleNames, ∃ q ∈ typeClasses, p.1 = q.1.toList ∧ p.2 = q.2.1.toList ∧
      particleClasses.lookup p.1 ≠ none ∧ ∀ c ∈ particleClasses.lookup p.1, c ++ "Dataset".toList = q.2.2.toList := by decide +kernel
  have hmem : (g, n) ∈ particleNames := by
    clear table hc' hc hcl h7 h6
    revert hl
    generalize particleNames = l
    induction l with
    | nil => intro h; cases h
    | cons p l ih =>
      obtain ⟨x, y⟩ := p
      intro h
      rw [List.lookup_cons] at h
      split at h
      · rename_i hx
        cases h
        rw [beq_iff_eq] at hx
        subst hx
        simp
      · exact List.mem_cons_of_mem _ (ih h)
  obtain ⟨q, hq, e1, e2, -, e3⟩ := table _ hmem
  exact ⟨q, hq, e1, e2, e3 c hc'⟩

/-- C100. A catalogue of FOF groups is shown as one group. -/
theorem c100_fof (f : Src) (hk : f.kind = .fof) (keys : List Str) (hm : f.members "Groups".toList = some keys)
    (hs : ∀ g keys, f.members g = some keys → ∀ k ∈ keys, '/' ∉ k) :
    ∃ d D, dataset f = .ok d ∧ d "fof_groups".toList = some D ∧ (∀ n, n ≠ "fof_groups".toList → d n = none) ∧
      D.className = "FOFGroupsDataset".toList ∧ D.info.group = "Groups".toList ∧
      D.info.fields = keys.map fun k => ("Groups/".toList ++ k, snake k) := by
  have hg : Groups.presentGroups f = .ok ["Groups".toList] := by
    unfold Groups.presentGroups
    rw [hk]
  have hn : Groups.presentGroupNames f = .ok ["fof_groups".toList] := by
    unfold Groups.presentGroupNames
    rw [hk]
  have hno : ¬ (f.kind = .snapshot ∨ f.kind = .lineOfSight) := by rw [hk]; decide
  obtain ⟨d, hd⟩ := (c100_opens f hs).2 ⟨fun h => absurd h hno, _, _, hg, hn, fun g h => by
    rw [List.mem_singleton] at h
    subst h
    exact ⟨keys, hm, fun k _ _ hc => hno hc.1⟩⟩
  obtain ⟨D, hD, hsh⟩ := c100_groups f d hd _ _ hg hn 0 _ _ rfl rfl (by intro j hj; rw [List.getElem?_eq_none (by simp; omega)]; simp)
  refine ⟨d, D, hd, hD, fun n h => ?_, ?_, hsh.group, ?_⟩
  · by_contra hc
    exact h (List.mem_singleton.1 ((c100_only f d hd _ hn n).1 hc))
  · obtain ⟨c, hc, e⟩ := hsh.className
    rw [hk] at hc
    cases hc
    exact e
  · obtain ⟨keys', h1, h2⟩ := hsh.fields
    rw [hm] at h1
    cases h1
    rw [h2, List.filter_eq_self.2]
    · rfl
    · intro k _
      rw [decide_eq_true_eq, List.mem_singleton]
      intro h
      have := congrArg List.length h
      simp at this

/-- A catalogue with two fields. -/
example : ∃ d D, dataset ⟨.fof, ⟨none, []⟩, none, ["Groups".toList], fun g => if g = "Groups".toList then some ["Masses".toList, "GroupIDs".toList]
      else none, fun _ => [], none⟩ = .ok d ∧ d "fof_groups".toList = some D ∧
    D.info.fields = [("Groups/Masses".toList, "masses".toList), ("Groups/GroupIDs".toList, "group_ids".toList)] := by
  obtain ⟨d, D, h1, h2, -, -, -, h3⟩ := c100_fof ⟨.fof, ⟨none, []⟩, none, ["Groups".toList], fun g => if g = "Groups".toList then
    some ["Masses".toList, "GroupIDs".toList] else none, fun _ => [], none⟩ rfl ["Masses".toList, "GroupIDs".toList] (by decide +kernel) (by
      intro g keys h
      dsimp only at h
      split at h
      · cases h; decide
      · cases h)
  exact ⟨d, D, h1, h2, h3.trans (by decide +kernel)⟩

/-! ## Names of groups beside the other attributes -/

private theorem join_prefix (w : Str) (ws : List Str) : w <+: join (w :: ws) := by
  cases ws with
  | nil => exact List.prefix_rfl
  | cons v vs => exact ⟨_, rfl⟩

/-- C100. No group has the name of another attribute of the dataset, in files of any kind. -/
theorem c100_clash (f : Src) (ns : List Str) (hn : Groups.presentGroupNames f = .ok ns) (n : Str) (h : n ∈ ns) : n ∉ otherAttributes := by
  have key : ∀ {P : Str → Str → Prop} {l l' : List Str}, List.Forall₂ P l l' → ∀ b ∈ l', ∃ a ∈ l, P a b := by
    intro P l l' h
    induction h with
    | nil => intro a ha; cases ha
    | cons hab _ ih =>
      intro b hb
      rcases List.mem_cons.1 hb with rfl | hb
      · exact ⟨_, by simp, hab⟩
      · obtain ⟨a, ha, hp⟩ := ih b hb
        exact ⟨a, by simp [ha], hp⟩
  have mem : ∀ {l : List (Str × Str)} {a b : Str}, l.lookup a = some b → b ∈ l.map Prod.snd := by
    intro l a b h
    induction l with
    | nil => cases h
    | cons p l ih =>
      obtain ⟨x, y⟩ := p
      rw [List.lookup_cons] at h
      by_cases e : a = x
      · rw [beq_iff_eq.2 e] at h
        cases h
        simp
      · rw [beq_eq_false_iff_ne.2 e] at h
        simp only [List.map_cons, List.mem_cons]
        exact .inr (ih h)
  unfold Groups.presentGroupNames at hn
  cases hk : f.kind <;> rw [hk] at hn <;> dsimp only at hn
  · obtain ⟨g, -, hg⟩ := key (mapM_inv hn) n h
    cases hl : particleNames.lookup g with
    | none => rw [hl] at hg; cases hg
    | some b =>
      rw [hl] at hg
      cases hg
      have all : ∀ m ∈ particleNames.map Prod.snd, m ∉ otherAttributes := by decide +kernel
      exact all _ (mem hl)
  · cases hn
    obtain ⟨g, hg, rfl⟩ := List.mem_map.1 h
    have hg : g ∈ f.top.filter fun k => "LOS_".toList.isPrefixOf k := (List.mem_insertionSort _).1 hg
    have hp := (List.mem_filter.1 hg).2
    obtain ⟨t, rfl⟩ := List.isPrefixOf_iff_prefix.1 hp
    rw [List.map_append]
    intro hmem
    have all : ∀ m ∈ otherAttributes, ¬ ("LOS_".toList.map Char.toLower <+: m) := by decide +kernel
    exact all _ hmem ⟨_, rfl⟩
  · obtain ⟨l, -, hn⟩ := bind_inv hn
    obtain ⟨g, -, hg⟩ := key (mapM_inv hn) n h
    unfold soapName at hg
    cases hsp : split g with
    | nil => rw [hsp] at hg; cases hg
    | cons a t =>
      rw [hsp] at hg
      dsimp only at hg
      cases hl : soapNames.lookup a with
      | none => rw [hl] at hg; cases hg
      | some u =>
        rw [hl] at hg
        cases hg
        intro hmem
        have all : ∀ w ∈ soapNames.map Prod.snd, ∀ m ∈ otherAttributes, ¬ (w.map Char.toLower <+: m) := by decide +kernel
        exact all u (mem hl) _ hmem (join_prefix _ _)
  · cases hn
    rw [List.mem_singleton] at h
    subst h
    decide +kernel

/-! ## Where the code differs from what one expects -/

/-- A snapshot with gas, and inside of its group a group of tables. -/
private def nested : Src :=
  { kind := .snapshot, header := ⟨none, [5]⟩, subhaloTypes := none, top := ["PartType0".toList],
    members := fun g => if g = "PartType0".toList then some ["Coordinates".toList, "Tables".toList] else
      if g = "PartType0/Tables".toList then some ["Energies".toList] else none,
    attrs := fun _ => [], columns := none }

/-- C100. A group inside of a group that is not listed as a group of its own is taken for a field: its name is there, although there is
nothing to be read. -/
theorem c100_nested_fails : ∃ d D, dataset nested = .ok d ∧ d "gas".toList = some D ∧
    ("PartType0/Tables".toList, "tables".toList) ∈ D.info.fields ∧ nested.members "PartType0/Tables".toList ≠ none := by
  have hg : Groups.presentGroups nested = .ok ["PartType0".toList] := rfl
  have hn : Groups.presentGroupNames nested = .ok ["gas".toList] := rfl
  have hm : ∀ g keys, nested.members g = some keys → ∀ k ∈ keys, '/' ∉ k := by
    intro g keys h
    unfold nested at h
    dsimp only at h
    split at h
    · cases h; decide
    · split at h
      · cases h; decide
      · cases h
  obtain ⟨d, hd⟩ := (c100_opens nested hm).2 ⟨(by intro _ t h; cases h), _, _, hg, hn, by
    intro g h
    rw [List.mem_singleton] at h
    subst h
    exact ⟨["Coordinates".toList, "Tables".toList], rfl, by rintro k - - ⟨-, t, h, -⟩; cases h⟩⟩
  obtain ⟨D, hD, hs⟩ := c100_groups nested d hd _ _ hg hn 0 _ _ rfl rfl (by intro j hj; rw [List.getElem?_eq_none (by simp; omega)]; simp)
  refine ⟨d, D, hd, hD, ?_, by decide +kernel⟩
  obtain ⟨keys, hk, hf⟩ := hs.fields
  cases hk
  rw [hf]
  decide +kernel

/-- A catalogue with two definitions that differ in case. -/
private def twoCases : Src :=
  { kind := .soap, header := ⟨none, []⟩, subhaloTypes := some ["SO/200_Crit".toList, "SO/200_crit".toList], top := ["SO".toList],
    members := fun g => if g = "SO/200_Crit".toList then some ["TotalMass".toList] else
      if g = "SO/200_crit".toList then some ["Radius".toList] else none,
    attrs := fun _ => [], columns := none }

/-- C100. Two kinds of halos of the same name: only the last one can be read. -/
theorem c100_same_name_fails : ∃ d, dataset twoCases = .ok d ∧ ∀ n D, d n = some D → D.info.group ≠ "SO/200_Crit".toList := by
  have hg : Groups.presentGroups twoCases = .ok ["SO/200_Crit".toList, "SO/200_crit".toList] := rfl
  have hn : Groups.presentGroupNames twoCases = .ok ["spherical_overdensity_200_crit".toList, "spherical_overdensity_200_crit".toList] := rfl
  have hm : ∀ g keys, twoCases.members g = some keys → ∀ k ∈ keys, '/' ∉ k := by
    intro g keys h
    unfold twoCases at h
    dsimp only at h
    split at h
    · cases h; decide
    · split at h
      · cases h; decide
      · cases h
  obtain ⟨d, hd⟩ := (c100_opens twoCases hm).2 ⟨(by intro _ t h; cases h), _, _, hg, hn, by
    intro g h
    simp only [List.mem_cons, List.not_mem_nil, or_false] at h
    rcases h with rfl | rfl
    · exact ⟨["TotalMass".toList], rfl, by rintro k - - ⟨-, t, h, -⟩; cases h⟩
    · exact ⟨["Radius".toList], rfl, by rintro k - - ⟨-, t, h, -⟩; cases h⟩⟩
  obtain ⟨D, hD, hs⟩ := c100_groups twoCases d hd _ _ hg hn 1 _ _ rfl rfl (by intro j hj; rw [List.getElem?_eq_none (by simp; omega)]; simp)
  refine ⟨d, hd, ?_⟩
  intro n D' hD'
  have hmem := (c100_only twoCases d hd _ hn n).1 (by rw [hD']; simp)
  have hnn : n = "spherical_overdensity_200_crit".toList := by
    simp only [List.mem_cons, List.not_mem_nil, or_false] at hmem
    rcases hmem with h | h <;> exact h
  rw [hnn, hD] at hD'
  cases hD'
  rw [hs.group]
  decide +kernel

/-- C100. A catalogue has no named columns, whatever the file says about them. -/
theorem c100_catalogue_fails (f : Src) (hk : f.kind = .soap ∨ f.kind = .fof) (d : Str → Option Group) (h : dataset f = .ok d) (n : Str)
    (D : Group) (hD : d n = some D) (p : Str × Option (List Str)) (hp : p ∈ D.info.columns) : p.2 = none := by
  obtain ⟨named, gs, ns, props, h1, h2, h3, h4, h5⟩ := dataset_inv h
  have hnamed : named = [] := by
    unfold namedColumns at h1
    rcases hk with hk | hk <;> rw [hk] at h1 <;> cases h1 <;> rfl
  subst hnamed
  obtain ⟨i, c, hi, hc, hd⟩ := (createDatasets_spec _ h5).2 n ((c100_only f d h ns h3 n).1 (by rw [hD]; simp))
  rw [hD] at hd
  cases hd
  have all : ∀ (l : List (Str × Str)) (d props : Str → Option Info), loadGroups f gs [] l d = .ok props →
      (∀ m i, d m = some i → ∀ p ∈ i.columns, p.2 = none) → ∀ m i, props m = some i → ∀ p ∈ i.columns, p.2 = none := by
    intro l
    induction l with
    | nil => intro d props h hd; cases h; exact hd
    | cons q l ih =>
      intro d props h hd
      obtain ⟨g, m⟩ := q
      obtain ⟨j, hj, h⟩ := bind_inv h
      refine ih _ _ h ?_
      intro m' i' hm'
      split at hm'
      · cases hm'
        unfold groupInfo at hj
        cases hmem : f.members g with
        | none => rw [hmem] at hj; cases hj
        | some keys =>
          rw [hmem] at hj
          obtain ⟨cs, hcs, rfl⟩ := map_inv hj
          intro p hp
          have := mapM_inv hcs
          dsimp only at hp
          clear hcs hj h ih
          generalize (loadFieldNames g keys gs).map Prod.fst = ps at this
          induction this with
          | nil => cases hp
          | cons hab _ ih =>
            rcases List.mem_cons.1 hp with rfl | hp
            · obtain ⟨c, hc, rfl⟩ := map_inv hab
              cases hc
              rfl
            · exact ih hp
      · exact hd _ _ hm'
  exact all _ _ _ h4 (by intro _ _ h; cases h) _ _ hi p hp

/-- The hypotheses of `c100_opens`, `c100_groups` and `c100_only` are met by a snapshot with a field of named columns. -/
example : ∃ d D, dataset { nested with columns := some [("Tables".toList, [some "Carbon".toList, some "Iron".toList])] } = .ok d ∧
    d "gas".toList = some D ∧ D.className = "GasDataset".toList ∧
    D.info.columns.lookup "PartType0/Tables".toList = some (some ["carbon".toList, "iron".toList]) := by
  generalize hf : ({ nested with columns := some [("Tables".toList, [some "Carbon".toList, some "Iron".toList])] } : Src) = f
  have hg : Groups.presentGroups f = .ok ["PartType0".toList] := by rw [← hf]; rfl
  have hn : Groups.presentGroupNames f = .ok ["gas".toList] := by rw [← hf]; rfl
  have hm : ∀ g keys, f.members g = some keys → ∀ k ∈ keys, '/' ∉ k := by
    intro g keys h
    rw [← hf] at h
    unfold nested at h
    dsimp only at h
    split at h
    · cases h; decide
    · split at h
      · cases h; decide
      · cases h
  have hmem : f.members "PartType0".toList = some ["Coordinates".toList, "Tables".toList] := by rw [← hf]; rfl
  obtain ⟨d, hd⟩ := (c100_opens f hm).2 ⟨by
      intro _ t h
      rw [← hf] at h
      cases h
      decide, _, _, hg, hn, by
    intro g h
    rw [List.mem_singleton] at h
    subst h
    refine ⟨_, hmem, ?_⟩
    rintro k hk - ⟨-, t, h, hl⟩
    rw [← hf] at h
    cases h
    simp only [List.mem_cons, List.not_mem_nil, or_false] at hk
    rcases hk with rfl | rfl
    · revert hl; decide +kernel
    · revert hl; decide +kernel⟩
  obtain ⟨D, hD, hs⟩ := c100_groups f d hd _ _ hg hn 0 _ _ rfl rfl (by intro j hj; rw [List.getElem?_eq_none (by simp; omega)]; simp)
  refine ⟨d, D, hd, hD, ?_, ?_⟩
  · obtain ⟨c, hc, hD'⟩ := hs.className
    rw [← hf] at hc
    cases hc
    exact hD'
  · obtain ⟨c, hc, hl⟩ := (hs.columns _ hmem "Tables".toList (by decide) (by decide) (by decide +kernel)).1 ["Carbon".toList, "Iron".toList]
      ⟨.inl (by rw [← hf]; rfl), [("Tables".toList, [some "Carbon".toList, some "Iron".toList])], by rw [← hf], by decide +kernel⟩
    have hc' : formatColumns ["Carbon".toList, "Iron".toList] = .ok ["carbon".toList, "iron".toList] := by
      unfold formatColumns
      rw [if_neg (by decide), if_pos (by decide +kernel)]
      rfl
    rw [hc] at hc'
    cases hc'
    exact hl

end Verif.Props
