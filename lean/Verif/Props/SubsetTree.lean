import Verif.Spec.SubsetTree
import Verif.Props.Tree

/-! C76: the objects of a written subset. -/

namespace Verif.Props
open Verif Verif.Spec Verif.Tree

private theorem mem_toList : ∀ (kids : Kids) {k : Str} {n : Node}, (k, n) ∈ kids.toList ↔ Member kids k n
  | .nil, k, n => by
    simp only [Kids.toList, List.not_mem_nil, false_iff]
    intro h; cases h
  | .cons k' n' rest, k, n => by
    simp only [Kids.toList, List.mem_cons, Prod.mk.injEq, mem_toList rest]
    constructor
    · rintro (⟨rfl, rfl⟩ | h)
      · exact .here _ _ _
      · exact .there _ _ _ _ _ h
    · intro h
      cases h with
      | here => exact .inl ⟨rfl, rfl⟩
      | there _ _ _ _ _ h => exact .inr h

private theorem member_name : ∀ (kids : Kids), KidsOk kids → ∀ {k : Str} {n : Node}, Member kids k n → '/' ∉ k
  | .nil, _, _, _, hm => by cases hm
  | .cons key n rest, h, k, n', hm => by
    obtain ⟨h1, h2, h3, h4⟩ := h
    cases hm with
    | here => exact h1
    | there _ _ _ _ _ hm => exact member_name rest h4 hm

private theorem taken_iff (out : List (Str × Item)) (p : Str × Item) : taken out p.1 = true ↔ ∃ e ∈ out, Clash e p := by
  unfold taken Clash
  rw [List.any_eq_true]
  refine exists_congr fun e => and_congr_right fun _ => ?_
  rcases e with ⟨q, _ | _ | n | _ | _ | _ | _ | _⟩ <;> simp only [Bool.or_eq_true, decide_eq_true_eq, Bool.false_eq_true,
    or_false, reduceCtorEq, false_and, exists_false, Item.copy.injEq, List.isPrefixOf_iff_prefix]
  case copy => 
    exact ⟨fun h => h.imp Eq.symm (fun h => ⟨n, rfl, h⟩), fun h => h.imp Eq.symm (fun ⟨_, _, h⟩ => h)⟩
  all_goals exact eq_comm

private theorem createAll_iff : ∀ (es out r : List (Str × Item)), createAll out es = .ok r ↔
    r = out ++ es ∧ (∀ e ∈ out, ∀ f ∈ es, ¬ Clash e f) ∧ es.Pairwise (fun e f => ¬ Clash e f)
  | [], out, r => by simp [createAll, eq_comm]
  | x :: es, out, r => by
    unfold createAll
    by_cases ht : taken out x.1 = true
    · rw [if_pos ht]
      obtain ⟨e, he, hc⟩ := (taken_iff out x).1 ht
      simp only [reduceCtorEq, false_iff]
      rintro ⟨-, h, -⟩
      exact h e he x (by simp) hc
    · rw [if_neg ht, createAll_iff es]
      have hx : ∀ e ∈ out, ¬ Clash e x := fun e he hc => ht ((taken_iff out x).2 ⟨e, he, hc⟩)
      simp only [List.append_assoc, List.singleton_append, List.pairwise_cons]
      refine and_congr_right fun _ => ⟨?_, ?_⟩
      · rintro ⟨h1, h2⟩
        refine ⟨fun e he f hf => ?_, fun f hf => h1 x (by simp) f hf, h2⟩
        rcases List.mem_cons.1 hf with rfl | hf
        · exact hx e he
        · exact h1 e (by simp [he]) f hf
      · rintro ⟨h1, h2, h3⟩
        refine ⟨fun e he f hf => ?_, h3⟩
        rcases List.mem_append.1 he with he | he
        · exact h1 e he f (by simp [hf])
        · rw [List.mem_singleton.1 he]
          exact h2 f hf

private theorem split_head : ∀ s : Str, ∃ ws, Names.split s = s.takeWhile (· ≠ '/') :: ws
  | [] => ⟨[], rfl⟩
  | c :: l => by
    obtain ⟨ws, h⟩ := split_head l
    unfold Names.split
    rw [h]
    by_cases hc : c = '/'
    · subst hc
      exact ⟨_, rfl⟩
    · exact ⟨ws, by simp [hc]⟩

private theorem split_headD (s : Str) : (Names.split s).headD [] = s.takeWhile (· ≠ '/') := by
  obtain ⟨ws, h⟩ := split_head s
  rw [h]; rfl

private theorem first_part {t : Str} (ht : '/' ∉ t) (hne : t ≠ []) (ks : List Str) :
    (lstrip (render (t :: ks))).takeWhile (· ≠ '/') = t := by
  obtain ⟨c, t, rfl⟩ := List.exists_cons_of_ne_nil hne
  have hc : c ≠ '/' := fun h => ht (by simp [h])
  have hk : render ks = [] ∨ ∃ r, render ks = '/' :: r := by
    cases ks with
    | nil => exact .inl rfl
    | cons k ks => exact .inr ⟨_, rfl⟩
  have : lstrip (render ((c :: t) :: ks)) = (c :: t) ++ render ks := by
    simp [lstrip, render, hc]
  rw [this, List.takeWhile_append_of_pos (by
    intro x hx
    have : x ≠ '/' := fun h => ht (h ▸ hx)
    simpa using this)]
  rcases hk with h | ⟨r, h⟩ <;> simp [h]

private theorem takeWhile_name {t : Str} (ht : '/' ∉ t) : t.takeWhile (· ≠ '/') = t := by
  induction t with
  | nil => rfl
  | cons c t ih =>
    have hc : c ≠ '/' := fun h => ht (by simp [h])
    rw [List.takeWhile_cons_of_pos (by simpa using hc), ih (fun h => ht (by simp [h]))]

private theorem dataItems_spec (m : Masks) : ∀ (ns : List Str) (c : List (Str × Item)), dataItems m ns = .ok c →
    (∀ n ∈ ns, ∃ k, maskKey m n = .ok (some k)) ∧ ∀ p it, (p, it) ∈ c ↔ p ∈ ns ∧ ∃ k, it = .rows k ∧ maskKey m p = .ok (some k)
  | [], c, h => by
    cases h
    simp
  | n :: ns, c, h => by
    unfold dataItems at h
    cases hk : maskKey m n with
    | error e => rw [hk] at h; cases h
    | ok o =>
      rw [hk] at h
      cases o with
      | none => cases h
      | some k =>
        cases hb : dataItems m ns with
        | error e => rw [hb] at h; cases h
        | ok b =>
          rw [hb] at h
          cases h
          obtain ⟨h1, h2⟩ := dataItems_spec m ns b hb
          refine ⟨?_, fun p it => ?_⟩
          · intro x hx
            rcases List.mem_cons.1 hx with rfl | hx
            · exact ⟨k, hk⟩
            · exact h1 x hx
          · rw [List.mem_cons, h2, Prod.mk.injEq, List.mem_cons]
            constructor
            · rintro (⟨rfl, rfl⟩ | ⟨hp, hk'⟩)
              · exact ⟨.inl rfl, k, rfl, hk⟩
              · exact ⟨.inr hp, hk'⟩
            · rintro ⟨rfl | hp, k', rfl, hk'⟩
              · rw [hk] at hk'
                cases hk'
                exact .inl ⟨rfl, rfl⟩
              · exact .inr ⟨hp, k', rfl, hk'⟩

private theorem dataItems_ok (m : Masks) : ∀ (ns : List Str), (∀ n ∈ ns, ∃ k, maskKey m n = .ok (some k)) →
    ∃ c, dataItems m ns = .ok c ∧ c.map (·.1) = ns
  | [], _ => ⟨[], rfl, rfl⟩
  | n :: ns, h => by
    obtain ⟨k, hk⟩ := h n (by simp)
    obtain ⟨b, hb, hm⟩ := dataItems_ok m ns (fun x hx => h x (by simp [hx]))
    refine ⟨(n, .rows k) :: b, ?_, by simp [hm]⟩
    unfold dataItems
    rw [hk]
    dsimp only [bind, Except.bind]
    rw [hb]

private theorem cellWrite_spec {m : Masks} {d : List Str} {key : Str} {w : List (Str × Str)} (h : cellWrite m d key = .ok w)
    (p k : Str) : (p, k) ∈ w ↔ k = key ∧ p ∈ d ∧ (m ≠ .shared → ∃ s, swiftName k = .ok s ∧ s <:+: p) := by
  cases m with
  | shared =>
    cases h
    simp only [List.mem_map, Prod.mk.injEq, ne_eq, not_true_eq_false, false_implies, and_true]
    constructor
    · rintro ⟨x, hx, rfl, rfl⟩
      exact ⟨rfl, hx⟩
    · rintro ⟨rfl, h⟩
      exact ⟨p, h, rfl, rfl⟩
  | types l =>
    unfold cellWrite at h
    dsimp only at h
    by_cases hd : d = []
    · rw [if_pos hd] at h
      cases h
      simp [hd]
    · rw [if_neg hd] at h
      cases hs : swiftName key with
      | error e => rw [hs] at h; cases h
      | ok s =>
        rw [hs] at h
        cases h
        simp only [List.mem_map, List.mem_filter, decide_eq_true_eq, Prod.mk.injEq, ne_eq, reduceCtorEq,
          not_false_eq_true, true_implies]
        constructor
        · rintro ⟨x, ⟨hx, hi⟩, rfl, rfl⟩
          exact ⟨rfl, hx, s, hs, hi⟩
        · rintro ⟨rfl, h2, s', hs', hi⟩
          rw [hs] at hs'
          cases hs'
          exact ⟨p, ⟨h2, hi⟩, rfl, rfl⟩

private theorem cellWrites_spec (m : Masks) (d : List Str) : ∀ (ks : List Str) (w : List (Str × Str)), cellWrites m d ks = .ok w →
    ∀ p k, (p, k) ∈ w ↔ k ∈ ks ∧ p ∈ d ∧ (m ≠ .shared → ∃ s, swiftName k = .ok s ∧ s <:+: p)
  | [], w, h => by
    cases h
    simp
  | key :: ks, w, h => by
    intro p k
    unfold cellWrites at h
    cases ha : cellWrite m d key with
    | error e => rw [ha] at h; cases h
    | ok a =>
      cases hb : cellWrites m d ks with
      | error e => rw [ha, hb] at h; cases h
      | ok b =>
        rw [ha, hb] at h
        cases h
        rw [List.mem_append, cellWrite_spec ha, cellWrites_spec m d ks b hb, List.mem_cons, or_and_right]

private theorem topSkipped_iff {root : Kids} (h : KidsOk root) (groups : List Str) (key : Str) :
    topSkipped ((findLinks [] root).map (·.1)) groups key = false ↔ Free root groups key := by
  have hnames : ∀ k n, Member root k n → '/' ∉ k := fun k n hm => member_name root h hm
  unfold topSkipped
  rw [List.any_eq_false]
  simp only [List.mem_append, List.mem_map, List.mem_singleton, split_headD, Bool.and_eq_true, Bool.not_eq_true',
    List.isEmpty_eq_false_iff, decide_eq_true_eq, not_and]
  constructor
  · intro hall
    refine ⟨fun s q hs hl => ?_, hall _ (.inl (.inr rfl)) (by decide), fun g hg => hall _ (.inr ⟨g, hg, rfl⟩)⟩
    have hno : '/' ∉ s := by
      cases hl with
      | step _ _ n _ _ hm _ => exact hnames s n hm
    exact hall s (.inl (.inl ⟨_, (c19_links_partial root hnames s q).2 ⟨hno, hl⟩, rfl⟩)) hs
  · rintro ⟨h1, h2, h3⟩ s hs hne
    rcases hs with (⟨⟨k, q⟩, hkq, rfl⟩ | rfl) | ⟨g, hg, rfl⟩
    · exact h1 k q hne ((c19_links_partial root hnames k q).1 hkq).2
    · exact h2
    · exact h3 g hg hne

private theorem written_iff {root : Kids} (h : KidsOk root) {l : List Str} (hl : written root = .ok l) (p : Str) :
    p ∈ l ↔ ∃ ks, Wanted root ks ∧ p = render ks := by
  obtain ⟨l', e, -, hiff⟩ := c56_written_partial root h
  rw [e] at hl
  cases hl
  rw [hiff]
  constructor
  · rintro ⟨ks, hr, rfl, h1, h2, h3, h4⟩
    exact ⟨ks, ⟨hr, h1, h2, h3, h4⟩, rfl⟩
  · rintro ⟨ks, ⟨hr, h1, h2, h3, h4⟩, rfl⟩
    exact ⟨ks, hr, rfl, h1, h2, h3, h4⟩

/-- the steps of a write that succeeds -/
private theorem writeTree_inv {m : Masks} {groups : List Str} {root : Kids} {out : List (Str × Item)}
    (e : writeTree m groups root = .ok out) : ∃ a names c, cellItems root m = .ok a ∧ written root = .ok names ∧
      dataItems m names = .ok c ∧
      out = a ++ topItems ((findLinks [] root).map (·.1)) groups root ++ c ++ linkItems (findLinks [] root) ∧
      out.Pairwise (fun e f => ¬ Clash e f) := by
  unfold writeTree at e
  cases ha : cellItems root m with
  | error x => rw [ha] at e; cases e
  | ok a =>
    cases hn : written root with
    | error x => rw [ha, hn] at e; cases e
    | ok names =>
      cases hc : dataItems m names with
      | error x => rw [ha, hn] at e; dsimp only [bind, Except.bind] at e; rw [hc] at e; cases e
      | ok c =>
        rw [ha, hn] at e
        dsimp only [bind, Except.bind] at e
        rw [hc] at e
        dsimp only at e
        obtain ⟨h1, -, h3⟩ := (createAll_iff _ _ _).1 e
        rw [List.nil_append] at h1
        exact ⟨a, names, c, rfl, rfl, hc, h1, h1 ▸ h3⟩

private theorem lookup_member (kids : Kids) {k : Str} {n : Node} (h : kids.toList.lookup k = some n) : Member kids k n := by
  rw [← mem_toList]
  generalize kids.toList = l at h
  induction l with
  | nil => cases h
  | cons e l ih =>
    rcases e with ⟨k', n'⟩
    rw [List.lookup_cons] at h
    by_cases hk : k = k'
    · subst hk
      simp at h
      simp [h]
    · have : (k == k') = false := by simpa using hk
      simp only [this] at h
      exact List.mem_cons_of_mem _ (ih h)

private theorem member_lookup : ∀ (kids : Kids), KidsOk kids → ∀ {k : Str} {n : Node}, Member kids k n →
    kids.toList.lookup k = some n
  | .nil, _, _, _, hm => absurd hm member_nil
  | .cons key n' rest, h, k, n, hm => by
    obtain ⟨h1, h2, h3, h4⟩ := h
    simp only [Kids.toList, List.lookup_cons]
    rcases member_cons.1 hm with ⟨rfl, rfl⟩ | hm'
    · simp
    · by_cases hk : k = key
      · subst hk
        exact absurd hm' (h2 n)
      · have : (k == key) = false := by simpa using hk
        simp only [this]
        exact member_lookup rest h4 hm'

private theorem resolve_group : ∀ {n : Node} {k : Kids}, resolve n = some (.group k) ↔ IsGroup n k
  | .data, k => by
    simp only [resolve, Option.some.injEq, reduceCtorEq, false_iff]
    intro h; cases h
  | .group kids, k => by
    simp only [resolve, Option.some.injEq, Node.group.injEq]
    constructor
    · rintro rfl; exact .group _
    · intro h; cases h; rfl
  | .link p n, k => by
    rw [resolve, resolve_group]
    constructor
    · exact fun h => .link _ _ _ h
    · intro h; cases h with
      | link _ _ _ h => exact h
  | .dangling p, k => by
    simp only [resolve, reduceCtorEq, false_iff]
    intro h; cases h

private theorem group_ok {n : Node} {k : Kids} (h : IsGroup n k) : NodeOk n → KidsOk k := by
  induction h with
  | group kids => exact id
  | link p n kids _ ih => exact ih

private theorem openGroup_inv {kids k : Kids} {key : Str} (h : openGroup kids key = .ok k) :
    ∃ n, Member kids key n ∧ IsGroup n k := by
  unfold openGroup at h
  cases hl : kids.toList.lookup key with
  | none => simp [hl] at h
  | some n =>
    simp only [hl, Option.bind_some] at h
    refine ⟨n, lookup_member kids hl, resolve_group.1 ?_⟩
    split at h
    · cases h
      assumption
    · cases h
    · cases h

private theorem openGroup_ok {kids k : Kids} (ho : KidsOk kids) {key : Str} {n : Node} (hm : Member kids key n) (hg : IsGroup n k) :
    openGroup kids key = .ok k := by
  unfold openGroup
  rw [member_lookup kids ho hm, Option.bind_some, resolve_group.2 hg]

/-- where the numbers of the cells go -/
private theorem numbersOf_inv {cells : Kids} (ho : KidsOk cells) {m : Masks} {name : Str} {w : List (Str × Str)}
    (h : numbersOf cells m name = .ok w) : ∃ n k, Member cells name n ∧ IsGroup n k ∧ ∀ p key, (p, key) ∈ w ↔
      key ∈ m.keys ∧ (∃ ks, Reaches (.group k) ks ∧ p = "/Cells/".toList ++ name ++ render ks) ∧
        (m ≠ .shared → ∃ s, swiftName key = .ok s ∧ s <:+: p) := by
  unfold numbersOf at h
  cases hk : openGroup cells name with
  | error e => rw [hk] at h; cases h
  | ok k =>
    obtain ⟨n, hn, hg⟩ := openGroup_inv hk
    obtain ⟨d, hd, hiff⟩ := findDatasets_spec k (group_ok hg (member_ok cells ho hn).2) ("/Cells/".toList ++ name)
    rw [hk] at h
    dsimp only [bind, Except.bind] at h
    rw [hd] at h
    refine ⟨n, k, hn, hg, fun p key => ?_⟩
    rw [cellWrites_spec m d m.keys w h, hiff]
    refine and_congr_right fun _ => and_congr_left fun _ => ?_
    constructor
    · rintro ⟨key, n, ks, hm, hr, rfl⟩
      exact ⟨key :: ks, .step _ _ _ _ hm hr, rfl⟩
    · rintro ⟨ks, hr, rfl⟩
      cases hr with
      | step _ key n ks hm hr => exact ⟨key, n, ks, hm, hr, rfl⟩

private theorem cellItems_inv {root : Kids} {m : Masks} {a : List (Str × Item)} (h : cellItems root m = .ok a) :
    ∃ n cells cw ow info, Member root "Cells".toList n ∧ IsGroup n cells ∧ numbersOf cells m "Counts".toList = .ok cw ∧
      numbersOf cells m (offsetsName cells) = .ok ow ∧ Member cells "Meta-data".toList info ∧
      a = [("/Cells".toList, .group), ("/Cells/Counts".toList, .group), ("/Cells/".toList ++ offsetsName cells, .group)] ++
        cw.map (fun w => (w.1, .counts w.2)) ++ ow.map (fun w => (w.1, .offsets w.2)) ++
        [("/Cells/Centres".toList, .sorted), ("/Cells/Meta-data".toList, .copy info)] ++ boxItems cells := by
  unfold cellItems at h
  cases hc : openGroup root "Cells".toList with
  | error e => rw [hc] at h; cases h
  | ok cells =>
    obtain ⟨n, hn, hg⟩ := openGroup_inv hc
    rw [hc] at h
    dsimp only [bind, Except.bind] at h
    cases h1 : numbersOf cells m "Counts".toList with
    | error e => rw [h1] at h; cases h
    | ok cw =>
      rw [h1] at h
      dsimp only at h
      cases h2 : numbersOf cells m (offsetsName cells) with
      | error e => rw [h2] at h; cases h
      | ok ow =>
        rw [h2] at h
        dsimp only at h
        cases h3 : member cells "Centres".toList with
        | error e => rw [h3] at h; cases h
        | ok _ =>
          rw [h3] at h
          dsimp only at h
          cases h4 : member cells "Meta-data".toList with
          | error e => rw [h4] at h; cases h
          | ok info =>
            rw [h4] at h
            cases h
            refine ⟨n, cells, cw, ow, info, hn, hg, h1, h2, lookup_member cells ?_, rfl⟩
            unfold member at h4
            split at h4
            · cases h4; assumption
            · cases h4

private theorem box_sorted {cells : Kids} {p : Str} {it : Item} (h : (p, it) ∈ boxItems cells) : it = .sorted := by
  unfold boxItems at h
  split at h <;> simp at h
  rcases h with ⟨-, h⟩ | ⟨-, h⟩ <;> exact h

private theorem mem_top {links groups : List Str} {root : Kids} {p : Str} {it : Item} :
    (p, it) ∈ topItems links groups root ↔ ∃ key n, Member root key n ∧ topSkipped links groups key = false ∧ p = '/' :: key ∧
      it = if key = "Header".toList ∨ key = "Parameters".toList then .header else .copy n := by
  unfold topItems
  simp only [List.mem_map, List.mem_filter, Bool.not_eq_true', Prod.mk.injEq, Prod.exists, mem_toList]
  constructor
  · rintro ⟨key, n, ⟨h1, h2⟩, rfl, rfl⟩
    exact ⟨key, n, h1, h2, rfl, rfl⟩
  · rintro ⟨key, n, h1, h2, rfl, rfl⟩
    exact ⟨key, n, ⟨h1, h2⟩, rfl, rfl⟩

private theorem mem_links {links : List (Str × Str)} {p : Str} {it : Item} :
    (p, it) ∈ linkItems links ↔ ∃ key q, (key, q) ∈ links ∧ p = '/' :: key ∧ it = .soft q := by
  unfold linkItems
  simp only [List.mem_map, Prod.mk.injEq, Prod.exists]
  constructor
  · rintro ⟨key, q, h1, rfl, rfl⟩
    exact ⟨key, q, h1, rfl, rfl⟩
  · rintro ⟨key, q, h1, rfl, rfl⟩
    exact ⟨key, q, h1, rfl, rfl⟩

private theorem particle_functional {t k k' : Str} (h : (t, k) ∈ Names.particleNames) (h' : (t, k') ∈ Names.particleNames) :
    k = k' := by
  have : ∀ e ∈ Names.particleNames, ∀ f ∈ Names.particleNames, e.1 = f.1 → e.2 = f.2 := by decide +kernel
  exact this _ h _ h' rfl

private theorem lookup_particle {t k : Str} (h : Names.particleNames.lookup t = some k) : (t, k) ∈ Names.particleNames := by
  generalize Names.particleNames = l at h
  induction l with
  | nil => cases h
  | cons e l ih =>
    rcases e with ⟨k', n'⟩
    rw [List.lookup_cons] at h
    by_cases hk : t = k'
    · subst hk
      simp at h
      simp [h]
    · have : (t == k') = false := by simpa using hk
      simp only [this] at h
      exact List.mem_cons_of_mem _ (ih h)

private theorem maskKey_types {l : List Str} {t : Str} (ht : '/' ∉ t) (hne : t ≠ []) (ks : List Str) (k : Str) :
    maskKey (.types l) (render (t :: ks)) = .ok (some k) ↔ (t, k) ∈ Names.particleNames ∧ k ∈ l := by
  unfold maskKey
  dsimp only
  rw [split_headD, first_part ht hne]
  constructor
  · intro h
    split at h
    · split at h
      · cases h
      · rename_i k' hk'
        split at h
        · cases h
          exact ⟨lookup_particle hk', by assumption⟩
        · cases h
    · cases h
  · rintro ⟨h1, h2⟩
    have hp : ∀ e ∈ Names.particleNames, "PartType".toList <:+: e.1 ∧ Names.particleNames.lookup e.1 = some e.2 := by
      decide +kernel
    obtain ⟨hi, hl⟩ := hp _ h1
    rw [if_pos (hi.trans ⟨['/'], render ks, by simp [render]⟩), hl]
    simp [h2]

private theorem wanted_cons {root : Kids} {ks : List Str} (h : Wanted root ks) :
    ∃ t n r, ks = t :: r ∧ Member root t n ∧ Reaches n r := by
  cases h.reaches with
  | step _ t n r hm hr => exact ⟨t, n, r, rfl, hm, hr⟩

private theorem rows_mem {m : Masks} {groups : List Str} {root : Kids} {out : List (Str × Item)} (h : KidsOk root)
    (e : writeTree m groups root = .ok out) (p k : Str) :
    ((p, .rows k) ∈ out ↔ (∃ ks, Wanted root ks ∧ p = render ks) ∧ maskKey m p = .ok (some k)) ∧
    ∀ ks, Wanted root ks → ∃ k, maskKey m (render ks) = .ok (some k) := by
  obtain ⟨a, names, c, ha, hn, hc, rfl, -⟩ := writeTree_inv e
  obtain ⟨n, cells, cw, ow, info, -, -, -, -, -, rfl⟩ := cellItems_inv ha
  obtain ⟨hall, hd⟩ := dataItems_spec m names c hc
  constructor
  · rw [← written_iff h hn]
    simp only [List.mem_append, hd, mem_top, mem_links, List.mem_cons, List.mem_map, Prod.mk.injEq, reduceCtorEq, and_false,
      List.not_mem_nil, or_false, false_or, exists_false]
    constructor
    · rintro ((h | ⟨_, _, _, _, _, h⟩) | ⟨h, _, h1, h2⟩)
      · exact absurd (box_sorted h) (by simp)
      · split at h <;> cases h
      · cases h1
        exact ⟨h, h2⟩
    · rintro ⟨h1, h2⟩
      exact .inr ⟨h1, k, rfl, h2⟩
  · exact fun ks hk => hall _ ((written_iff h hn _).2 ⟨ks, hk, rfl⟩)

/-- C76: every object is made once. -/
theorem c76_once {m : Masks} {groups : List Str} {root : Kids} {out : List (Str × Item)} (e : writeTree m groups root = .ok out) :
    (out.map (·.1)).Nodup := by
  obtain ⟨_, _, _, -, -, -, -, hp⟩ := writeTree_inv e
  rw [List.Nodup, List.pairwise_map]
  exact hp.imp fun h h' => h (.inl h'.symm)

/-- C76: the data of a subset with one mask per particle type. The datasets with data are exactly those that are written, each
under its own path, and the rows are those of the mask of the particle type its path begins with. -/
theorem c76_rows {l groups : List Str} {root : Kids} {out : List (Str × Item)} (h : KidsOk root) (hne : ∀ n, ¬ Member root [] n)
    (e : writeTree (.types l) groups root = .ok out) :
    (∀ p k, (p, .rows k) ∈ out ↔ ∃ t ks, Wanted root (t :: ks) ∧ p = render (t :: ks) ∧ (t, k) ∈ Names.particleNames ∧ k ∈ l) ∧
    ∀ ks, Wanted root ks → ∃ k, (render ks, .rows k) ∈ out := by
  constructor
  · intro p k
    rw [(rows_mem h e p k).1]
    constructor
    · rintro ⟨⟨ks, hw, rfl⟩, hk⟩
      obtain ⟨t, n, r, rfl, hm, -⟩ := wanted_cons hw
      have ht : t ≠ [] := fun h => hne n (h ▸ hm)
      obtain ⟨h1, h2⟩ := (maskKey_types (member_name root h hm) ht r k).1 hk
      exact ⟨t, r, hw, rfl, h1, h2⟩
    · rintro ⟨t, r, hw, rfl, h1, h2⟩
      obtain ⟨_, n, _, e', hm, -⟩ := wanted_cons hw
      obtain ⟨rfl, rfl⟩ := List.cons.inj e'
      exact ⟨⟨_, hw, rfl⟩, (maskKey_types (member_name root h hm) (fun h => hne n (h ▸ hm)) r k).2 ⟨h1, h2⟩⟩
  · intro ks hw
    obtain ⟨k, hk⟩ := (rows_mem h e [] []).2 ks hw
    exact ⟨k, (rows_mem h e _ k).1.2 ⟨⟨ks, hw, rfl⟩, hk⟩⟩

/-- C76: the data of a subset with one mask for all groups (SOAP). -/
theorem c76_rows_shared {groups : List Str} {root : Kids} {out : List (Str × Item)} (h : KidsOk root)
    (e : writeTree .shared groups root = .ok out) (p k : Str) :
    (p, .rows k) ∈ out ↔ k = "shared".toList ∧ ∃ ks, Wanted root ks ∧ p = render ks := by
  rw [(rows_mem h e p k).1]
  constructor
  · rintro ⟨h1, h2⟩
    exact ⟨(Option.some.inj (Except.ok.inj h2)).symm, h1⟩
  · rintro ⟨rfl, h1⟩
    exact ⟨h1, rfl⟩

/-- C76: the soft links of the root are made again, with the same path; no others. -/
theorem c76_links {m : Masks} {groups : List Str} {root : Kids} {out : List (Str × Item)} (h : KidsOk root)
    (e : writeTree m groups root = .ok out) (p q : Str) :
    (p, .soft q) ∈ out ↔ ∃ key, LinkAt (.group root) [key] q ∧ p = '/' :: key := by
  obtain ⟨a, names, c, ha, hn, hc, rfl, -⟩ := writeTree_inv e
  obtain ⟨n, cells, cw, ow, info, -, -, -, -, -, rfl⟩ := cellItems_inv ha
  obtain ⟨hall, hd⟩ := dataItems_spec m names c hc
  have hnames : ∀ k n, Member root k n → '/' ∉ k := fun k n hm => member_name root h hm
  simp only [List.mem_append, hd, mem_top, mem_links, List.mem_cons, List.mem_map, Prod.mk.injEq, reduceCtorEq, and_false,
    List.not_mem_nil, or_false, false_or, exists_false, false_and, c19_links_partial root hnames, Item.soft.injEq]
  constructor
  · rintro ((h | ⟨_, _, _, _, _, h⟩) | ⟨key, q', ⟨-, h⟩, rfl, rfl⟩)
    · exact absurd (box_sorted h) (by simp)
    · split at h <;> cases h
    · exact ⟨key, h, rfl⟩
  · rintro ⟨key, hl, rfl⟩
    refine .inr ⟨key, q, ⟨?_, hl⟩, rfl, rfl⟩
    cases hl with
    | step _ _ n _ _ hm _ => exact hnames key n hm

/-- C76: the groups that are copied as they are: those of the root whose name contains no name that is skipped, except `Header`
and `Parameters`, which are made anew from their attributes; and the information on the cells. -/
theorem c76_copies {m : Masks} {groups : List Str} {root : Kids} {out : List (Str × Item)} (h : KidsOk root)
    (e : writeTree m groups root = .ok out) :
    (∀ p, (p, .header) ∈ out ↔ ∃ key n, Member root key n ∧ p = '/' :: key ∧ Free root groups key ∧
      (key = "Header".toList ∨ key = "Parameters".toList)) ∧
    ∀ p n, p ≠ "/Cells/Meta-data".toList → ((p, .copy n) ∈ out ↔ ∃ key, Member root key n ∧ p = '/' :: key ∧
      Free root groups key ∧ key ≠ "Header".toList ∧ key ≠ "Parameters".toList) := by
  obtain ⟨a, names, c, ha, hn, hc, rfl, -⟩ := writeTree_inv e
  obtain ⟨n, cells, cw, ow, info, -, -, -, -, -, rfl⟩ := cellItems_inv ha
  obtain ⟨hall, hd⟩ := dataItems_spec m names c hc
  constructor
  · intro p
    simp only [List.mem_append, hd, mem_top, mem_links, List.mem_cons, List.mem_map, Prod.mk.injEq, reduceCtorEq, and_false,
      List.not_mem_nil, or_false, false_or, exists_false, false_and, topSkipped_iff h]
    constructor
    · rintro (h | ⟨key, n, h1, h2, rfl, h3⟩)
      · exact absurd (box_sorted h) (by simp)
      · refine ⟨key, n, h1, rfl, h2, ?_⟩
        by_contra hh
        rw [if_neg hh] at h3
        cases h3
    · rintro ⟨key, n, h1, rfl, h2, h3⟩
      exact .inr ⟨key, n, h1, h2, rfl, by rw [if_pos h3]⟩
  · intro p n hp
    simp only [List.mem_append, hd, mem_top, mem_links, List.mem_cons, List.mem_map, Prod.mk.injEq, reduceCtorEq, and_false,
      List.not_mem_nil, or_false, false_or, exists_false, false_and, topSkipped_iff h]
    constructor
    · rintro ((⟨h, -⟩ | h) | ⟨key, n', h1, h2, rfl, h3⟩)
      · exact absurd h hp
      · exact absurd (box_sorted h) (by simp)
      · by_cases hh : key = "Header".toList ∨ key = "Parameters".toList
        · rw [if_pos hh] at h3
          cases h3
        · rw [if_neg hh] at h3
          cases h3
          push Not at hh
          exact ⟨key, h1, rfl, h2, hh⟩
    · rintro ⟨key, h1, rfl, h2, h3, h4⟩
      exact .inr ⟨key, n, h1, h2, rfl, by rw [if_neg (by simp only [h3, h4, or_self, not_false_eq_true])]⟩

/-- the names of particle types do not contain each other, nor does the path of a table of cells contain one -/
private theorem type_infix {t t' k k' g : Str} (h : (t, k) ∈ Names.particleNames) (h' : (t', k') ∈ Names.particleNames)
    (hg : g ∈ ["Counts".toList, "Offsets".toList, "OffsetsInFile".toList]) :
    t' <:+: "/Cells/".toList ++ g ++ '/' :: t ↔ t' = t := by
  have : ∀ e ∈ Names.particleNames, ∀ f ∈ Names.particleNames,
      ∀ g ∈ ["Counts".toList, "Offsets".toList, "OffsetsInFile".toList],
        (f.1 <:+: "/Cells/".toList ++ g ++ '/' :: e.1 ↔ f.1 = e.1) := by decide +kernel
  exact this _ h _ h' _ hg

private theorem swiftName_iff {t k : Str} : swiftName k = .ok t ↔ (t, k) ∈ Names.particleNames := by
  have h1 : ∀ e ∈ Names.particleNames, swiftName e.2 = .ok e.1 := by decide +kernel
  constructor
  · intro h
    unfold swiftName at h
    split at h
    · rename_i e he
      cases h
      have := List.find?_some he
      simp only [decide_eq_true_eq] at this
      rw [← this]
      exact List.mem_of_find?_eq_some he
    · cases h
  · exact fun h => h1 _ h

private theorem offsets_name (cells : Kids) :
    offsetsName cells ∈ ["Counts".toList, "Offsets".toList, "OffsetsInFile".toList] := by
  unfold offsetsName
  split <;> simp

private theorem numbers_type {cells : Kids} (ho : KidsOk cells) {l : List Str} {g : Str} {w : List (Str × Str)}
    (hg : g ∈ ["Counts".toList, "Offsets".toList, "OffsetsInFile".toList]) (h : numbersOf cells (.types l) g = .ok w) :
    ∃ n k, Member cells g n ∧ IsGroup n k ∧ ∀ t key, (t, key) ∈ Names.particleNames → ∀ key',
      (("/Cells/".toList ++ g ++ '/' :: t, key') ∈ w ↔ key' = key ∧ key ∈ l ∧ Reaches (.group k) [t]) := by
  obtain ⟨n, k, hm, hk, hw⟩ := numbersOf_inv ho h
  refine ⟨n, k, hm, hk, fun t key ht key' => ?_⟩
  have hko := group_ok hk (member_ok cells ho hm).2
  have hslash : '/' ∉ t := by
    have : ∀ e ∈ Names.particleNames, '/' ∉ e.1 := by decide +kernel
    exact this _ ht
  rw [hw]
  constructor
  · rintro ⟨h1, ⟨ks, hr, hp⟩, h3⟩
    obtain ⟨s, hs, hi⟩ := h3 (by simp)
    rw [swiftName_iff] at hs
    obtain rfl := (type_infix ht hs hg).1 hi
    obtain rfl := particle_functional hs ht
    refine ⟨rfl, h1, ?_⟩
    have hp := List.append_cancel_left hp
    cases hr with
    | step _ q n' r hm' hr' =>
      rw [render, List.cons_append, List.cons.injEq] at hp
      have hq := key_unique _ _ [] _ hslash (member_ok k hko hm').1 (.inl rfl) (render_shape r) (by simpa using hp.2)
      subst hq
      have : render r = [] := by simpa using hp.2
      have hr0 : r = [] := by
        cases r with
        | nil => rfl
        | cons _ _ => simp [render] at this
      subst hr0
      exact .step _ _ _ _ hm' hr'
  · rintro ⟨rfl, h1, h2⟩
    exact ⟨h1, ⟨_, h2, by simp [render]⟩, fun _ => ⟨t, swiftName_iff.2 ht, (type_infix ht ht hg).2 rfl⟩⟩

/-- C76: the tables of cells of a subset with one mask per particle type. The dataset of a particle type gets the counts and the
offsets of the mask of this type, if there is such a mask and such a dataset. -/
theorem c76_cells {l groups : List Str} {root : Kids} {out : List (Str × Item)} (h : KidsOk root)
    (e : writeTree (.types l) groups root = .ok out) :
    ∃ c cells n₁ k₁ n₂ k₂ off, Member root "Cells".toList c ∧ IsGroup c cells ∧ Member cells "Counts".toList n₁ ∧ IsGroup n₁ k₁ ∧
      Member cells off n₂ ∧ IsGroup n₂ k₂ ∧ (off = "OffsetsInFile".toList ∨
        (off = "Offsets".toList ∧ ∀ n, ¬ Member cells "OffsetsInFile".toList n)) ∧
      ∀ t key, (t, key) ∈ Names.particleNames → ∀ key',
        (("/Cells/Counts/".toList ++ t, .counts key') ∈ out ↔ key' = key ∧ key ∈ l ∧ Reaches (.group k₁) [t]) ∧
        (("/Cells/".toList ++ off ++ '/' :: t, .offsets key') ∈ out ↔ key' = key ∧ key ∈ l ∧ Reaches (.group k₂) [t]) := by
  obtain ⟨a, names, c, ha, hn, hc, rfl, -⟩ := writeTree_inv e
  obtain ⟨n, cells, cw, ow, info, hm, hg, h1, h2, -, rfl⟩ := cellItems_inv ha
  obtain ⟨hall, hd⟩ := dataItems_spec _ names c hc
  have ho := group_ok hg (member_ok root h hm).2
  obtain ⟨n₁, k₁, hm₁, hg₁, hw₁⟩ := numbers_type ho (by simp) h1
  obtain ⟨n₂, k₂, hm₂, hg₂, hw₂⟩ := numbers_type ho (offsets_name cells) h2
  refine ⟨n, cells, n₁, k₁, n₂, k₂, offsetsName cells, hm, hg, hm₁, hg₁, hm₂, hg₂, ?_, fun t key ht key' => ⟨?_, ?_⟩⟩
  · unfold offsetsName
    split
    · exact .inl rfl
    · rename_i hs
      refine .inr ⟨rfl, fun n hn => hs ?_⟩
      rw [member_lookup cells ho hn]
      rfl
  · rw [← hw₁ t key ht key']
    have e1 : "/Cells/Counts/".toList ++ t = "/Cells/".toList ++ "Counts".toList ++ '/' :: t := rfl
    rw [e1]
    generalize "/Cells/".toList ++ "Counts".toList ++ '/' :: t = p
    simp only [List.mem_append, hd, mem_top, mem_links, List.mem_cons, List.mem_map, Prod.mk.injEq, reduceCtorEq, and_false,
      List.not_mem_nil, or_false, false_or, exists_false, false_and, Item.counts.injEq]
    constructor
    · rintro ((⟨x, hx, rfl, rfl⟩ | h) | ⟨_, _, _, _, _, h⟩)
      · exact hx
      · exact absurd (box_sorted h) (by simp)
      · split at h <;> cases h
    · exact fun h => .inl (.inl ⟨_, h, rfl, rfl⟩)
  · rw [← hw₂ t key ht key']
    generalize "/Cells/".toList ++ offsetsName cells ++ '/' :: t = p
    simp only [List.mem_append, hd, mem_top, mem_links, List.mem_cons, List.mem_map, Prod.mk.injEq, reduceCtorEq, and_false,
      List.not_mem_nil, or_false, false_or, exists_false, false_and, Item.offsets.injEq]
    constructor
    · rintro ((⟨x, hx, rfl, rfl⟩ | h) | ⟨_, _, _, _, _, h⟩)
      · exact hx
      · exact absurd (box_sorted h) (by simp)
      · split at h <;> cases h
    · exact fun h => .inl (.inl ⟨_, h, rfl, rfl⟩)

/-- C76: the tables of cells of a subset with one mask for all groups. Every dataset below the counts and the offsets gets the numbers
of this mask. -/
theorem c76_cells_shared {groups : List Str} {root : Kids} {out : List (Str × Item)} (h : KidsOk root)
    (e : writeTree .shared groups root = .ok out) :
    ∃ c cells n₁ k₁ n₂ k₂ off, Member root "Cells".toList c ∧ IsGroup c cells ∧ Member cells "Counts".toList n₁ ∧ IsGroup n₁ k₁ ∧
      Member cells off n₂ ∧ IsGroup n₂ k₂ ∧ (off = "OffsetsInFile".toList ∨
        (off = "Offsets".toList ∧ ∀ n, ¬ Member cells "OffsetsInFile".toList n)) ∧
      ∀ p key, ((p, .counts key) ∈ out ↔ key = "shared".toList ∧ ∃ ks, Reaches (.group k₁) ks ∧ p = "/Cells/Counts".toList ++ render ks) ∧
        ((p, .offsets key) ∈ out ↔ key = "shared".toList ∧ ∃ ks, Reaches (.group k₂) ks ∧ p = "/Cells/".toList ++ off ++ render ks) := by
  obtain ⟨a, names, c, ha, hn, hc, rfl, -⟩ := writeTree_inv e
  obtain ⟨n, cells, cw, ow, info, hm, hg, h1, h2, -, rfl⟩ := cellItems_inv ha
  obtain ⟨hall, hd⟩ := dataItems_spec _ names c hc
  have ho := group_ok hg (member_ok root h hm).2
  obtain ⟨n₁, k₁, hm₁, hg₁, hw₁⟩ := numbersOf_inv ho h1
  obtain ⟨n₂, k₂, hm₂, hg₂, hw₂⟩ := numbersOf_inv ho h2
  refine ⟨n, cells, n₁, k₁, n₂, k₂, offsetsName cells, hm, hg, hm₁, hg₁, hm₂, hg₂, ?_, fun p key => ⟨?_, ?_⟩⟩
  · unfold offsetsName
    split
    · exact .inl rfl
    · rename_i hs
      refine .inr ⟨rfl, fun n hn => hs ?_⟩
      rw [member_lookup cells ho hn]
      rfl
  · have hw : (p, key) ∈ cw ↔ key = "shared".toList ∧ ∃ ks, Reaches (.group k₁) ks ∧ p = "/Cells/Counts".toList ++ render ks := by
      rw [hw₁]
      constructor
      · rintro ⟨h1, h2, -⟩
        exact ⟨List.mem_singleton.1 h1, h2⟩
      · rintro ⟨h1, h2⟩
        exact ⟨List.mem_singleton.2 h1, h2, fun h => absurd rfl h⟩
    rw [← hw]
    simp only [List.mem_append, hd, mem_top, mem_links, List.mem_cons, List.mem_map, Prod.mk.injEq, reduceCtorEq, and_false,
      List.not_mem_nil, or_false, false_or, exists_false, false_and, Item.counts.injEq]
    constructor
    · rintro ((⟨x, hx, rfl, rfl⟩ | h) | ⟨_, _, _, _, _, h⟩)
      · exact hx
      · exact absurd (box_sorted h) (by simp)
      · split at h <;> cases h
    · exact fun h => .inl (.inl ⟨_, h, rfl, rfl⟩)
  · have hw : (p, key) ∈ ow ↔ key = "shared".toList ∧ ∃ ks, Reaches (.group k₂) ks ∧ p = "/Cells/".toList ++ offsetsName cells ++ render ks := by
      rw [hw₂]
      constructor
      · rintro ⟨h1, h2, -⟩
        exact ⟨List.mem_singleton.1 h1, h2⟩
      · rintro ⟨h1, h2⟩
        exact ⟨List.mem_singleton.2 h1, h2, fun h => absurd rfl h⟩
    rw [← hw]
    simp only [List.mem_append, hd, mem_top, mem_links, List.mem_cons, List.mem_map, Prod.mk.injEq, reduceCtorEq, and_false,
      List.not_mem_nil, or_false, false_or, exists_false, false_and, Item.offsets.injEq]
    constructor
    · rintro ((⟨x, hx, rfl, rfl⟩ | h) | ⟨_, _, _, _, _, h⟩)
      · exact hx
      · exact absurd (box_sorted h) (by simp)
      · split at h <;> cases h
    · exact fun h => .inl (.inl ⟨_, h, rfl, rfl⟩)

/-- C76 fails for files with a dataset outside the groups of data: a group of the root that is copied, with a dataset that
is to be written, makes the write raise, whatever the masks. -/
theorem c76_extra_fails {m : Masks} {groups : List Str} {root : Kids} (h : KidsOk root) {key : Str} {n : Node} {ks : List Str}
    (hm : Member root key n) (hf : Free root groups key) (h1 : key ≠ "Header".toList) (h2 : key ≠ "Parameters".toList)
    (hw : Wanted root (key :: ks)) : ∃ e, writeTree m groups root = .error e := by
  cases e : writeTree m groups root with
  | error x => exact ⟨x, rfl⟩
  | ok out =>
    exfalso
    obtain ⟨k, hk⟩ := (rows_mem h e [] []).2 _ hw
    obtain ⟨a, names, c, ha, hn, hc, hout, hp⟩ := writeTree_inv e
    have hr : (render (key :: ks), Item.rows k) ∈ c :=
      ((dataItems_spec m names c hc).2 _ _).2 ⟨(written_iff h hn _).2 ⟨_, hw, rfl⟩, k, rfl, hk⟩
    have ht : ('/' :: key, Item.copy n) ∈ topItems ((findLinks [] root).map (·.1)) groups root :=
      mem_top.2 ⟨key, n, hm, (topSkipped_iff h groups key).2 hf, rfl, by rw [if_neg (by simp only [h1, h2, or_self, not_false_eq_true])]⟩
    rw [hout, List.append_assoc, List.append_assoc, List.pairwise_append] at hp
    have hp := hp.2.1
    rw [List.pairwise_append] at hp
    refine hp.2.2 _ ht _ (List.mem_append_left _ hr) ?_
    cases ks with
    | nil => exact .inl (by simp [render])
    | cons k ks => exact .inr ⟨n, rfl, ⟨k ++ render ks, by simp [render]⟩⟩

/-- C76 fails for groups whose name contains `Cells` or the name of a group of data: they are not copied. -/
theorem c76_lost_fails {m : Masks} {groups : List Str} {root : Kids} {out : List (Str × Item)} (h : KidsOk root)
    (e : writeTree m groups root = .ok out) {key : Str} {n : Node} (hm : Member root key n)
    (hsub : "Cells".toList <:+: key ∨ ∃ g ∈ groups, g ≠ [] ∧ '/' ∉ g ∧ g <:+: key) :
    ∀ n', ('/' :: key, .copy n') ∉ out := by
  intro n' hin
  have hne : '/' :: key ≠ "/Cells/Meta-data".toList := by
    intro hk
    have := member_name root h hm
    rw [show key = "Cells/Meta-data".toList from (List.cons.inj hk).2] at this
    exact this (by decide)
  obtain ⟨key', -, hk, hf, -⟩ := ((c76_copies h e).2 _ _ hne).1 hin
  obtain rfl := (List.cons.inj hk).2
  rcases hsub with hc | ⟨g, hgm, hg0, hgs, hi⟩
  · exact hf.cells hc
  · have : g.takeWhile (· ≠ '/') = g := by
      exact takeWhile_name hgs
    exact hf.groups g hgm (by rw [this]; exact hg0) (by rw [this]; exact hi)

/-- the first part of a path -/
private def top (p : Str) : Str := (p.drop 1).takeWhile (· ≠ '/')

private theorem top_render {t : Str} (ht : '/' ∉ t) (ks : List Str) : top (render (t :: ks)) = t := by
  unfold top
  simp only [render, List.cons_append, List.drop_succ_cons, List.drop_zero]
  rw [List.takeWhile_append_of_pos (by
    intro x hx
    have : x ≠ '/' := fun h => ht (h ▸ hx)
    simpa using this)]
  rcases render_shape ks with h | ⟨r, h⟩ <;> simp [h]

private theorem top_slash {t : Str} (ht : '/' ∉ t) : top ('/' :: t) = t := takeWhile_name ht

private theorem clash_top {e f : Str × Item} (he : e.1 ≠ []) (h : Clash e f) : top f.1 = top e.1 := by
  rcases h with h | ⟨n, -, r, h⟩
  · rw [h]
  · rw [← h]
    unfold top
    obtain ⟨c, q, hq⟩ := List.exists_cons_of_ne_nil he
    rw [hq]
    simp only [List.cons_append, List.drop_succ_cons, List.drop_zero, List.append_assoc, List.nil_append]
    clear h hq
    induction q with
    | nil => simp
    | cons x q ih =>
      by_cases hx : x = '/'
      · simp [hx]
      · rw [List.cons_append, List.takeWhile_cons_of_pos (by simpa using hx), List.takeWhile_cons_of_pos (by simpa using hx), ih]

private theorem cellWrites_ok {l d : List Str} {g : Str} (hg : g ∈ ["Counts".toList, "Offsets".toList, "OffsetsInFile".toList])
    (hd : d.Nodup) (hdt : ∀ p ∈ d, ∃ t k, (t, k) ∈ Names.particleNames ∧ p = "/Cells/".toList ++ g ++ '/' :: t) :
    ∀ ks : List Str, ks.Nodup → (∀ k ∈ ks, ∃ t, (t, k) ∈ Names.particleNames) →
    ∃ w, cellWrites (.types l) d ks = .ok w ∧ (w.map (·.1)).Nodup ∧ (∀ p ∈ w.map (·.1), p ∈ d)
  | [], _, _ => ⟨[], rfl, by simp, by simp⟩
  | key :: ks, hn, hk => by
    obtain ⟨b, hb, h1, h2⟩ := cellWrites_ok hg hd hdt ks (List.nodup_cons.1 hn).2 (fun k h => hk k (by simp [h]))
    obtain ⟨t, ht⟩ := hk key (by simp)
    have hs := swiftName_iff.2 ht
    have ha : cellWrite (.types l) d key = .ok ((d.filter (fun p => decide (t <:+: p))).map (fun p => (p, key))) := by
      unfold cellWrite
      dsimp only
      by_cases hd0 : d = []
      · rw [if_pos hd0, hd0]; rfl
      · rw [if_neg hd0, hs]
    refine ⟨_, by unfold cellWrites; rw [ha, hb]; rfl, ?_, ?_⟩
    · rw [List.map_append, List.nodup_append]
      refine ⟨?_, h1, ?_⟩
      · rw [List.map_map, show ((fun x : Str × Str => x.1) ∘ fun p => (p, key)) = id from rfl, List.map_id]
        exact hd.filter _
      · intro p hp q hq hpq
        subst hpq
        obtain ⟨⟨p', k'⟩, hk', rfl⟩ := List.mem_map.1 hq
        simp only [List.map_map, List.mem_map, List.mem_filter, decide_eq_true_eq] at hp
        obtain ⟨p, ⟨hpd, hi⟩, rfl⟩ := hp
        obtain ⟨hks, -, hsw⟩ := (cellWrites_spec (.types l) d ks b hb _ _).1 hk'
        obtain ⟨s, hs', hi'⟩ := hsw (by simp)
        rw [swiftName_iff] at hs'
        obtain ⟨u, v, huv, rfl⟩ := hdt p hpd
        obtain rfl := (type_infix huv ht hg).1 hi
        obtain rfl := (type_infix huv hs' hg).1 hi'
        obtain rfl := particle_functional ht hs'
        exact (List.nodup_cons.1 hn).1 hks
    · intro p hp
      rw [List.map_append, List.mem_append] at hp
      rcases hp with hp | hp
      · simp only [List.map_map, List.mem_map, List.mem_filter] at hp
        obtain ⟨p, ⟨hpd, -⟩, rfl⟩ := hp
        exact hpd
      · exact h2 p hp

private theorem lookup_none {kids : Kids} {key : Str} (h : ∀ n, ¬ Member kids key n) : kids.toList.lookup key = none := by
  cases hl : kids.toList.lookup key with
  | none => rfl
  | some n => exact absurd (lookup_member kids hl) (h n)

private theorem numbersOf_ok {cells k : Kids} (ho : KidsOk cells) {l : List Str} {g : Str}
    (hg : g ∈ ["Counts".toList, "Offsets".toList, "OffsetsInFile".toList]) (hm : Member cells g (.group k)) (ht : Table k)
    (hl : l.Nodup) (hk : ∀ k ∈ l, ∃ t, (t, k) ∈ Names.particleNames) :
    ∃ w, numbersOf cells (.types l) g = .ok w ∧ (w.map (·.1)).Nodup ∧
      ∀ p ∈ w.map (·.1), ∃ t k, (t, k) ∈ Names.particleNames ∧ p = "/Cells/".toList ++ g ++ '/' :: t := by
  have hko : KidsOk k := (member_ok cells ho hm).2
  obtain ⟨d, hd, hiff⟩ := findDatasets_spec k hko ("/Cells/".toList ++ g)
  have hdt : ∀ p ∈ d, ∃ t k, (t, k) ∈ Names.particleNames ∧ p = "/Cells/".toList ++ g ++ '/' :: t := by
    intro p hp
    obtain ⟨key, n, ks, hm', hr, rfl⟩ := (hiff p).1 hp
    obtain ⟨rfl, name, hn⟩ := ht key n hm'
    cases hr
    exact ⟨key, name, hn, by simp [render]⟩
  obtain ⟨w, hw, h1, h2⟩ := cellWrites_ok (l := l) hg (findDatasets_nodup k hko _ d hd) hdt l hl hk
  refine ⟨w, ?_, h1, fun p hp => hdt p (h2 p hp)⟩
  unfold numbersOf
  rw [openGroup_ok ho hm (.group k)]
  dsimp only [bind, Except.bind]
  rw [hd]
  exact hw

private def fixed (off : Str) : List Str :=
  ["/Cells".toList, "/Cells/Counts".toList, "/Cells/".toList ++ off, "/Cells/Centres".toList, "/Cells/Meta-data".toList,
    "/Cells/MinPositions".toList, "/Cells/MaxPositions".toList]

private theorem fixed_facts : ∀ off ∈ ["Offsets".toList, "OffsetsInFile".toList], (fixed off).Nodup ∧
    (∀ p ∈ fixed off, ¬ "/Cells/Meta-data/".toList <+: p ∧ top p = "Cells".toList) ∧
    ∀ e ∈ Names.particleNames, ∀ g ∈ ["Counts".toList, off],
      "/Cells/".toList ++ g ++ '/' :: e.1 ∉ fixed off ∧ ¬ "/Cells/Meta-data/".toList <+: "/Cells/".toList ++ g ++ '/' :: e.1 ∧
      top ("/Cells/".toList ++ g ++ '/' :: e.1) = "Cells".toList := by
  decide +kernel

private theorem fixed_apart : ∀ off ∈ ["Offsets".toList, "OffsetsInFile".toList], ∀ e ∈ Names.particleNames,
    ∀ f ∈ Names.particleNames, "/Cells/".toList ++ "Counts".toList ++ '/' :: e.1 ≠ "/Cells/".toList ++ off ++ '/' :: f.1 := by
  decide +kernel

private theorem box_sublist (cells : Kids) :
    ((boxItems cells).map (·.1)).Sublist ["/Cells/MinPositions".toList, "/Cells/MaxPositions".toList] := by
  unfold boxItems
  split <;> simp

private def cellList (off : Str) (cw ow : List (Str × Str)) (md : Node) (cells : Kids) : List (Str × Item) :=
  [("/Cells".toList, .group), ("/Cells/Counts".toList, .group), ("/Cells/".toList ++ off, .group)] ++
    cw.map (fun w => (w.1, .counts w.2)) ++ ow.map (fun w => (w.1, .offsets w.2)) ++
    [("/Cells/Centres".toList, .sorted), ("/Cells/Meta-data".toList, .copy md)] ++ boxItems cells

private theorem cellItems_ok {root : Kids} {l groups : List Str} (u : Usual root l groups) :
    ∃ a, cellItems root (.types l) = .ok a ∧ a.Pairwise (fun e f => ¬ Clash e f) ∧ ∀ e ∈ a, e.1 ≠ [] ∧ top e.1 = "Cells".toList := by
  obtain ⟨cells, ck, ok, off, hm, hc, htc, ho, hto, hoff, ⟨ce, hce⟩, ⟨md, hmd⟩⟩ := u.cells
  have hok : KidsOk cells := (member_ok root u.ok hm).2
  have hname : offsetsName cells = off := by
    unfold offsetsName
    rcases hoff with rfl | ⟨rfl, hno⟩
    · rw [member_lookup cells hok ho]; rfl
    · rw [lookup_none hno]; rfl
  have hoff' : off ∈ ["Offsets".toList, "OffsetsInFile".toList] := by
    rcases hoff with rfl | ⟨rfl, -⟩ <;> simp
  have hk : ∀ k ∈ l, ∃ t, (t, k) ∈ Names.particleNames := fun k hkl => (u.types k hkl).imp fun t h => h.1
  obtain ⟨cw, h1, n1, p1⟩ := numbersOf_ok hok (g := "Counts".toList) (by simp) hc htc u.keys hk
  obtain ⟨ow, h2, n2, p2⟩ := numbersOf_ok hok (g := off) (by rcases hoff with rfl | ⟨rfl, -⟩ <;> simp) ho hto u.keys hk
  obtain ⟨f1, f2, f3⟩ := fixed_facts off hoff'
  have f4 := fixed_apart off hoff'
  have hbox : ∀ e ∈ boxItems cells, e.1 ∈ fixed off ∧ e.2 = .sorted := by
    rintro ⟨p, it⟩ he
    refine ⟨?_, box_sorted he⟩
    have := (box_sublist cells).subset (List.mem_map_of_mem (f := (·.1)) he)
    simp only [List.mem_cons, List.not_mem_nil, or_false] at this
    rcases this with h | h <;> simp only [h] <;> simp [fixed]
  have hcase : ∀ e ∈ cellList off cw ow md cells,
      (¬ "/Cells/Meta-data/".toList <+: e.1 ∧ top e.1 = "Cells".toList) ∧
        ∀ n, e.2 = .copy n → e.1 = "/Cells/Meta-data".toList := by
    intro e he
    simp only [cellList, List.mem_append, List.mem_cons, List.mem_map, List.not_mem_nil, or_false] at he
    rcases he with ((((rfl | rfl | rfl) | ⟨w, hw, rfl⟩) | ⟨w, hw, rfl⟩) | rfl | rfl) | he
    · exact ⟨f2 _ (by simp only [fixed]; simp), by simp⟩
    · exact ⟨f2 _ (by simp only [fixed]; simp), by simp⟩
    · exact ⟨f2 _ (by simp only [fixed]; simp), by simp⟩
    · obtain ⟨t, k, htk, hp⟩ := p1 w.1 (List.mem_map_of_mem hw)
      dsimp only
      rw [hp]
      exact ⟨(f3 _ htk _ (by simp)).2, by simp⟩
    · obtain ⟨t, k, htk, hp⟩ := p2 w.1 (List.mem_map_of_mem hw)
      dsimp only
      rw [hp]
      exact ⟨(f3 _ htk _ (by simp)).2, by simp⟩
    · exact ⟨f2 _ (by simp only [fixed]; simp), by simp⟩
    · exact ⟨f2 _ (by simp only [fixed]; simp), fun _ _ => rfl⟩
    · exact ⟨f2 _ (hbox e he).1, fun n hn => by rw [(hbox e he).2] at hn; cases hn⟩
  refine ⟨cellList off cw ow md cells,
    ?_, ?_, fun e he => ⟨fun h0 => ?_, ((hcase e he).1).2⟩⟩
  · unfold cellItems
    rw [openGroup_ok u.ok hm (.group cells)]
    dsimp only [bind, Except.bind]
    rw [h1]
    dsimp only
    rw [hname, h2]
    dsimp only
    unfold member
    rw [member_lookup cells hok hce, member_lookup cells hok hmd]
    rfl
  · have hnd : ((cellList off cw ow md cells).map (·.1)).Nodup := by
      have hbig : (cw.map (·.1) ++ (ow.map (·.1) ++ fixed off)).Nodup := by
        rw [List.nodup_append, List.nodup_append]
        refine ⟨n1, ⟨n2, f1, ?_⟩, ?_⟩
        · intro x hx y hy hxy
          subst hxy
          obtain ⟨t, k, htk, hp⟩ := p2 x hx
          exact (f3 _ htk off (by simp)).1 (hp ▸ hy)
        · intro x hx y hy hxy
          subst hxy
          obtain ⟨t, k, htk, hp⟩ := p1 x hx
          rcases List.mem_append.1 hy with hy | hy
          · obtain ⟨t', k', htk', hp'⟩ := p2 x hy
            exact f4 _ htk _ htk' (hp.symm.trans hp')
          · exact (f3 _ htk "Counts".toList (by simp)).1 (hp ▸ hy)
      have hperm : (cw.map (·.1) ++ (ow.map (·.1) ++ fixed off)).Perm
          (["/Cells".toList, "/Cells/Counts".toList, "/Cells/".toList ++ off] ++ (cw.map (·.1) ++ (ow.map (·.1) ++
            ["/Cells/Centres".toList, "/Cells/Meta-data".toList, "/Cells/MinPositions".toList, "/Cells/MaxPositions".toList]))) := by
        have e1 : fixed off = ["/Cells".toList, "/Cells/Counts".toList, "/Cells/".toList ++ off] ++
          ["/Cells/Centres".toList, "/Cells/Meta-data".toList, "/Cells/MinPositions".toList, "/Cells/MaxPositions".toList] := rfl
        rw [e1, ← List.append_assoc, ← List.append_assoc, ← List.append_assoc (cw.map (·.1)), ← List.append_assoc]
        exact (List.perm_append_comm).append_right _
      refine List.Nodup.sublist ?_ (hperm.nodup_iff.1 hbig)
      simp only [cellList, List.map_append, List.map_cons, List.map_nil, List.map_map, List.append_assoc]
      refine (List.Sublist.refl _).append ((List.Sublist.refl _).append ((List.Sublist.refl _).append ?_))
      exact ((box_sublist cells).cons_cons _).cons_cons _
    rw [List.Nodup, List.pairwise_map] at hnd
    refine hnd.imp_of_mem fun {e f} he hf hne hcl => ?_
    rcases hcl with hcl | ⟨n, hn, hpre⟩
    · exact hne hcl.symm
    · rw [(hcase e he).2 n hn] at hpre
      exact (hcase f hf).1.1 hpre
  · have := (hcase e he).1.2
    rw [h0] at this
    exact absurd this (by decide)

private theorem kids_nodup : ∀ (kids : Kids), KidsOk kids → (kids.toList.map (·.1)).Nodup
  | .nil, _ => by simp [Kids.toList]
  | .cons key n rest, h => by
    obtain ⟨h1, h2, h3, h4⟩ := h
    simp only [Kids.toList, List.map_cons, List.nodup_cons]
    refine ⟨?_, kids_nodup rest h4⟩
    intro hin
    obtain ⟨⟨k, n'⟩, hk, rfl⟩ := List.mem_map.1 hin
    exact h2 n' ((mem_toList rest).1 hk)

private theorem links_nodup : ∀ (kids : Kids), KidsOk kids → ((findLinks [] kids).map (·.1)).Nodup
  | .nil, _ => by simp [findLinks]
  | .cons key n rest, h => by
    obtain ⟨h1, h2, h3, h4⟩ := h
    have ih := links_nodup rest h4
    have hl : lstrip (sub [] key) = key := by
      unfold lstrip sub
      cases key with
      | nil => rfl
      | cons c t =>
        have : c ≠ '/' := fun h => h1 (by simp [h])
        simp [this]
    have hnot : key ∉ (findLinks [] rest).map (·.1) := by
      intro hin
      obtain ⟨⟨k, q⟩, hk, rfl⟩ := List.mem_map.1 hin
      have := ((c19_links_partial rest (fun k n hm => member_name rest h4 hm) k q).1 hk).2
      cases this with
      | step _ _ n' _ _ hm _ => exact h2 n' hm
    cases n <;> simp only [findLinks, List.map_cons, List.nodup_cons, hl] <;> first | exact ih | exact ⟨hnot, ih⟩

/-- C76: a usual snapshot can be written. (What is written is in the theorems above.) -/
theorem c76_succeeds {root : Kids} {l groups : List Str} (u : Usual root l groups) :
    ∃ out, writeTree (.types l) groups root = .ok out := by
  obtain ⟨a, ha, hpa, hta⟩ := cellItems_ok u
  obtain ⟨names, hn, hnd, -⟩ := c56_written_partial root u.ok
  have hw := fun p => written_iff u.ok hn p
  have hmk : ∀ n ∈ names, ∃ k, maskKey (.types l) n = .ok (some k) := by
    intro p hp
    obtain ⟨ks, hks, rfl⟩ := (hw p).1 hp
    obtain ⟨t, r, k, rfl, htk, hkl⟩ := u.data ks hks
    obtain ⟨_, n, _, e, hm, -⟩ := wanted_cons hks
    obtain ⟨rfl, rfl⟩ := List.cons.inj e
    exact ⟨k, (maskKey_types (member_name root u.ok hm) (fun h => u.named n (h ▸ hm)) r k).2 ⟨htk, hkl⟩⟩
  obtain ⟨c, hc, hcn⟩ := dataItems_ok (.types l) names hmk
  obtain ⟨-, hcm⟩ := dataItems_spec (.types l) names c hc
  obtain ⟨cells, -, -, -, hcells, -⟩ := u.cells
  have hnames : ∀ k n, Member root k n → '/' ∉ k := fun k n hm => member_name root u.ok hm
  -- the first parts of the paths
  have htop : ∀ e ∈ topItems ((findLinks [] root).map (·.1)) groups root, e.1 ≠ [] ∧ ∃ key n, Member root key n ∧ e.1 = '/' :: key ∧
      top e.1 = key ∧ Free root groups key := by
    rintro ⟨p, it⟩ he
    obtain ⟨key, n, hm, hs, rfl, -⟩ := mem_top.1 he
    exact ⟨List.cons_ne_nil _ _, key, n, hm, rfl, top_slash (hnames key n hm), (topSkipped_iff u.ok groups key).1 hs⟩
  have hrow : ∀ e ∈ c, e.1 ≠ [] ∧ (∀ n, e.2 ≠ .copy n) ∧ ∃ t ks k, Wanted root (t :: ks) ∧ e.1 = render (t :: ks) ∧ top e.1 = t ∧
      (t, k) ∈ Names.particleNames ∧ k ∈ l := by
    rintro ⟨p, it⟩ he
    obtain ⟨hp, k, rfl, -⟩ := (hcm p it).1 he
    obtain ⟨ks, hks, rfl⟩ := (hw p).1 hp
    obtain ⟨t, r, k, rfl, htk, hkl⟩ := u.data ks hks
    obtain ⟨_, n, _, e, hm, -⟩ := wanted_cons hks
    obtain ⟨rfl, rfl⟩ := List.cons.inj e
    exact ⟨by simp [render], by simp, t, r, k, hks, rfl, top_render (hnames t n hm) r, htk, hkl⟩
  have hlink : ∀ e ∈ linkItems (findLinks [] root), e.1 ≠ [] ∧ (∀ n, e.2 ≠ .copy n) ∧ ∃ key q, LinkAt (.group root) [key] q ∧ key ≠ [] ∧
      e.1 = '/' :: key ∧ top e.1 = key := by
    rintro ⟨p, it⟩ he
    obtain ⟨key, q, hk, rfl, rfl⟩ := mem_links.1 he
    obtain ⟨hs, hl⟩ := (c19_links_partial root hnames key q).1 hk
    refine ⟨List.cons_ne_nil _ _, fun _ h => (by cases h), key, q, hl, ?_, rfl, top_slash hs⟩
    cases hl with
    | step _ _ n _ _ hm _ => exact fun h => u.named n (h ▸ hm)
  have hlc : ∀ key q, LinkAt (.group root) [key] q → key ≠ "Cells".toList := by
    rintro key q hl rfl
    cases hl with
    | step _ _ n _ _ hm hl' =>
      have h1 := member_lookup root u.ok hm
      rw [member_lookup root u.ok hcells] at h1
      cases h1
      cases hl'
  refine ⟨a ++ topItems ((findLinks [] root).map (·.1)) groups root ++ c ++ linkItems (findLinks [] root), ?_⟩
  unfold writeTree
  rw [ha, hn]
  dsimp only [bind, Except.bind]
  rw [hc]
  dsimp only
  refine (createAll_iff _ _ _).2 ⟨rfl, by simp, ?_⟩
  rw [List.pairwise_append, List.pairwise_append, List.pairwise_append]
  refine ⟨⟨⟨hpa, ?_, ?_⟩, ?_, ?_⟩, ?_, ?_⟩
  · -- copies
    have hkn : ((topItems ((findLinks [] root).map (·.1)) groups root).map (fun e => top e.1)).Nodup := by
      have e1 : (topItems ((findLinks [] root).map (·.1)) groups root).map (fun e => top e.1) =
          (root.toList.filter (fun e => !topSkipped ((findLinks [] root).map (·.1)) groups e.1)).map (·.1) := by
        unfold topItems
        rw [List.map_map]
        refine List.map_congr_left fun e he => ?_
        exact top_slash (hnames e.1 e.2 ((mem_toList root).1 (List.mem_filter.1 he).1))
      rw [e1]
      exact (kids_nodup root u.ok).sublist (List.filter_sublist.map _)
    rw [List.Nodup, List.pairwise_map] at hkn
    exact hkn.imp_of_mem fun {e f} he hf hne hcl => hne (clash_top (htop e he).1 hcl).symm
  · -- cells and copies
    intro e he f hf hcl
    obtain ⟨-, key, n, -, -, h3, h4⟩ := htop f hf
    have := clash_top (hta e he).1 hcl
    rw [h3, (hta e he).2] at this
    exact h4.cells (this ▸ List.infix_rfl)
  · -- data
    have : (c.map (·.1)).Nodup := hcn ▸ hnd
    rw [List.Nodup, List.pairwise_map] at this
    refine this.imp_of_mem fun {e f} he hf hne hcl => ?_
    rcases hcl with h | ⟨n, h, -⟩
    · exact hne h.symm
    · exact (hrow e he).2.1 n h
  · intro e he f hf hcl
    obtain ⟨-, -, t, ks, k, hwt, h1, h2, htk, hkl⟩ := hrow f hf
    rcases List.mem_append.1 he with he | he
    · have := clash_top (hta e he).1 hcl
      rw [h2, (hta e he).2] at this
      subst this
      exact hwt.cells ⟨['/'], render ks, by simp [render]⟩
    · obtain ⟨h0, key, n, hm, -, h3, h4⟩ := htop e he
      have := clash_top h0 hcl
      rw [h2, h3] at this
      subst this
      obtain ⟨t', ht', htg⟩ := u.types k hkl
      have htt : t' = t := by
        have : ∀ e ∈ Names.particleNames, ∀ f ∈ Names.particleNames, e.2 = f.2 → e.1 = f.1 := by decide +kernel
        exact this _ ht' _ htk rfl
      subst htt
      have hself := takeWhile_name (hnames _ n hm)
      exact h4.groups _ htg (by rw [hself]; exact fun h => u.named n (h ▸ hm)) (by rw [hself])
  · -- links
    have hkn := links_nodup root u.ok
    unfold linkItems
    rw [List.pairwise_map]
    rw [List.Nodup, List.pairwise_map] at hkn
    refine hkn.imp fun {e f} hne hcl => ?_
    rcases hcl with h | ⟨n, h, -⟩
    · exact hne (List.cons.inj h).2.symm
    · cases h
  · intro e he f hf hcl
    obtain ⟨-, -, s, q, hl, hs, h1, h2⟩ := hlink f hf
    rcases List.mem_append.1 he with he | he
    · rcases List.mem_append.1 he with he | he
      · have := clash_top (hta e he).1 hcl
        rw [h2, (hta e he).2] at this
        exact hlc s q hl this
      · obtain ⟨h0, key, n, hm, -, h3, h4⟩ := htop e he
        have := clash_top h0 hcl
        rw [h2, h3] at this
        subst this
        exact h4.links s q hs hl List.infix_rfl
    · obtain ⟨-, h0, t, ks, k, hwt, h3, -⟩ := hrow e he
      rcases hcl with h | ⟨n, h, -⟩
      · rw [h1, h3] at h
        exact hwt.links s q hs hl (h ▸ ⟨['/'], [], by simp⟩)
      · exact h0 n h

/-- A snapshot of gas and stars with a link, a header, units and a table of names. -/
private def snap (extra : Kids) : Kids :=
  .cons "Cells".toList (.group (.cons "Centres".toList .data (.cons "Counts".toList
      (.group (.cons "PartType0".toList .data (.cons "PartType1".toList .data (.cons "PartType4".toList .data .nil))))
    (.cons "Meta-data".toList (.group .nil) (.cons "OffsetsInFile".toList
      (.group (.cons "PartType0".toList .data (.cons "PartType1".toList .data (.cons "PartType4".toList .data .nil)))) .nil)))))
  (.cons "GasParticles".toList (.link "/PartType0".toList (.group (.cons "Masses".toList .data .nil)))
  (.cons "Header".toList (.group .nil)
  (.cons "PartType0".toList (.group (.cons "Masses".toList .data .nil))
  (.cons "PartType4".toList (.group (.cons "Ages".toList .data (.cons "Masses".toList .data .nil)))
  (.cons "SubgridScheme".toList (.group (.cons "NamedColumns".toList (.group (.cons "Fractions".toList .data .nil)) .nil))
  (.cons "Units".toList (.group .nil) extra))))))

/-- The objects of its subset. The counts of the dark matter, of which there is none, are gone. -/
example : (writeTree (.types ["gas".toList, "stars".toList]) ["PartType0".toList, "PartType4".toList] (snap .nil)).toOption.map
    (·.map (·.1)) = some (["/Cells", "/Cells/Counts", "/Cells/OffsetsInFile", "/Cells/Counts/PartType0", "/Cells/Counts/PartType4",
      "/Cells/OffsetsInFile/PartType0", "/Cells/OffsetsInFile/PartType4", "/Cells/Centres", "/Cells/Meta-data", "/Header",
      "/SubgridScheme", "/Units", "/PartType0/Masses", "/PartType4/Ages", "/PartType4/Masses", "/GasParticles"].map
        String.toList) := by decide +kernel

/-- A group whose name contains `Cells` is not copied. -/
example : ("/VoronoiCells".toList ∈ ((writeTree (.types ["gas".toList, "stars".toList]) ["PartType0".toList, "PartType4".toList]
    (snap (.cons "VoronoiCells".toList (.group .nil) .nil))).toOption.getD []).map (·.1)) = False := by decide +kernel

/-- A group with a dataset beside the particles makes the write raise: RuntimeError with masks by type, ValueError with one
shared mask. -/
example : (writeTree (.types ["gas".toList, "stars".toList]) ["PartType0".toList, "PartType4".toList]
      (snap (.cons "Provenance".toList (.group (.cons "Log".toList .data .nil)) .nil))).map (fun _ => ()) = .error .runtime ∧
    (writeTree .shared ["PartType0".toList, "PartType4".toList]
      (snap (.cons "Provenance".toList (.group (.cons "Log".toList .data .nil)) .nil))).map (fun _ => ()) = .error .value := by
  decide +kernel

/-- One mask for all groups: every table of counts gets its numbers, also that of the dark matter, of which there is none. -/
example : ((writeTree .shared ["PartType0".toList, "PartType4".toList] (snap .nil)).toOption.map fun out =>
    out.filterMap fun e => match e.2 with | .counts k => some (e.1, k) | _ => none) =
    some [("/Cells/Counts/PartType0".toList, "shared".toList), ("/Cells/Counts/PartType1".toList, "shared".toList),
      ("/Cells/Counts/PartType4".toList, "shared".toList)] := by
  decide +kernel

end Verif.Props
