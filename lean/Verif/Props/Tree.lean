import Verif.Spec.Tree

/-!
# C19, C56: datasets and links found by `swiftsimio/subset_writer.py`
-/

namespace Verif.Props
open Verif Verif.Spec Verif.Tree

theorem member_nil {k : Str} {n : Node} : ¬ Member .nil k n := by intro h; cases h

theorem member_cons {key : Str} {n : Node} {rest : Kids} {k : Str} {n' : Node} :
    Member (.cons key n rest) k n' ↔ (k = key ∧ n' = n) ∨ Member rest k n' := by
  constructor
  · intro h
    cases h with
    | here => exact Or.inl ⟨rfl, rfl⟩
    | there _ _ _ _ _ h => exact Or.inr h
  · rintro (⟨rfl, rfl⟩ | h)
    · exact .here _ _ _
    · exact .there _ _ _ _ _ h

private theorem sub_append (path key : Str) (ks : List Str) : sub path key ++ render ks = path ++ render (key :: ks) := by
  simp [sub, render]

mutual
theorem findNode_spec (n : Node) (h : NodeOk n) (path : Str) :
    ∃ l, findNode path n = .ok l ∧ ∀ p, p ∈ l ↔ ∃ ks, Reaches n ks ∧ p = path ++ render ks := by
  cases n with
  | data =>
    refine ⟨[path], rfl, fun p => ?_⟩
    constructor
    · intro hp
      exact ⟨[], .data, by simpa [render] using hp⟩
    · rintro ⟨ks, hr, rfl⟩
      cases hr; simp [render]
  | group kids =>
    obtain ⟨l, e, hl⟩ := findDatasets_spec kids h path
    refine ⟨l, by simp only [findNode]; exact e, fun p => ?_⟩
    rw [hl]
    constructor
    · rintro ⟨key, n, ks, hm, hr, rfl⟩
      exact ⟨key :: ks, .step _ _ _ _ hm hr, rfl⟩
    · rintro ⟨ks, hr, rfl⟩
      cases hr with
      | step _ key n ks hm hr => exact ⟨key, n, ks, hm, hr, rfl⟩
  | link q n =>
    obtain ⟨l, e, hl⟩ := findNode_spec n h path
    refine ⟨l, by simp only [findNode]; exact e, fun p => ?_⟩
    rw [hl]
    constructor
    · rintro ⟨ks, hr, rfl⟩; exact ⟨ks, .link _ _ _ hr, rfl⟩
    · rintro ⟨ks, hr, rfl⟩
      cases hr with
      | link _ _ _ hr => exact ⟨ks, hr, rfl⟩
  | dangling q => exact absurd h (by simp [NodeOk])
theorem findDatasets_spec (kids : Kids) (h : KidsOk kids) (path : Str) :
    ∃ l, findDatasets path kids = .ok l ∧
      ∀ p, p ∈ l ↔ ∃ key n ks, Member kids key n ∧ Reaches n ks ∧ p = path ++ render (key :: ks) := by
  cases kids with
  | nil =>
    refine ⟨[], rfl, fun p => ?_⟩
    simp only [List.not_mem_nil, false_iff]
    rintro ⟨_, _, _, hm, _⟩
    exact member_nil hm
  | cons key n rest =>
    obtain ⟨h1, h2, h3, h4⟩ := h
    obtain ⟨a, ea, ha⟩ := findNode_spec n h3 (sub path key)
    obtain ⟨b, eb, hb⟩ := findDatasets_spec rest h4 path
    refine ⟨a ++ b, by simp only [findDatasets]; rw [ea, eb]; rfl, fun p => ?_⟩
    rw [List.mem_append, ha, hb]
    constructor
    · rintro (⟨ks, hr, rfl⟩ | ⟨k, n', ks, hm, hr, rfl⟩)
      · exact ⟨key, n, ks, .here _ _ _, hr, by rw [sub_append]⟩
      · exact ⟨k, n', ks, .there _ _ _ _ _ hm, hr, rfl⟩
    · rintro ⟨k, n', ks, hm, hr, rfl⟩
      rcases member_cons.mp hm with ⟨rfl, rfl⟩ | hm
      · exact Or.inl ⟨ks, hr, by rw [sub_append]⟩
      · exact Or.inr ⟨k, n', ks, hm, hr, rfl⟩
end

/-- keys without separator followed by nothing or a separator are determined by the path -/
theorem key_unique : ∀ (a b ra rb : Str), '/' ∉ a → '/' ∉ b → (ra = [] ∨ ∃ r, ra = '/' :: r) →
    (rb = [] ∨ ∃ r, rb = '/' :: r) → a ++ ra = b ++ rb → a = b
  | [], [], _, _, _, _, _, _, _ => rfl
  | [], y :: b, ra, rb, _, hb, hra, _, h => by
    rcases hra with rfl | ⟨r, rfl⟩
    · simp at h
    · simp at h
      simp [← h.1] at hb
  | x :: a, [], ra, rb, ha, _, _, hrb, h => by
    rcases hrb with rfl | ⟨r, rfl⟩
    · simp at h
    · simp at h
      simp [h.1] at ha
  | x :: a, y :: b, ra, rb, ha, hb, hra, hrb, h => by
    simp only [List.cons_append, List.cons.injEq] at h
    rw [h.1, key_unique a b ra rb (fun h => ha (by simp [h])) (fun h => hb (by simp [h])) hra hrb h.2]

theorem render_shape (ks : List Str) : render ks = [] ∨ ∃ r, render ks = '/' :: r := by
  cases ks with
  | nil => exact Or.inl rfl
  | cons k ks => exact Or.inr ⟨_, rfl⟩

theorem member_ok : ∀ (kids : Kids), KidsOk kids → ∀ {k : Str} {n : Node}, Member kids k n → '/' ∉ k ∧ NodeOk n
  | .nil, _, _, _, hm => absurd hm member_nil
  | .cons key n rest, h, k, n', hm => by
    obtain ⟨h1, h2, h3, h4⟩ := h
    rcases member_cons.mp hm with ⟨rfl, rfl⟩ | hm
    · exact ⟨h1, h3⟩
    · exact member_ok rest h4 hm

mutual
theorem findNode_nodup (n : Node) (h : NodeOk n) (path : Str) (l : List Str) (e : findNode path n = .ok l) :
    l.Nodup := by
  cases n with
  | data =>
    simp only [findNode, Except.ok.injEq] at e
    subst e; simp
  | group kids => simp only [findNode] at e; exact findDatasets_nodup kids h path l e
  | link q n => simp only [findNode] at e; exact findNode_nodup n h path l e
  | dangling q => exact absurd h (by simp [NodeOk])
theorem findDatasets_nodup (kids : Kids) (h : KidsOk kids) (path : Str) (l : List Str)
    (e : findDatasets path kids = .ok l) : l.Nodup := by
  cases kids with
  | nil =>
    simp only [findDatasets, Except.ok.injEq] at e
    subst e; simp
  | cons key n rest =>
    obtain ⟨h1, h2, h3, h4⟩ := h
    obtain ⟨a, ea, ha⟩ := findNode_spec n h3 (sub path key)
    obtain ⟨b, eb, hb⟩ := findDatasets_spec rest h4 path
    simp only [findDatasets] at e
    rw [ea, eb] at e
    have e' : a ++ b = l := Except.ok.inj e
    rw [← e', List.nodup_append]
    refine ⟨findNode_nodup n h3 _ a ea, findDatasets_nodup rest h4 path b eb, ?_⟩
    intro x hx y hy hxy
    subst hxy
    obtain ⟨ks, _, hp⟩ := (ha x).mp hx
    obtain ⟨k, n', ks', hm, _, hp'⟩ := (hb x).mp hy
    rw [hp, sub_append] at hp'
    have hp2 := List.append_cancel_left hp'
    simp only [render, List.cons_append, List.cons.injEq, true_and] at hp2
    have := key_unique _ _ _ _ h1 (member_ok rest h4 hm).1 (render_shape ks) (render_shape ks') hp2
    subst this
    exact h2 n' hm
end

/-- C19, datasets. For every file tree whose links resolve, the list of datasets contains the path of every dataset that
can be reached, and nothing else, each path once. (Paths through soft links count as paths, as in the code.) -/
theorem c19_datasets (root : Kids) (h : KidsOk root) :
    ∃ l, findDatasets [] root = .ok l ∧ l.Nodup ∧ ∀ p, p ∈ l ↔ ∃ ks, Reaches (.group root) ks ∧ p = render ks := by
  obtain ⟨l, e, hl⟩ := findDatasets_spec root h []
  refine ⟨l, e, findDatasets_nodup root h [] l e, fun p => ?_⟩
  rw [hl]
  constructor
  · rintro ⟨key, n, ks, hm, hr, rfl⟩
    exact ⟨key :: ks, .step _ _ _ _ hm hr, rfl⟩
  · rintro ⟨ks, hr, rfl⟩
    cases hr with
    | step _ key n ks hm hr => exact ⟨key, n, ks, hm, hr, rfl⟩

/-- a particle group, a soft link to it and a nested soft link -/
def exTree : Kids :=
  .cons "GasParticles".toList (.link "/PartType0".toList
    (.group (.cons "Masses".toList .data (.cons "Old".toList (.link "Masses".toList .data) .nil))))
  (.cons "PartType0".toList
    (.group (.cons "Masses".toList .data (.cons "Old".toList (.link "Masses".toList .data) .nil))) .nil)

example : KidsOk exTree ∧ findDatasets [] exTree = .ok ["/GasParticles/Masses".toList, "/GasParticles/Old".toList,
    "/PartType0/Masses".toList, "/PartType0/Old".toList] := by
  refine ⟨?_, by decide +kernel⟩
  simp [exTree, KidsOk, NodeOk, member_cons, member_nil]

/-- C19: a dangling soft link makes the search raise KeyError. -/
theorem c19_dangling_raises :
    findDatasets [] (.cons "a".toList .data (.cons "b".toList (.dangling "/c".toList) .nil)) = .error .key := by
  decide +kernel

private theorem lstrip_sub (key : Str) (h : '/' ∉ key) : lstrip (sub [] key) = key := by
  unfold lstrip sub
  rw [List.nil_append, List.dropWhile_cons_of_pos (by simp)]
  cases key with
  | nil => rfl
  | cons c cs =>
    rw [List.dropWhile_cons_of_neg]
    simp only [List.mem_cons, not_or] at h
    simpa using fun e => h.1 e.symm

/-- C19, links, the part that holds: the links found are exactly the soft links among the direct members of the root, with
the stored path, dangling or not. (The full statement -- soft links at every depth -- fails, `c19_nested_links_fails`.) -/
theorem c19_links_partial : ∀ (root : Kids), (∀ key n, Member root key n → '/' ∉ key) → ∀ (name p : Str),
    (name, p) ∈ findLinks [] root ↔ '/' ∉ name ∧ LinkAt (.group root) [name] p
  | .nil, _, name, p => by
    simp only [findLinks, List.not_mem_nil, false_iff]
    rintro ⟨_, h⟩
    cases h with
    | step _ _ n _ _ hm _ => exact member_nil hm
  | .cons key n rest, h, name, p => by
    have h1 : '/' ∉ key := h key n (.here _ _ _)
    have ih := c19_links_partial rest (fun k n' hm => h k n' (.there _ _ _ _ _ hm)) name p
    have hone : ∀ n', LinkAt n' [] p ↔ (∃ m, n' = .link p m) ∨ n' = .dangling p := by
      intro n'
      constructor
      · intro hl
        cases hl with
        | link p n => exact Or.inl ⟨_, rfl⟩
        | dangling p => exact Or.inr rfl
      · rintro (⟨m, rfl⟩ | rfl)
        · exact .link _ _
        · exact .dangling _
    have hat : ∀ kids, LinkAt (.group kids) [name] p ↔ ∃ n', Member kids name n' ∧ LinkAt n' [] p := by
      intro kids
      constructor
      · intro hl
        cases hl with
        | step _ _ n' _ _ hm hl => exact ⟨n', hm, hl⟩
      · rintro ⟨n', hm, hl⟩; exact .step _ _ _ _ _ hm hl
    rw [hat] at ih ⊢
    have hexp : (∃ n', Member (.cons key n rest) name n' ∧ LinkAt n' [] p) ↔
        (name = key ∧ LinkAt n [] p) ∨ ∃ n', Member rest name n' ∧ LinkAt n' [] p := by
      constructor
      · rintro ⟨n', hm, hl⟩
        rcases member_cons.mp hm with ⟨rfl, rfl⟩ | hm
        · exact Or.inl ⟨rfl, hl⟩
        · exact Or.inr ⟨n', hm, hl⟩
      · rintro (⟨rfl, hl⟩ | ⟨n', hm, hl⟩)
        · exact ⟨n, .here _ _ _, hl⟩
        · exact ⟨n', .there _ _ _ _ _ hm, hl⟩
    rw [hexp]
    cases n with
    | data =>
      have : ¬ LinkAt .data [] p := by intro hl; cases hl
      simp only [findLinks, this, and_false, false_or]
      exact ih
    | group k =>
      have : ¬ LinkAt (.group k) [] p := by intro hl; cases hl
      simp only [findLinks, this, and_false, false_or]
      exact ih
    | dangling q =>
      simp only [findLinks, List.mem_cons, Prod.mk.injEq, lstrip_sub key h1, ih]
      have hq : LinkAt (.dangling q) [] p ↔ p = q := by
        constructor
        · intro hl; cases hl; rfl
        · rintro rfl; exact .dangling _
      rw [hq]
      constructor
      · rintro (⟨rfl, rfl⟩ | ⟨ha, hb⟩)
        · exact ⟨h1, Or.inl ⟨rfl, rfl⟩⟩
        · exact ⟨ha, Or.inr hb⟩
      · rintro ⟨ha, ⟨rfl, rfl⟩ | hb⟩
        · exact Or.inl ⟨rfl, rfl⟩
        · exact Or.inr ⟨ha, hb⟩
    | link q m =>
      simp only [findLinks, List.mem_cons, Prod.mk.injEq, lstrip_sub key h1, ih]
      have hq : LinkAt (.link q m) [] p ↔ p = q := by
        constructor
        · intro hl; cases hl; rfl
        · rintro rfl; exact .link _ _
      rw [hq]
      constructor
      · rintro (⟨rfl, rfl⟩ | ⟨ha, hb⟩)
        · exact ⟨h1, Or.inl ⟨rfl, rfl⟩⟩
        · exact ⟨ha, Or.inr hb⟩
      · rintro ⟨ha, ⟨rfl, rfl⟩ | hb⟩
        · exact Or.inl ⟨rfl, rfl⟩
        · exact Or.inr ⟨ha, hb⟩

/-- C19 fails for nested links: the link `/PartType0/Old` exists but is not found; the dataset it points to is written a
second time under the name of the link. -/
theorem c19_nested_links_fails :
    LinkAt (.group exTree) ["PartType0".toList, "Old".toList] "Masses".toList ∧
    findLinks [] exTree = [("GasParticles".toList, "/PartType0".toList)] ∧
    written exTree = .ok ["/PartType0/Masses".toList, "/PartType0/Old".toList] := by
  refine ⟨?_, by decide +kernel, by decide +kernel⟩
  unfold exTree
  exact .step _ _ _ _ _ (.there _ _ _ _ _ (.here _ _ _))
    (.step _ _ _ _ _ (.there _ _ _ _ _ (.here _ _ _)) (.link _ _))

/-! ## C56 -/

private theorem not_skipped (links : List Str) (name : Str) :
    skipped links name = false ↔ ∀ s ∈ links ++ reserved, s ≠ [] → ¬ s <:+: name := by
  unfold skipped
  rw [List.any_eq_false]
  constructor
  · intro h s hs hne hi
    have := h s hs
    simp [hne, hi] at this
  · intro h s hs
    by_cases hne : s = []
    · simp [hne]
    · simp [h s hs hne]

/-- C56, the part that holds: the datasets written are exactly those whose path contains neither the name of a soft
link of the root nor one of the words `Cells`, `SubgridScheme` and `PartTypeNames`, each once. (The full statement -- all
datasets of the particle groups -- fails, `c56_substring_fails`.) -/
theorem c56_written_partial (root : Kids) (h : KidsOk root) :
    ∃ l, written root = .ok l ∧ l.Nodup ∧ ∀ p, p ∈ l ↔ ∃ ks, Reaches (.group root) ks ∧ p = render ks ∧
      (∀ key q, key ≠ [] → LinkAt (.group root) [key] q → ¬ key <:+: p) ∧
      ¬ "Cells".toList <:+: p ∧ ¬ "SubgridScheme".toList <:+: p ∧ ¬ "PartTypeNames".toList <:+: p := by
  obtain ⟨l, e, hn, hl⟩ := c19_datasets root h
  refine ⟨l.filter (fun n => !skipped ((findLinks [] root).map (·.1)) n), ?_, hn.filter _, ?_⟩
  · unfold written; rw [e]; rfl
  intro p
  have hnames : ∀ key n, Member root key n → '/' ∉ key := fun key n hm => (member_ok root h hm).1
  have hs : (!skipped ((findLinks [] root).map (·.1)) p) = true ↔
      (∀ key q, key ≠ [] → LinkAt (.group root) [key] q → ¬ key <:+: p) ∧
      ¬ "Cells".toList <:+: p ∧ ¬ "SubgridScheme".toList <:+: p ∧ ¬ "PartTypeNames".toList <:+: p := by
    rw [Bool.not_eq_true', not_skipped]
    constructor
    · intro hall
      refine ⟨?_, hall _ ?_ (by decide), hall _ ?_ (by decide), hall _ ?_ (by decide)⟩
      · intro key q hk hq
        have hno : '/' ∉ key := by
          cases hq with
          | step _ _ n _ _ hm _ => exact hnames key n hm
        exact hall key (List.mem_append_left _ (List.mem_map.mpr
          ⟨_, (c19_links_partial root hnames key q).mpr ⟨hno, hq⟩, rfl⟩)) hk
      · exact List.mem_append_right _ (List.mem_cons_self)
      · exact List.mem_append_right _ (List.mem_cons_of_mem _ List.mem_cons_self)
      · exact List.mem_append_right _ (List.mem_cons_of_mem _ (List.mem_cons_of_mem _ List.mem_cons_self))
    · rintro ⟨h1, h2, h3, h4⟩ s hs hne
      rcases List.mem_append.mp hs with hs | hs
      · obtain ⟨⟨k, q⟩, hkq, rfl⟩ := List.mem_map.mp hs
        exact h1 k q hne ((c19_links_partial root hnames k q).mp hkq).2
      · simp only [reserved, List.mem_cons, List.not_mem_nil, or_false] at hs
        rcases hs with hs | hs | hs
        · rw [hs]; exact h2
        · rw [hs]; exact h3
        · rw [hs]; exact h4
  rw [List.mem_filter, hl, hs]
  constructor
  · rintro ⟨⟨ks, hr, rfl⟩, h'⟩; exact ⟨ks, hr, rfl, h'⟩
  · rintro ⟨ks, hr, rfl, h'⟩; exact ⟨⟨ks, hr, rfl⟩, h'⟩

/-- C56. Nothing that is reached through a soft link of the root is written. -/
theorem c56_not_through_links (root : Kids) (h : KidsOk root) (l : List Str) (hl : written root = .ok l) (key p : Str)
    (n : Node) (ks : List Str) (hk : key ≠ []) (hm : Member root key (.link p n)) : render (key :: ks) ∉ l := by
  obtain ⟨l', e, _, hiff⟩ := c56_written_partial root h
  rw [e] at hl
  cases hl
  intro hin
  obtain ⟨_, _, _, h1, _⟩ := (hiff _).mp hin
  exact h1 key p hk (.step _ _ _ _ _ hm (.link _ _)) ⟨['/'], render ks, by simp [render]⟩

example : written exTree = .ok ["/PartType0/Masses".toList, "/PartType0/Old".toList] := by decide +kernel

/-- C56 fails for names that contain a reserved word or the name of a link: the particle dataset is silently dropped. -/
theorem c56_substring_fails :
    written (.cons "PartType0".toList (.group (.cons "CellsVisited".toList .data (.cons "Masses".toList .data .nil))) .nil)
      = .ok ["/PartType0/Masses".toList] ∧
    written (.cons "FOF".toList (.link "/PartType0".toList (.group (.cons "FOFGroupIDs".toList .data .nil)))
      (.cons "PartType0".toList (.group (.cons "FOFGroupIDs".toList .data .nil)) .nil)) = .ok [] := by
  decide +kernel

end Verif.Props
