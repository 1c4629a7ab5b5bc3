import Verif.Lemmas.Writer
import Mathlib.Data.List.Induction

/-!
# The snapshot writer: particle IDs (C30) and consistency of groups (C31)
-/

namespace Verif.Props
open Verif Verif.Writer Verif.Spec

variable {α : Type}

private theorem massTable_iff {w : State α} {names : List (Nat × Nat × Bool)}
    (hc : ∀ x : Nat × Nat × Bool, x ∈ names → ∃ (r : List Nat) (d : List α),
      (w x.1).field .masses = some ⟨some r, d⟩ ∧ d.length = x.2.1) :
    (∀ x : Nat × Nat × Bool, x ∈ names → 0 < x.2.1) ↔ ∃ m : List α, massTable w names = .ok m := by
  unfold massTable
  induction names with
  | nil => exact ⟨fun _ => ⟨[], rfl⟩, fun _ => by simp⟩
  | cons x l ih =>
    have ih := ih (fun y hy => hc y (List.mem_cons_of_mem _ hy))
    obtain ⟨r, d, e1, e2⟩ := hc x (List.mem_cons_self ..)
    rw [List.mapM_cons, e1]
    cases d with
    | nil =>
      constructor
      · intro h
        have := h x (List.mem_cons_self ..)
        simp at e2
        omega
      · rintro ⟨m, hm⟩; cases hm
    | cons a d =>
      constructor
      · intro h
        obtain ⟨m, hm⟩ := ih.mp (fun y hy => h y (List.mem_cons_of_mem _ hy))
        exact ⟨a :: m, by simp only [hm]; rfl⟩
      · rintro ⟨m, hm⟩ y hy
        rcases List.mem_cons.mp hy with rfl | hy
        · rw [← e2]; simp
        · refine ih.mpr ?_ y hy
          simp only [bind, Except.bind] at hm
          split at hm
          · cases hm
          · rename_i v hv
            exact ⟨v, hv⟩

private theorem massTable_error {w : State α} {names : List (Nat × Nat × Bool)}
    (hc : ∀ x : Nat × Nat × Bool, x ∈ names → ∃ (r : List Nat) (d : List α),
      (w x.1).field .masses = some ⟨some r, d⟩ ∧ d.length = x.2.1) {e : Err} (h : massTable w names = .error e) : e = .index := by
  unfold massTable at h
  induction names with
  | nil => cases h
  | cons x l ih =>
    have ih := ih (fun y hy => hc y (List.mem_cons_of_mem _ hy))
    obtain ⟨r, d, e1, e2⟩ := hc x (List.mem_cons_self ..)
    rw [List.mapM_cons, e1] at h
    cases d with
    | nil => cases h; rfl
    | cons a d =>
      simp only [bind, Except.bind] at h
      split at h
      · rename_i v hv
        cases h
        exact ih hv
      · cases h

/-- The state of the IDs when the file is opened. -/
structure Ready (w w' : State α) (names : List (Nat × Nat × Bool)) : Prop where
  types : names.map Prod.fst = toWrite w
  cons : ∀ x : Nat × Nat × Bool, x ∈ names → Consistent (w x.1) x.1 x.2.1
  field : ∀ t : Nat, (w' t).field = (w t).field
  ids : ∀ x : Nat × Nat × Bool, x ∈ names → ∃ l : List Int, (w' x.1).ids = some l ∧ l.length = x.2.1
  all : ((∃ t : Nat, t ∈ toWrite w ∧ (w t).ids = none) ∧
      names.flatMap (fun x => (w' x.1).ids.getD []) = arange 1 (names.map (fun x => x.2.1)).sum) ∨
    ((∀ t : Nat, t ∈ toWrite w → (w t).ids ≠ none) ∧ w' = w ∧ (allIds w).Nodup ∧ toWrite w ≠ [])

private theorem missing_iff {w : State α} {names : List (Nat × Nat × Bool)} (h1 : names.map Prod.fst = toWrite w)
    (h2 : ∀ x : Nat × Nat × Bool, x ∈ names → Consistent (w x.1) x.1 x.2.1 ∧ x.2.2 = (w x.1).ids.isNone) :
    names.any (fun x => x.2.2) = true ↔ ∃ t : Nat, t ∈ toWrite w ∧ (w t).ids = none := by
  rw [List.any_eq_true]
  constructor
  · rintro ⟨x, hx, e⟩
    refine ⟨x.1, h1 ▸ List.mem_map_of_mem hx, ?_⟩
    rw [(h2 x hx).2] at e
    simpa using e
  · rintro ⟨t, ht, e⟩
    rw [← h1] at ht
    obtain ⟨x, hx, rfl⟩ := List.mem_map.mp ht
    exact ⟨x, hx, by rw [(h2 x hx).2, e]; rfl⟩

private theorem all_eq {w : State α} {names : List (Nat × Nat × Bool)} (h1 : names.map Prod.fst = toWrite w) :
    names.flatMap (fun x => ((w x.1).ids).getD []) = allIds w := by
  unfold allIds
  rw [← h1, List.flatMap_map]

private theorem write_cases (extra : Option (List Nat)) (w : State α) :
    (∃ e : Err, write extra w = ⟨w, false, .error e⟩) ∨
      ∃ (names : List (Nat × Nat × Bool)) (w' : State α), Ready w w' names ∧ write extra w = ⟨w', true, writeFile extra w' names⟩ := by
  unfold write
  cases hc : collect w (List.range 8) with
  | error e => exact .inl ⟨e, rfl⟩
  | ok names =>
    obtain ⟨h1, h2⟩ := collect_ok hc
    change names.map Prod.fst = toWrite w at h1
    have hnd : (names.map Prod.fst).Nodup := h1 ▸ toWrite_nodup w
    simp only
    split
    · rename_i hm
      have hm := (missing_iff h1 h2).mp hm
      have hmap : (names.map (fun x => (x.1, x.2.1))).map Prod.fst = names.map Prod.fst := by simp
      obtain ⟨w', e, g1, g2, g3, g4⟩ := generateIds_ok (names.map (fun x => (x.1, x.2.1))) 1 w (by omega) (by rw [hmap]; exact hnd)
      right
      refine ⟨names, w', ⟨h1, fun x hx => (h2 x hx).1, g1, ?_, .inl ⟨hm, ?_⟩⟩, by rw [e]⟩
      · intro x hx
        obtain ⟨k, -, ek⟩ := g3 (x.1, x.2.1) (List.mem_map.mpr ⟨x, hx, rfl⟩)
        exact ⟨_, ek, arange_length _ _⟩
      · rw [List.flatMap_map, List.map_map] at g4
        exact g4
    · rename_i hm
      have hm : ∀ t : Nat, t ∈ toWrite w → (w t).ids ≠ none := by
        intro t ht e
        exact hm ((missing_iff h1 h2).mpr ⟨t, ht, e⟩)
      split
      · exact .inl ⟨_, rfl⟩
      · rename_i hne
        split
        · exact .inl ⟨_, rfl⟩
        · rename_i hd
          right
          refine ⟨names, w, ⟨h1, fun x hx => (h2 x hx).1, fun _ => rfl, ?_, .inr ⟨hm, rfl, ?_, ?_⟩⟩, rfl⟩
          · intro x hx
            cases e : (w x.1).ids with
            | none => exact absurd e (hm x.1 (h1 ▸ List.mem_map_of_mem hx))
            | some l => exact ⟨l, rfl, (h2 x hx).1.ids l e⟩
          · rw [not_not, all_eq h1, dedup_length_iff] at hd
            exact hd
          · rw [← h1]
            simpa using hne

private theorem masses_of {w w' : State α} {names : List (Nat × Nat × Bool)} (r : Ready w w' names) :
    ∀ x : Nat × Nat × Bool, x ∈ names → ∃ (s : List Nat) (d : List α),
      (w' x.1).field .masses = some ⟨some s, d⟩ ∧ d.length = x.2.1 := by
  intro x hx
  rw [r.field]
  exact (r.cons x hx).fields .masses (by simp [needs])

theorem Ready.of_write {extra : Option (List Nat)} {w : State α} {f : File α} (h : (write extra w).result = .ok f) :
    ∃ (names : List (Nat × Nat × Bool)) (w' : State α), Ready w w' names ∧ (∀ x : Nat × Nat × Bool, x ∈ names → 0 < x.2.1) ∧
      f = ⟨extra.getD (numberOfParticles names), names.map (fun x => entry w' x.1)⟩ := by
  rcases write_cases extra w with ⟨e, he⟩ | ⟨names, w', r, he⟩
  · rw [he] at h; cases h
  · rw [he] at h
    simp only [writeFile] at h
    cases e : massTable w' names with
    | error _ => rw [e] at h; cases h
    | ok m =>
      rw [e] at h
      cases h
      exact ⟨names, w', r, (massTable_iff (masses_of r)).mpr ⟨m, e⟩, rfl⟩

private theorem find_name {names : List (Nat × Nat × Bool)} (hd : (names.map Prod.fst).Nodup) {x : Nat × Nat × Bool}
    (hx : x ∈ names) : names.find? (fun y => y.1 == x.1) = some x := by
  cases e : names.find? (fun y => y.1 == x.1) with
  | none =>
    rw [List.find?_eq_none] at e
    exact absurd (beq_self_eq_true x.1) (by simpa using e x hx)
  | some y =>
    have h1 := List.mem_of_find?_eq_some e
    have h2 := List.find?_some e
    rw [List.inj_on_of_nodup_map hd h1 hx (by simpa using h2)]

theorem toWrite_lt {w : State α} {t : Nat} (h : t ∈ toWrite w) : t < 8 :=
  List.mem_range.mp (List.mem_filter.mp h).1

private theorem counts_of {names : List (Nat × Nat × Bool)} (hd : (names.map Prod.fst).Nodup) {x : Nat × Nat × Bool}
    (hx : x ∈ names) (h8 : x.1 < 8) : (numberOfParticles names)[x.1]? = some x.2.1 := by
  unfold numberOfParticles
  rw [List.getElem?_map, List.getElem?_range h8, Option.map_some, find_name hd hx]
  rfl

/-- C31: a file that is written has one group for each type for which something was set, in order; every group was complete
and consistent with a positive number of rows, and holds the fields of the writer and as many IDs; the header counts are
these numbers, and zero for the other types. -/
theorem c31_written (w : State α) (f : File α) (h : (write none w).result = .ok f) :
    f.groups.map Entry.type = toWrite w ∧ f.numPart.length = 8 ∧
      (∀ e : Entry α, e ∈ f.groups → ∃ n : Nat, 0 < n ∧ Consistent (w e.type) e.type n ∧ f.numPart[e.type]? = some n ∧
        (∃ l : List Int, e.ids = some l ∧ l.length = n) ∧
        (∀ m : Name, m ∈ needs e.type → (m, (w e.type).field m) ∈ e.fields) ∧
        ∀ x : Name × Option (Arr α), x ∈ e.fields → x.1 ∈ needs e.type ∧ x.2 = (w e.type).field x.1) ∧
      ∀ t : Nat, t < 8 → t ∉ toWrite w → f.numPart[t]? = some 0 := by
  obtain ⟨names, w', r, hpos, rfl⟩ := Ready.of_write h
  have hd : (names.map Prod.fst).Nodup := r.types ▸ toWrite_nodup w
  refine ⟨?_, by simp [numberOfParticles], ?_, ?_⟩
  · rw [← r.types, List.map_map]
    rfl
  · intro e he
    obtain ⟨x, hx, rfl⟩ := List.mem_map.mp he
    refine ⟨x.2.1, hpos x hx, r.cons x hx, ?_, r.ids x hx, ?_, ?_⟩
    · exact counts_of hd hx (toWrite_lt (r.types ▸ List.mem_map_of_mem hx))
    · intro m hm
      have hm' : m ∈ needs x.1 := hm
      have : entry w' x.1 = ⟨x.1, (w' x.1).ids, ((required x.1).filter (· ≠ .particleIds)).map (fun n => (n, (w x.1).field n))⟩ := by
        rw [entry, r.field]
      rw [this]
      exact List.mem_map.mpr ⟨m, List.mem_filter.mpr ⟨mem_required.mpr (.inr hm'), by simpa using ids_not_needed hm'⟩, rfl⟩
    · intro y hy
      simp only [entry, r.field] at hy ⊢
      obtain ⟨n, hn, rfl⟩ := List.mem_map.mp hy
      obtain ⟨h1, h2⟩ := List.mem_filter.mp hn
      exact ⟨(mem_required.mp h1).resolve_left (by simpa using h2), rfl⟩
  · intro t ht hnt
    simp only [Option.getD_none, numberOfParticles]
    rw [List.getElem?_map, List.getElem?_range ht, Option.map_some]
    have : names.find? (fun x => x.1 == t) = none := by
      rw [List.find?_eq_none]
      intro x hx e
      apply hnt
      rw [← r.types, ← beq_iff_eq.mp e]
      exact List.mem_map_of_mem hx
    rw [this]
    rfl

/-- C31: everything that is complete and consistent is written. -/
theorem c31_complete (w : State α) (hne : toWrite w ≠ [])
    (hc : ∀ t : Nat, t ∈ toWrite w → ∃ n : Nat, 0 < n ∧ Consistent (w t) t n)
    (hi : (∃ t : Nat, t ∈ toWrite w ∧ (w t).ids = none) ∨ (allIds w).Nodup) :
    ∃ f : File α, (write none w).result = .ok f := by
  have uniq : ∀ (g : Writer.Group α) (t n m : Nat), Consistent g t n → Consistent g t m → n = m := by
    intro g t n m h1 h2
    obtain ⟨r1, d1, e1, l1⟩ := h1.fields .masses (by simp [needs])
    obtain ⟨r2, d2, e2, l2⟩ := h2.fields .masses (by simp [needs])
    rw [e1] at e2
    injection e2 with e2
    injection e2 with _ e2
    rw [← l1, ← l2, e2]
  obtain ⟨names, hn⟩ := collect_of (w := w) (l := List.range 8) (fun t ht hp => by
    obtain ⟨n, -, h⟩ := hc t (List.mem_filter.mpr ⟨ht, hp⟩)
    exact ⟨n, h⟩)
  obtain ⟨h1, h2⟩ := collect_ok hn
  change names.map Prod.fst = toWrite w at h1
  have fin : ∀ (names : List (Nat × Nat × Bool)) (w' : State α), Ready w w' names → write none w = ⟨w', true, writeFile none w' names⟩ →
      ∃ f : File α, (write none w).result = .ok f := by
    intro names w' r he
    have hpos : ∀ x : Nat × Nat × Bool, x ∈ names → 0 < x.2.1 := by
      intro x hx
      obtain ⟨n, h0, hcn⟩ := hc x.1 (r.types ▸ List.mem_map_of_mem hx)
      rw [uniq _ _ _ _ (r.cons x hx) hcn]
      exact h0
    obtain ⟨m, hm⟩ := (massTable_iff (masses_of r)).mp hpos
    exact ⟨_, by rw [he]; simp only [writeFile, hm]; rfl⟩
  rcases write_cases none w with ⟨e, he⟩ | ⟨names', w', r, he⟩
  · exfalso
    unfold write at he
    rw [hn] at he
    simp only at he
    split at he
    · rename_i hm
      have hmap : (names.map (fun x => (x.1, x.2.1))).map Prod.fst = names.map Prod.fst := by simp
      obtain ⟨w', e, -⟩ := generateIds_ok (names.map (fun x => (x.1, x.2.1))) 1 w (by omega)
        (by rw [hmap, h1]; exact toWrite_nodup w)
      rw [e] at he
      cases he
    · rename_i hm
      split at he
      · rename_i hnil
        apply hne
        rw [← h1, hnil]
        rfl
      · split at he
        · rename_i hdup
          apply hdup
          rw [all_eq h1, dedup_length_iff]
          rcases hi with hi | hi
          · exact absurd ((missing_iff h1 h2).mpr hi) hm
          · exact hi
        · cases he
  · exact fin names' w' r he

/-- C31: a refused write leaves an existing file alone, except when some type has no particles. -/
theorem c31_refused (w : State α) (e : Err) (h : (write none w).result = .error e) (ho : (write none w).opened = true) :
    e = .index ∧ ∃ t : Nat, t ∈ toWrite w ∧ Consistent (w t) t 0 := by
  rcases write_cases none w with ⟨x, he⟩ | ⟨names, w', r, he⟩
  · rw [he] at ho; cases ho
  · rw [he] at h
    simp only [writeFile] at h
    cases em : massTable w' names with
    | ok m => rw [em] at h; cases h
    | error y =>
      rw [em] at h
      cases h
      refine ⟨massTable_error (masses_of r) em, ?_⟩
      by_contra hcon
      push Not at hcon
      have : ∀ x : Nat × Nat × Bool, x ∈ names → 0 < x.2.1 := by
        intro x hx
        by_contra h0
        have h0 : x.2.1 = 0 := by omega
        exact hcon x.1 (r.types ▸ List.mem_map_of_mem hx) (h0 ▸ r.cons x hx)
      obtain ⟨m, hm⟩ := (massTable_iff (masses_of r)).mp this
      rw [em] at hm
      cases hm

/-- A complete group with `n` rows and the given IDs. -/
def sample (n : Nat) (ids : Option (List Int)) : Writer.Group Nat :=
  ⟨ids, fun m => some ⟨if m = .coordinates ∨ m = .velocities then some [3] else some [], List.range n⟩⟩

/-- Gas and dark matter; nothing else. -/
def sampleState (g d : Option (Writer.Group Nat)) : State Nat := fun t =>
  if t = 0 then g.getD .new else if t = 1 then d.getD .new else .new

example : (write none (sampleState (some (sample 2 none)) (some (sample 3 (some [7, 8, 9]))))).result.toOption.map
    (fun f => (f.numPart, f.groups.map Entry.ids)) =
    some ([2, 3, 0, 0, 0, 0, 0, 0], [some [1, 2], some [3, 4, 5]]) := by decide +kernel

/-- C31: a type with fields of length zero passes all checks; then the file is opened and truncated, and the mass table
raises IndexError. -/
theorem c31_no_particles_fails :
    (write none (sampleState (some (sample 0 none)) none)).opened = true ∧
      (write none (sampleState (some (sample 0 none)) none)).result.toOption.isNone = true := by decide +kernel

/-- C31: writing when nothing was set raises. -/
theorem c31_nothing_set_fails : (write none (State.new (α := Nat))).result.toOption.isNone = true := by decide +kernel

/-- C31: header counts given by the user replace the right ones. -/
theorem c31_extra_header_fails :
    (write (some [9]) (sampleState (some (sample 2 none)) none)).result.toOption.map File.numPart = some [9] := by decide +kernel

/-- C31: IDs that were generated for one write are kept, so that the writer refuses new data of another length. -/
theorem c31_generated_ids_stay_fails :
    let w := (write none (sampleState (some (sample 2 none)) none)).writer
    let w' : State Nat := fun t => if t = 0 then { w 0 with field := (sample 3 none).field } else w t
    (write none w').result.toOption.isNone = true ∧
      (write none (sampleState (some (sample 3 none)) none)).result.toOption.isNone = false := by decide +kernel

private theorem fileIds_eq {w' : State α} {names : List (Nat × Nat × Bool)} (n : List Nat) :
    fileIds (⟨n, names.map (fun x => entry w' x.1)⟩ : File α) = names.flatMap (fun x => (w' x.1).ids.getD []) := by
  unfold fileIds
  rw [List.flatMap_map]
  rfl

/-- C30: if some type to be written lacks IDs, the IDs in the file are `1, 2, …, N`, where `N` is the number of particles
in the header. -/
theorem c30_generated (w : State α) (f : File α) (h : (write none w).result = .ok f)
    (hm : ∃ t : Nat, t ∈ toWrite w ∧ (w t).ids = none) :
    fileIds f = (List.range f.numPart.sum).map (fun i : Nat => (i : Int) + 1) := by
  obtain ⟨names, w', r, hpos, rfl⟩ := Ready.of_write h
  have hd : (names.map Prod.fst).Nodup := r.types ▸ toWrite_nodup w
  rcases r.all with ⟨-, ha⟩ | ⟨hn, -⟩
  · rw [fileIds_eq, ha]
    have hsum : (numberOfParticles names).sum = (names.map (fun x => x.2.1)).sum := by
      have h8 : ∀ x : Nat × Nat × Bool, x ∈ names → x.1 < 8 := fun x hx => toWrite_lt (r.types ▸ List.mem_map_of_mem hx)
      unfold numberOfParticles
      -- the types in the list, in order
      have hsub : ∀ (l : List Nat) (names : List (Nat × Nat × Bool)), l.Nodup → (names.map Prod.fst).Sublist l →
          (l.map (fun t => ((names.find? (fun x => x.1 == t)).map (fun x => x.2.1)).getD 0)).sum = (names.map (fun x => x.2.1)).sum := by
        intro l
        induction l with
        | nil =>
          intro names _ hs
          have : names = [] := by simpa using List.sublist_nil.mp hs
          subst this
          rfl
        | cons t l ih =>
          intro names hl hs
          rw [List.nodup_cons] at hl
          cases names with
          | nil =>
            rw [List.map_cons, List.sum_cons, ih [] hl.2 (by simp)]
            simp
          | cons x names =>
            by_cases hx : x.1 = t
            · have hs' : (names.map Prod.fst).Sublist l := by
                rw [List.map_cons, hx] at hs
                exact List.cons_sublist_cons.mp hs
              rw [List.map_cons, List.sum_cons, List.map_cons, List.sum_cons, ← ih names hl.2 hs']
              congr 1
              · simp [hx]
              · congr 1
                apply List.map_congr_left
                intro u hu
                have : x.1 ≠ u := fun e => hl.1 (by rw [← hx, e]; exact hu)
                simp [this]
            · have hs' : ((x :: names).map Prod.fst).Sublist l := by
                rw [List.map_cons] at hs ⊢
                cases hs with
                | cons _ h => exact h
                | cons_cons _ h => exact absurd rfl hx
              rw [List.map_cons, List.sum_cons, ih (x :: names) hl.2 hs']
              have : (x :: names).find? (fun y => y.1 == t) = none := by
                rw [List.find?_eq_none]
                intro y hy e
                exact hl.1 (hs'.subset (beq_iff_eq.mp e ▸ List.mem_map_of_mem hy))
              rw [this]
              simp
      exact hsub _ _ List.nodup_range (r.types ▸ List.filter_sublist)
    simp only [Option.getD_none]
    rw [hsum]
    unfold arange
    apply List.map_congr_left
    intro i _
    push_cast
    omega
  · obtain ⟨t, ht, e⟩ := hm
    exact absurd e (hn t ht)

/-- C30: if all types to be written have IDs, these are the IDs in the file, and there are no repeats. -/
theorem c30_given (w : State α) (f : File α) (h : (write none w).result = .ok f)
    (hm : ∀ t : Nat, t ∈ toWrite w → (w t).ids ≠ none) : fileIds f = allIds w ∧ (allIds w).Nodup := by
  obtain ⟨names, w', r, hpos, rfl⟩ := Ready.of_write h
  rcases r.all with ⟨⟨t, ht, e⟩, -⟩ | ⟨-, rfl, hd, -⟩
  · exact absurd e (hm t ht)
  · exact ⟨by rw [fileIds_eq, all_eq r.types], hd⟩

/-- C30: repeated IDs are refused, before the file is touched. -/
theorem c30_refused (w : State α) (hm : ∀ t : Nat, t ∈ toWrite w → (w t).ids ≠ none) (hr : ¬ (allIds w).Nodup) :
    (∃ e : Err, (write none w).result = .error e) ∧ (write none w).opened = false ∧ (write none w).writer = w := by
  rcases write_cases none w with ⟨x, he⟩ | ⟨names, w', r, he⟩
  · rw [he]; exact ⟨⟨x, rfl⟩, rfl, rfl⟩
  · rcases r.all with ⟨⟨t, ht, e⟩, -⟩ | ⟨-, -, hd, -⟩
    · exact absurd e (hm t ht)
    · exact absurd hd hr

example : (write none (sampleState (some (sample 2 (some [1, 2]))) (some (sample 1 (some [2]))))).opened = false := by decide +kernel

/-- IDs are positive and not repeated, type by type. -/
def GoodIds (w : State α) : Prop := ∀ (t : Nat) (l : List Int), (w t).ids = some l → (∀ x : Int, x ∈ l → 1 ≤ x) ∧ l.Nodup

private theorem setIds_good {g g' : Writer.Group α} {ids : List Int} (h : setIds g ids = .ok g') :
    g' = { g with ids := some ids } ∧ (∀ x : Int, x ∈ ids → 1 ≤ x) ∧ ids.Nodup := by
  unfold setIds at h
  split at h
  · cases h
  rename_i h1
  split at h
  · cases h
  rename_i h2
  cases h
  refine ⟨rfl, ?_, dedup_length_iff.mp (not_not.mp h2)⟩
  intro x hx
  by_contra hc
  exact h1 (List.any_eq_true.mpr ⟨x, hx, by simpa using by omega⟩)

private theorem generateIds_good {l : List (Nat × Nat)} {s : Nat} {w w' : State α} (h : generateIds l s w = .ok w')
    (hg : GoodIds w) : GoodIds w' := by
  induction l generalizing s w with
  | nil => cases h; exact hg
  | cons x l ih =>
    obtain ⟨t, n⟩ := x
    rw [generateIds] at h
    cases e : setIds (w t) (arange s n) with
    | error _ => rw [e] at h; cases h
    | ok g =>
      rw [e] at h
      refine ih h ?_
      obtain ⟨e1, e2, e3⟩ := setIds_good e
      intro u l' hl'
      by_cases hu : u = t
      · simp only [State.set, hu, if_pos, e1, Option.some.injEq] at hl'
        subst hl'
        exact ⟨e2, e3⟩
      · simp only [State.set, hu, if_false] at hl'
        exact hg u l' hl'

private theorem write_good {extra : Option (List Nat)} {w : State α} (hg : GoodIds w) : GoodIds (write extra w).writer := by
  unfold write
  split
  · exact hg
  · split
    · split
      · exact hg
      · rename_i w' h
        exact generateIds_good h hg
    · split
      · exact hg
      · simp only
        split <;> exact hg

/-- The operations without writing into an array that was given to the writer. -/
def NoPoke : Op α → Prop
  | .poke _ _ _ => False
  | _ => True

/-- C30: whatever is done with a writer, if nobody writes into the ID arrays that were given to it, the IDs in a file are at
least one. -/
theorem c30_positive (ops : List (Op α)) (hp : ∀ o : Op α, o ∈ ops → NoPoke o) (f : File α)
    (h : (write none (ops.foldl step State.new)).result = .ok f) :
    (∀ x : Int, x ∈ fileIds f → 1 ≤ x) ∧ (fileIds f).Nodup := by
  have good : ∀ (ops : List (Op α)) (w : State α), (∀ o : Op α, o ∈ ops → NoPoke o) → GoodIds w → GoodIds (ops.foldl step w) := by
    intro ops
    induction ops with
    | nil => intro w _ hw; exact hw
    | cons o ops ih =>
      intro w hp hw
      rw [List.foldl_cons]
      refine ih _ (fun o ho => hp o (List.mem_cons_of_mem _ ho)) ?_
      have ho := hp o (List.mem_cons_self ..)
      cases o with
      | setIds t ids =>
        simp only [step]
        split
        · rename_i g hg
          obtain ⟨e1, e2, e3⟩ := setIds_good hg
          intro u l' hl'
          by_cases hu : u = t
          · simp only [State.set, hu, if_pos, e1, Option.some.injEq] at hl'
            subst hl'
            exact ⟨e2, e3⟩
          · simp only [State.set, hu, if_false] at hl'
            exact hw u l' hl'
        · exact hw
      | setField t n a =>
        simp only [step]
        split
        · exact hw
        · intro u l' hl'
          by_cases hu : u = t
          · simp only [State.set, hu, if_pos] at hl'
            exact hw t l' hl'
          · simp only [State.set, hu, if_false] at hl'
            exact hw u l' hl'
      | del t n =>
        simp only [step]
        split
        · intro u l' hl'
          by_cases hu : u = t
          · simp [State.set, hu] at hl'
          · simp only [State.set, hu, if_false] at hl'
            exact hw u l' hl'
        · intro u l' hl'
          by_cases hu : u = t
          · simp only [State.set, hu, if_pos] at hl'
            exact hw t l' hl'
          · simp only [State.set, hu, if_false] at hl'
            exact hw u l' hl'
      | poke t i x => exact absurd ho (by simp [NoPoke])
      | write => exact write_good hw
  have hg := good ops State.new hp (by intro t l h; cases h)
  generalize ops.foldl step State.new = w at h hg
  by_cases hm : ∃ t : Nat, t ∈ toWrite w ∧ (w t).ids = none
  · have e := c30_generated w f h hm
    rw [e]
    constructor
    · intro x hx
      obtain ⟨i, -, rfl⟩ := List.mem_map.mp hx
      omega
    · exact List.nodup_range.map (fun a b e => by simpa using e)
  · push Not at hm
    obtain ⟨e1, e2⟩ := c30_given w f h hm
    rw [e1]
    refine ⟨?_, e2⟩
    intro x hx
    obtain ⟨t, ht, hx⟩ := List.mem_flatMap.mp hx
    cases e : (w t).ids with
    | none => exact absurd e (hm t ht)
    | some l =>
      rw [e] at hx
      exact (hg t l e).1 x hx

/-- C30: the array that was given is kept and not copied; writing into it later puts an ID of zero into the file. -/
theorem c30_alias_fails :
    ∃ ops : List (Op Nat), ((write none (ops.foldl step State.new)).result.toOption.map fileIds) = some [5, 0] :=
  ⟨[.setIds 1 [5, 6], .setField 1 .coordinates ⟨some [3], [0, 0]⟩, .setField 1 .velocities ⟨some [3], [0, 0]⟩,
    .setField 1 .masses ⟨some [], [1, 1]⟩, .poke 1 1 0], by decide +kernel⟩

example : ((write none (([.setIds 1 [5, 6], .setField 1 .coordinates ⟨some [3], [0, 0]⟩, .setField 1 .velocities ⟨some [3], [0, 0]⟩,
    .setField 1 .masses ⟨some [], [1, 1]⟩, .write] : List (Op Nat)).foldl step State.new)).result.toOption.map fileIds) = some [5, 6] := by
  decide +kernel

private theorem generateIds_field {l : List (Nat × Nat)} {s : Nat} {w w' : State α} (h : generateIds l s w = .ok w') (t : Nat) :
    (w' t).field = (w t).field := by
  induction l generalizing s w with
  | nil => cases h; rfl
  | cons x l ih =>
    obtain ⟨u, n⟩ := x
    rw [generateIds] at h
    cases e : setIds (w u) (arange s n) with
    | error _ => rw [e] at h; cases h
    | ok g =>
      rw [e] at h
      rw [ih h]
      have hg : g.field = (w u).field := by
        unfold setIds at e
        split at e
        · cases e
        · split at e
          · cases e
          · cases e; rfl
      by_cases hu : t = u
      · simp only [State.set, hu, if_pos, hg]
      · simp only [State.set, hu, if_false]

private theorem write_field (extra : Option (List Nat)) (w : State α) (t : Nat) : ((write extra w).writer t).field = (w t).field := by
  unfold write
  split
  · rfl
  · split
    · split
      · rfl
      · rename_i w' h
        exact generateIds_field h t
    · split
      · rfl
      · simp only
        split <;> rfl

private theorem step_field (w : State α) (o : Op α) (t : Nat) {n : Name} (hn : n ≠ .particleIds) :
    ((step w o t).field n = (w t).field n ∧ o ≠ .del t n ∧ ∀ b, o ≠ .setField t n b) ∨ (o = .del t n ∧ (step w o t).field n = none) ∨
      ∃ b, o = .setField t n b ∧ (step w o t).field n = some b := by
  cases o with
  | setIds u ids =>
    refine .inl ⟨?_, by simp, by simp⟩
    simp only [step]
    cases e : setIds (w u) ids with
    | error _ => rfl
    | ok g =>
      have hg : g.field = (w u).field := by
        unfold setIds at e
        split at e
        · cases e
        · split at e
          · cases e
          · cases e; rfl
      by_cases hu : t = u
      · simp only [State.set, hu, if_pos, hg]
      · simp only [State.set, hu, if_false]
  | setField u m a =>
    by_cases h : u = t ∧ m = n
    · obtain ⟨rfl, rfl⟩ := h
      refine .inr (.inr ⟨a, rfl, ?_⟩)
      simp [step, hn, State.set]
    · refine .inl ⟨?_, by simp, fun b e => h (by cases e; exact ⟨rfl, rfl⟩)⟩
      simp only [step]
      split
      · rfl
      · by_cases hu : t = u
        · simp only [State.set, hu, if_pos]
          rw [if_neg (fun e => h ⟨hu.symm, e.symm⟩)]
        · simp only [State.set, hu, if_false]
  | del u m =>
    by_cases h : u = t ∧ m = n
    · obtain ⟨rfl, rfl⟩ := h
      refine .inr (.inl ⟨rfl, ?_⟩)
      simp [step, hn, State.set]
    · refine .inl ⟨?_, fun e => h (by cases e; exact ⟨rfl, rfl⟩), by simp⟩
      simp only [step]
      split
      · by_cases hu : t = u
        · simp only [State.set, hu, if_pos]
        · simp only [State.set, hu, if_false]
      · by_cases hu : t = u
        · simp only [State.set, hu, if_pos]
          rw [if_neg (fun e => h ⟨hu.symm, e.symm⟩)]
        · simp only [State.set, hu, if_false]
  | poke u i x =>
    refine .inl ⟨?_, by simp, by simp⟩
    simp only [step]
    by_cases hu : t = u
    · simp only [State.set, hu, if_pos]
    · simp only [State.set, hu, if_false]
  | write => exact .inl ⟨by rw [show step w .write = (write none w).writer from rfl, write_field], by simp, by simp⟩

/-- C31: whatever is done with a writer, it has for each field the array that was assigned last, unless it was deleted since. -/
theorem c31_last (ops : List (Op α)) (t : Nat) {n : Name} (hn : n ≠ .particleIds) (a : Arr α) :
    (ops.foldl step State.new t).field n = some a ↔ LastSet ops t n a := by
  induction ops using List.reverseRecOn with
  | nil =>
    constructor
    · intro h; cases h
    · rintro ⟨l₁, l₂, h, -⟩
      simp at h
  | append_singleton ops o ih =>
    rw [List.foldl_append, List.foldl_cons, List.foldl_nil]
    have back : LastSet (ops ++ [o]) t n a → (o = .setField t n a) ∨ (LastSet ops t n a ∧ o ≠ .del t n ∧ ∀ b, o ≠ .setField t n b) := by
      rintro ⟨l₁, l₂, h1, h2⟩
      rcases List.eq_nil_or_concat l₂ with rfl | ⟨m, p, rfl⟩
      · exact .inl (List.append_inj_right' h1 rfl |> List.singleton_inj.1)
      · rw [List.concat_eq_append, ← List.cons_append, ← List.append_assoc] at h1
        have e1 := List.append_inj_left' h1 rfl
        have e2 := List.singleton_inj.1 (List.append_inj_right' h1 rfl)
        refine .inr ⟨⟨l₁, m, e1, fun q hq => h2 q (by simp [hq])⟩, ?_⟩
        rw [e2]
        exact h2 p (by simp)
    rcases step_field (ops.foldl step State.new) o t hn with ⟨e, h1, h2⟩ | ⟨rfl, e⟩ | ⟨b, rfl, e⟩
    · rw [e, ih]
      constructor
      · rintro ⟨l₁, l₂, rfl, h⟩
        refine ⟨l₁, l₂ ++ [o], by simp, ?_⟩
        intro q hq
        rcases List.mem_append.1 hq with hq | hq
        · exact h q hq
        · rw [List.mem_singleton.1 hq]
          exact ⟨h1, h2⟩
      · intro h
        rcases back h with h | h
        · exact absurd h (h2 a)
        · exact h.1
    · rw [e]
      constructor
      · intro h; cases h
      · intro h
        rcases back h with h | h
        · cases h
        · exact absurd rfl h.2.1
    · rw [e]
      constructor
      · intro h
        cases h
        exact ⟨ops, [], rfl, by simp⟩
      · intro h
        rcases back h with h | h
        · cases h; rfl
        · exact absurd rfl (h.2.2 b)

/-- C31: so the fields of a file are the arrays that were assigned last. -/
theorem c31_last_written (ops : List (Op α)) (f : File α) (h : (write none (ops.foldl step State.new)).result = .ok f) (e : Entry α)
    (he : e ∈ f.groups) (n : Name) (hn : n ∈ needs e.type) (a : Arr α) : (n, some a) ∈ e.fields ↔ LastSet ops e.type n a := by
  obtain ⟨-, -, h3, -⟩ := c31_written _ f h
  obtain ⟨-, -, -, -, -, h4, h5⟩ := h3 e he
  have hne : n ≠ .particleIds := by
    rintro rfl
    unfold needs at hn
    split at hn <;> split at hn <;> simp at hn
  rw [← c31_last ops e.type hne]
  constructor
  · intro hm
    exact (h5 _ hm).2.symm
  · intro hm
    have := h4 n hn
    rwa [hm] at this

/-- Masses assigned, deleted and assigned again, with coordinates in between. -/
example : LastSet [.setField 1 .masses ⟨some [], [1, 1]⟩, .del 1 .masses, .setField 1 .masses ⟨some [], [2, 3]⟩,
    .setField 1 .coordinates ⟨some [3], [0, 0]⟩, (.write : Op Nat)] 1 .masses ⟨some [], [2, 3]⟩ :=
  ⟨[_, _], [_, _], rfl, by simp⟩

end Verif.Props
