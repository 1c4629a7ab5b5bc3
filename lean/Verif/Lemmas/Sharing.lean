import Verif.Model.Sharing
import Mathlib.Data.List.FinRange

/-!
# Lemmas about masks whose arrays are objects

A call on a mask does on the arrays what `Mask.step` does on values, leaves arrays of ranges and the arrays of other masks
as they are, and keeps or renews every reference.
-/

namespace Verif.Sharing
open Verif Verif.Accel Verif.Mask

set_option linter.unusedSectionVars false

variable {K : Type} [Field K] [LinearOrder K] {m : Nat}

/-- The mask as a value. -/
def view (s : One m) : State m where
  constrained := s.2.constrained
  cellMask := s.2.cellMask
  rep := if s.2.rangeMask then .ranges (fun k => rangesAt s.1 (s.2.ref k)) else .bools (fun k => boolsAt s.1 (s.2.ref k))
  size := s.2.size

theorem view_ranges {s : One m} (h : s.2.rangeMask = true) : (view s).rep = .ranges (fun k => rangesAt s.1 (s.2.ref k)) := by
  unfold view; simp [h]

theorem view_bools {s : One m} (h : s.2.rangeMask = false) : (view s).rep = .bools (fun k => boolsAt s.1 (s.2.ref k)) := by
  unfold view; simp [h]

/-- The arrays of a mask are of the right kind, and boolean arrays of different attributes are different objects. -/
structure Ok (s : One m) : Prop where
  rng : s.2.rangeMask = true → ∀ k, ∃ l, s.1[s.2.ref k]? = some (.ranges l)
  bool : s.2.rangeMask = false → ∀ k, ∃ l, s.1[s.2.ref k]? = some (.bools l)
  inj : s.2.rangeMask = false → ∀ j k, s.2.ref j = s.2.ref k → j = k

/-- What a call may do to arrays and references. -/
structure Moves (s t : One m) : Prop where
  file : t.2.file = s.2.file
  len : s.1.length ≤ t.1.length
  old : ∀ r, r < s.1.length → ((∃ l, s.1[r]? = some (.ranges l)) ∨ (∀ k, s.2.ref k ≠ r)) → t.1[r]? = s.1[r]?
  ref : ∀ k, t.2.ref k = s.2.ref k ∨ s.1.length ≤ t.2.ref k

theorem Moves.refl (s : One m) : Moves s s := ⟨rfl, le_refl _, fun _ _ _ => rfl, fun _ => .inl rfl⟩

theorem Moves.trans {s t u : One m} (h : Moves s t) (g : Moves t u) : Moves s u := by
  refine ⟨g.file.trans h.file, le_trans h.len g.len, ?_, ?_⟩
  · intro r hr hc
    have h1 := h.old r hr hc
    rw [← h1]
    refine g.old r (lt_of_lt_of_le hr h.len) ?_
    rcases hc with ⟨l, hl⟩ | hn
    · exact .inl ⟨l, by rw [h1]; exact hl⟩
    · right
      intro k he
      rcases h.ref k with hk | hk
      · exact hn k (by rw [← hk]; exact he)
      · omega
  · intro k
    rcases g.ref k with hk | hk
    · rw [hk]; exact h.ref k
    · exact .inr (le_trans h.len hk)

/-- What is not an array. -/
structure Same (s t : One m) : Prop where
  file : t.2.file = s.2.file
  con : t.2.constrained = s.2.constrained
  cells : t.2.cellMask = s.2.cellMask
  form : t.2.rangeMask = s.2.rangeMask

/-- A loop that puts a new array in every place. -/
theorem assign_fold (g : One m → Fin m → One m) (B : Fin m → Buf × Int) (s : One m) :
    ∀ (l : List (Fin m)), l.Nodup → ∀ s' : One m, Same s s' → (∃ t, s'.1 = s.1 ++ t) →
    (∀ k ∈ l, s'.2.ref k = s.2.ref k ∧ s'.2.size k = s.2.size k) →
    (∀ s'' : One m, Same s s'' → (∃ t, s''.1 = s.1 ++ t) → ∀ k ∈ l, s''.2.ref k = s.2.ref k → s''.2.size k = s.2.size k →
      g s'' k = assign s'' k (B k).1 (B k).2) →
    ∃ t, (l.foldl g s').1 = s'.1 ++ t ∧ Same s (l.foldl g s') ∧
      (∀ k ∈ l, s'.1.length ≤ (l.foldl g s').2.ref k ∧ (l.foldl g s').1[(l.foldl g s').2.ref k]? = some (B k).1 ∧
        (l.foldl g s').2.size k = (B k).2) ∧
      (∀ k, k ∉ l → (l.foldl g s').2.ref k = s'.2.ref k ∧ (l.foldl g s').2.size k = s'.2.size k) ∧
      (∀ j ∈ l, ∀ k ∈ l, (l.foldl g s').2.ref j = (l.foldl g s').2.ref k → j = k) := by
  intro l
  induction l with
  | nil =>
    intro _ s' hs _ _ _
    exact ⟨[], by simp, hs, by simp, by simp, by simp⟩
  | cons k l ih =>
    intro hn s' hs ht hk hg
    obtain ⟨t0, ht0⟩ := ht
    have hkl : k ∉ l := (List.nodup_cons.mp hn).1
    have hg0 := hg s' hs ⟨t0, ht0⟩ k (by simp) (hk k (by simp)).1 (hk k (by simp)).2
    rw [List.foldl_cons, hg0]
    obtain ⟨t, h1, h2, h3, h4, h5⟩ := ih (List.nodup_cons.mp hn).2 (assign s' k (B k).1 (B k).2)
      ⟨hs.file, hs.con, hs.cells, hs.form⟩ ⟨t0 ++ [(B k).1], by simp [assign, ht0]⟩
      (by
        intro j hj
        have hne : j ≠ k := by rintro rfl; exact hkl hj
        simpa [assign, hne] using hk j (by simp [hj]))
      (fun s'' a b j hj => hg s'' a b j (by simp [hj]))
    generalize hu : List.foldl g (assign s' k (B k).1 (B k).2) l = u at h1 h2 h3 h4 h5 ⊢
    have hl1 : (assign s' k (B k).1 (B k).2).1.length = s'.1.length + 1 := by simp [assign]
    have hk4 := h4 k hkl
    have hrk : u.2.ref k = s'.1.length := by rw [hk4.1]; simp [assign]
    have hget : u.1[u.2.ref k]? = some (B k).1 := by
      rw [hrk, h1]
      simp [assign]
    refine ⟨[(B k).1] ++ t, ?_, h2, ?_, ?_, ?_⟩
    · rw [h1]; simp [assign]
    · intro j hj
      rcases List.mem_cons.mp hj with rfl | hj
      · exact ⟨le_of_eq hrk.symm, hget, by rw [hk4.2]; simp [assign]⟩
      · obtain ⟨a, b, c⟩ := h3 j hj
        exact ⟨by omega, b, c⟩
    · intro j hj
      have hne : j ≠ k := by rintro rfl; simp at hj
      obtain ⟨a, b⟩ := h4 j (fun h => hj (by simp [h]))
      rw [a, b]
      simp [assign, hne]
    · intro i hi j hj he
      rcases List.mem_cons.mp hi with hi' | hi' <;> rcases List.mem_cons.mp hj with hj' | hj'
      · rw [hi', hj']
      · rw [hi', hrk] at he
        have := (h3 j hj').1
        omega
      · rw [hj', hrk] at he
        have := (h3 i hi').1
        omega
      · exact h5 i hi' j hj' he

/-- The same over all attributes. -/
theorem assign_all (g : One m → Fin m → One m) (B : Fin m → Buf × Int) (s : One m)
    (hg : ∀ s'' : One m, Same s s'' → (∃ t, s''.1 = s.1 ++ t) → ∀ k, s''.2.ref k = s.2.ref k → s''.2.size k = s.2.size k →
      g s'' k = assign s'' k (B k).1 (B k).2) :
    ∃ u, (List.finRange m).foldl g s = u ∧ Same s u ∧ Moves s u ∧ (∀ k, u.1[u.2.ref k]? = some (B k).1 ∧ u.2.size k = (B k).2) ∧
      (∀ j k, u.2.ref j = u.2.ref k → j = k) := by
  obtain ⟨t, h1, h2, h3, _, h5⟩ := assign_fold g B s (List.finRange m) (List.nodup_finRange m) s ⟨rfl, rfl, rfl, rfl⟩
    ⟨[], by simp⟩ (fun _ _ => ⟨rfl, rfl⟩) (fun s'' a b k _ => hg s'' a b k)
  refine ⟨_, rfl, h2, ⟨h2.file, ?_, ?_, ?_⟩, ?_, ?_⟩
  · rw [h1]; simp
  · intro r hr _
    rw [h1, List.getElem?_append_left hr]
  · intro k
    exact .inr (h3 k (List.mem_finRange k)).1
  · intro k
    exact (h3 k (List.mem_finRange k)).2
  · intro j k
    exact h5 j (List.mem_finRange j) k (List.mem_finRange k)

/-- A loop that writes into every array. -/
theorem overwrite_fold (g : One m → Fin m → One m) (C : Fin m → Buf) (s : One m) (hv : ∀ k, s.2.ref k < s.1.length)
    (hinj : ∀ j k, s.2.ref j = s.2.ref k → j = k) :
    ∀ (l : List (Fin m)), l.Nodup → ∀ s' : One m, s'.2 = s.2 → s'.1.length = s.1.length →
    (∀ k ∈ l, s'.1[s.2.ref k]? = s.1[s.2.ref k]?) →
    (∀ s'' : One m, s''.2 = s.2 → ∀ k ∈ l, s''.1[s.2.ref k]? = s.1[s.2.ref k]? → g s'' k = overwrite s'' k (C k)) →
    (l.foldl g s').2 = s.2 ∧ (l.foldl g s').1.length = s.1.length ∧ (∀ k ∈ l, (l.foldl g s').1[s.2.ref k]? = some (C k)) ∧
      (∀ r, (∀ k ∈ l, s.2.ref k ≠ r) → (l.foldl g s').1[r]? = s'.1[r]?) := by
  intro l
  induction l with
  | nil => intro _ s' h1 h2 _ _; exact ⟨h1, h2, by simp, by simp⟩
  | cons k l ih =>
    intro hn s' h1 h2 h3 hg
    have hkl : k ∉ l := (List.nodup_cons.mp hn).1
    rw [List.foldl_cons, hg s' h1 k (by simp) (h3 k (by simp))]
    have e1 : (overwrite s' k (C k)).1 = s'.1.set (s.2.ref k) (C k) := by rw [← h1]; rfl
    obtain ⟨a, b, c, d⟩ := ih (List.nodup_cons.mp hn).2 (overwrite s' k (C k)) h1 (by rw [e1]; simpa using h2)
      (by
        intro j hj
        rw [e1, List.getElem?_set_ne, h3 j (by simp [hj])]
        intro he
        exact hkl (by rw [hinj _ _ he]; exact hj))
      (fun s'' a j hj => hg s'' a j (by simp [hj]))
    refine ⟨a, b, ?_, ?_⟩
    · intro j hj
      by_cases hjl : j ∈ l
      · exact c j hjl
      · rcases List.mem_cons.mp hj with rfl | hj
        · rw [d]
          · rw [e1, List.getElem?_set_self]
            rw [h2]; exact hv j
          · intro i hi he
            exact hjl (by rw [← hinj _ _ he]; exact hi)
        · exact absurd hj hjl
    · intro r hr
      rw [d r (fun i hi => hr i (by simp [hi])), e1, List.getElem?_set_ne]
      exact hr k (by simp)

theorem overwrite_all (g : One m → Fin m → One m) (C : Fin m → Buf) (s : One m) (hv : ∀ k, s.2.ref k < s.1.length)
    (hinj : ∀ j k, s.2.ref j = s.2.ref k → j = k)
    (hg : ∀ s'' : One m, s''.2 = s.2 → ∀ k, s''.1[s.2.ref k]? = s.1[s.2.ref k]? → g s'' k = overwrite s'' k (C k)) :
    ∃ u, (List.finRange m).foldl g s = u ∧ u.2 = s.2 ∧ u.1.length = s.1.length ∧ (∀ k, u.1[s.2.ref k]? = some (C k)) ∧
      (∀ r, (∀ k, s.2.ref k ≠ r) → u.1[r]? = s.1[r]?) := by
  obtain ⟨a, b, c, d⟩ := overwrite_fold g C s hv hinj (List.finRange m) (List.nodup_finRange m) s rfl rfl (fun _ _ => rfl)
    (fun s'' h k _ => hg s'' h k)
  exact ⟨_, rfl, a, b, fun k => c k (List.mem_finRange k), fun r hr => d r (fun k _ => hr k)⟩

theorem lt_of_get {h : Heap} {r : Nat} {b : Buf} (e : h[r]? = some b) : r < h.length := by
  by_contra hc
  rw [List.getElem?_eq_none (by omega)] at e
  cases e

theorem Ok.valid {s : One m} (h : Ok s) (k : Fin m) : s.2.ref k < s.1.length := by
  cases hr : s.2.rangeMask with
  | true => obtain ⟨l, hl⟩ := h.rng hr k; exact lt_of_get hl
  | false => obtain ⟨l, hl⟩ := h.bool hr k; exact lt_of_get hl

theorem rangesAt_of {h : Heap} {r : Nat} {l : List Rng} (e : h[r]? = some (.ranges l)) : rangesAt h r = l := by
  unfold rangesAt; rw [e]

theorem boolsAt_of {h : Heap} {r : Nat} {l : List Bool} (e : h[r]? = some (.bools l)) : boolsAt h r = l := by
  unfold boolsAt; rw [e]

theorem boolsAt_congr {h h' : Heap} {r : Nat} (e : h'[r]? = h[r]?) : boolsAt h' r = boolsAt h r := by
  unfold boolsAt; rw [e]

theorem rangesAt_congr {h h' : Heap} {r : Nat} (e : h'[r]? = h[r]?) : rangesAt h' r = rangesAt h r := by
  unfold rangesAt; rw [e]

/-- What is proved of every operation. -/
structure Does (s t : One m) (v : State m) : Prop where
  ok : Ok t
  moves : Moves s t
  view : view t = v

theorem state_ext {a b : State m} (h1 : a.constrained = b.constrained) (h2 : a.cellMask = b.cellMask) (h3 : a.rep = b.rep)
    (h4 : a.size = b.size) : a = b := by
  cases a; cases b; simp at h1 h2 h3 h4; simp [h1, h2, h3, h4]

/-- `_update_range_masks` in the form of ranges; the arrays before do not matter. -/
theorem update_ranges (f : File K m) (s : One m) (hr : s.2.rangeMask = true) :
    Does s (updateRangeMasks f s) (Mask.updateRangeMasks f (view s)) := by
  obtain ⟨u, hu, hs, hm, hk, _⟩ := assign_all (updateKey f)
    (fun k => (.ranges (cellRanges (f.cells k) (s.2.cellMask k)), cellCount (f.cells k) (s.2.cellMask k))) s
    (by
      intro s'' h _ k _ _
      unfold updateKey
      rw [h.form, hr, h.cells]
      simp)
  unfold updateRangeMasks
  rw [hu]
  have hru : u.2.rangeMask = true := by rw [hs.form, hr]
  refine ⟨⟨fun _ k => ⟨_, (hk k).1⟩, fun h => absurd (hru.symm.trans h) (by simp), fun h => absurd (hru.symm.trans h) (by simp)⟩, hm, ?_⟩
  unfold Mask.updateRangeMasks
  rw [view_ranges hr]
  refine state_ext hs.con hs.cells ?_ ?_
  · rw [view_ranges hru]
    dsimp only
    congr 1
    funext k
    rw [rangesAt_of (hk k).1]
    rfl
  · funext k
    exact (hk k).2

theorem update_bools (f : File K m) (s : One m) (ho : Ok s) (hr : s.2.rangeMask = false) :
    Does s (updateRangeMasks f s) (Mask.updateRangeMasks f (view s)) := by
  obtain ⟨u, hu, h2, hl, hk, hd⟩ := overwrite_all (updateKey f)
    (fun k => .bools (clearCells (f.cells k) (s.2.cellMask k) (boolsAt s.1 (s.2.ref k)))) s ho.valid (ho.inj hr)
    (by
      intro s'' h k e
      unfold updateKey
      rw [h, hr]
      simp only [Bool.false_eq_true, if_false]
      rw [boolsAt_congr e])
  unfold updateRangeMasks
  rw [hu]
  have hru : u.2.rangeMask = false := by rw [h2, hr]
  refine ⟨⟨fun h => absurd (hru.symm.trans h) (by simp), fun _ k => ⟨_, by rw [h2]; exact hk k⟩, fun _ => by rw [h2]; exact ho.inj hr⟩,
    ⟨by rw [h2], le_of_eq hl.symm, ?_, fun k => .inl (by rw [h2])⟩, ?_⟩
  · intro r _ hc
    refine hd r ?_
    rcases hc with ⟨l, e⟩ | hc
    · intro k he
      obtain ⟨l', e'⟩ := ho.bool hr k
      rw [he, e] at e'
      simp at e'
    · exact hc
  · unfold Mask.updateRangeMasks
    rw [view_bools hr]
    refine state_ext (by show u.2.constrained = _; rw [h2]; rfl) (by show u.2.cellMask = _; rw [h2]; rfl) ?_
      (by show u.2.size = _; rw [h2]; rfl)
    rw [view_bools hru, h2]
    dsimp only
    congr 1
    funext k
    rw [boolsAt_of (hk k)]
    rfl

theorem update_does (f : File K m) (s : One m) (ho : Ok s) :
    Does s (updateRangeMasks f s) (Mask.updateRangeMasks f (view s)) := by
  cases hr : s.2.rangeMask with
  | true => exact update_ranges f s hr
  | false => exact update_bools f s ho hr

theorem newMask_does (f : File K m) (h : Heap) (file : Nat) :
    Ok (newMask f h file) ∧ view (newMask f h file) = init f ∧ (newMask f h file).2.file = file ∧
      h.length ≤ (newMask f h file).1.length ∧
      (∀ r, r < h.length → (newMask f h file).1[r]? = h[r]?) ∧ (newMask f h file).2.rangeMask = true ∧
      (∀ k, h.length ≤ (newMask f h file).2.ref k) := by
  have hd := update_ranges f ((h, ⟨file, none, fun k => List.replicate (f.cells k).length true, true, fun _ => 0, fun _ => 0⟩) : One m)
    rfl
  obtain ⟨u, hu, hs, hm, hk, _⟩ := assign_all (updateKey f)
    (fun k => (.ranges (cellRanges (f.cells k) (List.replicate (f.cells k).length true)),
      cellCount (f.cells k) (List.replicate (f.cells k).length true)))
    ((h, ⟨file, none, fun k => List.replicate (f.cells k).length true, true, fun _ => 0, fun _ => 0⟩) : One m)
    (by
      intro s'' h _ k _ _
      unfold updateKey
      rw [h.form, h.cells]
      simp)
  obtain ⟨t, h1, h2, h3, _, h5⟩ := assign_fold (updateKey f)
    (fun k => (.ranges (cellRanges (f.cells k) (List.replicate (f.cells k).length true)),
      cellCount (f.cells k) (List.replicate (f.cells k).length true)))
    ((h, ⟨file, none, fun k => List.replicate (f.cells k).length true, true, fun _ => 0, fun _ => 0⟩) : One m)
    (List.finRange m) (List.nodup_finRange m) _ ⟨rfl, rfl, rfl, rfl⟩ ⟨[], by simp⟩ (fun _ _ => ⟨rfl, rfl⟩)
    (by
      intro s'' h _ k _ _ _
      unfold updateKey
      rw [h.form, h.cells]
      simp)
  refine ⟨hd.ok, ?_, hd.moves.file, hd.moves.len, ?_, ?_, ?_⟩
  · show view (updateRangeMasks f _) = _
    rw [hd.view]
    unfold init Mask.updateRangeMasks
    rfl
  · intro r hr
    show (List.foldl (updateKey f) _ (List.finRange m)).1[r]? = _
    rw [h1, List.getElem?_append_left hr]
  · exact h2.form
  · intro k
    exact (h3 k (List.mem_finRange k)).1

theorem convertToBool_does (f : File K m) (s : One m) (ho : Ok s) :
    Does s (convertToBool f s) (Mask.toBool f (view s)) ∧ (convertToBool f s).2.rangeMask = false := by
  cases hr : s.2.rangeMask with
  | false =>
    unfold convertToBool
    rw [hr]
    refine ⟨⟨ho, Moves.refl s, ?_⟩, hr⟩
    unfold Mask.toBool
    rw [view_bools hr]
    rfl
  | true =>
    obtain ⟨u, hu, hs, hm, hk, hinj⟩ := assign_all (boolKey f)
      (fun k => (.bools ((rangesAt s.1 (s.2.ref k)).foldl (fun bs rg => setSlice bs rg true) (List.replicate (f.rows k) false)),
        (f.rows k : Int))) s
      (by
        rintro s'' h ⟨t, ht⟩ k e _
        unfold boolKey
        rw [e, rangesAt_congr (h' := s''.1) (h := s.1) (by rw [ht, List.getElem?_append_left (ho.valid k)])])
    unfold convertToBool
    rw [hr]
    simp only [if_true]
    rw [hu]
    refine ⟨⟨⟨fun h => absurd h (by simp), fun _ k => ⟨_, (hk k).1⟩, fun _ => hinj⟩, ⟨hm.file, hm.len, hm.old, hm.ref⟩, ?_⟩, ?_⟩
    · unfold Mask.toBool
      rw [view_ranges hr]
      refine state_ext hs.con hs.cells ?_ ?_
      · rw [view_bools rfl]
        dsimp only
        congr 1
        funext k
        rw [boolsAt_of (hk k).1]
      · funext k
        exact (hk k).2
    · trivial

theorem convertToRanges_does (s : One m) (ho : Ok s) :
    Does s (convertToRanges s) (Mask.toRanges (view s)) ∧ (convertToRanges s).2.rangeMask = true := by
  cases hr : s.2.rangeMask with
  | true =>
    unfold convertToRanges
    rw [hr]
    refine ⟨⟨ho, Moves.refl s, ?_⟩, hr⟩
    unfold Mask.toRanges
    rw [view_ranges hr]
    rfl
  | false =>
    obtain ⟨u, hu, hs, hm, hk, hinj⟩ := assign_all rangeKey
      (fun k => (.ranges (rangesFromArray (whereTrue (boolsAt s.1 (s.2.ref k)))), ((whereTrue (boolsAt s.1 (s.2.ref k))).length : Int))) s
      (by
        rintro s'' h ⟨t, ht⟩ k e _
        unfold rangeKey
        rw [e, boolsAt_congr (h' := s''.1) (h := s.1) (by rw [ht, List.getElem?_append_left (ho.valid k)])])
    unfold convertToRanges
    rw [hr]
    simp only [Bool.false_eq_true, if_false]
    rw [hu]
    refine ⟨⟨⟨fun _ k => ⟨_, (hk k).1⟩, fun h => absurd h (by simp), fun _ => hinj⟩, ⟨hm.file, hm.len, hm.old, hm.ref⟩, ?_⟩, ?_⟩
    · unfold Mask.toRanges
      rw [view_bools hr]
      refine state_ext hs.con hs.cells ?_ ?_
      · rw [view_ranges rfl]
        dsimp only
        congr 1
        funext k
        rw [rangesAt_of (hk k).1]
      · funext k
        exact (hk k).2
    · trivial

theorem setCells_ok (s : One m) (ho : Ok s) (c : Fin m → List Bool) : Ok (setCells s c) := ⟨ho.rng, ho.bool, ho.inj⟩

theorem setCells_moves (s : One m) (c : Fin m → List Bool) : Moves s (setCells s c) :=
  ⟨rfl, le_refl _, fun _ _ _ => rfl, fun _ => .inl rfl⟩

theorem setCells_view (s : One m) (c : Fin m → List Bool) : view (setCells s c) = withCells (view s) c := rfl

/-- What is proved of every call. -/
structure Acts (s : One m) (r : One m × Option Err) (v : State m × Option Err) : Prop where
  ok : Ok r.1
  moves : Moves s r.1
  view : view r.1 = v.1
  err : r.2 = v.2

theorem Acts.same (s : One m) (ho : Ok s) (e : Option Err) : Acts s (s, e) (Sharing.view s, e) := ⟨ho, Moves.refl s, rfl, rfl⟩

theorem spatial_acts (f : File K m) (s : One m) (ho : Ok s) (region : List (Option (List K))) (union : Bool) :
    Acts s (spatialCall f s region union) (spatialBody f (view s) region union) := by
  unfold spatialCall spatialBody
  cases sanitizeRegion f.box region with
  | error e => exact Acts.same s ho _
  | ok reg =>
    dsimp only
    have hc : (view s).constrained = s.2.constrained := rfl
    rw [hc]
    by_cases h1 : s.2.constrained = some .spatial ∧ union = true
    · rw [if_pos h1, if_pos h1]
      by_cases h2 : regionOk f.box reg = true
      · rw [if_pos h2, if_pos h2]
        have hd := update_does f (setCells s (fun k =>
          List.zipWith (· || ·) (s.2.cellMask k) (cellMaskOf f.box reg (f.cells k)))) (setCells_ok s ho _)
        exact ⟨hd.ok, (setCells_moves s _).trans hd.moves, hd.view, rfl⟩
      · rw [if_neg h2, if_neg h2]
        exact Acts.same s ho _
    · rw [if_neg h1, if_neg h1]
      by_cases h3 : s.2.constrained = none
      · rw [if_pos h3, if_pos h3]
        by_cases h2 : regionOk f.box reg = true
        · rw [if_pos h2, if_pos h2]
          have hd := update_does f (setCells s (fun k => cellMaskOf f.box reg (f.cells k))) (setCells_ok s ho _)
          exact ⟨hd.ok, (setCells_moves s _).trans hd.moves, hd.view, rfl⟩
        · rw [if_neg h2, if_neg h2]
          exact Acts.same s ho _
      · rw [if_neg h3, if_neg h3]
        exact Acts.same s ho _

theorem property_acts (f : File K m) (s0 : One m) (ho0 : Ok s0) (g q : String) (lo hi : K) :
    Acts s0 (propertyCall f s0 g q lo hi) (propertyBody f (view s0) g q lo hi) := by
  obtain ⟨hd, hr⟩ := convertToBool_does f s0 ho0
  unfold propertyCall propertyBody
  dsimp only
  rw [← hd.view]
  generalize convertToBool f s0 = s at hd hr
  have ho := hd.ok
  cases hg : f.group g with
  | none => exact ⟨ho, hd.moves, rfl, rfl⟩
  | some k =>
    cases hq : f.field g q with
    | none => exact ⟨ho, hd.moves, rfl, rfl⟩
    | some vals =>
      dsimp only
      rw [view_bools hr]
      dsimp only
      have hv := ho.valid k
      refine ⟨⟨fun h => absurd (hr.symm.trans h) (by simp), ?_, ho.inj⟩, hd.moves.trans ⟨rfl, by simp [overwrite], ?_, fun _ => .inl rfl⟩, ?_, rfl⟩
      · intro h j
        show ∃ l, (s.1.set (s.2.ref k) _)[s.2.ref j]? = _
        by_cases he : s.2.ref k = s.2.ref j
        · rw [← he, List.getElem?_set_self hv]
          exact ⟨_, rfl⟩
        · rw [List.getElem?_set_ne he]
          exact ho.bool h j
      · intro r hr' hc
        show (s.1.set (s.2.ref k) _)[r]? = _
        rw [List.getElem?_set_ne]
        rcases hc with ⟨l, e⟩ | hc
        · rintro rfl
          obtain ⟨l', e'⟩ := ho.bool hr k
          rw [e] at e'
          simp at e'
        · exact hc k
      · refine state_ext rfl rfl ?_ rfl
        rw [view_bools (s := overwrite s k _) hr]
        dsimp only
        congr 1
        funext j
        show boolsAt (s.1.set (s.2.ref k) _) (s.2.ref j) = _
        by_cases hj : j = k
        · subst hj
          rw [if_pos rfl]
          exact boolsAt_of (List.getElem?_set_self hv)
        · rw [if_neg hj]
          exact boolsAt_congr (List.getElem?_set_ne (fun h => hj (ho.inj hr _ _ h.symm)))

theorem indices_acts (f : File K m) (s : One m) (ho : Ok s) (l : List Int) :
    Acts s (indicesCall f s l) (indicesBody f (view s) l) := by
  unfold indicesCall indicesBody
  have hc : (view s).constrained = s.2.constrained := rfl
  rw [hc]
  by_cases h1 : s.2.constrained ≠ none
  · rw [if_pos h1, if_pos h1]; exact Acts.same s ho _
  rw [if_neg h1, if_neg h1]
  by_cases h2 : (!f.homogeneous) = true
  · rw [if_pos h2, if_pos h2]; exact Acts.same s ho _
  rw [if_neg h2, if_neg h2]
  cases hr : s.2.rangeMask with
  | true =>
    rw [view_ranges hr]
    simp only [Bool.not_true, Bool.false_and, Bool.false_eq_true, if_false]
    obtain ⟨u, hu, hs, hm, hk, hinj⟩ := assign_all (indexKey l)
      (fun k => (.ranges (rangesFromArray (sortIndices l)), (l.length : Int))) s
      (by
        rintro s'' h _ k _ _
        unfold indexKey
        rw [h.form, hr]
        simp)
    rw [hu]
    have hru : u.2.rangeMask = true := by rw [hs.form, hr]
    refine ⟨⟨fun _ k => ⟨_, (hk k).1⟩, fun h => absurd (hru.symm.trans h) (by simp), fun h => absurd (hru.symm.trans h) (by simp)⟩, hm, ?_, rfl⟩
    refine state_ext hs.con hs.cells ?_ ?_
    · rw [view_ranges hru]
      dsimp only
      congr 1
      funext k
      rw [rangesAt_of (hk k).1]
    · funext k
      exact (hk k).2
  | false =>
    rw [view_bools hr]
    dsimp only
    by_cases h3 : (List.finRange m).all (fun k => indicesFit (boolsAt s.1 (s.2.ref k)).length l) = true
    · rw [if_pos h3, if_neg (by rw [h3]; simp)]
      obtain ⟨u, hu, hs, hm, hk, hinj⟩ := assign_all (indexKey l)
        (fun k => (.bools (andMarked (boolsAt s.1 (s.2.ref k)) l), s.2.size k)) s
        (by
          rintro s'' h ⟨t, ht⟩ k e e'
          unfold indexKey
          rw [h.form, hr]
          simp only [Bool.false_eq_true, if_false]
          rw [e, e', boolsAt_congr (h' := s''.1) (h := s.1) (by rw [ht, List.getElem?_append_left (ho.valid k)])])
      rw [hu]
      have hru : u.2.rangeMask = false := by rw [hs.form, hr]
      refine ⟨⟨fun h => absurd (hru.symm.trans h) (by simp), fun _ k => ⟨_, (hk k).1⟩, fun _ => hinj⟩, hm, ?_, rfl⟩
      refine state_ext hs.con hs.cells ?_ ?_
      · rw [view_bools hru]
        dsimp only
        congr 1
        funext k
        rw [boolsAt_of (hk k).1]
      · funext k
        exact (hk k).2
    · rw [if_neg h3, if_pos (by simp only [Bool.not_eq_true] at h3; rw [h3]; simp)]
      exact Acts.same s ho _

theorem record_acts (s : One m) (kind : Kind) {r : One m × Option Err} {v : State m × Option Err} (h : Acts s r v) :
    Acts s (record kind r) (decorate kind v) := by
  obtain ⟨r1, r2⟩ := r
  obtain ⟨v1, v2⟩ := v
  obtain ⟨ho, hm, hv, he⟩ := h
  dsimp only at ho hm hv he
  subst he
  cases r2 with
  | none =>
    refine ⟨⟨ho.rng, ho.bool, ho.inj⟩, ⟨hm.file, hm.len, hm.old, hm.ref⟩, ?_, rfl⟩
    subst hv
    rfl
  | some e => exact ⟨ho, hm, hv, rfl⟩

theorem index_acts (f : File K m) (s : One m) (ho : Ok s) (i : Int) :
    Acts s (indexCall f s i) (indexBody f (view s) i) := by
  unfold indexCall indexBody
  have hc : (view s).constrained = s.2.constrained := rfl
  rw [hc]
  by_cases h1 : s.2.constrained ≠ none
  · rw [if_pos h1, if_pos h1]; exact Acts.same s ho _
  · rw [if_neg h1, if_neg h1]
    exact record_acts s _ (indices_acts f s ho [i])

/-- A call does to the arrays what `Mask.step` does to values. -/
theorem call_acts (f : File K m) (s : One m) (ho : Ok s) (op : Op K) : Acts s (call f s op) (Mask.step f (view s) op) := by
  cases op with
  | spatial region union => exact record_acts s _ (spatial_acts f s ho region union)
  | property g q lo hi => exact record_acts s _ (property_acts f s ho g q lo hi)
  | indices l => exact record_acts s _ (indices_acts f s ho l)
  | index i => exact record_acts s _ (index_acts f s ho i)
  | toBool =>
    have h := (convertToBool_does f s ho).1
    exact ⟨h.ok, h.moves, h.view, rfl⟩
  | toRanges =>
    have h := (convertToRanges_does s ho).1
    exact ⟨h.ok, h.moves, h.view, rfl⟩

end Verif.Sharing
