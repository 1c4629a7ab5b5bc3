import Verif.Lemmas.Memory

/-!
# C70: arrays that share memory

`Heap.phys h j` are the physical values of the array with number `j` in base units (`Spec/Memory.lean`).
-/

namespace Verif.Props
open Verif Verif.Cosmo Verif.Memory

private theorem exec_some {h : Heap} {q : Cmd} {i : Nat} {o : Obj} (ht : q.target = some i) (ho : h.objs[i]? = some o) :
    exec h q = execAt h o q := by
  cases q <;> simp_all [exec, Cmd.target]

private theorem lt_of {h : Heap} {i : Nat} {o : Obj} (ho : h.objs[i]? = some o) : i < h.objs.length :=
  (List.getElem?_eq_some_iff.1 ho).1

private theorem mem_of {h : Heap} {i : Nat} {o : Obj} (ho : h.objs[i]? = some o) : o ∈ h.objs := List.mem_of_getElem? ho

private theorem alloc_old {h : Heap} (hg : Good h) {u : ℝ} {x : Arr} {j : Nat} {p : Obj} (hp : h.objs[j]? = some p) :
    (alloc h u x).objs[j]? = some p ∧ p.arr (alloc h u x).mem = p.arr h.mem := by
  refine ⟨?_, ?_⟩
  · simp only [alloc]
    rw [List.getElem?_append_left (lt_of hp), hp]
  · refine arr_write_apart fun c hc hp' => ?_
    have := hg.used p (mem_of hp) c hp'
    rw [List.mem_range'_1] at hc
    omega

private theorem alloc_new {h : Heap} {u : ℝ} {x : Arr} :
    ∃ o, (alloc h u x).objs[h.objs.length]? = some o ∧ o.unit = u ∧ o.arr (alloc h u x).mem = x := by
  refine ⟨⟨List.range' h.next x.val.length, u, x.comoving, x.cf, x.vt⟩, by simp [alloc], rfl, ?_⟩
  simp only [Obj.arr, alloc]
  rw [map_write List.nodup_range' (by simp)]

/-- C70: making a copy of an array, converted or not, changes no number and no attribute of any array; the copy has the
physical values of the original. -/
theorem c70_copies {h : Heap} (hg : Good h) {i : Nat} {o : Obj} (ho : h.objs[i]? = some o) :
    ((exec h (.copy i)).2 = none ∧ (exec h (.copy i)).1.phys h.objs.length = h.phys i ∧
      ∀ (j : Nat) (p : Obj), h.objs[j]? = some p →
        (exec h (.copy i)).1.objs[j]? = some p ∧ p.arr (exec h (.copy i)).1.mem = p.arr h.mem) ∧
    ∀ c, (∀ (j : Nat) (p : Obj), h.objs[j]? = some p → (exec h (.toFrame i c)).1.objs[j]? = some p ∧ p.arr (exec h (.toFrame i c)).1.mem = p.arr h.mem) ∧
      ((exec h (.toFrame i c)).2 = none → (exec h (.toFrame i c)).1.phys h.objs.length = h.phys i ∧
        ∃ n, (exec h (.toFrame i c)).1.objs[h.objs.length]? = some n ∧ n.comoving = some c ∧ n.cf = o.cf ∧ n.unit = o.unit) ∧
      (∀ a k, Conv a k (o.arr h.mem) → (exec h (.toFrame i c)).2 = none) := by
  refine ⟨?_, fun c => ?_⟩
  · rw [exec_some rfl ho]
    simp only [execAt]
    refine ⟨trivial, ?_, fun j p hp => alloc_old hg hp⟩
    obtain ⟨n, hn, hu, ha⟩ := alloc_new (h := h) (u := o.unit) (x := o.arr h.mem)
    simp only [Heap.phys, hn, ho, Option.map_some, Obj.phys, ha, hu]
  · rw [exec_some rfl ho]
    simp only [execAt]
    have hto : ∀ y, (if c = true then (o.arr h.mem).toComoving else (o.arr h.mem).toPhysical) = .ok y →
        frame c (o.arr h.mem) = .ok y := by
      intro y
      cases c <;> simp only [Arr.toComoving, Arr.toPhysical, frame, if_true, Bool.false_eq_true, if_false] <;> split <;>
        simp
    refine ⟨?_, ?_, ?_⟩
    · intro j p hp
      split
      · exact ⟨hp, rfl⟩
      · exact alloc_old hg hp
    · split
      · simp
      · rename_i y e
        intro _
        obtain ⟨n, hn, hu, ha⟩ := alloc_new (h := h) (u := o.unit) (x := y)
        have hf := hto y e
        obtain ⟨f1, f2, f3, -, -⟩ := frame_ok hf
        refine ⟨?_, n, hn, ?_, ?_, hu⟩
        · simp only [Heap.phys, hn, ho, Option.map_some, Obj.phys, ha, hu]
          rw [frame_phys (hg.factor o (mem_of ho)) hf]
        · rw [← f3, ← ha]; rfl
        · have : n.cf = y.cf := by rw [← ha]; rfl
          rw [this, f1]; rfl
    · intro a k hc
      cases c
      · obtain ⟨y, e, -⟩ := convertToPhysical_ok hc
        simp only [Bool.false_eq_true, if_false, toPhysical_eq hc, e]
      · obtain ⟨y, e, -⟩ := convertToComoving_ok hc
        simp only [if_true, toComoving_eq hc, e]

/-- C70: a slice changes no number and no attribute of any array; it has the physical values of the original at the places
of the slice. -/
theorem c70_slice {h : Heap} {i : Nat} {o : Obj} (ho : h.objs[i]? = some o) (idx : List Nat) :
    ∃ g, exec h (.slice i idx) = (g, none) ∧ g.mem = h.mem ∧ (∀ (j : Nat) (p : Obj), h.objs[j]? = some p → g.objs[j]? = some p) ∧
      g.phys h.objs.length = (h.phys i).map (fun v => idx.filterMap (fun k => v[k]?)) := by
  refine ⟨_, exec_some rfl ho, rfl, fun j p hp => ?_, ?_⟩
  · dsimp only
    rw [List.getElem?_append_left (lt_of hp), hp]
  · have key : ∀ f : Nat → ℝ, (idx.filterMap (fun k => o.cells[k]?)).map f =
        idx.filterMap (fun k => (o.cells.map f)[k]?) := by
      intro f
      rw [List.map_filterMap]
      simp
    simp only [Heap.phys, ho, Option.map_some, Obj.phys, Obj.arr, Arr.phys, List.getElem?_append_right (Nat.le_refl _),
      Nat.sub_self, List.getElem?_cons_zero]
    congr 1
    split
    · simp only [List.map_map]
      exact key _
    · simp only [List.map_map]
      exact key _

private theorem set_other {h : Heap} {i j : Nat} {o : Obj} (hij : i ≠ j) : (h.objs.set i o)[j]? = h.objs[j]? :=
  List.getElem?_set_ne hij

private theorem set_self {h : Heap} {i : Nat} {o p : Obj} (ho : h.objs[i]? = some o) : (h.objs.set i p)[i]? = some p :=
  List.getElem?_set_self (lt_of ho)

private theorem store_self {h : Heap} (hg : Good h) {i : Nat} {o : Obj} {y : Arr} (ho : h.objs[i]? = some o)
    (hl : y.val.length = (o.arr h.mem).val.length) :
    (store h i o y).objs[i]? = some (o.relabel y) ∧ (o.relabel y).arr (store h i o y).mem = y := by
  refine ⟨set_self ho, ?_⟩
  simp only [Obj.arr, Obj.relabel, store]
  rw [map_write (hg.nodup o (mem_of ho)) (by simpa [Obj.arr] using hl)]

private theorem convertUnits_self {h : Heap} (hg : Good h) {i : Nat} {o : Obj} {u : ℝ} (ho : h.objs[i]? = some o)
    (hu : u ≠ 0) : (convertUnits h i o u).objs[i]? = some { o with unit := u } ∧
      Obj.phys (convertUnits h i o u).mem { o with unit := u } = o.phys h.mem := by
  refine ⟨set_self ho, ?_⟩
  have e : o.cells.map (convertUnits h i o u).mem = o.cells.map (fun c => h.mem c * (o.unit / u)) := by
    simp only [convertUnits]
    rw [map_write (hg.nodup o (mem_of ho)) (by simp)]
  simp only [Obj.phys, Obj.arr, Arr.phys, e]
  split
  · simp only [List.map_map]
    refine List.map_congr_left fun c _ => ?_
    simp only [Function.comp]
    field_simp
  · simp only [List.map_map]
    refine List.map_congr_left fun c _ => ?_
    simp only [Function.comp]
    field_simp

/-- C70: a conversion in place keeps the physical values of the array, gives the frame that was asked for, and changes no
array that shares no memory with it. -/
theorem c70_convert {h : Heap} (hg : Good h) {i : Nat} {o : Obj} (ho : h.objs[i]? = some o) (c : Bool) :
    (exec h (.convert i c)).1.phys i = h.phys i ∧
    (∀ (j : Nat) (p : Obj), j ≠ i → h.objs[j]? = some p → (exec h (.convert i c)).1.objs[j]? = some p ∧
      (Apart o p → p.arr (exec h (.convert i c)).1.mem = p.arr h.mem)) ∧
    ((exec h (.convert i c)).2 = none → ∃ n, (exec h (.convert i c)).1.objs[i]? = some n ∧ n.comoving = some c) ∧
    (∀ a k, Conv a k (o.arr h.mem) → (exec h (.convert i c)).2 = none) := by
  rw [exec_some rfl ho]
  simp only [execAt, convertAt]
  cases e : frame c (o.arr h.mem) with
  | error q =>
    refine ⟨rfl, fun j p _ hp => ⟨hp, fun _ => rfl⟩, by simp, fun a k hc => ?_⟩
    exfalso
    cases c
    · obtain ⟨y, e', -⟩ := convertToPhysical_ok hc
      simp [frame, e'] at e
    · obtain ⟨y, e', -⟩ := convertToComoving_ok hc
      simp [frame, e'] at e
  | ok y =>
    obtain ⟨f1, f2, f3, f4, -⟩ := frame_ok e
    obtain ⟨s1, s2⟩ := store_self hg ho f4
    refine ⟨?_, fun j p hj hp => ⟨?_, fun ha => ?_⟩, fun _ => ⟨_, s1, f3⟩, fun _ _ _ => rfl⟩
    · simp only [Heap.phys, s1, ho, Option.map_some, Obj.phys, s2]
      rw [frame_phys (hg.factor o (mem_of ho)) e]
      rfl
    · simp only [store]
      rw [set_other (Ne.symm hj), hp]
    · exact arr_write_apart ha

/-- C70: what a conversion in place does to every other array: the numbers in shared cells are divided or multiplied by
`a^k`, although the array keeps its attributes. -/
theorem c70_others {h : Heap} (hg : Good h) {i : Nat} {o : Obj} (ho : h.objs[i]? = some o) {a k : ℝ} {c : Bool}
    (hc : Conv a k (o.arr h.mem)) (hf : o.comoving = some (!c)) {j : Nat} {p : Obj} (hj : j ≠ i)
    (hp : h.objs[j]? = some p) :
    (exec h (.convert i c)).1.objs[j]? = some p ∧
      (p.arr (exec h (.convert i c)).1.mem).val = p.cells.map (fun d =>
        if d ∈ o.cells then (if c then h.mem d / a ^ k else h.mem d * a ^ k) else h.mem d) := by
  refine ⟨((c70_convert hg ho c).2.1 j p hj hp).1, ?_⟩
  rw [exec_some rfl ho]
  simp only [execAt, convertAt]
  have hcf : o.cf = some ⟨some k, some a⟩ := hc.cf
  cases e : frame c (o.arr h.mem) with
  | error q =>
    exfalso
    have := (c70_convert hg ho c).2.2.2 a k hc
    rw [exec_some rfl ho] at this
    simp [execAt, convertAt, e] at this
  | ok y =>
    obtain ⟨-, -, -, -, ⟨h1, -⟩ | ⟨k', a', -, h2, h3⟩⟩ := frame_ok e
    · rw [show (o.arr h.mem).comoving = o.comoving from rfl, hf] at h1
      cases c <;> simp at h1
    · rw [show (o.arr h.mem).cf = o.cf from rfl, hcf] at h2
      simp only [Option.some.injEq, CF.mk.injEq] at h2
      obtain ⟨rfl, rfl⟩ := h2
      simp only [Obj.arr, store, h3, List.map_map, Function.comp_def]
      refine List.map_congr_left fun d _ => ?_
      rw [write_map (m := h.mem) (fun v => if c then v / a ^ k else v * a ^ k) (hg.nodup o (mem_of ho))]


private theorem good_alloc {h : Heap} (hg : Good h) {u : ℝ} {x : Arr} (hu : u ≠ 0)
    (hf : ∀ f, x.cf = some f → ∀ a, f.sf = some a → 0 < a) : Good (alloc h u x) := by
  constructor <;> intro p hp <;> simp only [alloc, List.mem_append, List.mem_singleton] at hp ⊢ <;>
    rcases hp with hp | rfl
  · intro c hc
    have := hg.used p hp c hc
    omega
  · intro c hc
    rw [List.mem_range'_1] at hc
    omega
  · exact hg.nodup p hp
  · exact List.nodup_range'
  · exact hg.unit p hp
  · exact hu
  · exact hg.factor p hp
  · exact hf

private theorem good_append {h : Heap} (hg : Good h) {m : Nat → ℝ} {o n : Obj} (ho : o ∈ h.objs)
    (hs : ∀ c ∈ n.cells, c ∈ o.cells) (hn : n.cells.Nodup) (hu : n.unit = o.unit) (hf : n.cf = o.cf) :
    Good ⟨m, h.next, h.objs ++ [n]⟩ := by
  constructor <;> intro p hp <;> simp only [List.mem_append, List.mem_singleton] at hp ⊢ <;>
    rcases hp with hp | rfl
  · exact hg.used p hp
  · exact fun c hc => hg.used o ho c (hs c hc)
  · exact hg.nodup p hp
  · exact hn
  · exact hg.unit p hp
  · exact hu ▸ hg.unit o ho
  · exact hg.factor p hp
  · exact hf ▸ hg.factor o ho

private theorem good_set {h : Heap} (hg : Good h) {m : Nat → ℝ} {i : Nat} {o n : Obj} (ho : h.objs[i]? = some o)
    (hs : n.cells = o.cells) (hu : n.unit ≠ 0) (hf : n.cf = o.cf) : Good ⟨m, h.next, h.objs.set i n⟩ := by
  have hm : ∀ p ∈ h.objs.set i n, p ∈ h.objs ∨ p = n := fun p hp => List.mem_or_eq_of_mem_set hp
  have ho := mem_of ho
  constructor <;> intro p hp <;> rcases hm p hp with hp | rfl
  · exact hg.used p hp
  · exact fun c hc => hg.used o ho c (hs ▸ hc)
  · exact hg.nodup p hp
  · exact hs ▸ hg.nodup o ho
  · exact hg.unit p hp
  · exact hu
  · exact hg.factor p hp
  · exact hf ▸ hg.factor o ho

private theorem good_convertAt {h : Heap} (hg : Good h) {i : Nat} {o : Obj} (ho : h.objs[i]? = some o) (c : Bool) :
    Good (convertAt h i o c).1 := by
  unfold convertAt
  cases e : frame c (o.arr h.mem) with
  | error q => exact hg
  | ok y => exact good_set hg ho rfl (hg.unit o (mem_of ho)) (frame_ok e).1

private theorem convertAt_self {h : Heap} (hg : Good h) {i : Nat} {o : Obj} (ho : h.objs[i]? = some o) (c : Bool) :
    (convertAt h i o c).1.phys i = h.phys i := by
  have := (c70_convert hg ho c).1
  rwa [exec_some rfl ho] at this

private theorem convertAt_other {h : Heap} {i j : Nat} {o p : Obj} (hj : i ≠ j) (hp : h.objs[j]? = some p)
    (ha : Apart o p) (c : Bool) : (convertAt h i o c).1.phys j = h.phys j := by
  unfold convertAt
  cases e : frame c (o.arr h.mem) with
  | error q => rfl
  | ok y => simp only [store, Heap.phys, set_other hj, hp, Option.map_some, phys_write_apart ha]

/-- What the constructor does, written out. -/
private theorem constructAt_eq (h : Heap) (o : Obj) (cm : Option Bool) (vt : Bool) :
    constructAt h o cm vt = if o.cf.isNone then (h, some .value) else
      match (match cm with
        | none => Except.ok (o.arr h.mem)
        | some c => frame c (o.arr h.mem)) with
      | .error e => (h, some e)
      | .ok y => match Arr.verify { (o.relabel y).arr (write h.mem o.cells y.val) with vt := vt } with
        | .error e => (⟨write h.mem o.cells y.val, h.next, h.objs⟩, some e)
        | .ok z => (⟨write h.mem o.cells y.val, h.next, h.objs ++ [o.relabel z]⟩, none) := by
  unfold constructAt
  split
  · rfl
  cases cm with
  | none =>
    have e : (o.arr h.mem).val = o.cells.map h.mem := rfl
    simp only [List.getElem?_append_right (Nat.le_refl _), Nat.sub_self, List.getElem?_cons_zero, e, write_self]
    rfl
  | some c =>
    simp only [convertAt]
    cases e : frame c (o.arr h.mem) with
    | error q => rfl
    | ok y =>
      simp only [store]
      rw [List.getElem?_set_self (by simp)]
      rfl

private theorem verify_eq {x z : Arr} (e : x.verify = .ok z) : z = x := by
  unfold Arr.verify at e
  split at e
  · cases e
  · split at e
    · cases e
    · exact (Except.ok.inj e).symm

private theorem good_objs {h : Heap} (hg : Good h) (m : Nat → ℝ) : Good ⟨m, h.next, h.objs⟩ :=
  ⟨hg.used, hg.nodup, hg.unit, hg.factor⟩

/-- The states that a program reaches are good. -/
private theorem good_exec {h : Heap} (hg : Good h) {q : Cmd} (hq : q.Proper) : Good (exec h q).1 := by
  by_cases hn : ∃ u x, q = .new u x
  · obtain ⟨u, x, rfl⟩ := hn
    exact good_alloc hg hq.1 hq.2
  · cases ht : q.target.bind (fun i => h.objs[i]?) with
    | none =>
      have : exec h q = (h, some .key) := by
        cases q <;> first | exact absurd ⟨_, _, rfl⟩ hn | (simp only [exec, ht])
      rw [this]; exact hg
    | some o =>
      obtain ⟨i, hi, ho⟩ := Option.bind_eq_some_iff.1 ht
      rw [exec_some hi ho]
      have hm := mem_of ho
      cases q with
      | new u x => exact absurd ⟨_, _, rfl⟩ hn
      | slice i' idx =>
        simp only [execAt]
        refine good_append hg hm ?_ ?_ rfl rfl
        · intro c hc
          simp only [List.mem_filterMap] at hc
          obtain ⟨k, -, hk⟩ := hc
          exact List.mem_of_getElem? hk
        · refine List.Nodup.filterMap ?_ hq
          intro x y c hx hy
          simp only [Option.mem_def] at hx hy
          obtain ⟨h1, h1'⟩ := List.getElem?_eq_some_iff.1 hx
          obtain ⟨h2, h2'⟩ := List.getElem?_eq_some_iff.1 hy
          exact (List.Nodup.getElem_inj_iff (hg.nodup o hm)).1 (h1'.trans h2'.symm)
      | copy i' => exact good_alloc hg (hg.unit o hm) (hg.factor o hm)
      | toFrame i' c =>
        simp only [execAt]
        split
        · exact hg
        · rename_i y e
          have hf : frame c (o.arr h.mem) = .ok y := by
            cases c <;> simp only [Arr.toComoving, Arr.toPhysical, frame, if_true, Bool.false_eq_true, if_false] at e ⊢ <;>
              split at e <;> first | cases e | exact e
          refine good_alloc hg (hg.unit o hm) ?_
          rw [(frame_ok hf).1]
          exact hg.factor o hm
      | convert i' c =>
        obtain rfl : i' = i := by simpa [Cmd.target] using hi
        exact good_convertAt hg ho c
      | units i' u =>
        obtain rfl : i' = i := by simpa [Cmd.target] using hi
        exact good_set hg ho rfl hq rfl
      | construct i' cm vt =>
        simp only [execAt, constructAt_eq]
        split
        · exact hg
        · split
          · exact hg
          · rename_i y e
            have hf : y.cf = o.cf := by
              cases cm with
              | none => rw [← Except.ok.inj e]; rfl
              | some c => exact (frame_ok e).1
            split
            · exact good_objs hg _
            · rename_i z e'
              refine good_append hg hm (fun c hc => hc) (hg.nodup o hm) rfl ?_
              rw [verify_eq e']
              exact hf
      | assign i' idx vals => exact good_objs hg _
      | field i' a u =>
        obtain rfl : i' = i := by simpa [Cmd.target] using hi
        simp only [execAt, fieldAt]
        split
        · exact hg
        · split
          · exact hg
          · have hs : Good (convertUnits h i' o u) := good_set hg ho rfl hq rfl
            exact good_convertAt hs (set_self ho) true

/-- One command that is harmless for an array keeps its physical values. -/
private theorem keep_exec {h : Heap} (hg : Good h) {q : Cmd} (hq : q.Proper) {j : Nat} {p : Obj} (hp : h.objs[j]? = some p)
    (hh : Harmless h j q) : (exec h q).1.phys j = h.phys j := by
  have halloc : ∀ u x, (alloc h u x).phys j = h.phys j := by
    intro u x
    obtain ⟨h1, h2⟩ := alloc_old hg (u := u) (x := x) hp
    simp only [Heap.phys, h1, hp, Option.map_some, Obj.phys, h2]
  have happ : ∀ n m, p.phys m = p.phys h.mem → Heap.phys ⟨m, h.next, h.objs ++ [n]⟩ j = h.phys j := by
    intro n m e
    simp only [Heap.phys, List.getElem?_append_left (lt_of hp), hp, Option.map_some, e]
  by_cases hn : ∃ u x, q = .new u x
  · obtain ⟨u, x, rfl⟩ := hn
    exact halloc u x
  · cases ht : q.target.bind (fun i => h.objs[i]?) with
    | none =>
      have : exec h q = (h, some .key) := by
        cases q <;> first | exact absurd ⟨_, _, rfl⟩ hn | (simp only [exec, ht])
      rw [this]
    | some o =>
      obtain ⟨i, hi, ho⟩ := Option.bind_eq_some_iff.1 ht
      rw [exec_some hi ho]
      have hm := mem_of ho
      cases q with
      | new u x => exact absurd ⟨_, _, rfl⟩ hn
      | slice i' idx => exact happ _ _ rfl
      | copy i' => exact halloc _ _
      | toFrame i' c =>
        simp only [execAt]
        split
        · rfl
        · exact halloc _ _
      | convert i' c =>
        obtain rfl : i' = i := by simpa [Cmd.target] using hi
        by_cases hij : i' = j
        · subst hij
          exact convertAt_self hg ho c
        · exact convertAt_other hij hp (hh hij o ho p hp) c
      | units i' u =>
        obtain rfl : i' = i := by simpa [Cmd.target] using hi
        by_cases hij : i' = j
        · subst hij
          obtain ⟨h1, h2⟩ := convertUnits_self hg ho hq
          simp only [execAt, Heap.phys, h1, ho, Option.map_some, h2]
        · simp only [execAt, convertUnits, Heap.phys, set_other hij, hp, Option.map_some,
            phys_write_apart (hh hij o ho p hp)]
      | construct i' cm vt =>
        obtain rfl : i' = i := by simpa [Cmd.target] using hi
        simp only [execAt, constructAt_eq]
        split
        · rfl
        · split
          · rfl
          · rename_i y e
            have hw : p.phys (write h.mem o.cells y.val) = p.phys h.mem := by
              rcases hh o ho with h1 | h1 | h1
              · subst h1
                rw [← Except.ok.inj e, show (o.arr h.mem).val = o.cells.map h.mem from rfl, write_self]
              · subst h1
                have hy : y = o.arr h.mem := by
                  cases hc : o.comoving with
                  | none => rw [hc] at e; exact (Except.ok.inj e).symm
                  | some c =>
                    rw [hc] at e
                    obtain ⟨-, -, -, -, ⟨-, h2⟩ | ⟨k, a, h2, -⟩⟩ := frame_ok e
                    · exact h2
                    · rw [show (o.arr h.mem).comoving = o.comoving from rfl, hc] at h2
                      cases c <;> simp at h2
                rw [hy, show (o.arr h.mem).val = o.cells.map h.mem from rfl, write_self]
              · exact phys_write_apart (h1 p hp)
            split
            · simp only [Heap.phys, hp, Option.map_some, hw]
            · exact happ _ _ hw
      | assign i' idx vals =>
        obtain rfl : i' = i := by simpa [Cmd.target] using hi
        simp only [execAt, Heap.phys, hp, Option.map_some]
        rw [phys_write_apart]
        intro c hc
        simp only [List.mem_filterMap] at hc
        obtain ⟨k, -, hk⟩ := hc
        exact hh o ho p hp c (List.mem_of_getElem? hk)
      | field i' a u =>
        obtain rfl : i' = i := by simpa [Cmd.target] using hi
        simp only [execAt, fieldAt]
        split
        · rfl
        · split
          · rfl
          · have hs : Good (convertUnits h i' o u) := good_set hg ho rfl hq rfl
            have hso : (convertUnits h i' o u).objs[i']? = some { o with unit := u } := set_self ho
            by_cases hij : i' = j
            · subst hij
              rw [convertAt_self hs hso]
              obtain ⟨h1, h2⟩ := convertUnits_self hg ho hq
              simp only [Heap.phys, h1, ho, Option.map_some, h2]
            · have hap := hh hij o ho p hp
              have hsp : (convertUnits h i' o u).objs[j]? = some p := by
                simp only [convertUnits, set_other hij, hp]
              rw [convertAt_other hij hsp (by exact hap)]
              simp only [convertUnits, Heap.phys, set_other hij, hp, Option.map_some, phys_write_apart hap]

private theorem exists_exec {h : Heap} (q : Cmd) {j : Nat} (hj : j < h.objs.length) :
    j < (exec h q).1.objs.length := by
  by_cases hn : ∃ u x, q = .new u x
  · obtain ⟨u, x, rfl⟩ := hn
    simp only [exec, alloc, List.length_append]
    omega
  · cases ht : q.target.bind (fun i => h.objs[i]?) with
    | none =>
      have : exec h q = (h, some .key) := by
        cases q <;> first | exact absurd ⟨_, _, rfl⟩ hn | (simp only [exec, ht])
      rwa [this]
    | some o =>
      obtain ⟨i, hi, ho⟩ := Option.bind_eq_some_iff.1 ht
      rw [exec_some hi ho]
      cases q <;> simp only [execAt, constructAt_eq, convertAt, convertUnits, fieldAt, store, alloc] <;>
        (repeat' split) <;> first | exact hj | (simp only [List.length_set]; exact hj) | (simp only [List.length_append]; omega)

/-- C70: whatever a program does, the physical values of an array stay as they are, as long as no other array that shares
memory with it is converted in place, given to the constructor in order to convert it, given to a snapshot writer, or assigned
to. -/
theorem c70_history (l : List Cmd) {h : Heap} (hg : Good h) (hq : ∀ q ∈ l, q.Proper) {j : Nat} (hj : j < h.objs.length)
    (hh : HarmlessAll h j l) : (run h l).phys j = h.phys j ∧ Good (run h l) := by
  induction l generalizing h with
  | nil => exact ⟨rfl, hg⟩
  | cons q l ih =>
    have hq1 := hq q List.mem_cons_self
    have hp : h.objs[j]? = some h.objs[j] := List.getElem?_eq_getElem hj
    obtain ⟨h1, h2⟩ := ih (good_exec hg hq1) (fun x hx => hq x (List.mem_cons_of_mem _ hx)) (exists_exec q hj) hh.2
    exact ⟨h1.trans (keep_exec hg hq1 hp hh.1), h2⟩

/-- C70, negation: `cosmo_array(x, comoving=c)` for an array in the other frame rescales the numbers of `x`, which keeps its
attributes: the physical values of `x` are divided or multiplied by `a^k`. -/
theorem c70_construct_fails {h : Heap} (hg : Good h) {i : Nat} {o : Obj} (ho : h.objs[i]? = some o) {a k : ℝ} {c : Bool}
    (hc : Conv a k (o.arr h.mem)) (hf : o.comoving = some (!c)) :
    ∃ g, exec h (.construct i (some c) true) = (g, none) ∧ g.objs[i]? = some o ∧
      g.phys i = (h.phys i).map (fun v => v.map (fun x => if c then x / a ^ k else x * a ^ k)) := by
  have hcf : o.cf = some ⟨some k, some a⟩ := hc.cf
  have hvt : o.vt = true := hc.vt
  have hlen : ∀ m : Nat → ℝ, (o.arr m).val = o.cells.map m := fun _ => rfl
  obtain ⟨y, e⟩ : ∃ y, frame c (o.arr h.mem) = .ok y := by
    cases c
    · exact (convertToPhysical_ok hc).imp fun y hy => hy.1
    · exact (convertToComoving_ok hc).imp fun y hy => hy.1
  obtain ⟨h1, h2, h3, h4, ⟨h5, -⟩ | ⟨k', a', -, h5, h6⟩⟩ := frame_ok e
  · rw [show (o.arr h.mem).comoving = o.comoving from rfl, hf] at h5
    cases c <;> simp at h5
  · rw [show (o.arr h.mem).cf = o.cf from rfl, hcf] at h5
    simp only [Option.some.injEq, CF.mk.injEq] at h5
    obtain ⟨rfl, rfl⟩ := h5
    have hval : o.cells.map (write h.mem o.cells y.val) =
        o.cells.map (fun d => if c then h.mem d / a ^ k else h.mem d * a ^ k) := by
      rw [map_write (hg.nodup o (mem_of ho)) (by simpa [hlen] using h4), h6]
      simp [hlen, Function.comp_def]
    refine ⟨⟨write h.mem o.cells y.val, h.next, h.objs ++ [o.relabel
      { (o.relabel y).arr (write h.mem o.cells y.val) with vt := true }]⟩, ?_, ?_, ?_⟩
    · rw [exec_some rfl ho]
      simp only [execAt, constructAt_eq, e, hcf]
      simp [Arr.verify, Obj.arr, Obj.relabel, h3]
    · dsimp only
      rw [List.getElem?_append_left (lt_of ho), ho]
    · simp only [Heap.phys, List.getElem?_append_left (lt_of ho), ho, Option.map_some, Obj.phys, Obj.arr, Arr.phys, hval,
        hcf, hf]
      congr 1
      cases c
      · simp only [Bool.not_false, List.map_map]
        refine List.map_congr_left fun d _ => ?_
        simp only [Function.comp, Bool.false_eq_true, if_false]
        ring
      · simp only [Bool.not_true, List.map_map]
        refine List.map_congr_left fun d _ => ?_
        simp only [Function.comp, if_true]
        ring

/-- C70, negation: `cosmo_array(x, comoving=True, valid_transform=False)` raises for a physical array, after it has rescaled
the numbers of `x`. -/
theorem c70_refused_fails {h : Heap} (hg : Good h) {i : Nat} {o : Obj} (ho : h.objs[i]? = some o) {a k : ℝ}
    (hc : Conv a k (o.arr h.mem)) (hf : o.comoving = some false) :
    ∃ g, exec h (.construct i (some true) false) = (g, some .invalidConversion) ∧ g.objs = h.objs ∧
      g.phys i = (h.phys i).map (fun v => v.map (fun x => x / a ^ k)) := by
  obtain ⟨g, h1, h2, h3⟩ := c70_construct_fails hg ho (c := true) hc hf
  have hcf : o.cf = some ⟨some k, some a⟩ := hc.cf
  obtain ⟨y, e, hy⟩ := convertToComoving_ok hc
  have e' : frame true (o.arr h.mem) = .ok y := by simpa [frame] using e
  have h4 : y.comoving = some true := (frame_ok e').2.2.1
  rw [exec_some rfl ho] at h1
  simp only [execAt, constructAt_eq, e', hcf] at h1
  simp only [Option.isNone_some, Bool.false_eq_true, if_false, Arr.verify, Obj.arr, Obj.relabel, h4] at h1
  simp only [reduceCtorEq, if_false, Bool.true_eq_false, Prod.mk.injEq, and_true] at h1
  refine ⟨⟨write h.mem o.cells y.val, h.next, h.objs⟩, ?_, rfl, ?_⟩
  · rw [exec_some rfl ho]
    simp only [execAt, constructAt_eq, e', hcf]
    simp [Arr.verify, Obj.arr, Obj.relabel, h4]
  · rw [← h1] at h3
    simp only [if_true] at h3
    rw [← h3]
    simp only [Heap.phys, List.getElem?_append_left (lt_of ho)]

private theorem range_filterMap (l : List Nat) : (List.range l.length).filterMap (fun k => l[k]?) = l := by
  induction l with
  | nil => rfl
  | cons x l ih =>
    rw [List.length_cons, List.range_succ_eq_map, List.filterMap_cons, List.filterMap_map]
    simp only [List.getElem?_cons_zero, Function.comp_def, List.getElem?_cons_succ, ih]

/-- C70: `x[:] = y` copies the numbers. If the frame, the factor and the unit of both arrays agree, the physical values are
copied. -/
theorem c70_assign {h : Heap} (hg : Good h) {i j : Nat} {o p : Obj} (ho : h.objs[i]? = some o) (hp : h.objs[j]? = some p)
    (hl : p.cells.length = o.cells.length) :
    ∃ g, exec h (.assign i (List.range o.cells.length) (p.arr h.mem).val) = (g, none) ∧ g.objs = h.objs ∧
      (o.arr g.mem).val = (p.arr h.mem).val ∧
      (o.comoving = p.comoving → o.cf = p.cf → o.unit = p.unit → g.phys i = h.phys j) := by
  have hr := range_filterMap o.cells
  have hv : (o.arr (write h.mem o.cells (p.arr h.mem).val)).val = (p.arr h.mem).val :=
    map_write (hg.nodup o (mem_of ho)) (by simpa [Obj.arr] using hl)
  refine ⟨_, exec_some rfl ho, rfl, ?_, ?_⟩
  · dsimp only [execAt]
    rw [hr, hv]
  · intro h1 h2 h3
    simp only [Heap.phys, ho, hp, Option.map_some, hr]
    congr 1
    simp only [Obj.phys, Arr.phys, hv, h3]
    simp only [Obj.arr, h1, h2]

/-- What giving an array to a writer does to this array. -/
private theorem field_self {h : Heap} (hg : Good h) {i : Nat} {o : Obj} (ho : h.objs[i]? = some o) {a k u : ℝ} (hu : u ≠ 0)
    (hc : Conv a k (o.arr h.mem)) :
    ∃ g n, exec h (.field i a u) = (g, none) ∧ g.objs[i]? = some n ∧ n.cells = o.cells ∧ n.cf = o.cf ∧ n.vt = o.vt ∧
      n.comoving = some true ∧ n.unit = u ∧ n.phys g.mem = o.phys h.mem := by
  have hcf : o.cf = some ⟨some k, some a⟩ := hc.cf
  have hs : Good (convertUnits h i o u) := good_set hg ho rfl hu rfl
  have hso : (convertUnits h i o u).objs[i]? = some { o with unit := u } := set_self ho
  have hc' : Conv a k (Obj.arr (convertUnits h i o u).mem { o with unit := u }) :=
    ⟨hc.pos, hc.cf, hc.vt, hc.framed⟩
  obtain ⟨y, e, -⟩ := convertToComoving_ok hc'
  have e' : frame true (Obj.arr (convertUnits h i o u).mem { o with unit := u }) = .ok y := by simpa [frame] using e
  obtain ⟨f1, f2, f3, f4, -⟩ := frame_ok e'
  obtain ⟨s1, s2⟩ := store_self hs hso f4
  refine ⟨store (convertUnits h i o u) i { o with unit := u } y, _, ?_, s1, rfl, f1, f2, f3, rfl, ?_⟩
  · rw [exec_some rfl ho]
    have e2 : fieldAt h i o a u = convertAt (convertUnits h i o u) i { o with unit := u } true := by
      unfold fieldAt
      split
      · rename_i e3
        rw [hcf] at e3
        cases e3
      · rename_i f e3
        rw [hcf] at e3
        obtain rfl := Option.some.inj e3
        exact if_neg (by simp)
    simp only [execAt, e2, convertAt, e']
  · rw [← (convertUnits_self hg ho hu).2]
    unfold Obj.phys
    rw [s2, frame_phys (hs.factor _ (mem_of hso)) e']
    rfl

/-- What giving an array to a writer does to other arrays. -/
private theorem field_other {h : Heap} {i j : Nat} {o p : Obj} (ho : h.objs[i]? = some o) (hij : i ≠ j)
    (hp : h.objs[j]? = some p) (ha : Apart o p) (a u : ℝ) :
    (exec h (.field i a u)).1.objs[j]? = some p ∧ p.phys (exec h (.field i a u)).1.mem = p.phys h.mem := by
  have h2 : ∀ c, (convertUnits h i o u).objs[j]? = some p ∧ p.phys (convertUnits h i o u).mem = p.phys h.mem ∧
      (convertAt (convertUnits h i o u) i { o with unit := u } c).1.objs[j]? = some p ∧
      p.phys (convertAt (convertUnits h i o u) i { o with unit := u } c).1.mem = p.phys h.mem := by
    intro c
    have h3 : (convertUnits h i o u).objs[j]? = some p := by simp only [convertUnits, set_other hij, hp]
    have h4 : p.phys (convertUnits h i o u).mem = p.phys h.mem := phys_write_apart ha
    refine ⟨h3, h4, ?_⟩
    unfold convertAt
    split
    · exact ⟨h3, h4⟩
    · exact ⟨by simp only [store, set_other hij, h3], by rw [← h4]; exact phys_write_apart (by exact ha)⟩
  rw [exec_some rfl ho]
  simp only [execAt, fieldAt]
  split
  · exact ⟨hp, rfl⟩
  · split
    · exact ⟨hp, rfl⟩
    · exact ⟨(h2 true).2.2.1, (h2 true).2.2.2⟩

/-- The fields of a writer: arrays and the sizes of the units of the fields. -/
private theorem fields_step (a : ℝ) (all : List (Nat × ℝ)) {h : Heap} (hg : Good h) (o : Nat → Obj) (k : Nat → ℝ)
    (val : Nat → List ℝ) (done l : List (Nat × ℝ)) (hl : ∀ x ∈ l, x ∈ all) (hd : ∀ x ∈ done, x ∈ all)
    (hu : ∀ x ∈ all, x.2 ≠ 0)
    (hap : ∀ x ∈ all, ∀ y ∈ all, x = y ∨ (x.1 ≠ y.1 ∧ Apart (o x.1) (o y.1)))
    (hh : ∀ x ∈ all, ∃ n, h.objs[x.1]? = some n ∧ n.cells = (o x.1).cells ∧ Conv a (k x.1) (n.arr h.mem) ∧
      n.phys h.mem = val x.1)
    (hdone : ∀ x ∈ done, ∃ n, h.objs[x.1]? = some n ∧ n.comoving = some true ∧ n.unit = x.2) :
    ∀ x ∈ all, ∃ n, (run h (l.map (fun y => Cmd.field y.1 a y.2))).objs[x.1]? = some n ∧ n.cells = (o x.1).cells ∧
      Conv a (k x.1) (n.arr (run h (l.map (fun y => Cmd.field y.1 a y.2))).mem) ∧
      n.phys (run h (l.map (fun y => Cmd.field y.1 a y.2))).mem = val x.1 ∧
      (x ∈ done ∨ x ∈ l → n.comoving = some true ∧ n.unit = x.2) := by
  induction l generalizing h done with
  | nil =>
    intro x hx
    obtain ⟨n, h1, h2, h3, h4⟩ := hh x hx
    refine ⟨n, h1, h2, h3, h4, fun h5 => ?_⟩
    rcases h5 with h5 | h5
    · obtain ⟨n', h6, h7⟩ := hdone x h5
      rw [h1] at h6
      obtain rfl := Option.some.inj h6
      exact h7
    · cases h5
  | cons y l ih =>
    have hy := hl y List.mem_cons_self
    obtain ⟨m, m1, m2, m3, m4⟩ := hh y hy
    obtain ⟨g, n, g1, g2, g3, g4, g5, g6, g7, g8⟩ := field_self hg m1 (hu y hy) m3
    have hgg : Good g := by
      have := good_exec hg (q := .field y.1 a y.2) (hu y hy)
      rwa [g1] at this
    have hother : ∀ x ∈ all, x ≠ y → ∀ p, h.objs[x.1]? = some p → p.cells = (o x.1).cells →
        g.objs[x.1]? = some p ∧ p.phys g.mem = p.phys h.mem := by
      intro x hx hxy p hp hpc
      rcases hap y hy x hx with h1 | ⟨h1, h2⟩
      · exact absurd h1.symm hxy
      · have := field_other (a := a) (u := y.2) m1 h1 hp (by
          intro c hc hc'
          rw [m2] at hc
          rw [hpc] at hc'
          exact h2 c hc hc')
        rwa [g1] at this
    have key := ih hgg (y :: done) (fun x hx => hl x (List.mem_cons_of_mem _ hx)) (by
        intro x hx
        rcases List.mem_cons.1 hx with rfl | hx
        · exact hy
        · exact hd x hx) (by
        intro x hx
        by_cases hxy : x = y
        · subst hxy
          exact ⟨n, g2, g3.trans m2, ⟨m3.pos, by simpa [Obj.arr, g4] using m3.cf, by simpa [Obj.arr, g5] using m3.vt,
            by simp [Obj.arr, g6]⟩, g8.trans m4⟩
        · obtain ⟨p, p1, p2, p3, p4⟩ := hh x hx
          obtain ⟨q1, q2⟩ := hother x hx hxy p p1 p2
          exact ⟨p, q1, p2, ⟨p3.pos, p3.cf, p3.vt, p3.framed⟩, q2.trans p4⟩) (by
        intro x hx
        rcases List.mem_cons.1 hx with rfl | hx
        · exact ⟨n, g2, g6, g7⟩
        · by_cases hxy : x = y
          · subst hxy
            exact ⟨n, g2, g6, g7⟩
          · obtain ⟨p, p1, p2⟩ := hdone x hx
            obtain ⟨p', p1', p3, -⟩ := hh x (hd x hx)
            rw [p1] at p1'
            obtain rfl := Option.some.inj p1'
            exact ⟨p, (hother x (hd x hx) hxy p p1 p3).1, p2⟩)
    intro x hx
    obtain ⟨n', k1, k2, k3, k4, k5⟩ := key x hx
    rw [List.map_cons, run, g1]
    refine ⟨n', k1, k2, k3, k4, fun h5 => k5 ?_⟩
    rcases h5 with h5 | h5
    · exact .inl (List.mem_cons_of_mem _ h5)
    · rcases List.mem_cons.1 h5 with rfl | h5
      · exact .inl List.mem_cons_self
      · exact .inr h5

/-- C70: arrays that are given to a snapshot writer and share no memory with each other are written correctly: after all
fields are set, every one of them holds the comoving numbers, in the unit of the field, of the physical values that it had
before. -/
theorem c70_writer {h : Heap} (hg : Good h) (a : ℝ) (l : List (Nat × ℝ)) (k : Nat → ℝ) (hu : ∀ x ∈ l, x.2 ≠ 0)
    (hc : ∀ x ∈ l, ∃ o, h.objs[x.1]? = some o ∧ Conv a (k x.1) (o.arr h.mem))
    (hap : ∀ x ∈ l, ∀ y ∈ l, x = y ∨ (x.1 ≠ y.1 ∧ ∀ o p, h.objs[x.1]? = some o → h.objs[y.1]? = some p → Apart o p))
    {x : Nat × ℝ} (hx : x ∈ l) {v : List ℝ} (hv : h.phys x.1 = some v) :
    ∃ n, (run h (l.map (fun y => Cmd.field y.1 a y.2))).objs[x.1]? = some n ∧ n.comoving = some true ∧ n.unit = x.2 ∧
      (n.arr (run h (l.map (fun y => Cmd.field y.1 a y.2))).mem).val = v.map (fun r => r / x.2 / a ^ k x.1) := by
  obtain ⟨n, h1, -, h3, h4, h5⟩ := fields_step a l hg (fun i => (h.objs[i]?).getD ⟨[], 1, none, none, true⟩) k
    (fun i => (h.phys i).getD []) [] l (fun _ hy => hy) (by simp) hu (by
      intro x hx y hy
      obtain ⟨o, ho, -⟩ := hc x hx
      obtain ⟨p, hp, -⟩ := hc y hy
      rcases hap x hx y hy with h1 | ⟨h1, h2⟩
      · exact .inl h1
      · exact .inr ⟨h1, by simpa only [ho, hp, Option.getD_some] using h2 o p ho hp⟩) (by
      intro x hx
      obtain ⟨o, ho, hco⟩ := hc x hx
      exact ⟨o, ho, by simp [ho], hco, by simp [Heap.phys, ho]⟩) (by simp) x hx
  obtain ⟨h6, h7⟩ := h5 (.inr hx)
  refine ⟨n, h1, h6, h7, ?_⟩
  have hk : a ^ k x.1 ≠ 0 := (Real.rpow_pos_of_pos h3.pos _).ne'
  have hcf := h3.cf
  simp only [hv, Option.getD_some] at h4
  rw [← h4]
  have hux := hu x hx
  simp only [Obj.phys, Arr.phys, hcf, show ∀ m, (n.arr m).comoving = n.comoving from fun _ => rfl, h6, h7, List.map_map]
  conv_lhs => rw [← List.map_id (n.arr _).val]
  refine List.map_congr_left fun r _ => ?_
  simp only [Function.comp, id]
  field_simp

/-- An array of lengths at scale factor one half: the physical number 8. -/
private noncomputable def eight : Arr := ⟨[8], some false, some ⟨some 1, some (1 / 2)⟩, true⟩

/-- The empty memory. -/
private def start : Heap := ⟨fun _ => 0, 0, []⟩

private theorem good_start : Good start := by
  constructor <;> simp [start]

/-- A program with one array and two slices of it. -/
private noncomputable def sliced : Heap := run start [.new 1 eight, .slice 0 [0], .slice 0 [0]]

private theorem sliced_eq : sliced = ⟨Function.update (fun _ => 0) 0 8, 1,
    [⟨[0], 1, some false, some ⟨some 1, some (1 / 2)⟩, true⟩, ⟨[0], 1, some false, some ⟨some 1, some (1 / 2)⟩, true⟩,
      ⟨[0], 1, some false, some ⟨some 1, some (1 / 2)⟩, true⟩]⟩ := by
  simp [sliced, run, exec, start, alloc, eight, write, Cmd.target, execAt]

/-- The array and its slices are good. -/
private theorem good_sliced : Good sliced := by
  rw [sliced_eq]
  constructor <;> simp

private theorem frame_one (v : ℝ) : frame true ⟨[v], some false, some ⟨some 1, some (1 / 2)⟩, true⟩ =
    .ok ⟨[2 * v], some true, some ⟨some 1, some (1 / 2)⟩, true⟩ := by
  have : v / (1 / 2 : ℝ) = 2 * v := by ring
  simp [frame, Arr.convertToComoving, Arr.factor, CF.aFactor, Real.rpow_one, mul_comm]

/-- C70, negation: converting a slice in place changes the physical values of the array that it was taken from: 8 becomes
16. -/
theorem c70_slice_fails : sliced.phys 0 = some [8] ∧ (exec sliced (.convert 1 true)).1.phys 0 = some [16] ∧
    (exec sliced (.convert 1 true)).1.phys 1 = some [8] := by
  rw [sliced_eq]
  refine ⟨?_, ?_, ?_⟩
  · simp [Heap.phys, Obj.phys, Obj.arr, Arr.phys]
  · norm_num [exec, Cmd.target, execAt, convertAt, Obj.arr, -one_div, frame_one, store, write, Heap.phys, Obj.phys, Arr.phys,
      Obj.relabel]
  · norm_num [exec, Cmd.target, execAt, convertAt, Obj.arr, -one_div, frame_one, store, write, Heap.phys, Obj.phys, Arr.phys,
      Obj.relabel]

/-- C70. A snapshot writer refuses an array with another scale factor, and leaves it as it is. -/
theorem c70_writer_refused {h : Heap} {i : Nat} {o : Obj} (ho : h.objs[i]? = some o) {f : CF} (hf : o.cf = some f) {a : ℝ}
    (ha : f.sf ≠ some a) (u : ℝ) : exec h (.field i a u) = (h, some .assertion) := by
  rw [exec_some rfl ho]
  simp only [execAt, fieldAt, hf]
  rw [if_pos ha]

/-- C70, negation: two slices of one array given to a snapshot writer are converted twice: the file holds the comoving
number 32, that is 16 in physical units, instead of 8. -/
theorem c70_writer_fails : (run sliced [.field 1 (1 / 2) 1, .field 2 (1 / 2) 1]).phys 1 = some [16] ∧
    (run sliced [.field 1 (1 / 2) 1, .field 2 (1 / 2) 1]).phys 2 = some [16] ∧
    (run sliced [.field 1 (1 / 2) 1, .field 2 (1 / 2) 1]).phys 0 = some [32] := by
  rw [sliced_eq]
  refine ⟨?_, ?_, ?_⟩ <;>
    norm_num [run, exec, Cmd.target, execAt, fieldAt, convertUnits, convertAt, Obj.arr, -one_div, frame_one, store, write,
      Heap.phys, Obj.phys, Arr.phys, Obj.relabel]

/-- C70, negation: assigning the elements of a physical array to a comoving one copies the numbers: a physical 8 is stored as
a comoving 8, which is 4 in physical units. -/
theorem c70_assign_fails :
    let h := run start [.new 1 eight, .new 1 { eight with comoving := some true, val := [2] }]
    (exec h (.assign 1 [0] [8])).1.phys 1 = some [4] ∧ h.phys 0 = some [8] := by
  have e : List.filterMap (fun x => [1][x]?) [0] = [1] := rfl
  refine ⟨?_, ?_⟩ <;>
    norm_num [run, start, eight, Heap.phys, Obj.phys, Obj.arr, Arr.phys, exec, Cmd.target, execAt, alloc, write, List.range',
      e]

/-! Examples. -/

private noncomputable def two : Heap := ⟨Function.update (Function.update (fun _ => 0) 0 8) 1 3, 2,
  [⟨[0], 1, some false, some ⟨some 1, some (1 / 2)⟩, true⟩, ⟨[1], 1, some true, some ⟨some 2, some (1 / 2)⟩, true⟩]⟩

private theorem good_two : Good two := by constructor <;> simp [two]

private theorem conv_one (m : Nat → ℝ) :
    Conv (1 / 2) 1 (Obj.arr m ⟨[0], 1, some false, some ⟨some 1, some (1 / 2)⟩, true⟩) :=
  ⟨by norm_num, rfl, rfl, by simp [Obj.arr]⟩

private theorem conv_two (m : Nat → ℝ) :
    Conv (1 / 2) 2 (Obj.arr m ⟨[1], 1, some true, some ⟨some 2, some (1 / 2)⟩, true⟩) :=
  ⟨by norm_num, rfl, rfl, by simp [Obj.arr]⟩

private theorem apart_two : Apart ⟨[0], 1, some false, some ⟨some 1, some (1 / 2)⟩, true⟩
    ⟨[1], 1, some true, some ⟨some 2, some (1 / 2)⟩, true⟩ := by
  intro c hc
  simp at hc ⊢
  omega

example : ∃ g, exec sliced (.construct 0 (some true) true) = (g, none) ∧
    g.phys 0 = (sliced.phys 0).map (fun v => v.map (fun x => x / (1 / 2) ^ (1 : ℝ))) := by
  have ho : sliced.objs[0]? = some ⟨[0], 1, some false, some ⟨some 1, some (1 / 2)⟩, true⟩ := by rw [sliced_eq]; rfl
  obtain ⟨g, h1, -, h3⟩ := c70_construct_fails good_sliced ho (c := true) (conv_one _) rfl
  exact ⟨g, h1, by simpa using h3⟩

example : ((⟨[0], 1, some false, some ⟨some 1, some (1 / 2)⟩, true⟩ : Obj).arr (exec sliced (.convert 1 true)).1.mem).val =
    [sliced.mem 0 / (1 / 2) ^ (1 : ℝ)] := by
  have h1 : sliced.objs[1]? = some ⟨[0], 1, some false, some ⟨some 1, some (1 / 2)⟩, true⟩ := by rw [sliced_eq]; rfl
  have h0 : sliced.objs[0]? = some ⟨[0], 1, some false, some ⟨some 1, some (1 / 2)⟩, true⟩ := by rw [sliced_eq]; rfl
  have := (c70_others good_sliced h1 (c := true) (conv_one _) rfl (j := 0) (by omega) h0).2
  simpa using this

example : ∃ g, exec sliced (.construct 0 (some true) false) = (g, some .invalidConversion) ∧ g.objs = sliced.objs := by
  have h0 : sliced.objs[0]? = some ⟨[0], 1, some false, some ⟨some 1, some (1 / 2)⟩, true⟩ := by rw [sliced_eq]; rfl
  obtain ⟨g, h1, h2, -⟩ := c70_refused_fails good_sliced h0 (conv_one _) rfl
  exact ⟨g, h1, h2⟩

example : (run two [.convert 0 true, .copy 1, .toFrame 1 false]).phys 1 = two.phys 1 := by
  refine (c70_history [.convert 0 true, .copy 1, .toFrame 1 false] good_two (by simp [Cmd.Proper]) (j := 1) (by simp [two]) ⟨?_, trivial, trivial, trivial⟩).1
  intro _ o ho p hp
  simp only [two, Option.mem_def, List.getElem?_cons_zero, List.getElem?_cons_succ, Option.some.injEq] at ho hp
  subst ho hp
  exact apart_two

example : ∃ n, (run two [.field 0 (1 / 2) 1, .field 1 (1 / 2) 4]).objs[1]? = some n ∧ n.comoving = some true ∧ n.unit = 4 ∧
    (n.arr (run two [.field 0 (1 / 2) 1, .field 1 (1 / 2) 4]).mem).val = [3 * (1 / 2) ^ (2 : ℝ) / 4 / (1 / 2) ^ (2 : ℝ)] := by
  have := c70_writer good_two (1 / 2) [(0, 1), (1, 4)] (fun i => if i = 0 then 1 else 2) (by simp) (by
      intro x hx
      simp only [List.mem_cons, List.not_mem_nil, or_false] at hx
      rcases hx with rfl | rfl
      · exact ⟨_, rfl, conv_one _⟩
      · exact ⟨_, rfl, conv_two _⟩) (by
      intro x hx y hy
      simp only [List.mem_cons, List.not_mem_nil, or_false] at hx hy
      rcases hx with rfl | rfl <;> rcases hy with rfl | rfl
      · exact .inl rfl
      · refine .inr ⟨by simp, fun o p ho hp => ?_⟩
        simp only [two, List.getElem?_cons_zero, List.getElem?_cons_succ, Option.some.injEq] at ho hp
        subst ho hp
        exact apart_two
      · refine .inr ⟨by simp, fun o p ho hp => ?_⟩
        simp only [two, List.getElem?_cons_zero, List.getElem?_cons_succ, Option.some.injEq] at ho hp
        subst ho hp
        exact fun c hc hc' => apart_two c hc' hc
      · exact .inl rfl) (x := (1, 4)) (by simp) (v := [3 * (1 / 2) ^ (2 : ℝ)]) (by
      simp [Heap.phys, two, Obj.phys, Obj.arr, Arr.phys])
  simpa using this

example : ∃ g, exec two (.assign 0 (List.range 1) [3]) = (g, none) ∧ g.objs = two.objs := by
  obtain ⟨g, h1, h2, -⟩ := c70_assign good_two (i := 0) (j := 1) rfl rfl rfl
  exact ⟨g, by simpa [two, Obj.arr] using h1, h2⟩

end Verif.Props
