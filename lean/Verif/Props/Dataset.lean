import Verif.Spec.Dataset
import Mathlib.Data.List.Nodup

/-!
# C78: the attributes of an open dataset
-/

namespace Verif.Props
open Verif Verif.Dataset Verif.Dataset.Spec

/-- Where a value is put. -/
private def slot (cls : List (Name × Member)) (n : Name) : Name :=
  match cls.lookup n with
  | some (.lazy _) => under n
  | _ => n

/-- No private name is an entry of the class. -/
private def CleanCls (cls : List (Name × Member)) : Prop := ∀ n x, cls.lookup n = some x → cls.lookup (under n) = none

private theorem under_ne_handle (n : Name) : under n ≠ handleName := by
  intro h
  have : some '_' = handleName.head? := congrArg List.head? h
  revert this
  decide +kernel

private theorem setAttr_ok {d : Nat} {o : Obj} {n : Name} {v : Val} (hd : 2 ≤ d) (hc : CleanCls o.cls)
    (hn : o.cls.lookup n = none → n ≠ handleName) :
    setAttr d o n v = .ok { o with inst := Function.update o.inst (slot o.cls n) (some v) } := by
  obtain ⟨d, rfl⟩ : ∃ k, d = k + 2 := ⟨d - 2, by omega⟩
  cases e : o.cls.lookup n with
  | none => simp [setAttr, slot, e, hn e]
  | some x =>
    cases x with
    | object id => simp [setAttr, slot, e]
    | lazy s => simp [setAttr, slot, e, hc n _ e, under_ne_handle]

private theorem setUnder_ok {d : Nat} {o : Obj} {n : Name} {v : Val} (hd : 1 ≤ d) (hc : o.cls.lookup (under n) = none) :
    setAttr d o (under n) v = .ok { o with inst := Function.update o.inst (under n) (some v) } := by
  obtain ⟨d, rfl⟩ : ∃ k, d = k + 1 := ⟨d - 1, by omega⟩
  simp [setAttr, hc, under_ne_handle]

private theorem getLazy {d : Nat} {o : Obj} {n : Name} {s : Source} (hc : o.cls.lookup n = some (.lazy s)) :
    getAttr (d + 1) o n = (getAttr d o (under n)).bind (getter d (getAttr d) n s) := by
  rw [getAttr, hc]

private theorem getPlain_ok {d : Nat} {o : Obj} {n : Name} {v : Val} (hd : 1 ≤ d) (hc : o.cls.lookup n = none)
    (hn : n ≠ handleName) (hv : o.inst n = some v) : getAttr d o n = .ok (o, v) := by
  obtain ⟨d, rfl⟩ : ∃ k, d = k + 1 := ⟨d - 1, by omega⟩
  simp [getAttr, hc, hn, plainAttr, hv, Except.map]

private theorem getMethod_ok {d : Nat} {o : Obj} {n : Name} (hd : 1 ≤ d) (hc : o.cls.lookup n = none)
    (hn : n ∈ methods) (hh : n ≠ handleName) (hv : o.inst n = none) : getAttr d o n = .ok (o, .own n) := by
  obtain ⟨d, rfl⟩ : ∃ k, d = k + 1 := ⟨d - 1, by omega⟩
  simp [getAttr, hc, hh, plainAttr, hv, Except.map, hn]

/-- An object whose attributes `n` with `C n s` show `s` until something else is put there. -/
private structure Inv (o : Obj) (C : Name → Source → Prop) (mem : Name → Option Val) : Prop where
  entry : ∀ n s, C n s → o.cls.lookup n = some (.lazy s) ∧ o.cls.lookup (under n) = none ∧
    o.inst (under n) = some ((mem n).getD .none) ∧ mem n ≠ some .none
  openFile : o.cls.lookup openFileName = none ∧ o.inst openFileName = none
  filename : o.cls.lookup filenameName = none ∧ o.inst filenameName = some (.own filenameName)
  metadata : o.cls.lookup metadataName = none ∧ o.inst metadataName = some (.own metadataName)

private theorem under_ne (n : Name) : under n ≠ openFileName ∧ under n ≠ filenameName ∧ under n ≠ metadataName := by
  refine ⟨?_, ?_, ?_⟩
  · intro h
    have : some '_' = openFileName.head? := congrArg List.head? h
    revert this
    decide +kernel
  · intro h
    have : some '_' = filenameName.head? := congrArg List.head? h
    revert this
    decide +kernel
  · intro h
    have : some '_' = metadataName.head? := congrArg List.head? h
    revert this
    decide +kernel

private theorem under_inj {n m : Name} (h : under n = under m) : n = m := (List.cons.inj h).2

/-- Writing to the private name of an attribute. -/
private theorem Inv.write {o : Obj} {C : Name → Source → Prop} {mem : Name → Option Val} (h : Inv o C mem) (n : Name) (v : Option Val)
    (hv : v ≠ some .none) :
    Inv { o with inst := Function.update o.inst (under n) (some (v.getD .none)) } C (Function.update mem n v) := by
  obtain ⟨u1, u2, u3⟩ := under_ne n
  refine ⟨fun k s hk => ?_, ?_, ?_, ?_⟩
  · obtain ⟨a, b, c, d⟩ := h.entry k s hk
    refine ⟨a, b, ?_, ?_⟩
    · by_cases e : k = n
      · subst e; simp
      · have : under k ≠ under n := fun h => e (under_inj h)
        simp [e, this, c]
    · by_cases e : k = n
      · subst e; simpa using hv
      · simpa [e] using d
  · exact ⟨h.openFile.1, by simp [Function.update_of_ne u1.symm, h.openFile.2]⟩
  · exact ⟨h.filename.1, by simp [Function.update_of_ne u2.symm, h.filename.2]⟩
  · exact ⟨h.metadata.1, by simp [Function.update_of_ne u3.symm, h.metadata.2]⟩

private def seenOne (s : Source) (v : Option Val) : Act → Option Val
  | .get => some (v.getD (.file s))
  | _ => none

private def afterOne (s : Source) (v : Option Val) : Act → Option Val
  | .get => some (v.getD (.file s))
  | .set v => if v = .none then none else some v
  | .del => none

private theorem names_facts : openFileName ∈ methods ∧ openFileName ≠ handleName ∧ filenameName ≠ handleName ∧
    metadataName ≠ handleName := by decide +kernel

/-- One action on one attribute. -/
private theorem actObj_ok {d : Nat} {o : Obj} {C : Name → Source → Prop} {mem : Name → Option Val} (hd : 2 ≤ d) (h : Inv o C mem)
    {n : Name} {s : Source} (hn : C n s) (a : Act) :
    ∃ w, actObj d o n a = .ok ({ o with inst := Function.update o.inst (under n) (some w) }, seenOne s (mem n) a) ∧
      Inv { o with inst := Function.update o.inst (under n) (some w) } C (Function.update mem n (afterOne s (mem n) a)) := by
  obtain ⟨d, rfl⟩ : ∃ k, d = k + 2 := ⟨d - 2, by omega⟩
  obtain ⟨e1, e2, e3, e4⟩ := h.entry n s hn
  obtain ⟨f1, f2, f3, f4⟩ := names_facts
  cases a with
  | set v =>
    refine ⟨v, ?_, ?_⟩
    · simp [actObj, setAttr, e1, e2, under_ne_handle, seenOne, Except.map]
    · have := h.write n (if v = .none then none else some v) (by split <;> simp_all)
      by_cases hv : v = .none
      · simpa [hv, afterOne] using this
      · simpa [hv, afterOne] using this
  | del =>
    refine ⟨.none, ?_, ?_⟩
    · simp only [actObj, delAttr, e1]
      rw [getPlain_ok (by omega) e2 (under_ne_handle n) e3]
      simp only [Except.bind]
      rw [setUnder_ok (by omega) e2]
      rfl
    · simpa [afterOne] using h.write n none (by simp)
  | get =>
    cases hm : mem n with
    | some v =>
      have hv : v ≠ .none := by rintro rfl; exact e4 hm
      refine ⟨v, ?_, ?_⟩
      · have e : Function.update o.inst (under n) (some v) = o.inst := by
          rw [Function.update_eq_self_iff, e3, hm]
          rfl
        simp only [actObj]
        rw [getLazy e1]
        rw [getPlain_ok (by omega) e2 (under_ne_handle n) e3, hm]
        simp [Except.bind, getter, hv, Except.map, seenOne, e]
      · simpa [afterOne] using h.write n (some v) (by simpa using hv)
    | none =>
      refine ⟨.file s, ?_, ?_⟩
      · simp only [actObj]
        rw [getLazy e1]
        rw [getPlain_ok (by omega) e2 (under_ne_handle n) e3, hm]
        simp only [Except.bind, getter, Option.getD_none, if_true, readFile]
        rw [getMethod_ok (by omega) h.openFile.1 f1 f2 h.openFile.2]
        simp only [needOwn, if_true]
        rw [getPlain_ok (by omega) h.filename.1 f3 h.filename.2]
        simp only [if_true]
        rw [getPlain_ok (by omega) h.metadata.1 f4 h.metadata.2]
        simp only [if_true, keep]
        rw [setUnder_ok (by omega) e2]
        simp only [Except.bind]
        rw [getPlain_ok (o := { o with inst := Function.update o.inst (under n) (some (.file s)) }) (v := .file s) (by omega) e2
          (under_ne_handle n) (by simp)]
        rfl
      · simpa [afterOne] using h.write n (some (.file s)) (by simp)

private theorem lookup_none {α : Type} {l : List (Name × α)} {n : Name} (h : n ∉ l.map Prod.fst) : l.lookup n = none := by
  induction l with
  | nil => rfl
  | cons a l ih =>
    simp only [List.map_cons, List.mem_cons, not_or] at h
    obtain ⟨k, x⟩ := a
    rw [List.lookup_cons]
    have : (n == k) = false := by simpa using h.1
    rw [this]
    exact ih h.2

private theorem lookup_mem {α : Type} {l : List (Name × α)} {n : Name} {x : α} (h : l.lookup n = some x) : (n, x) ∈ l := by
  induction l with
  | nil => cases h
  | cons a l ih =>
    obtain ⟨k, y⟩ := a
    rw [List.lookup_cons] at h
    by_cases e : n = k
    · subst e
      simp only [beq_self_eq_true, Option.some.injEq] at h
      subst h
      exact List.mem_cons_self
    · have : (n == k) = false := by simpa using e
      rw [this] at h
      exact List.mem_cons_of_mem _ (ih h)

private theorem lookup_of_mem {α : Type} {l : List (Name × α)} {n : Name} {x : α} (hl : (l.map Prod.fst).Nodup) (h : (n, x) ∈ l) :
    l.lookup n = some x := by
  induction l with
  | nil => cases h
  | cons a l ih =>
    obtain ⟨k, y⟩ := a
    simp only [List.map_cons, List.nodup_cons] at hl
    rw [List.lookup_cons]
    rcases List.mem_cons.1 h with h' | h'
    · cases h'
      simp
    · have : n ≠ k := by
        rintro rfl
        exact hl.1 (List.mem_map.2 ⟨(n, x), h', rfl⟩)
      have : (n == k) = false := by simpa using this
      rw [this]
      exact ih hl.2 h'

private theorem lookup_reverse {α : Type} {l : List (Name × α)} {n : Name} {x : α} (hl : (l.map Prod.fst).Nodup) (h : (n, x) ∈ l) :
    l.reverse.lookup n = some x := by
  refine lookup_of_mem ?_ (List.mem_reverse.2 h)
  rw [List.map_reverse]
  exact List.nodup_reverse.2 hl

private theorem lookup_reverse_none {α : Type} {l : List (Name × α)} {n : Name} (h : n ∉ l.map Prod.fst) :
    l.reverse.lookup n = none := by
  apply lookup_none
  rw [List.map_reverse]
  simpa using h

/-- A class with clean names. -/
private theorem cleanCls {l : List (Name × Member)} (hl : Clean (l.map Prod.fst)) : CleanCls l.reverse := by
  intro n x h
  have hm := List.mem_reverse.1 (lookup_mem h)
  apply lookup_reverse_none
  intro hu
  exact hl.apart _ hu n (List.mem_map.2 ⟨_, hm, rfl⟩) rfl

private theorem setOwn_ok {d : Nat} (hd : 2 ≤ d) (names : List Name) (o : Obj) (hc : CleanCls o.cls)
    (hn : ∀ n ∈ names, n ≠ handleName) :
    ∃ i, setOwn d names o = .ok { o with inst := i } ∧ (∀ k, (∀ n ∈ names, slot o.cls n ≠ k) → i k = o.inst k) ∧
      ∀ k ∈ names, slot o.cls k = k → k.head? ≠ some '_' → i k = some (.own k) := by
  induction names generalizing o with
  | nil => exact ⟨o.inst, rfl, fun _ _ => rfl, fun k hk => absurd hk List.not_mem_nil⟩
  | cons n l ih =>
    obtain ⟨i, e, h1, h2⟩ := ih { o with inst := Function.update o.inst (slot o.cls n) (some (.own n)) } hc
      (fun m hm => hn m (by simp [hm]))
    refine ⟨i, ?_, ?_, ?_⟩
    · unfold setOwn at e ⊢
      rw [List.foldlM_cons, setAttr_ok hd hc (fun _ => hn n (by simp))]
      exact e
    · intro k hk
      rw [h1 k (fun m hm => hk m (by simp [hm]))]
      exact Function.update_of_ne (hk n (by simp)).symm _ _
    · intro k hk hs hh
      by_cases hl : k ∈ l
      · exact h2 k hl hs hh
      · have hkn : k = n := by simpa [hl] using hk
        subst hkn
        rw [h1 k ?_]
        · show Function.update o.inst (slot o.cls k) _ k = _
          rw [hs, Function.update_self]
        · intro m hm hsm
          have hsm' : slot o.cls m = k := hsm
          unfold slot at hsm'
          split at hsm'
          · rw [← hsm'] at hh
            exact hh rfl
          · subst hsm'
            exact hl hm

private theorem emptyFold {α : Type} {d : Nat} (hd : 1 ≤ d) (f : Obj → α → Except Err Obj) (nm : α → Name) (l : List α) (o : Obj)
    (hf : ∀ a ∈ l, ∀ i, f { o with inst := i } a = setAttr d { o with inst := i } (under (nm a)) .none)
    (hc : ∀ a ∈ l, o.cls.lookup (under (nm a)) = none) :
    ∃ i, l.foldlM f o = .ok { o with inst := i } ∧ (∀ k, (∀ a ∈ l, under (nm a) ≠ k) → i k = o.inst k) ∧
      ∀ a ∈ l, i (under (nm a)) = some .none := by
  induction l generalizing o with
  | nil => exact ⟨o.inst, rfl, fun _ _ => rfl, fun a ha => absurd ha List.not_mem_nil⟩
  | cons a l ih =>
    obtain ⟨i, e, h1, h2⟩ := ih { o with inst := Function.update o.inst (under (nm a)) (some .none) }
      (fun b hb i => hf b (by simp [hb]) i) (fun b hb => hc b (by simp [hb]))
    refine ⟨i, ?_, ?_, ?_⟩
    · rw [List.foldlM_cons, hf a (by simp) o.inst, setUnder_ok hd (hc a (by simp))]
      exact e
    · intro k hk
      rw [h1 k (fun m hm => hk m (by simp [hm]))]
      exact Function.update_of_ne (hk a (by simp)).symm _ _
    · intro b hb
      by_cases hl : ∃ c ∈ l, nm c = nm b
      · obtain ⟨c, hc', e'⟩ := hl
        rw [← e']
        exact h2 c hc'
      · have hba : b = a := by
          rcases List.mem_cons.1 hb with h | h
          · exact h
          · exact absurd ⟨b, h, rfl⟩ hl
        subst hba
        rw [h1 _ ?_]
        · exact Function.update_self _ _ _
        · intro c hc' h
          exact hl ⟨c, hc', under_inj h⟩

private theorem own_heads : ∀ n ∈ [filenameName, managerName, groupMetadataName, metadataName], n.head? ≠ some '_' := by
  decide +kernel

private theorem own_plain : (∀ n ∈ groupSelf, n ≠ handleName) ∧ ∀ n ∈ columnsSelf, n ≠ handleName := by decide +kernel

private theorem slot_of_none {cls : List (Name × Member)} {n : Name} (h : cls.lookup n = none) : slot cls n = n := by
  simp [slot, h]

private theorem slot_ne {cls : List (Name × Member)} {n k : Name} (h1 : n ≠ k) (h2 : k.head? ≠ some '_') : slot cls n ≠ k := by
  intro h
  unfold slot at h
  split at h
  · rw [← h] at h2
    exact h2 rfl
  · exact h1 h

private theorem mem_columnsClass {f : FieldMeta} {mask : Option Name × Option Name} {cs : List Name} :
    (columnsClass f mask cs).reverse.map Prod.fst = cs := by
  unfold columnsClass
  rw [List.reverse_reverse, List.map_map]
  have : (Prod.fst ∘ fun c : Name × Nat => (c.1, Member.lazy (.field f.path (some c.2) mask.1 mask.2))) = Prod.fst := rfl
  rw [this, List.zipIdx_map_fst]

private theorem facts : filenameName ∈ columnsSelf ∧ metadataName ∈ columnsSelf ∧ openFileName ∉ columnsSelf ∧
    openFileName.head? ≠ some '_' ∧ filenameName ∈ reserved ∧ metadataName ∈ reserved ∧ openFileName ∈ reserved ∧
    filenameName ∈ groupSelf ∧ metadataName ∈ groupSelf ∧ openFileName ∉ groupSelf := by decide +kernel

/-- The objects with named columns. -/
private theorem columns_ok {d : Nat} (hd : 2 ≤ d) (f : FieldMeta) (mask : Option Name × Option Name) {cs : List Name} (hcs : Clean cs) :
    ∃ o, initColumns d cs (fresh (columnsClass f mask cs)) = .ok o ∧
      Inv o (fun n s => ∃ k, cs[k]? = some n ∧ s = .field f.path (some k) mask.1 mask.2) (fun _ => none) := by
  obtain ⟨a1, a2, a3, a4, a5, a6, a7, -⟩ := facts
  have hrev : columnsClass f mask cs = (columnsClass f mask cs).reverse.reverse := (List.reverse_reverse _).symm
  have hkeys := mem_columnsClass (f := f) (mask := mask) (cs := cs)
  have hcl : CleanCls (columnsClass f mask cs) := by
    rw [hrev]
    exact cleanCls (by rw [hkeys]; exact hcs)
  have hnone : ∀ n, n ∉ cs → (columnsClass f mask cs).lookup n = none := by
    intro n hn
    rw [hrev]
    exact lookup_reverse_none (by rw [hkeys]; exact hn)
  have hres : ∀ n ∈ reserved, (columnsClass f mask cs).lookup n = none := fun n hn => hnone n fun h => hcs.free n h hn
  obtain ⟨i, e, h1, h2⟩ := setOwn_ok hd columnsSelf (fresh (columnsClass f mask cs)) hcl own_plain.2
  obtain ⟨j, e', h3, h4⟩ := emptyFold (d := d) (by omega) (fun o c => setAttr d o (under c) .none) id cs ⟨columnsClass f mask cs, i⟩
    (fun _ _ _ => rfl) (fun c hc => hnone _ fun h => hcs.apart _ h c hc rfl)
  have hj : ∀ k : Name, k.head? ≠ some '_' → j k = i k := by
    intro k hk
    refine h3 k fun a _ h => ?_
    rw [← h] at hk
    exact hk rfl
  refine ⟨⟨columnsClass f mask cs, j⟩, ?_, ?_, ?_, ?_, ?_⟩
  · unfold initColumns
    rw [e]
    exact e'
  · rintro n s ⟨k, hk, rfl⟩
    have hmem : n ∈ cs := List.mem_of_getElem? hk
    refine ⟨?_, hnone _ fun h => hcs.apart _ h n hmem rfl, ?_, by simp⟩
    · rw [hrev]
      refine lookup_reverse (by rw [hkeys]; exact hcs.nodup) ?_
      unfold columnsClass
      rw [List.reverse_reverse]
      refine List.mem_map.2 ⟨(n, k), ?_, rfl⟩
      rw [List.mem_zipIdx_iff_getElem?]
      exact hk
    · exact h4 n hmem
  · refine ⟨hres _ a7, ?_⟩
    show j openFileName = none
    rw [hj _ a4, h1]
    · rfl
    · exact fun n hn => slot_ne (fun h => a3 (h ▸ hn)) a4
  · refine ⟨hres _ a5, ?_⟩
    show j filenameName = _
    rw [hj _ (own_heads _ (by simp))]
    exact h2 _ a1 (slot_of_none (hres _ a5)) (own_heads _ (by simp))
  · refine ⟨hres _ a6, ?_⟩
    show j metadataName = _
    rw [hj _ (own_heads _ (by simp))]
    exact h2 _ a2 (slot_of_none (hres _ a6)) (own_heads _ (by simp))

private theorem keys_groupClass {g : GroupMeta} {mask : Option Name × Option Name} :
    (groupClass g mask).reverse.map Prod.fst = g.fields.map FieldMeta.name ++ g.attrs.map Prod.fst := by
  unfold groupClass
  rw [List.reverse_reverse, List.map_append, List.map_map, List.map_map]
  rfl

private theorem facts2 : groupMetadataName ∈ groupSelf ∧ managerName ∈ groupSelf ∧ emptyPropertiesName ∉ groupSelf ∧
    (∀ n ∈ groupSelf, n ≠ closeName ∧ under n ≠ closeName) ∧ emptyPropertiesName.head? ≠ some '_' ∧
    (∀ n ∈ [groupMetadataName, managerName, emptyPropertiesName, closeName, handleName], n ∈ reserved) ∧
    emptyPropertiesName ∈ methods ∧ closeName ∈ methods ∧
    (∀ n ∈ [groupMetadataName, managerName, emptyPropertiesName, closeName], n ≠ handleName) ∧
    (∀ n ∈ groupSelf, n ∈ reserved ∨ n = "units".toList ∨ n = "group".toList ∨ n = "group_name".toList) ∧
    closeName = under "close_handle_if_manager".toList ∧ "close_handle_if_manager".toList ∈ reserved := by decide +kernel

private theorem needOwn_ok (n : Name) (o : Obj) : needOwn n (o, .own n) = .ok o := if_pos rfl

private theorem getHandle {d : Nat} {o : Obj} (hd : 1 ≤ d) (hc : o.cls.lookup handleName = none) :
    getAttr d o handleName = .ok (o, .own handleName) := by
  obtain ⟨d, rfl⟩ : ∃ k, d = k + 1 := ⟨d - 1, by omega⟩
  simp [getAttr, hc]

/-- The attributes of a group that are read from the file. -/
private def Lazy (g : GroupMeta) (mask : Option Name × Option Name) (n : Name) (s : Source) : Prop :=
  (∃ f ∈ g.fields, f.columns = none ∧ n = f.name ∧ s = .field f.path none mask.1 mask.2) ∨
    ∃ a ∈ g.attrs, n = a.1 ∧ s = .attr g.group a.2

/-- The object of a group. -/
private theorem group_ok {d : Nat} (hd : 2 ≤ d) {present : Name → Bool} {g : GroupMeta} (mask : Option Name × Option Name)
    (hg : Spec.Group g) (hp : ∀ f ∈ g.fields, present f.path = true) :
    ∃ o, initGroup d present g (fresh (groupClass g mask)) = .ok o ∧ Inv o (Lazy g mask) (fun _ => none) ∧
      ∀ f ∈ g.fields, f.columns ≠ none → o.cls.lookup f.name = some (.object f.name) ∧ o.inst f.name = none := by
  obtain ⟨-, -, -, a4, a5, a6, a7, a8, a9, a10⟩ := facts
  obtain ⟨b1, b2, b3, b4, b5, b6, b7, b8, b9, b10, b11, b12⟩ := facts2
  have hN := hg.names
  have hrev : groupClass g mask = (groupClass g mask).reverse.reverse := (List.reverse_reverse _).symm
  have hkeys := keys_groupClass (g := g) (mask := mask)
  have hcl : CleanCls (groupClass g mask) := by
    rw [hrev]
    exact cleanCls (by rw [hkeys]; exact hN)
  have hnone : ∀ n, n ∉ g.fields.map FieldMeta.name ++ g.attrs.map Prod.fst → (groupClass g mask).lookup n = none := by
    intro n hn
    rw [hrev]
    exact lookup_reverse_none (by rw [hkeys]; exact hn)
  have hres : ∀ n ∈ reserved, (groupClass g mask).lookup n = none := fun n hn => hnone n fun h => hN.free n h hn
  have hmem : ∀ x ∈ g.fields.map (fun f => (f.name, fieldMember f mask)) ++ g.attrs.map fun a => (a.1, Member.lazy (.attr g.group a.2)),
      (groupClass g mask).lookup x.1 = some x.2 := by
    intro x hx
    rw [hrev]
    refine lookup_reverse (by rw [hkeys]; exact hN.nodup) ?_
    unfold groupClass
    rw [List.reverse_reverse]
    exact hx
  have hf : ∀ f ∈ g.fields, f.name ∈ g.fields.map FieldMeta.name ++ g.attrs.map Prod.fst := fun f hf =>
    List.mem_append_left _ (List.mem_map_of_mem hf)
  have ha : ∀ a ∈ g.attrs, a.1 ∈ g.fields.map FieldMeta.name ++ g.attrs.map Prod.fst := fun a ha =>
    List.mem_append_right _ (List.mem_map_of_mem ha)
  have hunder : ∀ n ∈ g.fields.map FieldMeta.name ++ g.attrs.map Prod.fst, (groupClass g mask).lookup (under n) = none :=
    fun n hn => hnone _ fun h => hN.apart _ h n hn rfl
  obtain ⟨i, e, h1, h2⟩ := setOwn_ok hd groupSelf (fresh (groupClass g mask)) hcl own_plain.1
  -- the fields
  obtain ⟨j, e', h3, h4⟩ := emptyFold (d := d) (by omega) (emptyField d present) FieldMeta.name g.fields ⟨groupClass g mask, i⟩
    (by
      intro f hf' k
      unfold emptyField
      rw [getHandle (by omega) (hres _ (b6 _ (by simp)))]
      simp only [Except.bind]
      rw [needOwn_ok]
      simp only [hp f hf', if_true])
    (fun f hf' => hunder _ (hf f hf'))
  -- the attributes
  obtain ⟨k, e'', h5, h6⟩ := emptyFold (d := d) (by omega) (fun o a => setAttr d o (under a.1) .none) Prod.fst g.attrs
    ⟨groupClass g mask, j⟩ (fun _ _ _ => rfl) (fun a ha' => hunder _ (ha a ha'))
  have hj : ∀ n : Name, (∀ m ∈ g.fields.map FieldMeta.name ++ g.attrs.map Prod.fst, under m ≠ n) → j n = i n :=
    fun n hn => h3 n fun f hf' => hn _ (hf f hf')
  have hk : ∀ n : Name, (∀ m ∈ g.fields.map FieldMeta.name ++ g.attrs.map Prod.fst, under m ≠ n) → k n = i n := by
    intro n hn
    rw [h5 n fun a ha' => hn _ (ha a ha')]
    exact hj n hn
  have hhead : ∀ n : Name, n.head? ≠ some '_' → ∀ m ∈ g.fields.map FieldMeta.name ++ g.attrs.map Prod.fst, under m ≠ n := by
    intro n hn m _ h
    rw [← h] at hn
    exact hn rfl
  have hown : ∀ n ∈ groupSelf, n ∈ reserved → n.head? ≠ some '_' → i n = some (.own n) := fun n h1' h2' h3' =>
    h2 n h1' (slot_of_none (hres n h2')) h3'
  have hi_empty : i emptyPropertiesName = none := by
    rw [h1]
    · rfl
    · exact fun n hn => slot_ne (fun h => b3 (h ▸ hn)) b5
  have hi_open : i openFileName = none := by
    rw [h1]
    · rfl
    · exact fun n hn => slot_ne (fun h => a10 (h ▸ hn)) a4
  have hi_close : i closeName = none := by
    rw [h1]
    · rfl
    · intro n hn h
      unfold slot at h
      split at h
      · exact (b4 n hn).2 h
      · exact (b4 n hn).1 h
  have hclose : ∀ m ∈ g.fields.map FieldMeta.name ++ g.attrs.map Prod.fst, under m ≠ closeName := by
    intro m hm h
    rw [b11] at h
    exact hN.free m hm (under_inj h ▸ b12)
  have hgm : i groupMetadataName = some (.own groupMetadataName) := hown _ b1 (b6 _ (by simp)) (own_heads _ (by simp))
  have hman : i managerName = some (.own managerName) := hown _ b2 (b6 _ (by simp)) (own_heads _ (by simp))
  refine ⟨⟨groupClass g mask, k⟩, ?_, ⟨?_, ?_, ?_, ?_⟩, ?_⟩
  · have e0 : setOwn d groupSelf (fresh (groupClass g mask)) = .ok ⟨groupClass g mask, i⟩ := e
    unfold initGroup
    rw [e0]
    simp only [Except.bind]
    rw [getMethod_ok (o := ⟨groupClass g mask, i⟩) (by omega) (hres _ (b6 _ (by simp))) b7 (b9 _ (by simp)) hi_empty]
    simp only [Except.bind]
    rw [needOwn_ok]
    simp only [Except.bind, emptyProperties]
    rw [getPlain_ok (o := ⟨groupClass g mask, i⟩) (by omega) (hres _ (b6 _ (by simp))) (b9 _ (by simp)) hgm]
    simp only [Except.bind]
    rw [needOwn_ok]
    simp only [Except.bind]
    rw [e']
    simp only [Except.bind, emptyAttrs]
    rw [getPlain_ok (o := ⟨groupClass g mask, j⟩) (by omega) (hres _ (b6 _ (by simp))) (b9 _ (by simp))
      ((hj _ (hhead _ (own_heads _ (by simp)))).trans hgm)]
    simp only [Except.bind]
    rw [needOwn_ok]
    simp only [Except.bind]
    rw [e'']
    simp only [Except.bind]
    rw [getMethod_ok (o := ⟨groupClass g mask, k⟩) (by omega) (hres _ (b6 _ (by simp))) b8 (b9 _ (by simp))
      ((hk _ hclose).trans hi_close)]
    simp only [Except.bind]
    rw [needOwn_ok]
    simp only [Except.bind]
    rw [getPlain_ok (o := ⟨groupClass g mask, k⟩) (by omega) (hres _ (b6 _ (by simp))) (b9 _ (by simp))
      ((hk _ (hhead _ (own_heads _ (by simp)))).trans hman)]
    simp only [Except.bind]
    rw [needOwn_ok]
  · rintro n s (⟨f, hf', hc, rfl, rfl⟩ | ⟨a, ha', rfl, rfl⟩)
    · refine ⟨?_, hunder _ (hf f hf'), ?_, by simp⟩
      · refine hmem (f.name, .lazy (.field f.path none mask.1 mask.2)) (List.mem_append_left _ (List.mem_map.2 ⟨f, hf', ?_⟩))
        unfold fieldMember
        rw [hc]
      · show k (under f.name) = _
        rw [h5 _ ?_]
        · exact h4 f hf'
        · intro a ha' h
          have hnd := hN.nodup
          rw [List.nodup_append] at hnd
          exact hnd.2.2 _ (List.mem_map_of_mem hf') _ (List.mem_map_of_mem ha') (under_inj h).symm
    · exact ⟨hmem (a.1, .lazy (.attr g.group a.2)) (List.mem_append_right _ (List.mem_map.2 ⟨a, ha', rfl⟩)), hunder _ (ha a ha'),
        h6 a ha', by simp⟩
  · exact ⟨hres _ a7, (hk _ (hhead _ a4)).trans hi_open⟩
  · exact ⟨hres _ a5, (hk _ (hhead _ (own_heads _ (by simp)))).trans (hown _ a8 a5 (own_heads _ (by simp)))⟩
  · exact ⟨hres _ a6, (hk _ (hhead _ (own_heads _ (by simp)))).trans (hown _ a9 a6 (own_heads _ (by simp)))⟩
  · intro f hf' hc
    obtain ⟨cs, hcs⟩ := Option.ne_none_iff_exists'.1 hc
    obtain ⟨-, u1, u2, u3⟩ := hg.columns f hf' cs hcs
    refine ⟨?_, ?_⟩
    · refine hmem (f.name, .object f.name) (List.mem_append_left _ (List.mem_map.2 ⟨f, hf', ?_⟩))
      unfold fieldMember
      rw [hcs]
    · show k f.name = none
      rw [hk _ fun m hm h => hN.apart _ (hf f hf') m hm h.symm, h1]
      · rfl
      · intro n hn h
        unfold slot at h
        split at h
        · rename_i s hs
          have hs' : n ∈ g.fields.map FieldMeta.name ++ g.attrs.map Prod.fst := by
            by_contra hc'
            have := hnone n hc'
            change (groupClass g mask).lookup n = _ at hs
            rw [this] at hs
            cases hs
          exact hN.apart _ (hf f hf') n hs' h.symm
        · subst h
          rcases b10 _ hn with h | h | h | h
          · exact hN.free _ (hf f hf') h
          · exact u1 h
          · exact u2 h
          · exact u3 h

private def ColumnOf (f : FieldMeta) (cs : List Name) (mask : Option Name × Option Name) (n : Name) (s : Source) : Prop :=
  ∃ k, cs[k]? = some n ∧ s = .field f.path (some k) mask.1 mask.2

private theorem lookup_app {α : Type} (a b : List (Name × α)) (n : Name) : (a ++ b).lookup n = (a.lookup n).or (b.lookup n) := by
  induction a with
  | nil => simp
  | cons x a ih =>
    obtain ⟨k, y⟩ := x
    rw [List.cons_append, List.lookup_cons, List.lookup_cons]
    cases n == k
    · exact ih
    · rfl

private theorem allColumns_ok {d : Nat} (hd : 2 ≤ d) (mask : Option Name × Option Name) (l : List FieldMeta)
    (hn : (l.map FieldMeta.name).Nodup) (hc : ∀ f ∈ l, ∀ cs, f.columns = some cs → Clean cs) :
    ∃ cols, makeAllColumns d mask l = .ok cols ∧ (∀ x ∈ cols, x.1 ∈ l.map FieldMeta.name) ∧
      ∀ f ∈ l, ∀ cs, f.columns = some cs → ∃ o, cols.lookup f.name = some o ∧ Inv o (ColumnOf f cs mask) (fun _ => none) := by
  induction l with
  | nil => exact ⟨[], rfl, fun x hx => absurd hx List.not_mem_nil, fun f hf => absurd hf List.not_mem_nil⟩
  | cons f l ih =>
    simp only [List.map_cons, List.nodup_cons] at hn
    obtain ⟨b, e, h1, h2⟩ := ih hn.2 (fun f hf => hc f (by simp [hf]))
    have hfb : b.lookup f.name = none := by
      apply lookup_none
      intro h
      obtain ⟨x, hx, e'⟩ := List.mem_map.1 h
      exact hn.1 (e' ▸ h1 x hx)
    cases hcol : f.columns with
    | none =>
      refine ⟨b ++ [], ?_, ?_, ?_⟩
      · simp only [makeAllColumns, makeColumns, hcol, Except.bind]
        rw [e]
        rfl
      · intro x hx
        rw [List.append_nil] at hx
        exact List.mem_cons_of_mem _ (h1 x hx)
      · intro f' hf' cs hcs
        rw [List.append_nil]
        rcases List.mem_cons.1 hf' with rfl | h
        · rw [hcol] at hcs; cases hcs
        · exact h2 f' h cs hcs
    | some cs =>
      obtain ⟨o, eo, ho⟩ := columns_ok hd f mask (hc f (by simp) cs hcol)
      refine ⟨b ++ [(f.name, o)], ?_, ?_, ?_⟩
      · simp only [makeAllColumns, makeColumns, hcol]
        rw [eo]
        simp only [Except.map, Except.bind]
        rw [e]
      · intro x hx
        rcases List.mem_append.1 hx with h | h
        · exact List.mem_cons_of_mem _ (h1 x h)
        · rw [List.mem_singleton.1 h]
          exact List.mem_cons_self
      · intro f' hf' cs' hcs'
        rcases List.mem_cons.1 hf' with rfl | h
        · rw [hcol] at hcs'
          cases hcs'
          refine ⟨o, ?_, ho⟩
          rw [lookup_app, hfb]
          simp [List.lookup_cons]
        · obtain ⟨o', e', i'⟩ := h2 f' h cs' hcs'
          refine ⟨o', ?_, i'⟩
          rw [lookup_app, e']
          rfl

/-- The state of a group. -/
private structure GInv (g : GroupMeta) (G : Dataset.Group) (mask : Option Name × Option Name) (mem : Name → Option Name → Option Val) :
    Prop where
  self : Inv G.self (Lazy g mask) (fun n => mem n none)
  obj : ∀ f ∈ g.fields, ∀ cs, f.columns = some cs → G.self.cls.lookup f.name = some (.object f.name) ∧ G.self.inst f.name = none ∧
    ∃ o, G.cols.lookup f.name = some o ∧ Inv o (ColumnOf f cs mask) (fun c => mem f.name (some c))

private theorem generate_ok {d : Nat} (hd : 2 ≤ d) {present : Name → Bool} {g : GroupMeta} {m : Option MaskMeta}
    (hg : Spec.Group g) (hp : ∀ f ∈ g.fields, present f.path = true) :
    ∃ G, generate d present m g = .ok G ∧ GInv g G (maskVars m g.name) (fun _ _ => none) := by
  have hnd := hg.names.nodup
  rw [List.nodup_append] at hnd
  obtain ⟨cols, e, -, h2⟩ := allColumns_ok hd (maskVars m g.name) g.fields hnd.1 (fun f hf cs hcs => (hg.columns f hf cs hcs).1)
  obtain ⟨o, eo, ho, hobj⟩ := group_ok hd (maskVars m g.name) hg hp
  refine ⟨⟨o, cols⟩, ?_, ho, fun f hf cs hcs => ?_⟩
  · unfold generate
    rw [e]
    simp only [Except.bind]
    rw [eo]
    rfl
  · obtain ⟨u1, u2⟩ := hobj f hf (by rw [hcs]; simp)
    exact ⟨u1, u2, h2 f hf cs hcs⟩

private theorem lookup_map_same {α : Type} (l : List Name) (F : Name → Name) (G : Name → α) {n : Name} (hn : n ∈ l)
    (hF : ∀ m, F m = F n → m = n) : (l.map fun g => (F g, G g)).lookup (F n) = some (G n) := by
  induction l with
  | nil => cases hn
  | cons a l ih =>
    rw [List.map_cons, List.lookup_cons]
    by_cases e : a = n
    · subst e
      simp
    · have : (F n == F a) = false := by
        simp only [beq_eq_false_iff_ne]
        exact fun h => e (hF a h.symm)
      rw [this]
      exact ih (by simpa [Ne.symm e] using hn)

/-- C78: the mask object gives every group its own mask, or the one that all groups share, and the size that goes with it. -/
theorem c78_mask {gs : List GroupMeta} {m : MaskMeta} (h : Spec.Mask gs m) {g : GroupMeta} (hg : g ∈ gs) :
    maskVars (some m) g.name = maskOf (some m) g.name := by
  obtain ⟨f1, f2⟩ := h.free g hg
  have hin := h.groups g hg
  have hnone : (sizeMapping m).lookup g.name = none := by
    apply lookup_none
    intro hc
    unfold sizeMapping at hc
    rw [List.map_map] at hc
    obtain ⟨k, hk, e⟩ := List.mem_map.1 hc
    exact h.apart g hg k hk e.symm
  have e1 : (groupMapping m).lookup g.name = some (if m.shared then "_shared".toList else under g.name) :=
    lookup_map_same m.groups id _ hin (fun _ h => h)
  have e2 : (sizeMapping m).lookup (sized g.name) = some (if m.shared then "_shared_size".toList else under (sized g.name)) :=
    lookup_map_same m.groups sized _ hin (fun k h => List.append_cancel_right h)
  unfold maskVars maskOf
  dsimp only
  have ho : maskOwn = ofMask := by decide +kernel
  have f2' : sized g.name ∉ ofMask := f2
  unfold maskAttr
  rw [ho, if_neg f1, if_neg f2', hnone, e1, e2]
  cases m.shared <;> rfl

private theorem lookup_replace_self {α : Type} {l : List (Name × α)} {n : Name} {x : α} (a : α) (h : l.lookup n = some x) :
    (replace n a l).lookup n = some a := by
  induction l with
  | nil => cases h
  | cons y l ih =>
    obtain ⟨k, y⟩ := y
    rw [List.lookup_cons] at h
    by_cases e : k = n
    · simp [replace, e]
    · have : (n == k) = false := by simpa using Ne.symm e
      rw [this] at h
      simp only [replace, e, if_false]
      rw [List.lookup_cons, this]
      exact ih h

private theorem lookup_replace_ne {α : Type} {l : List (Name × α)} {n k : Name} (a : α) (hk : k ≠ n) :
    (replace n a l).lookup k = l.lookup k := by
  induction l with
  | nil => rfl
  | cons y l ih =>
    obtain ⟨j, y⟩ := y
    by_cases e : j = n
    · have : (k == j) = false := by simpa [e] using hk
      simp only [replace, e, if_true]
      rw [List.lookup_cons, List.lookup_cons, ← e, this]
    · simp only [replace, e, if_false]
      rw [List.lookup_cons, List.lookup_cons, ih]

private theorem lazy_mem {g : GroupMeta} {mask : Option Name × Option Name} {n : Name} {s : Source} (h : Lazy g mask n s) :
    n ∈ g.fields.map FieldMeta.name ++ g.attrs.map Prod.fst := by
  rcases h with ⟨f, hf, -, rfl, -⟩ | ⟨a, ha, rfl, -⟩
  · exact List.mem_append_left _ (List.mem_map_of_mem hf)
  · exact List.mem_append_right _ (List.mem_map_of_mem ha)

/-- An action on an attribute of a group. -/
private theorem actSelf_ok {d : Nat} (hd : 2 ≤ d) {g : GroupMeta} {G : Dataset.Group} {mask : Option Name × Option Name}
    {mem : Name → Option Name → Option Val} (hg : Spec.Group g) (h : GInv g G mask mem) {n : Name} {s : Source}
    (hn : Lazy g mask n s) (a : Act) :
    ∃ G', actGroup d G n a none = .ok (G', seenOne s (mem n none) a) ∧
      GInv g G' mask (fun k c => if k = n ∧ c = none then afterOne s (mem n none) a else mem k c) := by
  obtain ⟨w, e, hi⟩ := actObj_ok hd h.self hn a
  refine ⟨⟨{ G.self with inst := Function.update G.self.inst (under n) (some w) }, G.cols⟩, ?_, ?_, ?_⟩
  · unfold actGroup
    rw [e]
    rfl
  · refine Eq.subst (motive := fun mm => Inv _ _ mm) ?_ hi
    funext k
    by_cases hk : k = n
    · subst hk; simp
    · simp [hk]
  · intro f hf cs hcs
    obtain ⟨u1, u2, o, u3, u4⟩ := h.obj f hf cs hcs
    refine ⟨u1, ?_, o, u3, ?_⟩
    · have : f.name ≠ under n :=
        hg.names.apart _ (List.mem_append_left _ (List.mem_map_of_mem hf)) n (lazy_mem hn)
      show Function.update G.self.inst (under n) (some w) f.name = none
      rw [Function.update_of_ne this]
      exact u2
    · simpa using u4

/-- An action on a named column. -/
private theorem actCol_ok {d : Nat} (hd : 2 ≤ d) {g : GroupMeta} {G : Dataset.Group} {mask : Option Name × Option Name}
    {mem : Name → Option Name → Option Val} (hg : Spec.Group g) (h : GInv g G mask mem) {f : FieldMeta} {cs : List Name} {c : Name}
    {s : Source} (hf : f ∈ g.fields) (hcs : f.columns = some cs) (hn : ColumnOf f cs mask c s) (a : Act) :
    ∃ G', actGroup d G f.name a (some c) = .ok (G', seenOne s (mem f.name (some c)) a) ∧
      GInv g G' mask (fun k c' => if k = f.name ∧ c' = some c then afterOne s (mem f.name (some c)) a else mem k c') := by
  obtain ⟨u1, u2, o, u3, u4⟩ := h.obj f hf cs hcs
  obtain ⟨w, e, hi⟩ := actObj_ok hd u4 hn a
  have hnd := hg.names.nodup
  rw [List.nodup_append] at hnd
  have hget : getAttr d G.self f.name = .ok (G.self, .object f.name) := by
    obtain ⟨d, rfl⟩ : ∃ k, d = k + 1 := ⟨d - 1, by omega⟩
    simp [getAttr, u1, u2]
  refine ⟨⟨G.self, replace f.name { o with inst := Function.update o.inst (under c) (some w) } G.cols⟩, ?_, ?_, ?_⟩
  · unfold actGroup
    rw [hget]
    simp only [Except.bind, asObject, actColumn, u3]
    rw [e]
    rfl
  · simpa using h.self
  · intro f' hf' cs' hcs'
    obtain ⟨v1, v2, o', v3, v4⟩ := h.obj f' hf' cs' hcs'
    by_cases ef : f' = f
    · subst ef
      rw [hcs] at hcs'
      cases hcs'
      refine ⟨v1, v2, _, lookup_replace_self _ v3, ?_⟩
      refine cast (congrArg (Inv _ _) ?_) hi
      funext k
      by_cases hk : k = c
      · subst hk; simp
      · simp [hk]
    · have en : f'.name ≠ f.name := fun h' => ef (List.inj_on_of_nodup_map hnd.1 hf' hf h')
      refine ⟨v1, v2, o', ?_, ?_⟩
      · rw [lookup_replace_ne _ en]
        exact v3
      · simpa [en] using v4

/-- The state of a dataset. -/
private def DInv (gs : List GroupMeta) (m : Option MaskMeta) (D : List (Name × Dataset.Group)) (mem : Target → Option Val) : Prop :=
  ∀ g ∈ gs, ∃ G, D.lookup g.name = some G ∧ GInv g G (maskOf m g.name) (fun n c => mem ⟨g.name, n, c⟩)

private theorem create_ok {d : Nat} (hd : 2 ≤ d) {present : Name → Bool} {m : Option MaskMeta} (gs : List GroupMeta)
    (hn : (gs.map GroupMeta.name).Nodup) (hg : ∀ g ∈ gs, Spec.Group g) (hp : ∀ g ∈ gs, ∀ f ∈ g.fields, present f.path = true) :
    ∃ D, create d present m gs = .ok D ∧ (∀ x ∈ D, x.1 ∈ gs.map GroupMeta.name) ∧
      ∀ g ∈ gs, ∃ G, D.lookup g.name = some G ∧ GInv g G (maskVars m g.name) (fun _ _ => none) := by
  induction gs with
  | nil => exact ⟨[], rfl, fun x hx => absurd hx List.not_mem_nil, fun g hg => absurd hg List.not_mem_nil⟩
  | cons g l ih =>
    simp only [List.map_cons, List.nodup_cons] at hn
    obtain ⟨D, e, h1, h2⟩ := ih hn.2 (fun g hg' => hg g (by simp [hg'])) (fun g hg' => hp g (by simp [hg']))
    obtain ⟨G, eG, hG⟩ := generate_ok hd (m := m) (hg g (by simp)) (hp g (by simp))
    have hgD : D.lookup g.name = none := by
      apply lookup_none
      intro h
      obtain ⟨x, hx, e'⟩ := List.mem_map.1 h
      exact hn.1 (e' ▸ h1 x hx)
    refine ⟨D ++ [(g.name, G)], ?_, ?_, ?_⟩
    · simp only [create]
      rw [eG]
      simp only [Except.bind]
      rw [e]
      rfl
    · intro x hx
      rcases List.mem_append.1 hx with h | h
      · exact List.mem_cons_of_mem _ (h1 x h)
      · rw [List.mem_singleton.1 h]
        exact List.mem_cons_self
    · intro g' hg'
      rcases List.mem_cons.1 hg' with rfl | h
      · refine ⟨G, ?_, hG⟩
        rw [lookup_app, hgD]
        simp [List.lookup_cons]
      · obtain ⟨G', e', i'⟩ := h2 g' h
        refine ⟨G', ?_, i'⟩
        rw [lookup_app, e']
        rfl

private theorem seen_eq (content : Target → Source) (mem : Target → Option Val) (t : Target) (a : Act) :
    seen content mem t a = seenOne (content t) (mem t) a := by cases a <;> rfl

private theorem after_eq (content : Target → Source) (mem : Target → Option Val) (t : Target) (a : Act) :
    after content mem t a = Function.update mem t (afterOne (content t) (mem t) a) := by cases a <;> rfl

private theorem act_ok {d : Nat} (hd : 2 ≤ d) {gs : List GroupMeta} {m : Option MaskMeta} (hgs : Spec.Groups gs)
    {D : List (Name × Dataset.Group)} {mem : Target → Option Val} (h : DInv gs m D mem) {t : Target} {s : Source}
    (ht : Content gs m t s) (a : Act) :
    ∃ D', act d D t a = .ok (D', seenOne s (mem t) a) ∧ DInv gs m D' (Function.update mem t (afterOne s (mem t) a)) := by
  have main : ∀ g ∈ gs, ∀ (n : Name) (c : Option Name), t = ⟨g.name, n, c⟩ →
      (∀ G, GInv g G (maskOf m g.name) (fun n c => mem ⟨g.name, n, c⟩) → ∃ G', actGroup d G n a c = .ok (G', seenOne s (mem t) a) ∧
        GInv g G' (maskOf m g.name) (fun k c' => if k = n ∧ c' = c then afterOne s (mem t) a else mem ⟨g.name, k, c'⟩)) →
      ∃ D', act d D t a = .ok (D', seenOne s (mem t) a) ∧ DInv gs m D' (Function.update mem t (afterOne s (mem t) a)) := by
    intro g hg n c et hstep
    obtain ⟨G, eG, hG⟩ := h g hg
    obtain ⟨G', e', hG'⟩ := hstep G hG
    refine ⟨replace g.name G' D, ?_, ?_⟩
    · unfold act
      rw [et] at e' ⊢
      dsimp only
      rw [eG]
      dsimp only
      rw [e']
      rfl
    · intro g2 hg2
      by_cases eg : g2 = g
      · subst eg
        refine ⟨G', lookup_replace_self _ eG, ?_⟩
        refine Eq.subst (motive := fun mm => GInv _ _ _ mm) ?_ hG'
        funext k c'
        rw [et]
        by_cases hk : k = n ∧ c' = c
        · obtain ⟨rfl, rfl⟩ := hk
          simp
        · rw [if_neg hk, Function.update_of_ne]
          intro hc
          simp only [Target.mk.injEq, true_and] at hc
          exact hk hc
      · have en : g2.name ≠ g.name := fun h' => eg (List.inj_on_of_nodup_map hgs.nodup hg2 hg h')
        obtain ⟨G2, e2, h2⟩ := h g2 hg2
        refine ⟨G2, (lookup_replace_ne _ en).trans e2, ?_⟩
        refine Eq.subst (motive := fun mm => GInv _ _ _ mm) ?_ h2
        funext k c'
        rw [et, Function.update_of_ne]
        intro hc
        simp only [Target.mk.injEq] at hc
        exact en hc.1
  cases ht with
  | @field g f hg hf hc =>
    refine main g hg f.name none rfl fun G hG => ?_
    exact actSelf_ok hd (hgs.group g hg) hG (Or.inl ⟨f, hf, hc, rfl, rfl⟩) a
  | @column g f cs c k hg hf hc hk =>
    refine main g hg f.name (some c) rfl fun G hG => ?_
    exact actCol_ok hd (hgs.group g hg) hG hf hc ⟨k, hk, rfl⟩ a
  | @attr g b hg hb =>
    refine main g hg b.1 none rfl fun G hG => ?_
    exact actSelf_ok hd (hgs.group g hg) hG (Or.inr ⟨b, hb, rfl, rfl⟩) a

/-- C78: a dataset can be opened, and every sequence of reads, assignments and deletions of its attributes shows what a memory with
one place per attribute would show: what was last put there, and otherwise the dataset, column or attribute of the file that has this
name, with the mask of its own group. -/
theorem c78_attributes {d : Nat} (hd : 2 ≤ d) {present : Name → Bool} {gs : List GroupMeta} {m : Option MaskMeta}
    (hgs : Spec.Groups gs) (hm : ∀ m', m = some m' → Spec.Mask gs m') (hp : ∀ g ∈ gs, ∀ f ∈ g.fields, present f.path = true) :
    ∃ D, create d present m gs = .ok D ∧ ∀ (content : Target → Source) (ops : List (Target × Act)),
      (∀ op ∈ ops, Content gs m op.1 (content op.1)) →
      Dataset.run d D ops = .ok (Spec.run content (fun _ => none) ops) := by
  obtain ⟨D, e, -, h⟩ := create_ok hd (m := m) gs hgs.nodup hgs.group hp
  refine ⟨D, e, fun content ops hops => ?_⟩
  have hD : DInv gs m D (fun _ => none) := by
    intro g hg
    obtain ⟨G, eG, hG⟩ := h g hg
    refine ⟨G, eG, ?_⟩
    have : maskVars m g.name = maskOf m g.name := by
      cases hmm : m with
      | none => rfl
      | some m' => exact c78_mask (hm m' hmm) hg
    rw [← this]
    exact hG
  clear e h
  generalize (fun _ => none : Target → Option Val) = mem at hD ⊢
  induction ops generalizing D mem with
  | nil => rfl
  | cons op ops ih =>
    obtain ⟨t, a⟩ := op
    obtain ⟨D', e', hD'⟩ := act_ok hd hgs hD (hops (t, a) (by simp)) a
    simp only [Dataset.run, Spec.run]
    rw [e']
    simp only [Except.bind]
    rw [ih D' (fun op hop => hops op (by simp [hop])) _ hD', seen_eq, after_eq]
    rfl

/-! ## What raises -/

private theorem bind_ok {α β : Type} {x : Except Err α} {k : α → Except Err β} {b : β} (h : x.bind k = .ok b) :
    ∃ a, x = .ok a ∧ k a = .ok b := by
  cases x with
  | error e => cases h
  | ok a => exact ⟨a, rfl, h⟩

private theorem map_ok {α β : Type} {x : Except Err α} {k : α → β} {b : β} (h : x.map k = .ok b) : ∃ a, x = .ok a ∧ k a = b := by
  cases x with
  | error e => cases h
  | ok a => exact ⟨a, rfl, Except.ok.inj h⟩

private theorem emptyFields_present {d : Nat} {present : Name → Bool} (l : List FieldMeta) :
    ∀ {o o' : Obj}, l.foldlM (emptyField d present) o = .ok o' → ∀ f ∈ l, present f.path = true := by
  induction l with
  | nil => intro _ _ _ f hf; cases hf
  | cons a l ih =>
    intro o o' h f hf
    rw [List.foldlM_cons] at h
    obtain ⟨o1, h1, h2⟩ := bind_ok h
    rcases List.mem_cons.1 hf with rfl | hf
    · unfold emptyField at h1
      obtain ⟨o2, -, h3⟩ := bind_ok h1
      by_contra hp
      rw [if_neg hp] at h3
      cases h3
    · exact ih h2 f hf

private theorem lookup_keys {α : Type} {n : Name} : ∀ {l : List (Name × α)}, n ∉ l.map Prod.fst → l.lookup n = none
  | [], _ => rfl
  | (k, x) :: l, h => by
    rw [List.map_cons, List.mem_cons, not_or] at h
    rw [List.lookup_cons, show (n == k) = false from beq_false_of_ne h.1]
    exact lookup_keys h.2

private theorem replace_keys {α : Type} (n : Name) (a : α) : ∀ l : List (Name × α), (replace n a l).map Prod.fst = l.map Prod.fst
  | [] => rfl
  | (k, x) :: l => by
    unfold replace
    split
    · rfl
    · rw [List.map_cons, List.map_cons, replace_keys n a l]

private theorem create_keys {d : Nat} {present : Name → Bool} {m : Option MaskMeta} : ∀ {gs : List GroupMeta} {D : List (Name × Group)},
    create d present m gs = .ok D → ∀ n ∈ D.map Prod.fst, ∃ g ∈ gs, g.name = n
  | [], D, h, n, hn => by cases h; simp at hn
  | g :: gs, D, h, n, hn => by
    unfold create at h
    obtain ⟨G, -, h2⟩ := bind_ok h
    obtain ⟨D', h3, rfl⟩ := map_ok h2
    rw [List.map_append, List.mem_append] at hn
    rcases hn with hn | hn
    · obtain ⟨g', hg', e⟩ := create_keys h3 n hn
      exact ⟨g', List.mem_cons_of_mem _ hg', e⟩
    · rw [List.map_singleton, List.mem_singleton] at hn
      exact ⟨g, List.mem_cons_self, hn.symm⟩

/-- C78: a dataset has no other groups than those of the metadata: whatever was done before, every use of one is an AttributeError. -/
theorem c78_no_group {d : Nat} {present : Name → Bool} {gs : List GroupMeta} {m : Option MaskMeta} {D : List (Name × Group)}
    (hD : create d present m gs = .ok D) (ops : List (Target × Act)) {vs : List (Option Val)} (hops : Dataset.run d D ops = .ok vs) {n : Name}
    (hn : ∀ g ∈ gs, g.name ≠ n) (f : Name) (c : Option Name) (a : Act) : Dataset.run d D (ops ++ [(⟨n, f, c⟩, a)]) = .error .attribute := by
  have hk : n ∉ D.map Prod.fst := fun h => by
    obtain ⟨g, hg, e⟩ := create_keys hD n h
    exact hn g hg e
  clear hD hn
  induction ops generalizing D vs with
  | nil =>
    change (act d D ⟨n, f, c⟩ a).bind _ = _
    unfold act
    dsimp only
    rw [lookup_keys hk]
    rfl
  | cons op ops ih =>
    obtain ⟨t, b⟩ := op
    rw [List.cons_append]
    unfold Dataset.run at hops ⊢
    obtain ⟨r, h1, h2⟩ := bind_ok hops
    obtain ⟨vs', h3, -⟩ := map_ok h2
    rw [h1]
    change (Dataset.run d r.1 _).map _ = _
    rw [ih h3 ?_]
    · rfl
    · unfold act at h1
      split at h1
      · cases h1
      · obtain ⟨q, -, rfl⟩ := map_ok h1
        rw [replace_keys]
        exact hk

example : ∀ D, create 3 (fun _ => true) none [⟨"gas".toList, "PartType0".toList, [⟨"masses".toList, "PartType0/Masses".toList, none⟩], []⟩] = .ok D →
    ∀ vs, Dataset.run 3 D [(⟨"gas".toList, "masses".toList, none⟩, .get)] = .ok vs →
      Dataset.run 3 D ([(⟨"gas".toList, "masses".toList, none⟩, .get)] ++ [(⟨"stars".toList, "masses".toList, none⟩, .get)]) = .error .attribute :=
  fun _ h _ h' => c78_no_group h _ h' (by decide) _ _ _

/-- C78: a dataset of which the metadata names something that is not in the file cannot be opened. -/
theorem c78_missing {d : Nat} {present : Name → Bool} {gs : List GroupMeta} {m : Option MaskMeta} {g : GroupMeta} (hg : g ∈ gs)
    {f : FieldMeta} (hf : f ∈ g.fields) (hp : present f.path = false) : ∃ e, create d present m gs = .error e := by
  have key : ∀ (gs : List GroupMeta), g ∈ gs → ∀ D, create d present m gs ≠ .ok D := by
    intro gs
    induction gs with
    | nil => intro hg; cases hg
    | cons x gs ih =>
      intro hg D h
      unfold create at h
      obtain ⟨G, h1, h2⟩ := bind_ok h
      obtain ⟨D', h3, -⟩ := map_ok h2
      rcases List.mem_cons.1 hg with rfl | hg
      · unfold generate at h1
        obtain ⟨cols, -, h4⟩ := bind_ok h1
        obtain ⟨o, h5, -⟩ := map_ok h4
        unfold initGroup at h5
        obtain ⟨o1, -, h6⟩ := bind_ok h5
        obtain ⟨o2, -, h7⟩ := bind_ok h6
        obtain ⟨o3, h8, -⟩ := bind_ok h7
        unfold emptyProperties at h8
        obtain ⟨o4, -, h9⟩ := bind_ok h8
        obtain ⟨o5, h10, -⟩ := bind_ok h9
        have := emptyFields_present g.fields h10 f hf
        rw [hp] at this
        cases this
      · exact ih hg D' h3
  cases h : create d present m gs with
  | error e => exact ⟨e, rfl⟩
  | ok D => exact absurd h (key gs hg D)

/-- Same class, and nothing but private names and `n` was set. -/
private def Keeps (n : Name) (o o' : Obj) : Prop := o'.cls = o.cls ∧ ∀ k, k ≠ n → k.head? ≠ some '_' → o'.inst k = o.inst k

private theorem Keeps.refl (n : Name) (o : Obj) : Keeps n o o := ⟨rfl, fun _ _ _ => rfl⟩

private theorem Keeps.trans {n : Name} {a b c : Obj} (h : Keeps n a b) (h' : Keeps n b c) : Keeps n a c :=
  ⟨h'.1.trans h.1, fun k h1 h2 => (h'.2 k h1 h2).trans (h.2 k h1 h2)⟩

private theorem set_keeps {d : Nat} : ∀ {o o' : Obj} {n : Name} {v : Val}, setAttr d o n v = .ok o' → Keeps n o o' := by
  induction d with
  | zero => intro _ _ _ _ h; cases h
  | succ d ih =>
    intro o o' n v h
    have upd : Keeps n o { o with inst := Function.update o.inst n (some v) } :=
      ⟨rfl, fun k hk _ => Function.update_of_ne hk _ _⟩
    unfold setAttr at h
    cases hl : o.cls.lookup n with
    | none =>
      rw [hl] at h
      dsimp only at h
      by_cases e : n = handleName
      · rw [if_pos e] at h; cases h
      · rw [if_neg e] at h
        obtain rfl := Except.ok.inj h
        exact upd
    | some x =>
      rw [hl] at h
      cases x with
      | object id =>
        obtain rfl := Except.ok.inj h
        exact upd
      | lazy s =>
        obtain ⟨h1, h2⟩ := ih h
        refine ⟨h1, fun k _ hk => h2 k ?_ hk⟩
        rintro rfl
        exact hk rfl

/-- Nothing but private names was set. -/
private def Private (o o' : Obj) : Prop := o'.cls = o.cls ∧ ∀ k : Name, k.head? ≠ some '_' → o'.inst k = o.inst k

private theorem Private.refl (o : Obj) : Private o o := ⟨rfl, fun _ _ => rfl⟩

private theorem Private.trans {a b c : Obj} (h : Private a b) (h' : Private b c) : Private a c :=
  ⟨h'.1.trans h.1, fun k hk => (h'.2 k hk).trans (h.2 k hk)⟩

private theorem setUnder_private {d : Nat} {o o' : Obj} {n : Name} {v : Val} (h : setAttr d o (under n) v = .ok o') : Private o o' := by
  obtain ⟨h1, h2⟩ := set_keeps h
  exact ⟨h1, fun k hk => h2 k (by rintro rfl; exact hk rfl) hk⟩

private theorem needOwn_same {n : Name} {r : Obj × Val} {o : Obj} (h : needOwn n r = .ok o) : o = r.1 := by
  unfold needOwn at h
  split at h
  · exact (Except.ok.inj h).symm
  · cases h

private theorem get_private {d : Nat} : ∀ {o : Obj} {n : Name} {r : Obj × Val}, getAttr d o n = .ok r → Private o r.1 := by
  induction d with
  | zero => intro _ _ _ h; cases h
  | succ d ih =>
    intro o n r h
    unfold getAttr at h
    cases hl : o.cls.lookup n with
    | none =>
      rw [hl] at h
      dsimp only at h
      by_cases e : n = handleName
      · rw [if_pos e] at h
        obtain rfl := Except.ok.inj h
        exact .refl o
      · rw [if_neg e] at h
        obtain ⟨v, -, rfl⟩ := map_ok h
        exact .refl o
    | some x =>
      rw [hl] at h
      cases x with
      | object id =>
        obtain rfl := Except.ok.inj h
        exact .refl o
      | lazy s =>
        obtain ⟨q, h1, h2⟩ := bind_ok h
        have p1 := ih h1
        unfold getter at h2
        split at h2
        · unfold readFile at h2
          have one : ∀ {o o' : Obj} {n : Name}, (getAttr d o n).bind (needOwn n) = .ok o' → Private o o' := by
            intro o o' n h
            obtain ⟨q, h1, h2⟩ := bind_ok h
            rw [needOwn_same h2]
            exact ih h1
          obtain ⟨o1, h3, h4⟩ := bind_ok h2
          obtain ⟨o2, h5, h6⟩ := bind_ok h4
          obtain ⟨o3, h7, h8⟩ := bind_ok h6
          unfold keep at h8
          obtain ⟨o4, h9, h10⟩ := bind_ok h8
          exact (((((p1.trans (one h3)).trans (one h5)).trans (one h7)).trans (setUnder_private h9)).trans (ih h10))
        · obtain rfl := Except.ok.inj h2
          exact p1

/-- A name that no object knows. -/
private def Free (cls : List (Name × Member)) (n : Name) (o : Obj) : Prop := o.cls = cls ∧ o.inst n = none

private theorem init_free {d : Nat} {present : Name → Bool} {g : GroupMeta} {o o' : Obj} (h : initGroup d present g o = .ok o') {n : Name}
    (hn : n ∉ groupSelf) (hu : n.head? ≠ some '_') (hf : o.inst n = none) : o'.cls = o.cls ∧ o'.inst n = none := by
  have own : ∀ (l : List Name), n ∉ l → ∀ {o o' : Obj}, setOwn d l o = .ok o' → o'.cls = o.cls ∧ o'.inst n = o.inst n := by
    intro l
    induction l with
    | nil =>
      intro _ o o' h
      obtain rfl := Except.ok.inj h
      exact ⟨rfl, rfl⟩
    | cons a l ih =>
      intro hl o o' h
      unfold setOwn at h
      rw [List.foldlM_cons] at h
      obtain ⟨o1, h1, h2⟩ := bind_ok h
      obtain ⟨k1, k2⟩ := set_keeps h1
      obtain ⟨r1, r2⟩ := ih (fun x => hl (.tail _ x)) h2
      exact ⟨r1.trans k1, r2.trans (k2 n (fun e => hl (e ▸ .head _)) hu)⟩
  have one : ∀ {o o' : Obj} {n : Name}, (getAttr d o n).bind (needOwn n) = .ok o' → Private o o' := by
    intro o o' n h
    obtain ⟨q, h1, h2⟩ := bind_ok h
    rw [needOwn_same h2]
    exact get_private h1
  have fold : ∀ {α : Type} (f : Obj → α → Except Err Obj) (hf : ∀ o a o', f o a = .ok o' → Private o o') (l : List α) {o o' : Obj},
      l.foldlM f o = .ok o' → Private o o' := by
    intro α f hf l
    induction l with
    | nil =>
      intro o o' h
      obtain rfl := Except.ok.inj h
      exact .refl o
    | cons a l ih =>
      intro o o' h
      rw [List.foldlM_cons] at h
      obtain ⟨o1, h1, h2⟩ := bind_ok h
      exact (hf _ _ _ h1).trans (ih h2)
  unfold initGroup at h
  obtain ⟨o1, h1, h⟩ := bind_ok h
  obtain ⟨o2, h2, h⟩ := bind_ok h
  obtain ⟨o3, h3, h⟩ := bind_ok h
  obtain ⟨o4, h4, h5⟩ := bind_ok h
  unfold emptyProperties at h3
  obtain ⟨o5, h6, h3⟩ := bind_ok h3
  obtain ⟨o6, h7, h3⟩ := bind_ok h3
  unfold emptyAttrs at h3
  obtain ⟨o7, h8, h9⟩ := bind_ok h3
  obtain ⟨a1, a2⟩ := own groupSelf hn h1
  have p := ((((((one h2).trans (one h6)).trans (fold _ (fun o a o' h => by
    unfold emptyField at h
    obtain ⟨o1, e1, e2⟩ := bind_ok h
    split at e2
    · exact (one e1).trans (setUnder_private e2)
    · cases e2) g.fields h7)).trans (one h8)).trans (fold _ (fun o a o' h => setUnder_private h) g.attrs h9)).trans (one h4)).trans (one h5)
  exact ⟨p.1.trans a1, (p.2 n hu).trans (a2.trans hf)⟩

private theorem created_free {d : Nat} {present : Name → Bool} {m : Option MaskMeta} {n : Name} (hn : n ∉ groupSelf)
    (hu : n.head? ≠ some '_') (gs : List GroupMeta) : ∀ {D : List (Name × Dataset.Group)}, create d present m gs = .ok D →
      ∀ x ∈ D, ∃ g ∈ gs, x.1 = g.name ∧ Free (groupClass g (maskVars m g.name)) n x.2.self := by
  induction gs with
  | nil =>
    intro D h x hx
    obtain rfl := Except.ok.inj h
    cases hx
  | cons g gs ih =>
    intro D h x hx
    unfold create at h
    obtain ⟨G, h1, h2⟩ := bind_ok h
    obtain ⟨D', h3, rfl⟩ := map_ok h2
    rcases List.mem_append.1 hx with hx | hx
    · obtain ⟨g', hg', r⟩ := ih h3 x hx
      exact ⟨g', .tail _ hg', r⟩
    · rw [List.mem_singleton.1 hx]
      refine ⟨g, .head _, rfl, ?_⟩
      unfold generate at h1
      obtain ⟨cols, -, h4⟩ := bind_ok h1
      obtain ⟨o, h5, rfl⟩ := map_ok h4
      exact init_free h5 hn hu rfl

private theorem act_free {d : Nat} {D D' : List (Name × Dataset.Group)} {t : Target} {a : Act} {v : Option Val}
    (h : act d D t a = .ok (D', v)) {P : Name → Obj → Prop}
    (hP : ∀ k o o', P k o → o'.cls = o.cls → (∀ j : Name, j ≠ t.field → j.head? ≠ some '_' → o'.inst j = o.inst j) → P k o')
    (hD : ∀ x ∈ D, P x.1 x.2.self) : ∀ x ∈ D', P x.1 x.2.self := by
  unfold act at h
  cases hl : D.lookup t.group with
  | none => rw [hl] at h; cases h
  | some G =>
    rw [hl] at h
    obtain ⟨r, h1, h2⟩ := map_ok h
    cases h2
    have hG := hD _ (lookup_mem hl)
    have step : P t.group r.1.self := by
      cases hc : t.column with
      | none =>
        rw [hc] at h1
        obtain ⟨q, h3, rfl⟩ := map_ok h1
        cases a with
        | get =>
          obtain ⟨p, h4, rfl⟩ := map_ok h3
          have := get_private h4
          exact hP _ _ _ hG this.1 fun j _ hj => this.2 j hj
        | set v =>
          obtain ⟨p, h4, rfl⟩ := map_ok h3
          have := set_keeps h4
          exact hP _ _ _ hG this.1 this.2
        | del =>
          obtain ⟨p, h4, rfl⟩ := map_ok h3
          unfold delAttr at h4
          split at h4
          · obtain ⟨q, h5, h6⟩ := bind_ok h4
            have := (get_private h5).trans (setUnder_private h6)
            exact hP _ _ _ hG this.1 fun j _ hj => this.2 j hj
          · split at h4
            · obtain rfl := Except.ok.inj h4
              exact hP _ _ _ hG rfl fun j hj _ => Function.update_of_ne hj _ _
            · cases h4
      | some c =>
        rw [hc] at h1
        obtain ⟨q, h3, h4⟩ := bind_ok h1
        obtain ⟨p, h5, rfl⟩ := map_ok h4
        obtain ⟨u, h6, h7⟩ := bind_ok h3
        have e : q.1 = u.1 := by
          unfold asObject at h7
          split at h7
          · rw [← Except.ok.inj h7]
          · cases h7
        have := get_private h6
        rw [← e] at this
        exact hP _ _ _ hG this.1 fun j _ hj => this.2 j hj
    have rep : ∀ (l : List (Name × Dataset.Group)), (∀ x ∈ l, P x.1 x.2.self) → ∀ x ∈ replace t.group r.1 l, P x.1 x.2.self := by
      intro l
      induction l with
      | nil => intro _ x hx; cases hx
      | cons y l ih =>
        intro hl x hx
        unfold replace at hx
        split at hx
        · rename_i e
          rcases List.mem_cons.1 hx with rfl | hx
          · rw [e]; exact step
          · exact hl x (.tail _ hx)
        · rcases List.mem_cons.1 hx with rfl | hx
          · exact hl _ (.head _)
          · exact ih (fun z hz => hl z (.tail _ hz)) x hx
    exact rep D hD

private theorem content_field {gs : List GroupMeta} {m : Option MaskMeta} (hgs : Spec.Groups gs) {g : GroupMeta} (hg : g ∈ gs) {t : Target}
    {s : Source} (h : Content gs m t s) (e : t.group = g.name) : t.field ∈ g.fields.map FieldMeta.name ++ g.attrs.map Prod.fst := by
  cases h with
  | @field g' f hg' hf _ =>
    have : g' = g := List.inj_on_of_nodup_map hgs.nodup hg' hg e
    exact this ▸ List.mem_append_left _ (List.mem_map_of_mem hf)
  | @column g' f cs c k hg' hf _ _ =>
    have : g' = g := List.inj_on_of_nodup_map hgs.nodup hg' hg e
    exact this ▸ List.mem_append_left _ (List.mem_map_of_mem hf)
  | @attr g' a hg' ha' =>
    have : g' = g := List.inj_on_of_nodup_map hgs.nodup hg' hg e
    exact this ▸ List.mem_append_right _ (List.mem_map_of_mem ha')

/-- C78: whatever was read, set and deleted before: an attribute that a group does not have cannot be read or deleted, and `handle`
cannot be set or deleted. All of these are AttributeErrors. -/
theorem c78_unknown {d : Nat} (hd : 2 ≤ d) {present : Name → Bool} {gs : List GroupMeta} {m : Option MaskMeta}
    (hgs : Spec.Groups gs) (hm : ∀ m', m = some m' → Spec.Mask gs m') (hp : ∀ g ∈ gs, ∀ f ∈ g.fields, present f.path = true)
    (content : Target → Source) (ops : List (Target × Act)) (hops : ∀ op ∈ ops, Content gs m op.1 (content op.1)) {g : GroupMeta} (hg : g ∈ gs) :
    ∃ D, create d present m gs = .ok D ∧
      (∀ n, n ∉ g.fields.map FieldMeta.name → n ∉ g.attrs.map Prod.fst → n ∉ groupSelf → n ∉ methods → n.head? ≠ some '_' → n ≠ "handle".toList →
        Dataset.run d D (ops ++ [(⟨g.name, n, none⟩, .get)]) = .error .attribute ∧
        Dataset.run d D (ops ++ [(⟨g.name, n, none⟩, .del)]) = .error .attribute) ∧
      ∀ v, Dataset.run d D (ops ++ [(⟨g.name, "handle".toList, none⟩, .set v)]) = .error .attribute ∧
        Dataset.run d D (ops ++ [(⟨g.name, "handle".toList, none⟩, .del)]) = .error .attribute := by
  obtain ⟨D, e, -, h⟩ := create_ok hd (m := m) gs hgs.nodup hgs.group hp
  refine ⟨D, e, ?_⟩
  have hD : DInv gs m D (fun _ => none) := by
    intro g hg
    obtain ⟨G, eG, hG⟩ := h g hg
    refine ⟨G, eG, ?_⟩
    have : maskVars m g.name = maskOf m g.name := by
      cases hmm : m with
      | none => rfl
      | some m' => exact c78_mask (hm m' hmm) hg
    rw [← this]
    exact hG
  -- the group after the operations
  have main : ∀ n, n ∉ g.fields.map FieldMeta.name → n ∉ g.attrs.map Prod.fst → n ∉ groupSelf → n.head? ≠ some '_' → ∀ a : Act,
      (∀ o : Obj, o.cls.lookup n = none → o.inst n = none → actObj d o n a = .error .attribute) →
      Dataset.run d D (ops ++ [(⟨g.name, n, none⟩, a)]) = .error .attribute := by
    intro n hn1 hn2 hn3 hn4 a ha
    have hF0 : ∀ x ∈ D, ∃ g ∈ gs, x.1 = g.name ∧ Free (groupClass g (maskVars m g.name)) n x.2.self := created_free hn3 hn4 gs e
    have hF : ∀ x ∈ D, x.1 = g.name → x.2.self.cls.lookup n = none ∧ x.2.self.inst n = none := by
      intro x hx ex
      obtain ⟨g', hg', eg, f1, f2⟩ := hF0 x hx
      have : g' = g := List.inj_on_of_nodup_map hgs.nodup hg' hg (eg.symm.trans ex)
      subst this
      refine ⟨?_, f2⟩
      rw [f1, show groupClass g' (maskVars m g'.name) = (groupClass g' (maskVars m g'.name)).reverse.reverse from
        (List.reverse_reverse _).symm]
      apply lookup_reverse_none
      rw [keys_groupClass]
      intro hc
      rcases List.mem_append.1 hc with hc | hc
      · exact hn1 hc
      · exact hn2 hc
    clear e h hF0
    generalize (fun _ => none : Target → Option Val) = mem at hD
    induction ops generalizing D mem with
    | nil =>
      obtain ⟨G, eG, -⟩ := hD g hg
      obtain ⟨h1, h2⟩ := hF _ (lookup_mem eG) rfl
      have := ha _ h1 h2
      simp only [List.nil_append, Dataset.run, act, eG, actGroup]
      rw [this]
      rfl
    | cons op ops ih =>
      obtain ⟨t, b⟩ := op
      have hc := hops (t, b) (by simp)
      obtain ⟨D', e', hD'⟩ := act_ok hd hgs hD hc b
      simp only [List.cons_append, Dataset.run]
      rw [e']
      simp only [Except.bind]
      rw [ih (fun op hop => hops op (by simp [hop])) D' (hD := hD') ?_]
      · rfl
      · intro x hx
        by_cases eg : t.group = g.name
        · have hne : t.field ≠ n := by
            have := content_field hgs hg hc eg
            rintro rfl
            rcases List.mem_append.1 this with h | h
            · exact hn1 h
            · exact hn2 h
          exact act_free e' (P := fun k o => k = g.name → o.cls.lookup n = none ∧ o.inst n = none)
            (fun k o o' hp hcls hinst hk => ⟨by rw [hcls]; exact (hp hk).1, by rw [hinst n hne.symm hn4]; exact (hp hk).2⟩) hF x hx
        · -- another group
          intro ex
          unfold act at e'
          cases hl : D.lookup t.group with
          | none => rw [hl] at e'; cases e'
          | some G =>
            rw [hl] at e'
            obtain ⟨r, -, h2⟩ := map_ok e'
            obtain ⟨rfl, -⟩ := Prod.mk.inj h2
            have rep : ∀ (l : List (Name × Dataset.Group)), x ∈ replace t.group r.1 l → x ∈ l := by
              intro l
              induction l with
              | nil => exact fun h => h
              | cons y l ih =>
                intro hx
                unfold replace at hx
                split at hx
                · rename_i e
                  rcases List.mem_cons.1 hx with rfl | hx
                  · exact absurd (e.symm.trans ex) eg
                  · exact .tail _ hx
                · rcases List.mem_cons.1 hx with rfl | hx
                  · exact .head _
                  · exact .tail _ (ih hx)
            exact hF x (rep D hx) ex
  obtain ⟨d, rfl⟩ : ∃ k, d = k + 1 := ⟨d - 1, by omega⟩
  have hdel : ∀ (n : Name) (o : Obj), o.cls.lookup n = none → o.inst n = none → actObj (d + 1) o n .del = .error .attribute := by
    intro n o h1 h2
    simp [actObj, delAttr, h1, h2, Except.map]
  refine ⟨fun n h1 h2 h3 h4 h5 h6 => ⟨main n h1 h2 h3 h5 .get ?_, main n h1 h2 h3 h5 .del (hdel n)⟩, fun v => ?_⟩
  · intro o c1 c2
    have h6 : n ≠ handleName := h6
    simp [actObj, getAttr, c1, h6, plainAttr, c2, h4, Except.map]
  · have hN := (hgs.group g hg).names.free handleName
    have r : handleName ∈ reserved ∧ handleName ∉ groupSelf ∧ handleName.head? ≠ some '_' := by decide +kernel
    have n1 : handleName ∉ g.fields.map FieldMeta.name := fun h => hN (List.mem_append_left _ h) r.1
    have n2 : handleName ∉ g.attrs.map Prod.fst := fun h => hN (List.mem_append_right _ h) r.1
    refine ⟨main _ n1 n2 r.2.1 r.2.2 (.set v) ?_, main _ n1 n2 r.2.1 r.2.2 .del (hdel _)⟩
    intro o c1 _
    simp [actObj, setAttr, c1, Except.map]

/-- C78: an object with named columns can be put in the place of another of its group, and its columns are then found there; anything
else there has no columns. -/
theorem c78_replaced {d : Nat} (hd : 2 ≤ d) {present : Name → Bool} {gs : List GroupMeta} {m : Option MaskMeta}
    (hgs : Spec.Groups gs) (hm : ∀ m', m = some m' → Spec.Mask gs m') (hp : ∀ g ∈ gs, ∀ f ∈ g.fields, present f.path = true)
    {g : GroupMeta} (hg : g ∈ gs) {f f' : FieldMeta} (hf : f ∈ g.fields) (hf' : f' ∈ g.fields) {cs cs' : List Name}
    (hc : f.columns = some cs) (hc' : f'.columns = some cs') {k : Nat} {c : Name} (hk : cs'[k]? = some c) :
    ∃ D, create d present m gs = .ok D ∧
      Dataset.run d D [(⟨g.name, f.name, none⟩, .set (.object f'.name)), (⟨g.name, f.name, some c⟩, .get)] =
        .ok [none, some (.file (.field f'.path (some k) (maskOf m g.name).1 (maskOf m g.name).2))] ∧
      ∀ u, Dataset.run d D [(⟨g.name, f.name, none⟩, .set (.user u)), (⟨g.name, f.name, some c⟩, .get)] = .error .attribute := by
  obtain ⟨D, e, -, h⟩ := create_ok hd (m := m) gs hgs.nodup hgs.group hp
  refine ⟨D, e, ?_⟩
  have em : maskVars m g.name = maskOf m g.name := by
    cases hmm : m with
    | none => rfl
    | some m' => exact c78_mask (hm m' hmm) hg
  obtain ⟨G, eG, hG⟩ := h g hg
  rw [em] at hG
  obtain ⟨u1, u2, -⟩ := hG.obj f hf cs hc
  obtain ⟨-, -, o, u3, u4⟩ := hG.obj f' hf' cs' hc'
  obtain ⟨w, e', -⟩ := actObj_ok hd u4 (n := c) (s := .field f'.path (some k) (maskOf m g.name).1 (maskOf m g.name).2) ⟨k, hk, rfl⟩ .get
  obtain ⟨d, rfl⟩ : ∃ k, d = k + 1 := ⟨d - 1, by omega⟩
  have hset : ∀ v, act (d + 1) D ⟨g.name, f.name, none⟩ (.set v) =
      .ok (replace g.name ⟨{ G.self with inst := Function.update G.self.inst f.name (some v) }, G.cols⟩ D, none) := by
    intro v
    simp [act, eG, actGroup, actObj, setAttr, u1, Except.map]
  have hget : ∀ v, getAttr (d + 1) { G.self with inst := Function.update G.self.inst f.name (some v) } f.name =
      .ok ({ G.self with inst := Function.update G.self.inst f.name (some v) }, v) := by
    intro v
    simp [getAttr, u1]
  refine ⟨?_, fun u => ?_⟩
  · simp only [Dataset.run]
    rw [hset]
    simp only [Except.bind, act]
    rw [lookup_replace_self _ eG]
    simp only [actGroup]
    rw [hget]
    simp only [Except.bind, asObject, actColumn, u3]
    rw [e']
    rfl
  · simp only [Dataset.run]
    rw [hset]
    simp only [Except.bind, act]
    rw [lookup_replace_self _ eG]
    simp only [actGroup]
    rw [hget]
    rfl

/-- C78: a group whose `metadata` or `open_file` a user has replaced cannot read anything it has not read before. -/
theorem c78_own {d : Nat} (hd : 2 ≤ d) {present : Name → Bool} {gs : List GroupMeta} {m : Option MaskMeta}
    (hgs : Spec.Groups gs) (hm : ∀ m', m = some m' → Spec.Mask gs m') (hp : ∀ g ∈ gs, ∀ f ∈ g.fields, present f.path = true)
    {g : GroupMeta} (hg : g ∈ gs) {n : Name} {s : Source} (hn : Content gs m ⟨g.name, n, none⟩ s) (u : Nat) :
    ∃ D, create d present m gs = .ok D ∧ ∀ k ∈ ["metadata".toList, "open_file".toList],
      ∃ e, Dataset.run d D [(⟨g.name, k, none⟩, .set (.user u)), (⟨g.name, n, none⟩, .get)] = .error e := by
  obtain ⟨D, e, -, h⟩ := create_ok hd (m := m) gs hgs.nodup hgs.group hp
  refine ⟨D, e, ?_⟩
  have em : maskVars m g.name = maskOf m g.name := by
    cases hmm : m with
    | none => rfl
    | some m' => exact c78_mask (hm m' hmm) hg
  obtain ⟨G, eG, hG⟩ := h g hg
  rw [em] at hG
  have hl : Lazy g (maskOf m g.name) n s := by
    generalize ht : (⟨g.name, n, none⟩ : Target) = t at hn
    cases hn with
    | @field g' f hg' hf hc =>
      simp only [Target.mk.injEq] at ht
      obtain ⟨h1, h2, -⟩ := ht
      obtain rfl : g' = g := List.inj_on_of_nodup_map hgs.nodup hg' hg h1.symm
      exact .inl ⟨f, hf, hc, h2, rfl⟩
    | column => simp at ht
    | @attr g' a hg' ha =>
      simp only [Target.mk.injEq] at ht
      obtain ⟨h1, h2, -⟩ := ht
      obtain rfl : g' = g := List.inj_on_of_nodup_map hgs.nodup hg' hg h1.symm
      exact .inr ⟨a, ha, h2, rfl⟩
  obtain ⟨e1, e2, e3, -⟩ := hG.self.entry n s hl
  obtain ⟨v1, v2, v3⟩ := under_ne n
  obtain ⟨f1, f2, f3, f4⟩ := names_facts
  obtain ⟨d, rfl⟩ : ∃ k, d = k + 2 := ⟨d - 2, by omega⟩
  have hset : ∀ k, G.self.cls.lookup k = none → k ≠ handleName → act (d + 2) D ⟨g.name, k, none⟩ (.set (.user u)) =
      .ok (replace g.name ⟨{ G.self with inst := Function.update G.self.inst k (some (.user u)) }, G.cols⟩ D, none) := by
    intro k hk hk'
    simp [act, eG, actGroup, actObj, setAttr, hk, hk', Except.map]
  have fin : ∀ k, G.self.cls.lookup k = none → k ≠ handleName → under n ≠ k →
      (∃ e, readFile (d + 1) (getAttr (d + 1)) n s { G.self with inst := Function.update G.self.inst k (some (.user u)) } = .error e) →
      ∃ e, Dataset.run (d + 2) D [(⟨g.name, k, none⟩, .set (.user u)), (⟨g.name, n, none⟩, .get)] = .error e := by
    rintro k hk hk' hne ⟨e, he⟩
    refine ⟨e, ?_⟩
    simp only [Dataset.run]
    rw [hset k hk hk']
    simp only [Except.bind, act]
    rw [lookup_replace_self _ eG]
    simp only [actGroup, actObj]
    rw [getLazy (o := { G.self with inst := Function.update G.self.inst k (some (.user u)) }) e1,
      getPlain_ok (o := { G.self with inst := Function.update G.self.inst k (some (.user u)) }) (v := .none) (by omega) e2
        (under_ne_handle n) (by simpa [Function.update_of_ne hne] using e3)]
    simp only [Except.bind, getter, if_true]
    rw [he]
    rfl
  have hmo : openFileName ≠ metadataName ∧ filenameName ≠ metadataName := by decide +kernel
  intro k hk
  simp only [List.mem_cons, List.not_mem_nil, or_false] at hk
  rcases hk with rfl | rfl
  · refine fin metadataName hG.self.metadata.1 f4 v3 ⟨.typeErr, ?_⟩
    unfold readFile
    rw [getMethod_ok (o := { G.self with inst := Function.update G.self.inst metadataName (some (.user u)) }) (by omega)
      hG.self.openFile.1 f1 f2 (by simp [Function.update_of_ne hmo.1, hG.self.openFile.2])]
    simp only [Except.bind, needOwn_ok]
    rw [getPlain_ok (o := { G.self with inst := Function.update G.self.inst metadataName (some (.user u)) }) (by omega)
      hG.self.filename.1 f3 (v := .own filenameName) (by simp [Function.update_of_ne hmo.2, hG.self.filename.2])]
    simp only [needOwn_ok]
    rw [getPlain_ok (o := { G.self with inst := Function.update G.self.inst metadataName (some (.user u)) }) (by omega)
      hG.self.metadata.1 f4 (v := .user u) (by simp)]
    simp [Except.bind, needOwn]
  · refine fin openFileName hG.self.openFile.1 f2 v1 ⟨.typeErr, ?_⟩
    unfold readFile
    rw [getPlain_ok (o := { G.self with inst := Function.update G.self.inst openFileName (some (.user u)) }) (by omega)
      hG.self.openFile.1 f2 (v := .user u) (by simp)]
    simp [Except.bind, needOwn]

private def gasName : Name := "gas".toList
private def massesName : Name := "masses".toList

/-- A group with a dataset `Metadata`. -/
private def metadataGroup : GroupMeta :=
  ⟨gasName, "PartType0".toList, [⟨metadataName, "PartType0/Metadata".toList, none⟩, ⟨massesName, "PartType0/Masses".toList, none⟩], []⟩

private def setAll (l : List (Name × Val)) : Name → Option Val := l.foldl (fun i x => Function.update i x.1 (some x.2)) fun _ => none

private theorem metadata_create (d : Nat) : create (d + 2) (fun _ => true) none [metadataGroup] =
    .ok [(gasName, ⟨⟨groupClass metadataGroup (none, none), setAll ([filenameName, "_handle".toList, managerName, "units".toList,
      "group".toList, "group_name".toList, groupMetadataName].map (fun n => (n, .own n)) ++
      [(under metadataName, .own metadataName), (under metadataName, .none), (under massesName, .none)])⟩, []⟩)] := by
  rfl

/-- An object one of whose own attributes is hidden by a property `metadata` that has not been read. -/
private theorem metadata_loop {o : Obj} {n : Name} {s s' : Source} (hm : o.cls.lookup metadataName = some (.lazy s'))
    (hu : o.cls.lookup (under metadataName) = none) (hv : o.inst (under metadataName) = some .none)
    (ho : o.cls.lookup openFileName = none ∧ o.inst openFileName = none)
    (hf : o.cls.lookup filenameName = none ∧ o.inst filenameName = some (.own filenameName))
    (hn : o.cls.lookup n = some (.lazy s)) (hnu : o.cls.lookup (under n) = none) (hnv : o.inst (under n) = some .none) (d : Nat) :
    getAttr d o n = .error .runtime := by
  obtain ⟨f1, f2, f3, f4⟩ := names_facts
  have step : ∀ (d : Nat) (n : Name) (s : Source), o.cls.lookup n = some (.lazy s) → o.cls.lookup (under n) = none →
      o.inst (under n) = some .none → getAttr d o metadataName = .error .runtime → getAttr (d + 1) o n = .error .runtime := by
    intro d n s hn hnu hnv h
    rw [getLazy hn]
    cases d with
    | zero => rfl
    | succ d =>
      rw [getPlain_ok (by omega) hnu (under_ne_handle n) hnv]
      simp only [Except.bind, getter, if_true, readFile]
      rw [getMethod_ok (by omega) ho.1 f1 f2 ho.2]
      simp only [needOwn, if_true]
      rw [getPlain_ok (by omega) hf.1 f3 hf.2]
      simp only [if_true]
      rw [h]
  have loop : ∀ d, getAttr d o metadataName = .error .runtime := by
    intro d
    induction d with
    | zero => rfl
    | succ d ih => exact step d _ _ hm hu hv ih
  cases d with
  | zero => rfl
  | succ d => exact step d n s hn hnu hnv (loop d)

/-- C78: a dataset with the name `Metadata` makes every dataset of its group unreadable: the getters call each other without end. -/
theorem c78_metadata_fails (d : Nat) : ∃ D, create (d + 2) (fun _ => true) none
      [⟨"gas".toList, "PartType0".toList, [⟨"metadata".toList, "PartType0/Metadata".toList, none⟩,
        ⟨"masses".toList, "PartType0/Masses".toList, none⟩], []⟩] = .ok D ∧
    ∀ d', act d' D ⟨"gas".toList, "masses".toList, none⟩ .get = .error .runtime := by
  refine ⟨_, metadata_create d, fun d' => ?_⟩
  have key := metadata_loop (n := massesName) (d := d') (o := ⟨groupClass metadataGroup (none, none), setAll ([filenameName,
      "_handle".toList, managerName, "units".toList, "group".toList, "group_name".toList, groupMetadataName].map (fun n => (n, .own n)) ++
      [(under metadataName, .own metadataName), (under metadataName, .none), (under massesName, .none)])⟩)
    rfl rfl rfl ⟨rfl, rfl⟩ ⟨rfl, rfl⟩ rfl rfl rfl
  show (Except.map _ (Except.map _ (Except.map _ (getAttr d' _ massesName)))) = _
  rw [key]
  rfl

/-- C78: a file with a dataset `GroupMetadata` in one of its groups cannot be opened: the object of the group reads the dataset where it
needs its own metadata. -/
theorem c78_group_metadata_fails (d : Nat) : ∃ e, create (d + 4) (fun _ => true) none
      [⟨"gas".toList, "PartType0".toList, [⟨"group_metadata".toList, "PartType0/GroupMetadata".toList, none⟩], []⟩] = .error e :=
  ⟨_, rfl⟩

/-- C78: named columns of a dataset `Units` cannot be reached. -/
theorem c78_units_fails (d : Nat) : ∃ D, create (d + 2) (fun _ => true) none
      [⟨"gas".toList, "PartType0".toList, [⟨"units".toList, "PartType0/Units".toList, some ["a".toList]⟩], []⟩] = .ok D ∧
    act (d + 2) D ⟨"gas".toList, "units".toList, none⟩ .get = .ok (D, some (.own "units".toList)) ∧
    act (d + 2) D ⟨"gas".toList, "units".toList, some "a".toList⟩ .get = .error .attribute :=
  ⟨_, rfl, rfl, rfl⟩

/-- C78: an attribute of a group hides the dataset of the same name. -/
theorem c78_hidden_fails (d : Nat) : ∃ D D', create (d + 2) (fun _ => true) none
      [⟨"gas".toList, "PartType0".toList, [⟨"masses".toList, "PartType0/Masses".toList, none⟩],
        [("masses".toList, "Masses".toList)]⟩] = .ok D ∧
    act (d + 2) D ⟨"gas".toList, "masses".toList, none⟩ .get = .ok (D', some (.file (.attr "PartType0".toList "Masses".toList))) :=
  ⟨_, _, rfl, rfl⟩

/-- C78: with one mask for all groups, a group whose name is that of another one followed by `_size` is masked by the size; a group
`cell` gets the size of the cells of the mask instead of its own. -/
theorem c78_mask_fails :
    maskVars (some ⟨true, ["gas".toList, "gas_size".toList]⟩) "gas_size".toList = (some "_shared_size".toList, some "_shared_size".toList) ∧
    maskVars (some ⟨false, ["cell".toList]⟩) "cell".toList = (some "_cell".toList, some "cell_size".toList) := by
  decide +kernel

/-- A dataset that `c78_attributes` speaks about, with two groups, named columns, an attribute and masks. -/
private def sample : List GroupMeta :=
  [⟨"gas".toList, "PartType0".toList, [⟨"masses".toList, "PartType0/Masses".toList, none⟩,
      ⟨"fractions".toList, "PartType0/Fractions".toList, some ["hydrogen".toList, "helium".toList]⟩], []⟩,
    ⟨"stars".toList, "PartType4".toList, [⟨"masses".toList, "PartType4/Masses".toList, none⟩], [("units".toList, "Units".toList)]⟩]

example : Spec.Groups sample ∧ Spec.Mask sample ⟨false, ["gas".toList, "stars".toList]⟩ ∧
    Content sample (some ⟨false, ["gas".toList, "stars".toList]⟩) ⟨"gas".toList, "fractions".toList, some "helium".toList⟩
      (.field "PartType0/Fractions".toList (some 1) (some "_gas".toList) (some "_gas_size".toList)) := by
  refine ⟨⟨by decide +kernel, ?_⟩, ⟨by decide +kernel, by decide +kernel, by decide +kernel⟩, ?_⟩
  · have clean : ∀ l : List Name, l.Nodup → (∀ n ∈ l, n ∉ reserved) → (∀ n ∈ l, ∀ m ∈ l, n ≠ '_' :: m) → Clean l :=
      fun l a b c => ⟨a, b, c⟩
    intro g hg
    simp only [sample, List.mem_cons, List.not_mem_nil, or_false] at hg
    rcases hg with rfl | rfl
    · refine ⟨clean _ (by decide +kernel) (by decide +kernel) (by decide +kernel), ?_⟩
      intro f hf cs hcs
      simp only [List.mem_cons, List.not_mem_nil, or_false] at hf
      rcases hf with rfl | rfl
      · cases hcs
      · cases hcs
        exact ⟨clean _ (by decide +kernel) (by decide +kernel) (by decide +kernel), by decide +kernel⟩
    · refine ⟨clean _ (by decide +kernel) (by decide +kernel) (by decide +kernel), ?_⟩
      intro f hf cs hcs
      simp only [List.mem_cons, List.not_mem_nil, or_false] at hf
      subst hf
      cases hcs
  · exact Content.column (g := sample.head (by decide)) (f := ⟨"fractions".toList, "PartType0/Fractions".toList,
      some ["hydrogen".toList, "helium".toList]⟩) (k := 1) (List.head_mem _) (by decide +kernel) rfl rfl

end Verif.Props
