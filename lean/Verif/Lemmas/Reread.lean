import Verif.Spec.Reread
import Verif.Props.Attributes
import Verif.Props.Writer
import Verif.Props.WriterHeader
import Verif.Props.Names

/-!
# Writing a snapshot and opening it
-/

namespace Verif.Reread
open Verif Verif.Props Verif.Cosmo Verif.Attributes Verif.Spec
open Verif.Writer (Name required toWrite_nodup)
open Verif.WriterHeader (Conf unitAttrs asRead readTypes)
open Verif.Names (Str snake partType particleNames loadFieldNames datasetTable)
open Verif.Header (Dict Raw Val Lib postprocess)
open Verif.Units (Dim loadUnit)

theorem mapM_forall₂ {α β : Type} {f : α → Except Err β} :
    ∀ {l : List α} {r : List β}, l.mapM f = .ok r → List.Forall₂ (fun x y => f x = .ok y) l r
  | [], r, h => by cases h; exact .nil
  | x :: l, r, h => by
    rw [List.mapM_cons] at h
    cases e : f x with
    | error e' => rw [e] at h; cases h
    | ok y =>
      rw [e] at h
      cases e2 : l.mapM f with
      | error e' => simp only [e2] at h; cases h
      | ok r' =>
        simp only [e2] at h
        cases h
        exact .cons e (mapM_forall₂ e2)

theorem forall₂_mapM {α β : Type} {f : α → Except Err β} :
    ∀ {l : List α} {r : List β}, List.Forall₂ (fun x y => f x = .ok y) l r → l.mapM f = .ok r
  | [], r, h => by cases h; rfl
  | x :: l, r, h => by
    cases h with
    | cons h1 h2 =>
      rw [List.mapM_cons, h1, forall₂_mapM h2]
      rfl

theorem mapM_total {α β : Type} {f : α → Except Err β} :
    ∀ {l : List α}, (∀ x ∈ l, ∃ y, f x = .ok y) → ∃ r, l.mapM f = .ok r
  | [], _ => ⟨[], rfl⟩
  | x :: l, h => by
    obtain ⟨y, e⟩ := h x (List.mem_cons_self ..)
    obtain ⟨r, e2⟩ := mapM_total (f := f) (l := l) (fun z hz => h z (List.mem_cons_of_mem _ hz))
    exact ⟨y :: r, by rw [List.mapM_cons, e, e2]; rfl⟩

theorem forall₂_mem {α β : Type} {R : α → β → Prop} {l : List α} {r : List β} (h : List.Forall₂ R l r) {x : α} (hx : x ∈ l) :
    ∃ y ∈ r, R x y := by
  induction h with
  | nil => cases hx
  | cons h1 _ ih =>
    rcases List.mem_cons.1 hx with rfl | hx
    · exact ⟨_, List.mem_cons_self .., h1⟩
    · obtain ⟨y, hy, hR⟩ := ih hx
      exact ⟨y, List.mem_cons_of_mem _ hy, hR⟩

theorem lookup_of_mem {α β : Type} [BEq α] [LawfulBEq α] {l : List (α × β)} (h : (l.map Prod.fst).Nodup) {k : α} {v : β}
    (hm : (k, v) ∈ l) : l.lookup k = some v := by
  induction l with
  | nil => cases hm
  | cons a l ih =>
    rw [List.map_cons, List.nodup_cons] at h
    rcases List.mem_cons.1 hm with rfl | hm
    · simp
    · rename_i hm0
      have : (k == a.1) = false := by
        rw [beq_eq_false_iff_ne]
        rintro rfl
        exact h.1 (List.mem_map.2 ⟨_, hm, rfl⟩)
      rw [show (a :: l).lookup k = (if k == a.1 then some a.2 else l.lookup k) by rw [List.lookup_cons]; cases k == a.1 <;> rfl, this]
      exact ih h.2 hm

/-! ## The writer after some assignments -/

theorem put_fields {w : State} {u t : Nat} {m n : Name} {x : Option Stored} (h : ¬ (u = t ∧ m = n)) :
    (w.put u m x t).fields n = (w t).fields n := by
  simp only [State.put]
  split
  · rename_i e
    simp only
    rw [if_neg (fun em => h ⟨e.symm, em.symm⟩)]
  · rfl

theorem put_ids {w : State} {u t : Nat} {m : Name} {x : Option Stored} : (w.put u m x t).ids = (w t).ids := by
  simp only [State.put]
  split <;> rfl

theorem putIds_fields {w : State} {u t : Nat} {l : Option (List Int)} : (w.putIds u l t).fields = (w t).fields := by
  simp only [State.putIds]
  split <;> rfl

theorem putIds_ids {w : State} {u t : Nat} {l : Option (List Int)} (h : u ≠ t) : (w.putIds u l t).ids = (w t).ids := by
  simp only [State.putIds]
  rw [if_neg (fun e => h e.symm)]

theorem step_fields {base : Dim → ℝ} {sf : ℝ} {w : State} {o : Op} {t : Nat} {n : Name} (h : ¬ About t n o) :
    (step base sf w o t).fields n = (w t).fields n := by
  cases o with
  | set u m x =>
    simp only [step]
    by_cases hm : m = .particleIds
    · rw [if_pos hm]
    · rw [if_neg hm]
      cases setField (baseOf base) sf (dimsOf m) x.field with
      | ok y => exact put_fields h
      | error => rfl
  | ids u l =>
    simp only [step]
    cases Writer.setIds (view w u) l with
    | ok y => simp only [putIds_fields]
    | error => rfl
  | del u m =>
    simp only [step]
    by_cases hm : m = .particleIds
    · rw [if_pos hm, putIds_fields]
    · rw [if_neg hm]
      exact put_fields h

theorem step_ids {base : Dim → ℝ} {sf : ℝ} {w : State} {o : Op} {t : Nat} (h : ¬ About t .particleIds o) :
    (step base sf w o t).ids = (w t).ids := by
  cases o with
  | set u m x =>
    simp only [step]
    by_cases hm : m = .particleIds
    · rw [if_pos hm]
    · rw [if_neg hm]
      cases setField (baseOf base) sf (dimsOf m) x.field with
      | ok y => exact put_ids
      | error => rfl
  | ids u l =>
    simp only [step]
    cases Writer.setIds (view w u) l with
    | ok y => exact putIds_ids (fun e => h ⟨e, rfl⟩)
    | error => rfl
  | del u m =>
    simp only [step]
    by_cases hm : m = .particleIds
    · rw [if_pos hm]
      exact putIds_ids (fun e => h ⟨e, hm⟩)
    · rw [if_neg hm, put_ids]

theorem run_fields {base : Dim → ℝ} {sf : ℝ} {t : Nat} {n : Name} : ∀ (ops : List Op) (w : State),
    (∀ o ∈ ops, ¬ About t n o) → (ops.foldl (step base sf) w t).fields n = (w t).fields n
  | [], _, _ => rfl
  | o :: ops, w, h => by
    rw [List.foldl_cons, run_fields ops _ (fun p hp => h p (List.mem_cons_of_mem _ hp)), step_fields (h o (List.mem_cons_self ..))]

theorem run_ids {base : Dim → ℝ} {sf : ℝ} {t : Nat} : ∀ (ops : List Op) (w : State),
    (∀ o ∈ ops, ¬ About t .particleIds o) → (ops.foldl (step base sf) w t).ids = (w t).ids
  | [], _, _ => rfl
  | o :: ops, w, h => by
    rw [List.foldl_cons, run_ids ops _ (fun p hp => h p (List.mem_cons_of_mem _ hp)), step_ids (h o (List.mem_cons_self ..))]

theorem dims_need {n : Name} {e : Exps} (h : HasDims n e) : n ≠ .particleIds ∧ e = dimsOf n := by
  cases n <;> first | exact ⟨by decide, h⟩ | exact h.elim

theorem given_fields {base : Dim → ℝ} {a k : ℝ} {ops : List Op} {t : Nat} {n : Name} {x : Stored} (hb : BasePos (baseOf base))
    (h : Given ops t n x) (hc : Conv a k x.field.arr) (hd : HasDims n x.field.dims) :
    ∃ y : Field, (run base a ops t).fields n = some { x with field := y } ∧ Conv a k y.arr ∧
      y.arr.comoving = some true ∧ y.dims = x.field.dims ∧ y.size = (baseOf base).unit x.field.dims ∧ cgs y = cgs x.field := by
  obtain ⟨l₁, l₂, rfl, h2⟩ := h
  obtain ⟨hn, hd⟩ := dims_need hd
  obtain ⟨y, e1, e2, e3, e4, e5, e6⟩ := setField_ok hb hc hd
  refine ⟨y, ?_, e2, e3, e4.trans hd.symm, by rw [e5, hd], e6⟩
  unfold run
  rw [List.foldl_append, List.foldl_cons, run_fields _ _ h2]
  simp only [step, if_neg hn, e1, State.put, if_true]

theorem given_ids {base : Dim → ℝ} {a : ℝ} {ops : List Op} {t : Nat} {l : List Int} (h : GivenIds ops t l)
    (hp : ∀ i ∈ l, 1 ≤ i) (hd : l.Nodup) : (run base a ops t).ids = some l := by
  obtain ⟨l₁, l₂, rfl, h2⟩ := h
  unfold run
  rw [List.foldl_append, List.foldl_cons, run_ids _ _ h2]
  have e : ∀ g : Writer.Group ℝ, Writer.setIds g l = .ok { g with ids := some l } := by
    intro g
    unfold Writer.setIds
    rw [if_neg, if_neg]
    · rw [not_not, List.dedup_eq_self.2 hd]
    · rw [List.any_eq_true]
      rintro ⟨i, hi, h0⟩
      have := hp i hi
      simp at h0
      omega
  simp only [step, e, State.putIds, if_true]

/-! ## Groups in the file -/

theorem handles_snake (n : Name) : snake (handleOf n) = attrName n := by
  cases n <;> decide +kernel

theorem handles_nodup (t : Nat) : ((required t).map handleOf).Nodup ∧ (((required t).map handleOf).map snake).Nodup := by
  unfold required
  split
  · decide +kernel
  · split <;> decide +kernel

theorem required_iff (t : Nat) (n : Name) : n ∈ required t ↔ n = .particleIds ∨ n ∈ needs t := by
  unfold required needs
  by_cases h0 : t = 0
  · subst h0; cases n <;> simp
  · by_cases h4 : t = 4
    · subst h4; cases n <;> simp
    · cases n <;> simp [h0, h4]

theorem dset_fst {sf : ℝ} {w : State} {e : Writer.Entry ℝ} {n : Name} {d : Str × Dset} (h : dsetOf sf w e n = .ok d) : d.1 = handleOf n := by
  unfold dsetOf at h
  split at h
  · split at h
    · cases h
    · cases hw : writeField (idField sf _) with
      | error => rw [hw] at h; cases h
      | ok v => rw [hw] at h; cases h; rfl
  · split at h
    · cases h
    · rename_i x _
      cases hw : writeField x.field with
      | error => rw [hw] at h; cases h
      | ok v => rw [hw] at h; cases h; rfl

theorem digits_no_slash (t : Nat) : '/' ∉ partType t := by
  intro h
  unfold partType at h
  rcases List.mem_append.1 h with h | h
  · revert h; decide +kernel
  · have := Nat.isDigit_of_mem_toDigits (b := 10) (by norm_num) (by norm_num) h
    revert this
    decide +kernel

/-- What one type has in the file. -/
theorem group_member {sf : ℝ} {w : State} {e : Writer.Entry ℝ} {ds : List (Str × Dset)} (h : (required e.type).mapM (dsetOf sf w e) = .ok ds)
    {n : Name} (hn : n ∈ required e.type) (present : List Str) (hp : ∀ g ∈ present, '/' ∉ g) :
    ∃ d : Dset, dsetOf sf w e n = .ok (handleOf n, d) ∧ member present (partType e.type) ds (attrName n) = .ok d := by
  have h2 := mapM_forall₂ h
  have hfst : ds.map Prod.fst = (required e.type).map handleOf := by
    clear h hn
    generalize required e.type = L at h2 ⊢
    induction h2 with
    | nil => rfl
    | cons h1 _ ih => rw [List.map_cons, List.map_cons, ih, dset_fst h1]
  obtain ⟨⟨m, d⟩, hd, e1⟩ := forall₂_mem h2 hn
  obtain rfl : m = handleOf n := dset_fst e1
  refine ⟨d, e1, ?_⟩
  unfold member
  have ht : datasetTable (loadFieldNames (partType e.type) (ds.map Prod.fst) present) [] (attrName n) =
      some (.field (partType e.type ++ '/' :: handleOf n)) := by
    rw [← handles_snake]
    refine c34_fields _ _ _ _ _ ?_ ?_ ?_ (by simp)
    · rw [hfst]
      exact List.mem_map_of_mem hn
    · intro hc
      exact hp _ hc (by simp)
    · rw [hfst]
      exact (handles_nodup _).2
  rw [ht]
  simp only
  have hf : ds.find? (fun d => (partType e.type ++ '/' :: d.1) == (partType e.type ++ '/' :: handleOf n)) = some (handleOf n, d) := by
    have hnd : (ds.map Prod.fst).Nodup := by rw [hfst]; exact (handles_nodup _).1
    clear ht hfst h2 h
    induction ds with
    | nil => cases hd
    | cons a ds ih =>
      rw [List.map_cons, List.nodup_cons] at hnd
      rcases List.mem_cons.1 hd with rfl | hd
      · simp
      · rw [List.find?_cons_of_neg, ih hd hnd.2]
        simp only [beq_iff_eq, List.append_cancel_left_eq, List.cons.injEq, true_and]
        intro hc
        exact hnd.1 (hc ▸ List.mem_map.2 ⟨_, hd, rfl⟩)
  rw [hf]

theorem write_groups {base : Dim → ℝ} {c : Conf ℝ} {w : State} {h : H5} (hw : writeAll base c w = .ok h) :
    ∃ f : Writer.File ℝ, (Writer.write none (view w)).result = .ok f ∧ h.header = WriterHeader.header c (fun x : ℝ => x) f ∧
      h.units = unitAttrs base ∧ List.Forall₂ (fun e g => groupOf c.scaleFactor w e = .ok g) f.groups h.groups := by
  unfold writeAll at hw
  split at hw
  · cases hw
  · rename_i f hf
    refine ⟨f, hf, ?_⟩
    cases hg : f.groups.mapM (groupOf c.scaleFactor w) with
    | error e => rw [hg] at hw; cases hw
    | ok g =>
      rw [hg] at hw
      cases hw
      exact ⟨rfl, rfl, mapM_forall₂ hg⟩

theorem groupOf_ok {sf : ℝ} {w : State} {e : Writer.Entry ℝ} {g : Str × List (Str × Dset)} (h : groupOf sf w e = .ok g) :
    g.1 = partType e.type ∧ (required e.type).mapM (dsetOf sf w e) = .ok g.2 := by
  unfold groupOf at h
  cases hd : (required e.type).mapM (dsetOf sf w e) with
  | error => rw [hd] at h; cases h
  | ok l => rw [hd] at h; cases h; exact ⟨rfl, rfl⟩

/-! ## Opening the file -/

theorem nameOf_eq {t : Nat} (h : t < 8) : ∃ s, types[t]? = some s ∧ nameOf t = .ok (s.toList, partType t) := by
  have key : ∀ t < 8, particleNames.lookup (partType t) = (types[t]?).map String.toList := by decide +kernel
  have k := key t h
  have hs : types[t]? = some types[t] := List.getElem?_eq_getElem h
  refine ⟨_, hs, ?_⟩
  unfold nameOf
  rw [k, hs]
  rfl

theorem open_ok {D : Type} {lib : Lib D} {table : Dim → List ℝ} {h : H5} {o : Opened} (ho : openFile lib table h = .ok o) :
    ∃ (s : Dict (Val ℝ D)) (ts : List Nat), readBase table h.units = .ok o.base ∧ postprocess lib (asRead h.header) = .ok s ∧
      scaleOf s = .ok o.scale ∧ readTypes s = .ok ts ∧ ts.mapM nameOf = .ok o.names ∧ o.file = h := by
  unfold openFile at ho
  cases h1 : readBase table h.units with
  | error => rw [h1] at ho; cases ho
  | ok b =>
    cases h2 : postprocess lib (asRead h.header) with
    | error => rw [h1, h2] at ho; cases ho
    | ok s =>
      cases h3 : scaleOf s with
      | error => simp only [h1, h2, Except.bind, h3] at ho; cases ho
      | ok a =>
        cases h4 : readTypes s with
        | error => simp only [h1, h2, Except.bind, h3, h4] at ho; cases ho
        | ok ts =>
          cases h5 : ts.mapM nameOf with
          | error => simp only [h1, h2, Except.bind, h3, h4, h5] at ho; cases ho
          | ok ns =>
            simp only [h1, h2, Except.bind, h3, h4, h5] at ho
            cases ho
            exact ⟨s, ts, rfl, rfl, h3, h4, h5, rfl⟩

/-- What a reader knows of a file that was written. -/
structure Read (base : Dim → ℝ) (c : Conf ℝ) (w : State) (f : Writer.File ℝ) (table : Dim → List ℝ) (o : Opened) : Prop where
  wrote : (Writer.write none (view w)).result = .ok f
  scale : o.scale = c.scaleFactor
  units : readBase table (unitAttrs base) = .ok o.base
  names : (toWrite (view w)).mapM nameOf = .ok o.names
  groups : List.Forall₂ (fun e g => groupOf c.scaleFactor w e = .ok g) f.groups o.file.groups

theorem read_of {D : Type} {lib : Lib D} {table : Dim → List ℝ} {base : Dim → ℝ} {c : Conf ℝ} {w : State} {h : H5} {o : Opened}
    (hp : Plain c) (hw : writeAll base c w = .ok h) (ho : openFile lib table h = .ok o) : ∃ f, Read base c w f table o := by
  obtain ⟨f, e1, e2, e3, e4⟩ := write_groups hw
  obtain ⟨s, ts, o1, o2, o3, o4, o5, rfl⟩ := open_ok ho
  rw [e2] at o2
  have ht := c68_types (fun n => Nat.cast_eq_zero) c (fun x : ℝ => x) (view w) f e1 (hp _ (by simp)) (hp _ (by simp)) o2
  have ha := ((c68_numbers c (fun x : ℝ => x) f o2).1 (hp _ (by simp))).2
  refine ⟨f, e1, ?_, by rw [← e3]; exact o1, ?_, e4⟩
  · unfold scaleOf at o3
    rw [ha] at o3
    exact (Except.ok.inj o3).symm
  · have : Except.ok (ε := Err) ts = .ok (toWrite (view w)) := by rw [← o4, ← ht]
    cases this
    exact o5

theorem types_inj {t u : Nat} {s : String} (h1 : types[t]? = some s) (h2 : types[u]? = some s) : t = u := by
  have key : types.Nodup := by decide +kernel
  obtain ⟨i1, e1⟩ := List.getElem?_eq_some_iff.1 h1
  obtain ⟨i2, e2⟩ := List.getElem?_eq_some_iff.1 h2
  exact (List.Nodup.getElem_inj_iff key).1 (e1.trans e2.symm)

theorem names_eq {l : List Nat} {ns : List (Str × Str)} (hl : ∀ t ∈ l, t < 8) (h : l.mapM nameOf = .ok ns) :
    ns = l.map (fun t => ((types[t]?.getD "").toList, partType t)) := by
  have h2 := mapM_forall₂ h
  clear h
  induction h2 with
  | nil => rfl
  | cons h1 _ ih =>
    obtain ⟨s, e1, e2⟩ := nameOf_eq (hl _ (List.mem_cons_self ..))
    rw [List.map_cons, ← ih (fun t ht => hl t (List.mem_cons_of_mem _ ht))]
    rw [h1] at e2
    cases e2
    rw [e1]
    rfl

theorem names_of {base : Dim → ℝ} {c : Conf ℝ} {w : State} {f : Writer.File ℝ} {table : Dim → List ℝ} {o : Opened}
    (r : Read base c w f table o) : o.names = (toWrite (view w)).map (fun t => ((types[t]?.getD "").toList, partType t)) :=
  names_eq (fun _ ht => toWrite_lt ht) r.names

theorem type_lt {t : Nat} {s : String} (h : types[t]? = some s) : t < 8 := (List.getElem?_eq_some_iff.1 h).1

theorem get_eq {base : Dim → ℝ} {c : Conf ℝ} {w : State} {f : Writer.File ℝ} {table : Dim → List ℝ} {o : Opened}
    (r : Read base c w f table o) {t : Nat} {s : String} (ht : t ∈ toWrite (view w)) (hs : types[t]? = some s) {n : Name}
    (hn : n ∈ required t) : ∃ e ∈ f.groups, e.type = t ∧ ∃ d : Dset, dsetOf c.scaleFactor w e n = .ok (handleOf n, d) ∧
      getField o s.toList (attrName n) = .ok (d.shape, readField o.base o.scale d.data) := by
  obtain ⟨ht1, -, -, -⟩ := c31_written _ _ r.wrote
  obtain ⟨e, he, rfl⟩ : ∃ e ∈ f.groups, e.type = t := by
    rw [← ht1] at ht
    obtain ⟨e, he, e1⟩ := List.mem_map.1 ht
    exact ⟨e, he, e1⟩
  refine ⟨e, he, rfl, ?_⟩
  obtain ⟨⟨g, ds⟩, hg, hge⟩ := forall₂_mem r.groups he
  obtain ⟨rfl, hds⟩ := groupOf_ok hge
  have hnames := names_of r
  obtain ⟨d, e1, e2⟩ := group_member hds hn (o.names.map Prod.snd) (by
    intro g hg
    rw [hnames, List.map_map] at hg
    obtain ⟨u, -, rfl⟩ := List.mem_map.1 hg
    exact digits_no_slash u)
  refine ⟨d, e1, ?_⟩
  have l1 : o.names.lookup s.toList = some (partType e.type) := by
    refine lookup_of_mem ?_ ?_
    · rw [hnames, List.map_map]
      refine List.Nodup.map_on ?_ (toWrite_nodup _)
      intro t ht u hu h
      obtain ⟨s1, a1, -⟩ := nameOf_eq (toWrite_lt ht)
      obtain ⟨s2, a2, -⟩ := nameOf_eq (toWrite_lt hu)
      simp only [Function.comp_apply, a1, a2, Option.getD_some, String.toList_inj] at h
      subst h
      exact types_inj a1 a2
    · rw [hnames]
      exact List.mem_map.2 ⟨e.type, ht, by rw [hs]; rfl⟩
  have l2 : o.file.groups.lookup (partType e.type) = some ds := by
    refine lookup_of_mem ?_ hg
    have : o.file.groups.map Prod.fst = (f.groups.map Writer.Entry.type).map partType := by
      have h2 := r.groups
      clear hg hge he
      generalize o.file.groups = G at h2 ⊢
      generalize f.groups = F at h2 ⊢
      induction h2 with
      | nil => rfl
      | cons h1 _ ih => rw [List.map_cons, ih, (groupOf_ok h1).1]; rfl
    rw [this, ht1]
    exact (toWrite_nodup _).map (fun _ _ => partType_inj)
  unfold getField
  simp only [l1, l2, e2, Except.map]

theorem needs_ne (t : Nat) {n : Name} (h : n ∈ needs t) : n ≠ .particleIds := by
  rintro rfl
  unfold needs at h
  by_cases h0 : t = 0
  · subst h0; simp at h
  · by_cases h4 : t = 4
    · subst h4; simp at h
    · simp [h0, h4] at h

theorem populated_iff (w : State) (t : Nat) : populated (view w t) t = true ↔
    (∃ l, (w t).ids = some l) ∨ ∃ n ∈ needs t, ∃ x, (w t).fields n = some x := by
  unfold populated
  rw [Bool.or_eq_true, List.any_eq_true]
  simp only [view, Option.isSome_map, Option.isSome_iff_exists]

theorem given_append {ops : List Op} {t : Nat} {n : Name} {x : Stored} {o : Op} (h : Given ops t n x) (ho : ¬ About t n o) :
    Given (ops ++ [o]) t n x := by
  obtain ⟨l₁, l₂, rfl, h2⟩ := h
  refine ⟨l₁, l₂ ++ [o], by simp, ?_⟩
  intro p hp
  rcases List.mem_append.1 hp with hp | hp
  · exact h2 p hp
  · rw [List.mem_singleton.1 hp]
    exact ho

theorem givenIds_append {ops : List Op} {t : Nat} {l : List Int} {o : Op} (h : GivenIds ops t l) (ho : ¬ About t .particleIds o) :
    GivenIds (ops ++ [o]) t l := by
  obtain ⟨l₁, l₂, rfl, h2⟩ := h
  refine ⟨l₁, l₂ ++ [o], by simp, ?_⟩
  intro p hp
  rcases List.mem_append.1 hp with hp | hp
  · exact h2 p hp
  · rw [List.mem_singleton.1 hp]
    exact ho

theorem fields_given {base : Dim → ℝ} {a : ℝ} {t : Nat} {n : Name} (hn : n ≠ .particleIds) (ops : List Op) {y : Stored}
    (h : (run base a ops t).fields n = some y) : ∃ x, Given ops t n x := by
  induction ops using List.reverseRecOn generalizing y with
  | nil => cases h
  | append_singleton ops o ih =>
    by_cases ho : About t n o
    · cases o with
      | set u m x => obtain ⟨rfl, rfl⟩ := ho; exact ⟨x, ops, [], rfl, by simp⟩
      | ids u l => exact absurd ho.2 hn
      | del u m =>
        obtain ⟨rfl, rfl⟩ := ho
        unfold run at h
        rw [List.foldl_append] at h
        simp only [List.foldl_cons, List.foldl_nil, step, if_neg hn, State.put, if_true] at h
        cases h
    · unfold run at h
      rw [List.foldl_append] at h
      simp only [List.foldl_cons, List.foldl_nil] at h
      rw [step_fields ho] at h
      obtain ⟨x, hx⟩ := ih h
      exact ⟨x, given_append hx ho⟩

theorem ids_given {base : Dim → ℝ} {a : ℝ} {t : Nat} (ops : List Op) (hset : ∀ t x, Op.set t .particleIds x ∉ ops) {y : List Int}
    (h : (run base a ops t).ids = some y) : ∃ l, GivenIds ops t l := by
  induction ops using List.reverseRecOn generalizing y with
  | nil => cases h
  | append_singleton ops o ih =>
    by_cases ho : About t .particleIds o
    · cases o with
      | set u m x => obtain ⟨rfl, rfl⟩ := ho; exact absurd (by simp) (hset u x)
      | ids u l => obtain ⟨rfl, -⟩ := ho; exact ⟨l, ops, [], rfl, by simp⟩
      | del u m =>
        obtain ⟨rfl, rfl⟩ := ho
        unfold run at h
        rw [List.foldl_append] at h
        simp only [List.foldl_cons, List.foldl_nil, step, if_true, State.putIds] at h
        cases h
    · unfold run at h
      rw [List.foldl_append] at h
      simp only [List.foldl_cons, List.foldl_nil] at h
      rw [step_ids ho] at h
      obtain ⟨x, hx⟩ := ih (fun t x hx => hset t x (by simp [hx])) h
      exact ⟨x, givenIds_append hx ho⟩

theorem given_mem {ops : List Op} {t : Nat} {n : Name} {x : Stored} (h : Given ops t n x) : Op.set t n x ∈ ops := by
  obtain ⟨l₁, l₂, rfl, -⟩ := h
  simp

theorem givenIds_mem {ops : List Op} {t : Nat} {l : List Int} (h : GivenIds ops t l) : Op.ids t l ∈ ops := by
  obtain ⟨l₁, l₂, rfl, -⟩ := h
  simp

theorem fine_set {a : ℝ} {ops : List Op} (h : Fine a ops) : ∀ t x, Op.set t .particleIds x ∉ ops :=
  fun t x hx => (h.fields t _ x hx).2

theorem mem_toWrite {base : Dim → ℝ} {a : ℝ} {ops : List Op} (hb : BasePos (baseOf base)) (hf : Fine a ops) (t : Nat) :
    t ∈ toWrite (view (run base a ops)) ↔ t < 8 ∧ Populated ops t := by
  unfold toWrite
  rw [List.mem_filter, List.mem_range, populated_iff]
  refine and_congr_right fun _ => or_congr ⟨?_, ?_⟩ ⟨?_, ?_⟩
  · rintro ⟨l, h⟩
    exact ids_given ops (fine_set hf) h
  · rintro ⟨l, h⟩
    obtain ⟨h1, h2⟩ := hf.ids t l (givenIds_mem h)
    exact ⟨l, given_ids h h1 h2⟩
  · rintro ⟨n, hn, x, h⟩
    exact ⟨n, hn, fields_given (needs_ne t hn) ops h⟩
  · rintro ⟨n, hn, x, h⟩
    obtain ⟨⟨k, h1⟩, h2⟩ := hf.fields t n x (given_mem h)
    obtain ⟨y, e, -⟩ := given_fields hb h h1 h2
    exact ⟨n, hn, _, e⟩

theorem pos_base {base : Dim → ℝ} (h : ∀ d, 0 < base d) : BasePos (baseOf base) := ⟨h _, h _, h _, h _, h _⟩

end Verif.Reread
