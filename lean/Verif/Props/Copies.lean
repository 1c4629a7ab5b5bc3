import Verif.Spec.Copies
import Verif.Props.Reread

/-!
# Copies of snapshots (C113)
-/

namespace Verif.Props
open Verif Verif.Cosmo Verif.Attributes Verif.Reread Verif.Spec
open Verif.Writer (Name required toWrite_nodup)
open Verif.WriterHeader (Conf unitAttrs)
open Verif.Names (Str)
open Verif.Header (Lib)
open Verif.Units (Dim)

/-- What a writer keeps of a field that it accepted. -/
private def Kept (sf : ℝ) (w : State) : Prop :=
  (∀ t n z, (w t).fields n = some z → z.field.dims = dimsOf n ∧ ∃ f, z.field.arr.cf = some f ∧ f.sf = some sf) ∧
    ∀ t l, (w t).ids = some l → (∀ i ∈ l, 1 ≤ i) ∧ l.Nodup

private theorem setField_kept {b : Base} {sf : ℝ} {need : Exps} {x y : Field} (h : setField b sf need x = .ok y) :
    y.dims = need ∧ ∃ f, y.arr.cf = some f ∧ f.sf = some sf := by
  unfold setField at h
  split at h
  · cases h
  · rename_i f hf
    split at h
    · cases h
    · rename_i h1
      split at h
      · cases h
      · rename_i h2
        rw [not_not] at h1 h2
        cases hc : (x.toBase b).arr.convertToComoving with
        | error e => rw [hc] at h; cases h
        | ok v =>
          rw [hc] at h
          cases h
          refine ⟨h2, f, ?_, h1⟩
          have hcf : (x.toBase b).arr.cf = some f := hf
          unfold Arr.convertToComoving at hc
          split at hc
          · cases hc; exact hcf
          · split at hc
            · cases hc
            · split at hc
              · cases hc
              · cases hc; exact hcf

private theorem setIds_kept {g g' : Writer.Group ℝ} {l : List Int} (h : Writer.setIds g l = .ok g') : (∀ i ∈ l, 1 ≤ i) ∧ l.Nodup := by
  unfold Writer.setIds at h
  split at h
  · cases h
  · rename_i h1
    split at h
    · cases h
    · rename_i h2
      rw [not_not] at h2
      constructor
      · intro i hi
        by_contra hlt
        exact h1 (List.any_eq_true.2 ⟨i, hi, by simpa using by omega⟩)
      · exact List.dedup_eq_self.1 ((List.dedup_sublist l).eq_of_length h2)

private theorem step_kept {base : Dim → ℝ} {sf : ℝ} {w : State} (h : Kept sf w) (o : Op) : Kept sf (step base sf w o) := by
  cases o with
  | set t n x =>
    simp only [step]
    split
    · exact h
    · cases hs : setField (baseOf base) sf (dimsOf n) x.field with
      | error e => exact h
      | ok y =>
        refine ⟨?_, fun u l hl => h.2 u l (by simpa only [put_ids] using hl)⟩
        intro u m z hz
        by_cases hum : t = u ∧ n = m
        · obtain ⟨rfl, rfl⟩ := hum
          simp only [State.put, if_pos] at hz
          cases hz
          exact setField_kept hs
        · rw [put_fields hum] at hz
          exact h.1 u m z hz
  | ids t l =>
    simp only [step]
    cases hs : Writer.setIds (view w t) l with
    | error e => exact h
    | ok g =>
      refine ⟨fun u m z hz => h.1 u m z (by simpa only [putIds_fields] using hz), ?_⟩
      intro u l' hl'
      by_cases hu : t = u
      · subst hu
        simp only [State.putIds, if_pos] at hl'
        cases hl'
        exact setIds_kept hs
      · rw [putIds_ids hu] at hl'
        exact h.2 u l' hl'
  | del t n =>
    simp only [step]
    split
    · refine ⟨fun u m z hz => h.1 u m z (by simpa only [putIds_fields] using hz), ?_⟩
      intro u l' hl'
      by_cases hu : t = u
      · subst hu
        simp only [State.putIds, if_pos] at hl'
        cases hl'
      · rw [putIds_ids hu] at hl'
        exact h.2 u l' hl'
    · refine ⟨?_, fun u l hl => h.2 u l (by simpa only [put_ids] using hl)⟩
      intro u m z hz
      by_cases hum : t = u ∧ n = m
      · obtain ⟨rfl, rfl⟩ := hum
        simp only [State.put, if_pos] at hz
        cases hz
      · rw [put_fields hum] at hz
        exact h.1 u m z hz

private theorem run_kept (base : Dim → ℝ) (sf : ℝ) (ops : List Op) : Kept sf (run base sf ops) := by
  unfold run
  have : ∀ (ops : List Op) (w : State), Kept sf w → Kept sf (ops.foldl (step base sf) w) := by
    intro ops
    induction ops with
    | nil => exact fun w h => h
    | cons o ops ih => exact fun w h => ih _ (step_kept h o)
  exact this ops _ ⟨fun t n z hz => (by cases hz), fun t l hl => (by cases hl)⟩

private theorem last_about {ops : List Op} {P : Op → Prop} (h : ∃ o ∈ ops, P o) :
    ∃ (l₁ l₂ : List Op) (o : Op), ops = l₁ ++ o :: l₂ ∧ P o ∧ ∀ p ∈ l₂, ¬ P p := by
  induction ops using List.reverseRecOn with
  | nil => obtain ⟨o, ho, -⟩ := h; cases ho
  | append_singleton ops o ih =>
    by_cases hp : P o
    · exact ⟨ops, [], o, rfl, hp, by simp⟩
    · obtain ⟨q, hq, hPq⟩ := h
      have hq' : q ∈ ops := by
        rcases List.mem_append.1 hq with hq | hq
        · exact hq
        · rw [List.mem_singleton.1 hq] at hPq
          exact absurd hPq hp
      obtain ⟨l₁, l₂, r, rfl, h1, h2⟩ := ih ⟨q, hq', hPq⟩
      refine ⟨l₁, l₂ ++ [o], r, by simp, h1, ?_⟩
      intro p hp'
      rcases List.mem_append.1 hp' with hp' | hp'
      · exact h2 p hp'
      · rw [List.mem_singleton.1 hp']
        exact hp

private theorem fieldName_eq' {n : Name} {s : String} (h : (n, s) ∈ fieldNames) : attrName n = s.toList := by
  simp only [fieldNames, List.mem_cons, Prod.mk.injEq, List.not_mem_nil, or_false] at h
  rcases h with ⟨rfl, rfl⟩ | ⟨rfl, rfl⟩ | ⟨rfl, rfl⟩ | ⟨rfl, rfl⟩ | ⟨rfl, rfl⟩ | ⟨rfl, rfl⟩ <;> rfl

private theorem exponent_twice (k : ℝ) : exponentOf (exponentOf k) = exponentOf k := by
  unfold exponentOf
  by_cases h : k = 0 ∨ k = 1
  · simp [h]
  · simp [h]

private theorem unit_eq {b b' : Base} (h1 : b.L = b'.L) (h2 : b.M = b'.M) (h3 : b.t = b'.t) (n : Name) :
    b.unit (dimsOf n) = b'.unit (dimsOf n) := by
  have h0 : (dimsOf n).I = 0 ∧ (dimsOf n).T = 0 := by
    cases n <;> exact ⟨rfl, rfl⟩
  unfold Base.unit
  rw [h1, h2, h3, h0.1, h0.2, Real.rpow_zero, Real.rpow_zero, Real.rpow_zero, Real.rpow_zero]

/-- Assigning what was read keeps the numbers. -/
private theorem set_read {b b' : Base} {sf : ℝ} {n : Name} {at' : Attrs} {v : List ℝ} (hu : b'.unit (dimsOf n) ≠ 0)
    (heq : b'.unit (dimsOf n) = b.unit (dimsOf n)) (h1 : at'.dims = dimsOf n) (h2 : at'.physical = none) (h3 : at'.convertible = none) :
    setField b' sf (dimsOf n) (readField b sf (at', v)) =
      .ok ⟨⟨v, some true, some (CF.create sf (at'.aScale.getD 0)), true⟩, dimsOf n, b'.unit (dimsOf n)⟩ := by
  have hsize : (readField b sf (at', v)).size = b.unit (dimsOf n) := by
    simp only [readField, ite_rpow, h1]
    rfl
  have hdims : (readField b sf (at', v)).dims = dimsOf n := h1
  unfold setField
  have hcf : (readField b sf (at', v)).arr.cf = some (CF.create sf (at'.aScale.getD 0)) := rfl
  rw [hcf]
  dsimp only
  rw [if_neg (by simp [CF.create]), hdims, if_neg (by simp)]
  have hv : (Field.toBase b' (readField b sf (at', v))).arr = ⟨v, some true, some (CF.create sf (at'.aScale.getD 0)), true⟩ := by
    unfold Field.toBase
    rw [hsize, hdims, heq, div_self (heq ▸ hu)]
    simp [readField, h2, h3]
  rw [hv]
  rfl

private theorem extents_shape (x : Stored) : x.shape = extents x := by
  unfold Stored.shape extents
  cases x.row <;> rfl

private theorem extents_some {x : Stored} {r : List Nat} {N : Nat} (h : extents x = N :: r) : x.row = some r ∧ x.rows = N := by
  unfold extents at h
  cases hr : x.row with
  | none => rw [hr] at h; cases h
  | some q =>
    rw [hr] at h
    cases h
    exact ⟨rfl, rfl⟩

private theorem mem_names {base : Dim → ℝ} {c : Conf ℝ} {w : State} {f : Writer.File ℝ} {table : Dim → List ℝ} {o : Opened}
    (r : Read base c w f table o) {t : Nat} {s : String} (hs : types[t]? = some s) : s.toList ∈ o.names.map Prod.fst ↔ t ∈ toWrite (view w) := by
  rw [names_of r, List.map_map]
  constructor
  · intro h
    obtain ⟨u, hu, e⟩ := List.mem_map.1 h
    obtain ⟨s', hs', -⟩ := nameOf_eq (toWrite_lt hu)
    simp only [Function.comp_apply, hs', Option.getD_some, String.toList_inj] at e
    subst e
    rw [types_inj hs hs']
    exact hu
  · intro h
    exact List.mem_map.2 ⟨t, h, by simp [hs]⟩

private theorem get_names {o : Opened} {g f : Str} {x : List Nat × Field} (h : getField o g f = .ok x) : g ∈ o.names.map Prod.fst := by
  unfold getField at h
  cases hl : o.names.lookup g with
  | none => rw [hl] at h; cases h
  | some v =>
    by_contra hn
    have : o.names.lookup g = none := by
      rw [List.lookup_eq_none_iff]
      intro p hp
      rw [bne_iff_ne]
      rintro rfl
      exact hn (List.mem_map_of_mem hp)
    rw [this] at hl
    cases hl

/-- What the copying program leaves in its writer. -/
private theorem copied_field {base base' : Dim → ℝ} {c : Conf ℝ} {w : State} {f : Writer.File ℝ} {table : Dim → List ℝ} {o : Opened}
    (r : Read base c w f table o) (hk : Kept c.scaleFactor w) {ops : List Op} (hc : Copies o ops) (hu : UnitsOf base' o) (hb : ∀ d, 0 < base' d)
    {t : Nat} (ht : t ∈ toWrite (view w)) {n : Name} (hn : n ∈ needs t) : ∃ (z z' : Stored) (k a : ℝ), (w t).fields n = some z ∧
      z.field.arr.cf = some ⟨some k, some a⟩ ∧ (run base' c.scaleFactor ops t).fields n = some z' ∧ extents z' = extents z ∧
      z'.field = ⟨⟨z.field.arr.val, some true, some (CF.create c.scaleFactor (exponentOf k)), true⟩, z.field.dims, (baseOf base').unit (dimsOf n)⟩ := by
  obtain ⟨s, hs, -⟩ := nameOf_eq (toWrite_lt ht)
  obtain ⟨e, he, rfl, d, d1, d2⟩ := get_eq r ht hs ((required_iff t n).2 (.inr hn))
  unfold dsetOf at d1
  rw [if_neg (needs_ne _ hn)] at d1
  cases hz : (w e.type).fields n with
  | none => rw [hz] at d1; cases d1
  | some z =>
    rw [hz] at d1
    dsimp only at d1
    unfold writeField at d1
    split at d1
    · rename_i k a hcf
      cases d1
      obtain ⟨hd, -⟩ := hk.1 _ _ _ hz
      obtain ⟨x₀, hx₀⟩ := (hc.all _ s hs ((mem_names r hs).2 ht)).2 n hn
      obtain ⟨l₁, l₂, p, rfl, hp, h2⟩ := last_about (P := About e.type n) ⟨_, hx₀, rfl, rfl⟩
      have hpm : p ∈ l₁ ++ p :: l₂ := by simp
      cases p with
      | ids u l => exact absurd hp.2 (needs_ne _ hn)
      | del u m => exact absurd hpm (hc.keeps u m)
      | set u m x =>
        obtain ⟨rfl, rfl⟩ := hp
        obtain ⟨-, s', m', q1, q2, q3⟩ := hc.fields _ _ _ hpm
        have hss : s = s' := by
          rw [hs] at q1
          exact Option.some.inj q1
        subst hss
        rw [← fieldName_eq' q2, d2] at q3
        have q4 := Except.ok.inj q3
        obtain ⟨q5, q6⟩ := Prod.mk.inj q4
        have hset := set_read (b := o.base) (b' := baseOf base') (sf := c.scaleFactor) (n := m)
          (at' := ⟨z.field.dims, some (exponentOf k), none, none⟩) (v := z.field.arr.val) (Base_unit_pos (pos_base hb) _).ne'
          (unit_eq hu.1 hu.2.1 hu.2.2 m) hd rfl rfl
        rw [← r.scale, q6, r.scale] at hset
        refine ⟨z, { x with field := ⟨⟨z.field.arr.val, some true, some (CF.create c.scaleFactor (exponentOf k)), true⟩, dimsOf m,
          (baseOf base').unit (dimsOf m)⟩ }, k, a, rfl, hcf, ?_, ?_, by rw [hd]⟩
        · unfold run
          rw [List.foldl_append, List.foldl_cons, run_fields _ _ h2]
          simp only [step]
          rw [if_neg (needs_ne _ hn), hset]
          simp only [State.put, if_pos, Option.getD_some]
        · rw [← extents_shape z]
          exact q5.symm
    · cases d1

private theorem copied_ids {base base' : Dim → ℝ} {c : Conf ℝ} {w : State} {f : Writer.File ℝ} {table : Dim → List ℝ} {o : Opened}
    (r : Read base c w f table o) (hk : Kept c.scaleFactor w) {ops : List Op} (hc : Copies o ops) {e : Writer.Entry ℝ} (he : e ∈ f.groups) :
    (run base' c.scaleFactor ops e.type).ids = e.ids ∧ e.ids ≠ none := by
  obtain ⟨w1, -, w3, -⟩ := c31_written _ _ r.wrote
  have ht : e.type ∈ toWrite (view w) := w1 ▸ List.mem_map_of_mem he
  obtain ⟨N, -, -, -, ⟨l, hl, hlN⟩, -⟩ := w3 e he
  rw [hl]
  refine ⟨?_, by simp⟩
  -- the IDs of the group can be assigned
  have hgood : (∀ i ∈ l, 1 ≤ i) ∧ l.Nodup := by
    by_cases hm : ∃ t ∈ toWrite (view w), (view w t).ids = none
    · have hg := c30_generated _ f r.wrote hm
      have hin : ∀ i ∈ l, i ∈ fileIds f := fun i hi => List.mem_flatMap.2 ⟨e, he, by rw [hl]; exact hi⟩
      have hnd : (fileIds f).Nodup := by
        rw [hg]
        exact List.nodup_range.map (fun a b h => by simpa using h)
      refine ⟨fun i hi => ?_, ?_⟩
      · have := hin i hi
        rw [hg] at this
        obtain ⟨j, -, rfl⟩ := List.mem_map.1 this
        omega
      · unfold fileIds at hnd
        have := (List.nodup_flatMap.1 hnd).1 e he
        rwa [hl] at this
    · push Not at hm
      obtain ⟨names, w', rd, -, hfe⟩ := Ready.of_write r.wrote
      rcases rd.all with ⟨⟨u, hu, e⟩, -⟩ | ⟨-, rfl, -, -⟩
      · exact absurd e (hm u hu)
      · rw [hfe] at he
        obtain ⟨x, hx, rfl⟩ := List.mem_map.1 he
        exact hk.2 x.1 l hl
  obtain ⟨s, hs, -⟩ := nameOf_eq (toWrite_lt ht)
  obtain ⟨l₀, hl₀⟩ := (hc.all _ s hs ((mem_names r hs).2 ht)).1
  obtain ⟨l₁, l₂, p, rfl, hp, h2⟩ := last_about (P := About e.type .particleIds) ⟨_, hl₀, rfl, rfl⟩
  have hpm : p ∈ l₁ ++ p :: l₂ := by simp
  cases p with
  | set u m x =>
    obtain ⟨rfl, rfl⟩ := hp
    exact absurd rfl (needs_ne _ (hc.fields _ _ _ hpm).1)
  | del u m => exact absurd hpm (hc.keeps u m)
  | ids u l' =>
    obtain ⟨rfl, -⟩ := hp
    obtain ⟨s', y, q1, q2, q3⟩ := hc.ids _ _ hpm
    have hss : s = s' := by
      rw [hs] at q1
      exact Option.some.inj q1
    subst hss
    obtain ⟨e', he', htype, d, d1, d2⟩ := get_eq r ht hs ((required_iff e.type .particleIds).2 (.inl rfl))
    have hee : e' = e := by
      have hnd : (f.groups.map Writer.Entry.type).Nodup := w1 ▸ toWrite_nodup _
      exact List.inj_on_of_nodup_map hnd he' he htype
    subst hee
    unfold dsetOf at d1
    rw [if_pos rfl, hl] at d1
    dsimp only at d1
    have hwf : writeField (idField c.scaleFactor l) = .ok (⟨⟨0, 0, 0, 0, 0⟩, some (exponentOf 0), none, none⟩, l.map (fun i : Int => (i : ℝ))) := rfl
    rw [hwf] at d1
    cases d1
    rw [show "particle_ids".toList = attrName .particleIds from rfl, d2] at q2
    obtain ⟨-, q5⟩ := Prod.mk.inj (Except.ok.inj q2)
    rw [← q5] at q3
    have hll : l' = l := by
      have h3 : l.map (fun i : Int => (i : ℝ)) = l'.map (fun i : Int => (i : ℝ)) := q3
      exact (List.map_injective_iff.2 Int.cast_injective h3).symm
    subst hll
    unfold run
    rw [List.foldl_append, List.foldl_cons, run_ids _ _ h2]
    have hset : ∀ g : Writer.Group ℝ, Writer.setIds g l' = .ok { g with ids := some l' } := by
      intro g
      unfold Writer.setIds
      rw [if_neg, if_neg]
      · rw [not_not, List.dedup_eq_self.2 hgood.2]
      · rw [List.any_eq_true]
        rintro ⟨i, hi, h⟩
        have := hgood.1 i hi
        simp at h
        omega
    simp only [step]
    rw [hset]
    simp only [State.putIds, if_pos]

private theorem copied_types {base base' : Dim → ℝ} {c : Conf ℝ} {w : State} {f : Writer.File ℝ} {table : Dim → List ℝ} {o : Opened}
    (r : Read base c w f table o) (hk : Kept c.scaleFactor w) {ops : List Op} (hc : Copies o ops) :
    toWrite (view (run base' c.scaleFactor ops)) = toWrite (view w) := by
  have hset : ∀ t x, Op.set t .particleIds x ∉ ops := fun t x hx => needs_ne _ (hc.fields _ _ _ hx).1 rfl
  obtain ⟨w1, -, w3, -⟩ := c31_written _ _ r.wrote
  unfold toWrite
  apply List.filter_congr
  intro t ht
  rw [Bool.eq_iff_iff, populated_iff]
  have h8 := List.mem_range.1 ht
  obtain ⟨s, hs, -⟩ := nameOf_eq h8
  have hin : t ∈ toWrite (view w) ↔ populated (view w t) t = true := by
    unfold toWrite
    rw [List.mem_filter]
    exact ⟨fun h => h.2, fun h => ⟨ht, h⟩⟩
  rw [← hin]
  constructor
  · rintro (⟨l, hl⟩ | ⟨n, hn, x, hx⟩)
    · obtain ⟨l', hl'⟩ := ids_given ops hset hl
      obtain ⟨s', y, q1, q2, -⟩ := hc.ids _ _ (givenIds_mem hl')
      rw [hs] at q1
      cases q1
      exact (mem_names r hs).1 (get_names q2)
    · obtain ⟨x', hx'⟩ := fields_given (needs_ne _ hn) ops hx
      obtain ⟨-, s', m, q1, -, q2⟩ := hc.fields _ _ _ (given_mem hx')
      rw [hs] at q1
      cases q1
      exact (mem_names r hs).1 (get_names q2)
  · intro h
    rw [← w1] at h
    obtain ⟨e, he, rfl⟩ := List.mem_map.1 h
    obtain ⟨h1, h2⟩ := copied_ids (base' := base') r hk hc he
    obtain ⟨l, hl⟩ := Option.ne_none_iff_exists'.1 h2
    exact .inl ⟨l, h1.trans hl⟩

private theorem forall₂_same {α β γ : Type} {F G : β → Except Err γ} {a b : α → β} : ∀ {L : List α} {g g' : List γ},
    List.Forall₂ (fun e x => F e = .ok x) (L.map a) g → List.Forall₂ (fun e x => G e = .ok x) (L.map b) g' →
      (∀ t ∈ L, F (a t) = G (b t)) → g = g'
  | [], _, _, h1, h2, _ => by
    cases h1
    cases h2
    rfl
  | t :: L, _, _, h1, h2, h => by
    rw [List.map_cons] at h1 h2
    cases h1 with
    | cons p1 q1 => cases h2 with
      | cons p2 q2 =>
        rw [h t (List.mem_cons_self ..), p2] at p1
        rw [Except.ok.inj p1, forall₂_same q1 q2 (fun u hu => h u (List.mem_cons_of_mem _ hu))]

private theorem groups_eq {w : State} {f : Writer.File ℝ} (h : (Writer.write none (view w)).result = .ok f) :
    ∃ W : Writer.State ℝ, f.groups = (toWrite (view w)).map (Writer.entry W) ∧ toWrite (view w) ≠ [] ∧
      ((∀ t ∈ toWrite (view w), (w t).ids ≠ none) → W = view w) := by
  obtain ⟨names, W, rd, -, rfl⟩ := Ready.of_write h
  refine ⟨W, ?_, ?_, ?_⟩
  · rw [← rd.types, List.map_map]
    rfl
  · rcases rd.all with ⟨⟨u, hu, -⟩, -⟩ | ⟨-, -, -, h⟩
    · exact List.ne_nil_of_mem hu
    · exact h
  · intro hall
    rcases rd.all with ⟨⟨u, hu, e⟩, -⟩ | ⟨-, h, -, -⟩
    · exact absurd e (hall u hu)
    · exact h

private theorem mapM_same {α β : Type} {F G : α → Except Err β} : ∀ {l : List α}, (∀ x ∈ l, F x = G x) → l.mapM F = l.mapM G
  | [], _ => rfl
  | x :: l, h => by
    rw [List.mapM_cons, List.mapM_cons, h x (List.mem_cons_self ..), mapM_same (fun y hy => h y (List.mem_cons_of_mem _ hy))]

private theorem fileIds_nodup {w : Writer.State ℝ} {f : Writer.File ℝ} (h : (Writer.write none w).result = .ok f) : (fileIds f).Nodup := by
  by_cases hm : ∃ t ∈ toWrite w, (w t).ids = none
  · rw [c30_generated _ f h hm]
    exact List.nodup_range.map (fun a b h => by simpa using h)
  · push Not at hm
    obtain ⟨e1, e2⟩ := c30_given _ f h hm
    rw [e1]
    exact e2

/-- C113: whatever was done with a writer, if the file that it wrote is opened and everything in it is assigned to another writer with
the same scale factor and the units of the open file, that writer writes the same particle data: the same groups with the same
datasets, attributes, shapes and numbers. -/
theorem c113_copy {D : Type} {lib : Lib D} {table : Dim → List ℝ} {base base' : Dim → ℝ} (hb : ∀ d, 0 < base' d) {c c' : Conf ℝ} (hp : Plain c)
    (ha : c'.scaleFactor = c.scaleFactor) {ops ops' : List Op} {h : H5} {o : Opened}
    (hw : writeAll base c (run base c.scaleFactor ops) = .ok h) (ho : openFile lib table h = .ok o) (hu : UnitsOf base' o) (hc : Copies o ops') :
    ∃ h' : H5, writeAll base' c' (run base' c'.scaleFactor ops') = .ok h' ∧ h'.groups = h.groups := by
  rw [ha]
  obtain ⟨f, r⟩ := read_of hp hw ho
  have hk := run_kept base c.scaleFactor ops
  have hog : o.file = h := (open_ok ho).choose_spec.choose_spec.2.2.2.2.2
  generalize run base c.scaleFactor ops = w at *
  have hT := copied_types (base' := base') r hk hc
  obtain ⟨w1, -, w3, -⟩ := c31_written _ _ r.wrote
  obtain ⟨W, hfg, hne, -⟩ := groups_eq r.wrote
  have hent : ∀ t ∈ toWrite (view w), Writer.entry W t ∈ f.groups := fun t ht => hfg ▸ List.mem_map_of_mem ht
  have hids : ∀ t ∈ toWrite (view w), (run base' c.scaleFactor ops' t).ids = (W t).ids ∧ (W t).ids ≠ none :=
    fun t ht => copied_ids r hk hc (hent t ht)
  have hfld : ∀ t ∈ toWrite (view w), ∀ n ∈ needs t, _ := fun t ht n hn => copied_field r hk hc hu hb ht hn
  obtain ⟨h', hw'⟩ := c85_complete (base := base') (c := c') (run base' c.scaleFactor ops') (by rw [hT]; exact hne) (by
      intro t ht
      rw [hT] at ht
      obtain ⟨N, hN, hcons, -, ⟨l, hl, hlN⟩, -, -⟩ := w3 _ (hent t ht)
      refine ⟨N, hN, ?_, ?_, ?_⟩
      · intro n hn
        obtain ⟨z, z', k, a, e1, e2, e3, e4, e5⟩ := hfld t ht n hn
        obtain ⟨q, d, h1, h2⟩ := hcons.fields n hn
        simp only [Writer.entry, view, e1, Option.map_some, Stored.view, Option.some.injEq, Writer.Arr.mk.injEq] at h1
        rw [← h1.2] at h2
        simp only [List.length_map, List.length_range] at h2
        have hz' : extents z' = N :: q := by
          rw [e4, ← h2]
          unfold extents
          rw [h1.1]
          rfl
        obtain ⟨r1, r2⟩ := extents_some hz'
        refine ⟨q, (Stored.view z').data, ?_, ?_⟩
        · simp only [view, e3, Option.map_some, Stored.view, r1]
        · simp [Stored.view, r2]
      · intro m hm
        have := (hids t ht).1
        rw [show (run base' c.scaleFactor ops' t).ids = some m from hm, show (W t).ids = some l from hl] at this
        rw [Option.some.inj this]
        exact hlN
      · intro p q hp' hq'
        obtain ⟨z₁, z₁', -, -, a1, -, a3, a4, -⟩ := hfld t ht .coordinates (by simp [needs])
        obtain ⟨z₂, z₂', -, -, b1, -, b3, b4, -⟩ := hfld t ht .velocities (by simp [needs])
        obtain ⟨q₁, d₁, g1, g2⟩ := hcons.fields .coordinates (by simp [needs])
        obtain ⟨q₂, d₂, g3, g4⟩ := hcons.fields .velocities (by simp [needs])
        have hv := hcons.vectors _ _ g1 g3
        simp only [Writer.entry, view, a1, b1, Option.map_some, Stored.view, Option.some.injEq, Writer.Arr.mk.injEq] at g1 g3
        simp only [Option.some.injEq] at hv
        have e1 : z₁'.row = some q₁ := (extents_some (N := z₁.rows) (by rw [a4]; unfold extents; rw [g1.1]; rfl)).1
        have e2 : z₂'.row = some q₂ := (extents_some (N := z₂.rows) (by rw [b4]; unfold extents; rw [g3.1]; rfl)).1
        simp only [view, a3, Option.map_some, Option.some.injEq] at hp'
        simp only [view, b3, Option.map_some, Option.some.injEq] at hq'
        rw [← hp', ← hq']
        simp only [Stored.view, e1, e2, hv]) (by
      right
      have : allIds (view (run base' c.scaleFactor ops')) = fileIds f := by
        unfold allIds fileIds
        rw [hT, hfg, List.flatMap_map]
        exact List.flatMap_congr (fun t ht => by
          rw [show (view (run base' c.scaleFactor ops') t).ids = (W t).ids from (hids t ht).1]
          rfl)
      rw [this]
      exact fileIds_nodup r.wrote) (by
      intro t ht n hn z hz
      rw [hT] at ht
      obtain ⟨z₁, z', k, a, -, -, e3, -, e5⟩ := hfld t ht n hn
      rw [hz] at e3
      cases e3
      rw [e5]
      exact ⟨_, _, rfl⟩)
  refine ⟨h', hw', ?_⟩
  obtain ⟨f', g1, -, -, g4⟩ := write_groups hw'
  obtain ⟨W', hfg', -, hW'⟩ := groups_eq g1
  have hW := hW' (fun t ht => by
    rw [hT] at ht
    rw [(hids t ht).1]
    exact (hids t ht).2)
  subst hW
  have g5 := r.groups
  rw [hog, hfg] at g5
  rw [hfg', hT] at g4
  refine forall₂_same g4 g5 ?_
  intro t ht
  unfold groupOf
  have : ∀ n ∈ required t, dsetOf c'.scaleFactor (run base' c.scaleFactor ops') (Writer.entry (view (run base' c.scaleFactor ops')) t) n =
      dsetOf c.scaleFactor w (Writer.entry W t) n := by
    intro n hn
    unfold dsetOf
    rcases (required_iff t n).1 hn with rfl | hn
    · rw [if_pos rfl, if_pos rfl, show (Writer.entry (view (run base' c.scaleFactor ops')) t).ids = (Writer.entry W t).ids from (hids t ht).1, ha]
    · rw [if_neg (needs_ne _ hn), if_neg (needs_ne _ hn)]
      obtain ⟨z, z', k, a, e1, e2, e3, e4, e5⟩ := hfld t ht n hn
      rw [show (Writer.entry (view (run base' c.scaleFactor ops')) t).type = t from rfl, show (Writer.entry W t).type = t from rfl, e1, e3]
      dsimp only
      rw [extents_shape, extents_shape, e4, e5]
      unfold writeField
      rw [e2]
      simp only [CF.create, exponent_twice]
  rw [show (Writer.entry (view (run base' c.scaleFactor ops')) t).type = t from rfl, show (Writer.entry W t).type = t from rfl, mapM_same this]

/-- C113: there is such a program for each file that was written. -/
theorem c113_program {D : Type} {lib : Lib D} {table : Dim → List ℝ} {base : Dim → ℝ} {c : Conf ℝ} (hp : Plain c) {ops : List Op} {h : H5}
    {o : Opened} (hw : writeAll base c (run base c.scaleFactor ops) = .ok h) (ho : openFile lib table h = .ok o) : ∃ ops', Copies o ops' := by
  obtain ⟨f, r⟩ := read_of hp hw ho
  generalize run base c.scaleFactor ops = w at *
  have hname : ∀ n ∈ [Name.coordinates, .velocities, .masses, .internalEnergy, .smoothingLengths], ∃ m, (n, m) ∈ fieldNames := by
    simp [fieldNames]
  have hX : ∀ (t : Nat) (n : Name), ∃ x : Stored, t ∈ toWrite (view w) → n ∈ needs t → ∀ s, types[t]? = some s →
      ∃ m, (n, m) ∈ fieldNames ∧ getField o s.toList m.toList = .ok (extents x, x.field) := by
    intro t n
    by_cases hh : t ∈ toWrite (view w) ∧ n ∈ needs t
    · obtain ⟨s, hs, -⟩ := nameOf_eq (toWrite_lt hh.1)
      obtain ⟨e, he, rfl, d, d1, d2⟩ := get_eq r hh.1 hs ((required_iff t n).2 (.inr hh.2))
      obtain ⟨m, hm⟩ := hname n (by
        have := hh.2
        unfold needs at this
        split at this <;> split at this <;> simp at this ⊢ <;> tauto)
      unfold dsetOf at d1
      rw [if_neg (needs_ne _ hh.2)] at d1
      cases hz : (w e.type).fields n with
      | none => rw [hz] at d1; cases d1
      | some z =>
        rw [hz] at d1
        dsimp only at d1
        cases hwf : writeField z.field with
        | error _ => rw [hwf] at d1; cases d1
        | ok v =>
          rw [hwf] at d1
          cases d1
          refine ⟨{ z with field := readField o.base o.scale v }, fun _ _ s' hs' => ⟨m, hm, ?_⟩⟩
          rw [hs] at hs'
          cases hs'
          rw [← fieldName_eq' hm, d2, ← extents_shape]
          rfl
    · exact ⟨⟨none, 0, ⟨⟨[], none, none, false⟩, ⟨0, 0, 0, 0, 0⟩, 0⟩⟩, fun h1 h2 => absurd ⟨h1, h2⟩ hh⟩
  have hI : ∀ t : Nat, ∃ l : List Int, t ∈ toWrite (view w) → ∀ s, types[t]? = some s →
      ∃ y, getField o s.toList "particle_ids".toList = .ok ([l.length], y) ∧ y.arr.val = l.map (fun i : Int => (i : ℝ)) := by
    intro t
    by_cases ht : t ∈ toWrite (view w)
    · obtain ⟨s, hs, -⟩ := nameOf_eq (toWrite_lt ht)
      obtain ⟨e, he, rfl, d, d1, d2⟩ := get_eq r ht hs ((required_iff t .particleIds).2 (.inl rfl))
      obtain ⟨-, -, w3, -⟩ := c31_written _ _ r.wrote
      obtain ⟨N, -, -, -, ⟨l, hl, -⟩, -⟩ := w3 e he
      unfold dsetOf at d1
      rw [if_pos rfl, hl] at d1
      dsimp only at d1
      have hwf : writeField (idField c.scaleFactor l) = .ok (⟨⟨0, 0, 0, 0, 0⟩, some (exponentOf 0), none, none⟩, l.map (fun i : Int => (i : ℝ))) := rfl
      rw [hwf] at d1
      cases d1
      refine ⟨l, fun _ s' hs' => ?_⟩
      rw [hs] at hs'
      cases hs'
      exact ⟨_, d2, rfl⟩
    · exact ⟨[], fun h => absurd h ht⟩
  choose X hX using hX
  choose I hI using hI
  refine ⟨(toWrite (view w)).flatMap (fun t => Op.ids t (I t) :: (needs t).map (fun n => Op.set t n (X t n))), ?_, ?_, ?_, ?_⟩
  · intro t n x hx
    obtain ⟨u, hu, hx⟩ := List.mem_flatMap.1 hx
    rcases List.mem_cons.1 hx with hx | hx
    · cases hx
    · obtain ⟨m, hm, e⟩ := List.mem_map.1 hx
      cases e
      obtain ⟨s, hs, -⟩ := nameOf_eq (toWrite_lt hu)
      obtain ⟨m, h1, h2⟩ := hX _ _ hu hm s hs
      exact ⟨hm, s, m, hs, h1, h2⟩
  · intro t l hl
    obtain ⟨u, hu, hx⟩ := List.mem_flatMap.1 hl
    rcases List.mem_cons.1 hx with hx | hx
    · cases hx
      obtain ⟨s, hs, -⟩ := nameOf_eq (toWrite_lt hu)
      obtain ⟨y, h1, h2⟩ := hI _ hu s hs
      exact ⟨s, y, hs, h1, h2⟩
    · obtain ⟨m, -, e⟩ := List.mem_map.1 hx
      cases e
  · intro t n hx
    obtain ⟨u, -, hx⟩ := List.mem_flatMap.1 hx
    rcases List.mem_cons.1 hx with hx | hx
    · cases hx
    · obtain ⟨m, -, e⟩ := List.mem_map.1 hx
      cases e
  · intro t s hs hmem
    have ht := (mem_names r hs).1 hmem
    exact ⟨⟨I t, List.mem_flatMap.2 ⟨t, ht, List.mem_cons_self ..⟩⟩, fun n hn => ⟨X t n, List.mem_flatMap.2 ⟨t, ht,
      List.mem_cons_of_mem _ (List.mem_map_of_mem hn)⟩⟩⟩

/-- C113: units that are a number of five digits times a unit of the reader are those of the open file. -/
theorem c113_units {D : Type} {lib : Lib D} {table : Dim → List ℝ} (ht : ∀ d : Dim, ∀ x ∈ table d, 0 < x) (hne : ∀ d, table d ≠ [])
    {base : Dim → ℝ} (hb : ∀ d, 0 < base d) (h5 : ∀ d, d = .length ∨ d = .mass ∨ d = .time → FiveDigitUnit table base d) {c : Conf ℝ} (hp : Plain c)
    {w : State} {h : H5} {o : Opened} (hw : writeAll base c w = .ok h) (ho : openFile lib table h = .ok o) : UnitsOf base o := by
  obtain ⟨-, ⟨-, u1⟩, ⟨-, u2⟩, ⟨-, u3⟩⟩ := c85_units ht hne hb hp hw ho
  exact ⟨(u1 (h5 _ (.inl rfl))).symm, (u2 (h5 _ (.inr (.inl rfl)))).symm, (u3 (h5 _ (.inr (.inr rfl)))).symm⟩

/-- C113: a copy with the same units as the original cannot be told from it by reading: any name of a group and of a field gives the same
result, be it an array or an error. -/
theorem c113_reads {D : Type} {lib : Lib D} {table : Dim → List ℝ} {base : Dim → ℝ} (hb : ∀ d, 0 < base d) {c c' : Conf ℝ} (hp : Plain c)
    (hp' : Plain c') (ha : c'.scaleFactor = c.scaleFactor) {ops ops' : List Op} {h h' : H5} {o o' : Opened}
    (hw : writeAll base c (run base c.scaleFactor ops) = .ok h) (ho : openFile lib table h = .ok o) (hu : UnitsOf base o) (hc : Copies o ops')
    (hw' : writeAll base c' (run base c'.scaleFactor ops') = .ok h') (ho' : openFile lib table h' = .ok o') :
    o'.names = o.names ∧ o'.scale = o.scale ∧ o'.base = o.base ∧ ∀ g f, getField o' g f = getField o g f := by
  obtain ⟨h₂, e1, e2⟩ := c113_copy hb hp ha hw ho hu hc
  rw [hw'] at e1
  cases e1
  obtain ⟨f, r⟩ := read_of hp hw ho
  obtain ⟨f', r'⟩ := read_of hp' hw' ho'
  have hk := run_kept base c.scaleFactor ops
  have hT := copied_types (base' := base) r hk hc
  have hn : o'.names = o.names := by
    rw [names_of r, names_of r', ha, hT]
  have hs : o'.scale = o.scale := by rw [r.scale, r'.scale, ha]
  have hB : o'.base = o.base := Except.ok.inj (r'.units.symm.trans r.units)
  have hg : o'.file.groups = o.file.groups := by
    rw [(open_ok ho).choose_spec.choose_spec.2.2.2.2.2, (open_ok ho').choose_spec.choose_spec.2.2.2.2.2, e2]
  refine ⟨hn, hs, hB, fun g f => ?_⟩
  unfold getField
  rw [hn, hg, hB, hs]

/-- C113: however many copies of copies are made, the particle data stay the same. -/
theorem c113_generations {D : Type} {lib : Lib D} {table : Dim → List ℝ} {base : Dim → ℝ} {c : Conf ℝ} (hp : Plain c) {ops : List Op} {h : H5}
    (hw : writeAll base c (run base c.scaleFactor ops) = .ok h) {k : Nat} {h' : H5} (hg : Generation lib table h k h') : h'.groups = h.groups := by
  have : h'.groups = h.groups ∧ ∃ (b : Dim → ℝ) (c' : Conf ℝ) (ops' : List Op), Plain c' ∧ writeAll b c' (run b c'.scaleFactor ops') = .ok h' := by
    induction hg with
    | first => exact ⟨rfl, base, c, ops, hp, hw⟩
    | @copy k h₁ h₂ o b c' ops' prev opened pos plain scale units copies wrote ih =>
      obtain ⟨e, b₀, c₀, ops₀, hp₀, hw₀⟩ := ih
      obtain ⟨f, r⟩ := read_of hp₀ hw₀ opened
      obtain ⟨h₃, e1, e2⟩ := c113_copy pos hp₀ (scale.trans r.scale) hw₀ opened units copies
      rw [wrote] at e1
      cases e1
      exact ⟨e2.trans e, b, c', ops', plain, wrote⟩
  exact this.1

/-- C113: what comes back from a round trip comes back unchanged from another one, also if its exponent was zero. -/
theorem c113_field (b : Base) (hb : BasePos b) (sf : ℝ) (n : Name) (x y : Field) (h : roundTrip b sf (dimsOf n) x = .ok y) :
    roundTrip b sf (dimsOf n) y = .ok y := by
  unfold roundTrip at h
  cases hs : setField b sf (dimsOf n) x with
  | error e => rw [hs] at h; cases h
  | ok z =>
    rw [hs] at h
    dsimp only at h
    obtain ⟨hd, -⟩ := setField_kept hs
    cases hwf : writeField z with
    | error e => rw [hwf] at h; cases h
    | ok v =>
      rw [hwf] at h
      cases h
      unfold writeField at hwf
      split at hwf
      · rename_i k a hcf
        cases hwf
        have hset := set_read (b := b) (b' := b) (sf := sf) (n := n) (at' := ⟨z.dims, some (exponentOf k), none, none⟩) (v := z.arr.val)
          (Base_unit_pos hb _).ne' rfl hd rfl rfl
        unfold roundTrip
        rw [hset]
        simp only [writeField, CF.create, Option.getD_some, exponent_twice, hd]
      · cases hwf

/-! The two dark matter particles of the example of C85, copied. -/

example (lib : Lib Nat) : ∃ (h : H5) (o : Opened) (ops' : List Op) (h' : H5),
    writeAll (fun _ => 1) sampleConf (run (fun _ => 1) sampleConf.scaleFactor sampleOps) = .ok h ∧ openFile lib (fun _ => [1]) h = .ok o ∧
    Copies o ops' ∧ UnitsOf (fun _ => 1) o ∧ Generation lib (fun _ => [1]) h 1 h' ∧ h'.groups = h.groups ∧ "dark_matter".toList ∈ o.names.map Prod.fst := by
  obtain ⟨h, hw⟩ := c85_writes (base := fun _ => 1) (base' := fun _ => 1) (by simp) (c := sampleConf) sampleOps_fine sampleOps_complete
  obtain ⟨o, ho⟩ := c85_opens lib (table := fun _ => [1]) (by simp) (by simp) (by simp) rfl hw
  have hp : Plain sampleConf := by simp [Plain, sampleConf]
  have hu := c113_units (by simp) (by simp) (by simp) (fun d _ => sampleUnits d) hp hw ho
  obtain ⟨ops', hc⟩ := c113_program hp hw ho
  obtain ⟨h', e1, e2⟩ := c113_copy (by simp) hp rfl hw ho hu hc
  obtain ⟨f, r⟩ := read_of hp hw ho
  refine ⟨h, o, ops', h', hw, ho, hc, hu, .copy .first ho (by simp) hp r.scale.symm hu hc e1, e2, ?_⟩
  rw [c85_types (by simp) hp sampleOps_fine hw ho]
  exact ⟨1, "dark_matter", rfl, rfl, .inr ⟨.masses, by simp [needs], _, sampleOps_masses⟩⟩

end Verif.Props
