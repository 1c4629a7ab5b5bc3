import Verif.Lemmas.Reread

/-!
# A snapshot that was written, read back (C85)
-/

namespace Verif.Props
open Verif Verif.Cosmo Verif.Attributes Verif.Reread Verif.Spec
open Verif.Writer (Name required toWrite_nodup)
open Verif.WriterHeader (Conf unitAttrs asRead readTypes)
open Verif.Names (Str snake partType particleNames loadFieldNames datasetTable)
open Verif.Header (Dict Raw Val Lib postprocess)
open Verif.Units (Dim loadUnit)

/-- C85: the groups of the file are those of the types for which something was assigned, under the same names. -/
theorem c85_types {D : Type} {lib : Lib D} {table : Dim → List ℝ} {base : Dim → ℝ} (hb : ∀ d, 0 < base d) {c : Conf ℝ} (hp : Plain c)
    {ops : List Op} (hf : Fine c.scaleFactor ops) {h : H5} {o : Opened} (hw : writeAll base c (run base c.scaleFactor ops) = .ok h)
    (ho : openFile lib table h = .ok o) (g : Str) :
    g ∈ o.names.map Prod.fst ↔ ∃ t s, types[t]? = some s ∧ g = s.toList ∧ Populated ops t := by
  obtain ⟨f, r⟩ := read_of hp hw ho
  rw [names_of r, List.map_map]
  constructor
  · intro hg
    obtain ⟨t, ht, rfl⟩ := List.mem_map.1 hg
    obtain ⟨s, hs, -⟩ := nameOf_eq (toWrite_lt ht)
    exact ⟨t, s, hs, by simp [hs], ((mem_toWrite (pos_base hb) hf t).1 ht).2⟩
  · rintro ⟨t, s, hs, rfl, h⟩
    exact List.mem_map.2 ⟨t, (mem_toWrite (pos_base hb) hf t).2 ⟨type_lt hs, h⟩, by simp [hs]⟩

private theorem fieldName_eq {n : Name} {s : String} (h : (n, s) ∈ fieldNames) : attrName n = s.toList := by
  simp only [fieldNames, List.mem_cons, Prod.mk.injEq, List.not_mem_nil, or_false] at h
  rcases h with ⟨rfl, rfl⟩ | ⟨rfl, rfl⟩ | ⟨rfl, rfl⟩ | ⟨rfl, rfl⟩ | ⟨rfl, rfl⟩ | ⟨rfl, rfl⟩ <;> rfl

/-- The array that is read for a field that was assigned. -/
private theorem read_field {base : Dim → ℝ} (hb : ∀ d, 0 < base d) {c : Conf ℝ} {ops : List Op} {f : Writer.File ℝ} {table : Dim → List ℝ}
    {o : Opened} (r : Read base c (run base c.scaleFactor ops) f table o) {t : Nat} {s : String} (hs : types[t]? = some s) {n : Name} {m : String}
    (hm : (n, m) ∈ fieldNames) (hn : n ∈ needs t) {x : Stored} (hx : Given ops t n x) {k : ℝ} (hk : Conv c.scaleFactor k x.field.arr)
    (hd : HasDims n x.field.dims) : ∃ y : Field, getField o s.toList m.toList = .ok (x.shape, y) ∧ y.dims = x.field.dims ∧
      y.arr.comoving = some true ∧ y.arr.vt = true ∧ y.arr.cf = some (CF.create c.scaleFactor (exponentOf k)) ∧
      cgs y = (cgs x.field).map (fun v => v * c.scaleFactor ^ (exponentOf k - k) * (o.base.unit x.field.dims / (baseOf base).unit x.field.dims)) := by
  obtain ⟨z, e1, e2, e3, e4, e5, e6⟩ := given_fields (pos_base hb) hx hk hd
  have ht : t ∈ toWrite (view (run base c.scaleFactor ops)) := by
    unfold toWrite
    rw [List.mem_filter, List.mem_range, populated_iff]
    exact ⟨type_lt hs, .inr ⟨n, hn, _, e1⟩⟩
  obtain ⟨e, he, rfl, d, d1, d2⟩ := get_eq r ht hs ((required_iff t n).2 (.inr hn))
  rw [fieldName_eq hm] at d2
  unfold dsetOf at d1
  rw [if_neg (needs_ne _ hn), e1] at d1
  simp only [writeField, e2.cf, Except.map] at d1
  cases d1
  refine ⟨_, d2, ?_, ?_, ?_, ?_, ?_⟩
  · simp [readField, e4]
  · simp [readField]
  · simp [readField]
  · simp [readField, r.scale]
  · have hu : (baseOf base).unit x.field.dims ≠ 0 := (Base_unit_pos (pos_base hb) _).ne'
    have ha : 0 < c.scaleFactor := hk.pos
    rw [← e6]
    unfold cgs Arr.phys
    simp only [readField, e3, e2.cf, CF.create, Option.getD_some, Option.getD_none, r.scale, ite_rpow, e4, e5, List.map_map]
    have h0 : (!((0 : Int) == 1)) = true := rfl
    simp only [h0, List.map_map]
    apply List.map_congr_left
    intro v _
    simp only [Function.comp_apply]
    have hr : c.scaleFactor ^ exponentOf k = c.scaleFactor ^ k * c.scaleFactor ^ (exponentOf k - k) := by
      rw [← Real.rpow_add ha]
      congr 1
      ring
    rw [hr]
    have hU : o.base.I ^ x.field.dims.I * o.base.L ^ x.field.dims.L * o.base.M ^ x.field.dims.M * o.base.T ^ x.field.dims.T *
        o.base.t ^ x.field.dims.t = o.base.unit x.field.dims := rfl
    rw [hU]
    field_simp

private theorem shape_eq (x : Stored) : x.shape = extents x := by
  unfold Stored.shape extents
  cases x.row <;> rfl

/-- C85: whatever array the writer has for a field when it writes, its numbers, shape and dimensions are read, as comoving values of the
scale factor of the file in the base units of the file. -/
theorem c85_numbers {D : Type} {lib : Lib D} {table : Dim → List ℝ} {base : Dim → ℝ} {c : Conf ℝ} (hp : Plain c) {w : State} {h : H5} {o : Opened}
    (hw : writeAll base c w = .ok h) (ho : openFile lib table h = .ok o) {t : Nat} {s : String} (hs : types[t]? = some s) {n : Name} {m : String}
    (hm : (n, m) ∈ fieldNames) (hn : n ∈ needs t) {z : Stored} (hz : (w t).fields n = some z) : ∃ (k a : ℝ) (y : Field),
      z.field.arr.cf = some ⟨some k, some a⟩ ∧ getField o s.toList m.toList = .ok (extents z, y) ∧ y.arr.val = z.field.arr.val ∧ y.dims = z.field.dims ∧
      y.size = o.base.unit z.field.dims ∧ y.arr.comoving = some true ∧ y.arr.vt = true ∧ y.arr.cf = some (CF.create c.scaleFactor (exponentOf k)) := by
  simp only [← shape_eq]
  obtain ⟨f, r⟩ := read_of hp hw ho
  have ht : t ∈ toWrite (view w) := by
    unfold toWrite
    rw [List.mem_filter, List.mem_range, populated_iff]
    exact ⟨type_lt hs, .inr ⟨n, hn, _, hz⟩⟩
  obtain ⟨e, he, rfl, d, d1, d2⟩ := get_eq r ht hs ((required_iff t n).2 (.inr hn))
  rw [fieldName_eq hm] at *
  unfold dsetOf at d1
  rw [if_neg (needs_ne _ hn), hz] at d1
  dsimp only at d1
  unfold writeField at d1
  split at d1
  · rename_i k a hcf
    cases d1
    refine ⟨k, a, _, hcf, d2, rfl, rfl, ?_, rfl, rfl, ?_⟩
    · simp only [readField, ite_rpow]
      rfl
    · simp [readField, r.scale]
  · cases d1

private theorem unitSize_of {table : Dim → List ℝ} {base : Dim → ℝ} (ht : ∀ d : Dim, ∀ x ∈ table d, 0 < x) (hb : ∀ d, 0 < base d) {d : Dim}
    (hd : d ≠ .current) (hne : table d ≠ []) : ∃ u : ℝ, unitSize table (unitAttrs base) d = .ok u ∧ |u - base d| ≤ 5 / 100000 * base d ∧
      (FiveDigitUnit table base d → u = base d) := by
  obtain ⟨i, v, u, h1, h2, h3, h4⟩ := c68_units base table ht hb d hd hne
  refine ⟨v * u, ?_, h3, fun h => h4 (h i v u h1 h2)⟩
  unfold unitSize
  rw [h1]
  simp only [Except.map, h2, Option.getD_some]

private theorem current_of {table : Dim → List ℝ} {base : Dim → ℝ} (hne : table .current ≠ []) :
    ∃ u : ℝ, unitSize table (unitAttrs base) .current = .ok u := by
  obtain ⟨i, v, h⟩ := c51_total (table .current) 1 hne
  have : loadUnit table (unitAttrs base) .current = .ok (i, v) := h
  exact ⟨_, by unfold unitSize; rw [this]; rfl⟩

private theorem base_of {table : Dim → List ℝ} {base : Dim → ℝ} (ht : ∀ d : Dim, ∀ x ∈ table d, 0 < x) (hb : ∀ d, 0 < base d)
    (hne : ∀ d, table d ≠ []) : ∃ b : Base, readBase table (unitAttrs base) = .ok b ∧
      (|b.L - base .length| ≤ 5 / 100000 * base .length ∧ (FiveDigitUnit table base .length → b.L = base .length)) ∧
      (|b.M - base .mass| ≤ 5 / 100000 * base .mass ∧ (FiveDigitUnit table base .mass → b.M = base .mass)) ∧
      (|b.t - base .time| ≤ 5 / 100000 * base .time ∧ (FiveDigitUnit table base .time → b.t = base .time)) := by
  obtain ⟨i, hi⟩ := current_of (base := base) (hne .current)
  obtain ⟨l, hl, l1⟩ := unitSize_of ht hb (d := .length) (by decide) (hne _)
  obtain ⟨m, hm, m1⟩ := unitSize_of ht hb (d := .mass) (by decide) (hne _)
  obtain ⟨k, hk, -⟩ := unitSize_of ht hb (d := .temperature) (by decide) (hne _)
  obtain ⟨t, hti, t1⟩ := unitSize_of ht hb (d := .time) (by decide) (hne _)
  refine ⟨⟨i, l, m, k, t⟩, ?_, l1, m1, t1⟩
  unfold readBase
  rw [hi, hl, hm, hk, hti]
  rfl

/-- C85: the base units of length, mass and time that are read are those of the writer up to five parts in a hundred thousand, and
exactly if they are numbers of five digits times a unit of the reader; the scale factor is that of the writer. -/
theorem c85_units {D : Type} {lib : Lib D} {table : Dim → List ℝ} (ht : ∀ d : Dim, ∀ x ∈ table d, 0 < x) (hne : ∀ d, table d ≠ [])
    {base : Dim → ℝ} (hb : ∀ d, 0 < base d) {c : Conf ℝ} (hp : Plain c) {w : State} {h : H5} {o : Opened} (hw : writeAll base c w = .ok h)
    (ho : openFile lib table h = .ok o) : o.scale = c.scaleFactor ∧
      (|o.base.L - base .length| ≤ 5 / 100000 * base .length ∧ (FiveDigitUnit table base .length → o.base.L = base .length)) ∧
      (|o.base.M - base .mass| ≤ 5 / 100000 * base .mass ∧ (FiveDigitUnit table base .mass → o.base.M = base .mass)) ∧
      (|o.base.t - base .time| ≤ 5 / 100000 * base .time ∧ (FiveDigitUnit table base .time → o.base.t = base .time)) := by
  obtain ⟨f, r⟩ := read_of hp hw ho
  obtain ⟨b, h1, h2⟩ := base_of ht hb hne
  have h3 := r.units
  rw [h1] at h3
  rw [← Except.ok.inj h3]
  exact ⟨r.scale, h2⟩

theorem unit_same {b b' : Base} (h1 : b.L = b'.L) (h2 : b.M = b'.M) (h3 : b.t = b'.t) {n : Name} {e : Exps} (h : HasDims n e) :
    b.unit e = b'.unit e := by
  have h0 : e.I = 0 ∧ e.T = 0 := by
    cases n <;> first | exact h.elim | (rw [show e = _ from h]; exact ⟨rfl, rfl⟩)
  unfold Base.unit
  rw [h1, h2, h3, h0.1, h0.2, Real.rpow_zero, Real.rpow_zero, Real.rpow_zero, Real.rpow_zero]

/-- C85: a field that was assigned is read under the same name with the same shape, dimensions, exponent of the scale factor and
convertible flag, as comoving values with the same physical meaning in cgs. Partly: the exponent is not zero, and the units are
numbers of five digits times a unit of the reader. -/
theorem c85_field_partial {D : Type} {lib : Lib D} {table : Dim → List ℝ} (ht : ∀ d : Dim, ∀ x ∈ table d, 0 < x) (hne : ∀ d, table d ≠ [])
    {base : Dim → ℝ} (hb : ∀ d, 0 < base d) (h5 : ∀ d, d = .length ∨ d = .mass ∨ d = .time → FiveDigitUnit table base d) {c : Conf ℝ} (hp : Plain c)
    {ops : List Op} {h : H5} {o : Opened} (hw : writeAll base c (run base c.scaleFactor ops) = .ok h) (ho : openFile lib table h = .ok o)
    {t : Nat} {s : String} (hs : types[t]? = some s) {n : Name} {m : String} (hm : (n, m) ∈ fieldNames) (hn : n ∈ needs t) {x : Stored}
    (hx : Given ops t n x) {k : ℝ} (hk : Conv c.scaleFactor k x.field.arr) (hd : HasDims n x.field.dims) (h0 : k ≠ 0) :
    ∃ y : Field, getField o s.toList m.toList = .ok (extents x, y) ∧ y.dims = x.field.dims ∧ y.arr.comoving = some true ∧
      y.arr.vt = x.field.arr.vt ∧ y.arr.cf = x.field.arr.cf ∧ cgs y = cgs x.field := by
  simp only [← shape_eq]
  obtain ⟨-, ⟨-, u1⟩, ⟨-, u2⟩, ⟨-, u3⟩⟩ := c85_units ht hne hb hp hw ho
  obtain ⟨f, r⟩ := read_of hp hw ho
  obtain ⟨y, e1, e2, e3, e4, e5, e6⟩ := read_field hb r hs hm hn hx hk hd
  have hex : exponentOf k = k := by
    unfold exponentOf
    split
    · rename_i hc
      rcases hc with hc | hc
      · exact absurd hc h0
      · exact hc.symm
    · rfl
  refine ⟨y, e1, e2, e3, e4.trans hk.vt.symm, by rw [e5, hk.cf, hex]; rfl, ?_⟩
  have hu : o.base.unit x.field.dims = (baseOf base).unit x.field.dims :=
    unit_same (b' := baseOf base) (u1 (h5 _ (.inl rfl))) (u2 (h5 _ (.inr (.inl rfl)))) (u3 (h5 _ (.inr (.inr rfl)))) hd
  rw [e6, hex, sub_self, Real.rpow_zero, hu, div_self (Base_unit_pos (pos_base hb) _).ne']
  simp

/-- C85: a field whose exponent of the scale factor is zero, as for masses, is read with the exponent one: its physical values are
multiplied by the scale factor. -/
theorem c85_exponent_zero_fails {D : Type} {lib : Lib D} {table : Dim → List ℝ} (ht : ∀ d : Dim, ∀ x ∈ table d, 0 < x) (hne : ∀ d, table d ≠ [])
    {base : Dim → ℝ} (hb : ∀ d, 0 < base d) (h5 : ∀ d, d = .length ∨ d = .mass ∨ d = .time → FiveDigitUnit table base d) {c : Conf ℝ} (hp : Plain c)
    {ops : List Op} {h : H5} {o : Opened} (hw : writeAll base c (run base c.scaleFactor ops) = .ok h) (ho : openFile lib table h = .ok o)
    {t : Nat} {s : String} (hs : types[t]? = some s) {n : Name} {m : String} (hm : (n, m) ∈ fieldNames) (hn : n ∈ needs t) {x : Stored}
    (hx : Given ops t n x) (hk : Conv c.scaleFactor 0 x.field.arr) (hd : HasDims n x.field.dims) :
    ∃ y : Field, getField o s.toList m.toList = .ok (extents x, y) ∧ y.arr.cf = some (CF.create c.scaleFactor 1) ∧
      cgs y = (cgs x.field).map (fun v => v * c.scaleFactor) := by
  simp only [← shape_eq]
  obtain ⟨-, ⟨-, u1⟩, ⟨-, u2⟩, ⟨-, u3⟩⟩ := c85_units ht hne hb hp hw ho
  obtain ⟨f, r⟩ := read_of hp hw ho
  obtain ⟨y, e1, e2, e3, e4, e5, e6⟩ := read_field hb r hs hm hn hx hk hd
  have hex : exponentOf 0 = 1 := by simp [exponentOf]
  refine ⟨y, e1, by rw [e5, hex], ?_⟩
  have hu : o.base.unit x.field.dims = (baseOf base).unit x.field.dims :=
    unit_same (b' := baseOf base) (u1 (h5 _ (.inl rfl))) (u2 (h5 _ (.inr (.inl rfl)))) (u3 (h5 _ (.inr (.inr rfl)))) hd
  rw [e6, hex, sub_zero, Real.rpow_one, hu, div_self (Base_unit_pos (pos_base hb) _).ne']
  simp

/-- C85: a file that was written without an extra header can be opened. -/
theorem c85_opens {D : Type} (lib : Lib D) {table : Dim → List ℝ} (ht : ∀ d : Dim, ∀ x ∈ table d, 0 < x) (hne : ∀ d, table d ≠ [])
    {base : Dim → ℝ} (hb : ∀ d, 0 < base d) {c : Conf ℝ} (hc : c.extra = none) {w : State} {h : H5} (hw : writeAll base c w = .ok h) :
    ∃ o : Opened, openFile lib table h = .ok o := by
  have hp : ∀ n, n ∉ (c.extra.getD []).map Prod.fst := by
    intro n
    rw [hc]
    simp
  obtain ⟨f, e1, e2, e3, e4⟩ := write_groups hw
  obtain ⟨s, hs⟩ := c68_succeeds lib c hc (fun x : ℝ => x) f
  obtain ⟨b, h1, -⟩ := base_of ht hb hne
  have hts := c68_types (fun n => Nat.cast_eq_zero) c (fun x : ℝ => x) (view w) f e1 (hp _) (hp _) hs
  have ha := ((c68_numbers c (fun x : ℝ => x) f hs).1 (hp _)).2
  obtain ⟨ns, hns⟩ := mapM_total (f := nameOf) (l := toWrite (view w)) (fun t h => by
    obtain ⟨s, -, e⟩ := nameOf_eq (toWrite_lt h)
    exact ⟨_, e⟩)
  refine ⟨⟨c.scaleFactor, b, ns, h⟩, ?_⟩
  unfold openFile
  rw [e3, h1, e2, hs]
  simp only [Except.bind, scaleOf, ha, hts, hns]

private theorem ids_iff {base : Dim → ℝ} {a : ℝ} {ops : List Op} (hf : Fine a ops) (t : Nat) (l : List Int) :
    (run base a ops t).ids = some l ↔ GivenIds ops t l := by
  have key : ∀ m, GivenIds ops t m → (run base a ops t).ids = some m := fun m hm =>
    given_ids hm (hf.ids t m (givenIds_mem hm)).1 (hf.ids t m (givenIds_mem hm)).2
  refine ⟨fun h => ?_, key l⟩
  obtain ⟨m, hm⟩ := ids_given ops (fine_set hf) h
  have := key m hm
  rw [h] at this
  cases this
  exact hm

private theorem view_field {base : Dim → ℝ} {a : ℝ} {ops : List Op} (hb : BasePos (baseOf base)) (hf : Fine a ops) {t : Nat} {n : Name} {x : Stored}
    (h : Given ops t n x) : ∃ d : List ℝ, (view (run base a ops) t).field n = some ⟨x.row, d⟩ ∧ d.length = x.rows := by
  obtain ⟨⟨k, h1⟩, h2⟩ := hf.fields t n x (given_mem h)
  obtain ⟨y, e, -⟩ := given_fields hb h h1 h2
  simp only [view, e, Option.map_some, Stored.view]
  exact ⟨_, rfl, by simp⟩

/-- C85: a writer that was given everything writes a file, whatever is in its header. -/
theorem c85_writes {base base' : Dim → ℝ} (hb : ∀ d, 0 < base d) {a : ℝ} {c : Conf ℝ} {ops : List Op} (hf : Fine a ops) (hc : Complete ops) :
    ∃ h : H5, writeAll base' c (run base a ops) = .ok h := by
  have hB := pos_base hb
  have hw := mem_toWrite hB hf
  obtain ⟨f, hf1⟩ := c31_complete (view (run base a ops)) (by
      obtain ⟨t, h1, h2⟩ := hc.some
      exact List.ne_nil_of_mem ((hw t).2 ⟨h1, h2⟩)) (by
      intro t ht
      obtain ⟨h1, h2⟩ := (hw t).1 ht
      obtain ⟨N, hN, n1, n2, n3⟩ := hc.types t h1 h2
      refine ⟨N, hN, ?_, ?_, ?_⟩
      · intro m hm
        obtain ⟨x, r, hx, hr, hl⟩ := n1 m hm
        obtain ⟨d, d1, d2⟩ := view_field hB hf hx
        exact ⟨r, d, by rw [d1, hr], d2.trans hl⟩
      · intro l hl
        exact n2 l ((ids_iff hf t l).1 hl)
      · intro p q hp hq
        obtain ⟨x, -, hx, -, -⟩ := n1 .coordinates (by simp [needs])
        obtain ⟨y, -, hy, -, -⟩ := n1 .velocities (by simp [needs])
        obtain ⟨d, d1, -⟩ := view_field hB hf hx
        obtain ⟨e, e1, -⟩ := view_field hB hf hy
        rw [d1] at hp
        rw [e1] at hq
        cases hp
        cases hq
        exact n3 x y hx hy) (by
      rcases hc.ids with ⟨t, h1, h2, h3⟩ | h
      · refine .inl ⟨t, (hw t).2 ⟨h1, h2⟩, ?_⟩
        cases e : (run base a ops t).ids with
        | none => exact e
        | some l => exact absurd ⟨l, (ids_iff hf t l).1 e⟩ h3
      · right
        unfold allIds
        rw [List.nodup_flatMap]
        constructor
        · intro t _
          change (((run base a ops) t).ids.getD []).Nodup
          cases e : (run base a ops t).ids with
          | none => exact List.nodup_nil
          | some l => exact (hf.ids t l (givenIds_mem ((ids_iff hf t l).1 e))).2
        · refine (toWrite_nodup _).imp_of_mem ?_
          intro t u ht hu hne
          change List.Disjoint (((run base a ops) t).ids.getD []) (((run base a ops) u).ids.getD [])
          cases e : (run base a ops t).ids with
          | none => exact List.disjoint_nil_left _
          | some l =>
            cases e' : (run base a ops u).ids with
            | none => exact List.disjoint_nil_right _
            | some m => exact h t u l m (toWrite_lt ht) (toWrite_lt hu) hne ((ids_iff hf t l).1 e) ((ids_iff hf u m).1 e'))
  obtain ⟨w1, -, w3, -⟩ := c31_written _ _ hf1
  obtain ⟨g, hg⟩ := mapM_total (f := groupOf c.scaleFactor (run base a ops)) (l := f.groups) (by
    intro e he
    obtain ⟨N, -, -, -, ⟨l, hl, -⟩, -, -⟩ := w3 e he
    have ht : e.type ∈ toWrite (view (run base a ops)) := w1 ▸ List.mem_map_of_mem he
    obtain ⟨h1, h2⟩ := (hw _).1 ht
    obtain ⟨N, -, n1, -, -⟩ := hc.types _ h1 h2
    obtain ⟨ds, hds⟩ := mapM_total (f := dsetOf c.scaleFactor (run base a ops) e) (l := required e.type) (by
      intro n hn
      unfold dsetOf
      rcases (required_iff _ _).1 hn with rfl | hn
      · rw [if_pos rfl, hl]
        exact ⟨_, rfl⟩
      · rw [if_neg (needs_ne _ hn)]
        obtain ⟨x, r, hx, -, -⟩ := n1 n hn
        obtain ⟨⟨k, k1⟩, k2⟩ := hf.fields _ n x (given_mem hx)
        obtain ⟨y, e1, e2, -⟩ := given_fields hB hx k1 k2
        rw [e1]
        simp only [writeField, e2.cf]
        exact ⟨_, rfl⟩)
    exact ⟨_, by unfold groupOf; rw [hds]; rfl⟩)
  refine ⟨⟨WriterHeader.header c (fun x : ℝ => x) f, unitAttrs base', g⟩, ?_⟩
  unfold writeAll
  rw [hf1]
  simp only [hg]
  rfl

/-- C85: a writer in which every type that is to be written is complete and every field has an exponent and a scale factor writes a
file. -/
theorem c85_complete {base : Dim → ℝ} {c : Conf ℝ} (w : State) (hne : toWrite (view w) ≠ [])
    (hc : ∀ t ∈ toWrite (view w), ∃ n : Nat, 0 < n ∧ Consistent (view w t) t n)
    (hi : (∃ t ∈ toWrite (view w), (w t).ids = none) ∨ (allIds (view w)).Nodup)
    (hcf : ∀ t ∈ toWrite (view w), ∀ n ∈ needs t, ∀ z, (w t).fields n = some z → ∃ k a : ℝ, z.field.arr.cf = some ⟨some k, some a⟩) :
    ∃ h : H5, writeAll base c w = .ok h := by
  obtain ⟨f, hf1⟩ := c31_complete (view w) hne hc hi
  obtain ⟨w1, -, w3, -⟩ := c31_written _ _ hf1
  obtain ⟨g, hg⟩ := mapM_total (f := groupOf c.scaleFactor w) (l := f.groups) (by
    intro e he
    obtain ⟨N, -, -, -, ⟨l, hl, -⟩, -, -⟩ := w3 e he
    have ht : e.type ∈ toWrite (view w) := w1 ▸ List.mem_map_of_mem he
    obtain ⟨N, -, n1⟩ := hc _ ht
    obtain ⟨ds, hds⟩ := mapM_total (f := dsetOf c.scaleFactor w e) (l := required e.type) (by
      intro n hn
      unfold dsetOf
      rcases (required_iff _ _).1 hn with rfl | hn
      · rw [if_pos rfl, hl]
        exact ⟨_, rfl⟩
      · rw [if_neg (needs_ne _ hn)]
        obtain ⟨r, d, hx, -⟩ := n1.fields n hn
        cases hz : (w e.type).fields n with
        | none => simp only [view, hz] at hx; cases hx
        | some z =>
          obtain ⟨k, a, h2⟩ := hcf _ ht n hn z hz
          simp only [writeField, h2]
          exact ⟨_, rfl⟩)
    exact ⟨_, by unfold groupOf; rw [hds]; rfl⟩)
  refine ⟨⟨WriterHeader.header c (fun x : ℝ => x) f, unitAttrs base, g⟩, ?_⟩
  unfold writeAll
  rw [hf1]
  simp only [hg]
  rfl

private theorem find_type {f : Writer.File ℝ} (hn : (f.groups.map Writer.Entry.type).Nodup) {e : Writer.Entry ℝ} (he : e ∈ f.groups) :
    f.groups.find? (fun g => g.type == e.type) = some e := by
  generalize f.groups = G at hn he
  induction G with
  | nil => cases he
  | cons a G ih =>
    rw [List.map_cons, List.nodup_cons] at hn
    rcases List.mem_cons.1 he with rfl | he
    · simp
    · rw [List.find?_cons_of_neg, ih hn.2 he]
      rw [beq_iff_eq]
      intro hc
      exact hn.1 (hc ▸ List.mem_map_of_mem he)

open Classical in
/-- C85: the IDs of a type are read as they were assigned if all types have IDs; otherwise those of all types, one after the other,
are 1, 2, …; in both cases the exponent of the scale factor that is read is one, not zero. -/
theorem c85_ids {D : Type} {lib : Lib D} {table : Dim → List ℝ} {base : Dim → ℝ} (hb : ∀ d, 0 < base d) {c : Conf ℝ} (hp : Plain c)
    {ops : List Op} (hf : Fine c.scaleFactor ops) {h : H5} {o : Opened} (hw : writeAll base c (run base c.scaleFactor ops) = .ok h)
    (ho : openFile lib table h = .ok o) : ∃ L : Nat → List Int,
      (∀ t s, types[t]? = some s → Populated ops t → ∃ y : Field, getField o s.toList "particle_ids".toList = .ok ([(L t).length], y) ∧
        y.arr.val = (L t).map (fun i : Int => (i : ℝ)) ∧ y.size = 1 ∧ y.arr.comoving = some true ∧ y.arr.cf = some (CF.create c.scaleFactor 1)) ∧
      ((∀ t, t < 8 → Populated ops t → ∃ l, GivenIds ops t l) → ∀ t l, t < 8 → GivenIds ops t l → L t = l) ∧
      ((∃ t, t < 8 ∧ Populated ops t ∧ ¬ ∃ l, GivenIds ops t l) → ∃ N : Nat,
        ((List.range 8).filter (fun t => decide (Populated ops t))).flatMap L = (List.range N).map (fun i : Nat => (i : Int) + 1)) := by
  obtain ⟨f, r⟩ := read_of hp hw ho
  have hB := pos_base hb
  have hmem := mem_toWrite hB hf
  obtain ⟨w1, -, w3, -⟩ := c31_written _ _ r.wrote
  have hnd : (f.groups.map Writer.Entry.type).Nodup := w1 ▸ toWrite_nodup _
  have hL : ∀ e ∈ f.groups, ((f.groups.find? (fun g => g.type == e.type)).bind Writer.Entry.ids).getD [] = e.ids.getD [] := by
    intro e he
    rw [find_type hnd he]
    rfl
  refine ⟨fun t => ((f.groups.find? (fun g => g.type == t)).bind Writer.Entry.ids).getD [], ?_, ?_, ?_⟩
  · intro t s hs hpop
    obtain ⟨e, he, rfl, d, d1, d2⟩ := get_eq r ((hmem t).2 ⟨type_lt hs, hpop⟩) hs ((required_iff t .particleIds).2 (.inl rfl))
    obtain ⟨N, -, -, -, ⟨l, hl, -⟩, -, -⟩ := w3 e he
    have hLe := hL e he
    rw [hl, Option.getD_some] at hLe
    unfold dsetOf at d1
    rw [if_pos rfl, hl] at d1
    dsimp only at d1
    have hwf : writeField (idField c.scaleFactor l) = .ok (⟨⟨0, 0, 0, 0, 0⟩, some (exponentOf 0), none, none⟩, l.map (fun i : Int => (i : ℝ))) := rfl
    rw [hwf] at d1
    have hex : exponentOf 0 = 1 := by simp [exponentOf]
    rw [hex] at d1
    cases d1
    simp only [hLe]
    exact ⟨_, d2, rfl, by simp [readField], rfl, by simp [readField, r.scale]⟩
  · intro hall t l ht hl
    have hin : t ∈ toWrite (view (run base c.scaleFactor ops)) := (hmem t).2 ⟨ht, .inl ⟨l, hl⟩⟩
    obtain ⟨names, w', rd, -, hfe⟩ := Ready.of_write r.wrote
    have hsome : ∀ u ∈ toWrite (view (run base c.scaleFactor ops)), (view (run base c.scaleFactor ops) u).ids ≠ none := by
      intro u hu
      obtain ⟨u1, u2⟩ := (hmem u).1 hu
      obtain ⟨m, hm⟩ := hall u u1 u2
      rw [show (view (run base c.scaleFactor ops) u).ids = some m from (ids_iff hf u m).2 hm]
      simp
    rcases rd.all with ⟨⟨u, hu, e⟩, -⟩ | ⟨-, rfl, -, -⟩
    · exact absurd e (hsome u hu)
    · rw [← w1] at hin
      obtain ⟨e, he, rfl⟩ := List.mem_map.1 hin
      dsimp only
      rw [hL e he]
      rw [hfe] at he
      obtain ⟨x, hx, rfl⟩ := List.mem_map.1 he
      change ((view (run base c.scaleFactor ops) x.1).ids).getD [] = l
      rw [show (view (run base c.scaleFactor ops) x.1).ids = some l from (ids_iff hf x.1 l).2 hl]
      rfl
  · rintro ⟨t, h1, h2, h3⟩
    refine ⟨f.numPart.sum, ?_⟩
    rw [← c30_generated _ f r.wrote ⟨t, (hmem t).2 ⟨h1, h2⟩, by
      cases e : (run base c.scaleFactor ops t).ids with
      | none => exact e
      | some l => exact absurd ⟨l, (ids_iff hf t l).1 e⟩ h3⟩]
    have hfilter : (List.range 8).filter (fun t => decide (Populated ops t)) = toWrite (view (run base c.scaleFactor ops)) := by
      unfold toWrite
      apply List.filter_congr
      intro u hu
      rw [Bool.eq_iff_iff, decide_eq_true_iff]
      have := hmem u
      unfold toWrite at this
      rw [List.mem_filter, List.mem_range] at this
      have h8 := List.mem_range.1 hu
      exact ⟨fun h => (this.2 ⟨h8, h⟩).2, fun h => (this.1 ⟨h8, h⟩).2⟩
    rw [hfilter, ← w1, List.flatMap_map]
    unfold fileIds
    exact List.flatMap_congr hL

/-! A writer that was given two dark matter particles at scale factor 1/2, with masses in units of two base units. -/

noncomputable def sampleField (k : ℝ) (dims : Exps) (l : List ℝ) (size : ℝ) : Field :=
  ⟨⟨l, some false, some ⟨some k, some (1 / 2)⟩, true⟩, dims, size⟩

noncomputable def sampleMasses : Stored := ⟨some [], 2, sampleField 3 (dimsOf .masses) [5, 7] 2⟩

noncomputable def sampleOps : List Op :=
  [.set 1 .coordinates ⟨some [3], 2, sampleField 1 (dimsOf .coordinates) [1, 2, 3, 4, 5, 6] 1⟩,
    .set 1 .velocities ⟨some [3], 2, sampleField 0 (dimsOf .velocities) [1, 2, 3, 4, 5, 6] 1⟩,
    .set 1 .masses sampleMasses]

theorem sampleOps_fine : Fine (1 / 2) sampleOps := by
  have hc : ∀ k dims l size, Conv (1 / 2) k (sampleField k dims l size).arr := fun k dims l size =>
    ⟨by norm_num, rfl, rfl, by simp [sampleField]⟩
  constructor
  · intro t n x hx
    simp only [sampleOps, List.mem_cons, List.not_mem_nil, or_false] at hx
    rcases hx with hx | hx | hx <;> cases hx
    · exact ⟨⟨_, hc _ _ _ _⟩, rfl⟩
    · exact ⟨⟨_, hc _ _ _ _⟩, rfl⟩
    · exact ⟨⟨_, hc _ _ _ _⟩, rfl⟩
  · intro t l hl
    simp [sampleOps] at hl

theorem sampleOps_masses : Given sampleOps 1 .masses sampleMasses :=
  ⟨_, [], (List.dropLast_concat_getLast (l := sampleOps) (by simp [sampleOps])).symm, by simp⟩

private theorem sampleOps_given {t : Nat} {n : Name} {x : Stored} (h : Given sampleOps t n x) :
    t = 1 ∧ x.rows = 2 ∧ (n = .coordinates → x.row = some [3]) ∧ (n = .velocities → x.row = some [3]) := by
  have := given_mem h
  simp only [sampleOps, List.mem_cons, List.not_mem_nil, or_false] at this
  rcases this with hx | hx | hx <;> cases hx <;> simp [sampleMasses]

private theorem sampleOps_ids {t : Nat} {l : List Int} : ¬ GivenIds sampleOps t l := by
  intro h
  have := givenIds_mem h
  simp [sampleOps] at this

theorem sampleOps_complete : Complete sampleOps := by
  have hp : Populated sampleOps 1 := .inr ⟨.masses, by simp [needs], _, sampleOps_masses⟩
  refine ⟨⟨1, by norm_num, hp⟩, ?_, .inl ⟨1, by norm_num, hp, fun ⟨l, h⟩ => sampleOps_ids h⟩⟩
  intro t ht hpt
  have h1 : t = 1 := by
    rcases hpt with ⟨l, h⟩ | ⟨n, -, x, h⟩
    · exact absurd h sampleOps_ids
    · exact (sampleOps_given h).1
  subst h1
  refine ⟨2, by norm_num, ?_, fun l h => absurd h sampleOps_ids, fun x y hx hy => ?_⟩
  · intro n hn
    simp [needs] at hn
    rcases hn with rfl | rfl | rfl
    · exact ⟨_, [3], ⟨[], _, rfl, by simp [About]⟩, rfl, rfl⟩
    · exact ⟨_, [3], ⟨[_], _, rfl, by simp [About]⟩, rfl, rfl⟩
    · exact ⟨_, [], sampleOps_masses, rfl, rfl⟩
  · rw [(sampleOps_given hx).2.2.1 rfl, (sampleOps_given hy).2.2.2 rfl]

noncomputable def sampleConf : Conf ℝ := ⟨[100, 100, 100], 3, 1 / 2, none⟩

theorem sampleUnits (d : Dim) : FiveDigitUnit (fun _ => [1]) (fun _ => 1) d := by
  intro i v c _ hc
  have : c = 1 := by
    have := List.mem_of_getElem? hc
    simpa using this
  exact ⟨1, 0, by norm_num, by rw [this]; norm_num⟩

/-- The masses, given in physical units with `a**3`, are read as comoving masses of the same meaning. -/
example (lib : Lib Nat) : ∃ (h : H5) (o : Opened) (y : Field), writeAll (fun _ => 1) sampleConf (run (fun _ => 1) sampleConf.scaleFactor sampleOps) = .ok h ∧
    openFile lib (fun _ => [1]) h = .ok o ∧ getField o "dark_matter".toList "masses".toList = .ok ([2], y) ∧ cgs y = cgs sampleMasses.field ∧
    "gas".toList ∉ o.names.map Prod.fst := by
  obtain ⟨h, hw⟩ := c85_writes (base := fun _ => 1) (base' := fun _ => 1) (by simp) (c := sampleConf) sampleOps_fine sampleOps_complete
  obtain ⟨o, ho⟩ := c85_opens lib (table := fun _ => [1]) (by simp) (by simp) (by simp) rfl hw
  have hp : Plain sampleConf := by simp [Plain, sampleConf]
  obtain ⟨y, e1, -, -, -, -, e2⟩ := c85_field_partial (by simp) (by simp) (by simp) (fun d _ => sampleUnits d) hp hw ho (t := 1) (s := "dark_matter") rfl
    (n := .masses) (m := "masses") (by simp [fieldNames]) (by simp [needs]) sampleOps_masses (k := 3) ⟨by norm_num [sampleConf], rfl, rfl, by simp [sampleMasses, sampleField]⟩ rfl
    (by norm_num)
  refine ⟨h, o, y, hw, ho, e1, e2, ?_⟩
  rw [c85_types (by simp) hp sampleOps_fine hw ho]
  rintro ⟨t, s, hs, e, hpop⟩
  have h1 : t = 1 := by
    rcases hpop with ⟨l, h⟩ | ⟨n, -, x, h⟩
    · exact absurd h sampleOps_ids
    · exact (sampleOps_given h).1
  subst h1
  cases hs
  revert e
  decide +kernel

/-- The velocities, which do not depend on the scale factor, are read wrong; IDs were generated. -/
example (lib : Lib Nat) : ∃ (h : H5) (o : Opened) (y z : Field), writeAll (fun _ => 1) sampleConf (run (fun _ => 1) sampleConf.scaleFactor sampleOps) = .ok h ∧
    openFile lib (fun _ => [1]) h = .ok o ∧ getField o "dark_matter".toList "velocities".toList = .ok ([2, 3], y) ∧
    cgs y = [1 / 2, 1, 3 / 2, 2, 5 / 2, 3] ∧ |o.base.M - 1| ≤ 5 / 100000 * 1 ∧
    ∃ L : List Int, getField o "dark_matter".toList "particle_ids".toList = .ok ([L.length], z) ∧ ∃ N : Nat, L = (List.range N).map (fun i : Nat => (i : Int) + 1) := by
  obtain ⟨h, hw⟩ := c85_writes (base := fun _ => 1) (base' := fun _ => 1) (by simp) (c := sampleConf) sampleOps_fine sampleOps_complete
  obtain ⟨o, ho⟩ := c85_opens lib (table := fun _ => [1]) (by simp) (by simp) (by simp) rfl hw
  have hp : Plain sampleConf := by simp [Plain, sampleConf]
  obtain ⟨y, e1, -, e2⟩ := c85_exponent_zero_fails (by simp) (by simp) (by simp) (fun d _ => sampleUnits d) hp hw ho (t := 1) (s := "dark_matter") rfl
    (n := .velocities) (m := "velocities") (by simp [fieldNames]) (by simp [needs]) (x := ⟨some [3], 2, sampleField 0 (dimsOf .velocities) [1, 2, 3, 4, 5, 6] 1⟩)
    ⟨[_], [_], rfl, by simp [About]⟩ ⟨by norm_num [sampleConf], rfl, rfl, by simp [sampleField]⟩ rfl
  obtain ⟨L, l1, -, l3⟩ := c85_ids (by simp) hp sampleOps_fine hw ho
  have hpop : Populated sampleOps 1 := .inr ⟨.masses, by simp [needs], _, sampleOps_masses⟩
  obtain ⟨z, z1, -⟩ := l1 1 "dark_matter" rfl hpop
  obtain ⟨N, hN⟩ := l3 ⟨1, by norm_num, hpop, fun ⟨l, h⟩ => sampleOps_ids h⟩
  refine ⟨h, o, y, z, hw, ho, e1, ?_, (c85_units (by simp) (by simp) (by simp) hp hw ho).2.2.1.1, L 1, z1, N, ?_⟩
  · rw [e2]
    simp [cgs, Arr.phys, sampleField, sampleConf]
    norm_num
  · rw [← hN]
    have hone : ∀ t, Populated sampleOps t ↔ t = 1 := by
      intro t
      constructor
      · rintro (⟨l, h⟩ | ⟨n, -, x, h⟩)
        · exact absurd h sampleOps_ids
        · exact (sampleOps_given h).1
      · rintro rfl; exact hpop
    simp only [hone]
    simp [List.range_succ]

end Verif.Props
