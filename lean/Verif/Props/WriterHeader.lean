import Verif.Spec.WriterHeader
import Verif.Props.Writer
import Verif.Props.Header
import Verif.Props.Units
import Mathlib.Algebra.CharZero.Defs
import Mathlib.Algebra.Order.Field.Rat

/-!
# C68: the header and the units of a written file, read back
-/

namespace Verif.Props
open Verif Verif.WriterHeader Verif.Header
open Verif.Writer (State write Arr Name)
open Verif.Units (Dim findNearest loadUnit)
open Verif.Spec (toWrite Consistent boxPhysical readPhysical ownEntries typeOf needs)

section
variable {K : Type} {α D : Type}

private theorem foldl_set (l : List (String × Raw K)) (d : Dict (Raw K)) (n : String) :
    l.foldl (fun (d : Dict (Raw K)) e => d.set e.1 e.2) d n = ((l.reverse.find? (fun e => e.1 == n)).map Prod.snd).or (d n) := by
  induction l generalizing d with
  | nil => rfl
  | cons e l ih =>
    rw [List.foldl_cons, ih, List.reverse_cons, List.find?_append]
    cases h : l.reverse.find? (fun e => e.1 == n) with
    | some x => rfl
    | none =>
      by_cases he : e.1 = n
      · have hb : (e.1 == n) = true := by simpa using he
        simp only [Option.none_or, List.find?_cons, hb, Option.map_some, Option.map_none, Option.some_or]
        simp [Dict.set, he]
      · have hb : (e.1 == n) = false := by simpa using he
        simp only [Option.none_or, List.find?_cons, hb, List.find?_nil, Option.map_none]
        simp [Dict.set, Ne.symm he]

/-- Entries of the extra header are written as they are and replace those of the writer; entries that it does not have are those
of the writer, and there are no others. -/
theorem c68_extra [Zero K] [NatCast K] (c : Conf K) (num : α → K) (f : Writer.File α) (n : String) :
    (∀ v : Raw K, (n, v) ∈ c.extra.getD [] → ((c.extra.getD []).map Prod.fst).Nodup → header c num f n = some v) ∧
    (n ∉ (c.extra.getD []).map Prod.fst → header c num f n = header { c with extra := none } num f n) ∧
    (n ∉ (c.extra.getD []).map Prod.fst → n ∉ ownEntries → header c num f n = none) := by
  have hnone : n ∉ (c.extra.getD []).map Prod.fst → (c.extra.getD []).reverse.find? (fun e => e.1 == n) = none := by
    intro hn
    rw [List.find?_eq_none]
    intro e he hb
    exact hn (List.mem_map.mpr ⟨e, List.mem_reverse.mp he, by simpa using hb⟩)
  refine ⟨?_, ?_, ?_⟩
  · intro v hv hd
    unfold header
    rw [foldl_set, List.reverse_append, List.find?_append]
    cases h : (c.extra.getD []).reverse.find? (fun e => e.1 == n) with
    | none =>
      rw [List.find?_eq_none] at h
      exact absurd (beq_self_eq_true n) (h (n, v) (List.mem_reverse.mpr hv))
    | some x =>
      have h1 := List.mem_reverse.mp (List.mem_of_find?_eq_some h)
      have h2 : x.1 = n := by simpa using List.find?_some h
      have : x = (n, v) := List.inj_on_of_nodup_map hd h1 hv h2
      rw [this]
      rfl
  · intro hn
    unfold header
    rw [foldl_set, foldl_set, List.reverse_append, List.find?_append, hnone hn]
    simp [attrs]
  · intro hn ho
    unfold header
    rw [foldl_set, List.reverse_append, List.find?_append, hnone hn]
    have : (attrs c num f).reverse.find? (fun e => e.1 == n) = none := by
      rw [List.find?_eq_none]
      intro e he hb
      have hb : e.1 = n := by simpa using hb
      have h1 : e.1 ∈ (attrs c num f).map Prod.fst := List.mem_map.mpr ⟨e, List.mem_reverse.mp he, rfl⟩
      have h2 : (attrs c num f).map Prod.fst = ownEntries := rfl
      rw [h2, hb] at h1
      exact ho h1
    rw [this]
    rfl

private theorem own [Zero K] [NatCast K] (c : Conf K) (num : α → K) (f : Writer.File α) (n : String)
    (hn : n ∉ (c.extra.getD []).map Prod.fst) (v : Raw K)
    (hv : (attrs c num f).foldl (fun (d : Dict (Raw K)) e => d.set e.1 e.2) (fun _ => none) n = some v) : header c num f n = some v := by
  rw [(c68_extra c num f n).2.1 hn]
  unfold header
  rw [Option.getD_none, List.append_nil]
  exact hv

private theorem own_all [Zero K] [NatCast K] (c : Conf K) (num : α → K) (f : Writer.File α) :
    ("BoxSize" ∉ (c.extra.getD []).map Prod.fst → header c num f "BoxSize" = some (.array c.box)) ∧
    ("Dimension" ∉ (c.extra.getD []).map Prod.fst → header c num f "Dimension" = some (.array [(c.dimension : K)])) ∧
    ("Scale-factor" ∉ (c.extra.getD []).map Prod.fst → header c num f "Scale-factor" = some (.array [c.scaleFactor])) ∧
    ("NumPart_ThisFile" ∉ (c.extra.getD []).map Prod.fst →
      header c num f "NumPart_ThisFile" = some (.array (f.numPart.map (fun n : Nat => (n : K))))) ∧
    ("MassTable" ∉ (c.extra.getD []).map Prod.fst →
      header c num f "MassTable" = some (.array ((List.range 8).map (massEntry num f)))) ∧
    ("CanHaveTypes" ∉ (c.extra.getD []).map Prod.fst → header c num f "CanHaveTypes" = none) ∧
    ("NumFilesPerSnapshot" ∉ (c.extra.getD []).map Prod.fst →
      header c num f "NumFilesPerSnapshot" = some (.scalar ((1 : Nat) : K))) := by
  refine ⟨fun h => own c num f _ h _ ?_, fun h => own c num f _ h _ ?_, fun h => own c num f _ h _ ?_, fun h => own c num f _ h _ ?_,
    fun h => own c num f _ h _ ?_, fun h => (c68_extra c num f _).2.2 h (by decide +kernel), fun h => own c num f _ h _ ?_⟩ <;>
    simp [attrs, Dict.set]

/-- Without extra entries, a reader can read the header of every file that is written. -/
theorem c68_succeeds [Zero K] [One K] [NatCast K] (lib : Lib D) (c : Conf K) (hc : c.extra = none) (num : α → K) (f : Writer.File α) :
    ∃ s : Dict (Val K D), postprocess lib (asRead (header c num f)) = .ok s := by
  have hx : ∀ n : String, n ∉ (c.extra.getD []).map Prod.fst := by
    intro n
    rw [hc]
    simp
  obtain ⟨h1, h2, h3, h4, h5, -, -⟩ := own_all c num f
  have hn : ∀ n : String, n ∉ ownEntries → header c num f n = none := fun n h => (c68_extra c num f n).2.2 (hx n) h
  refine c64_succeeds lib _ (header c num f) rfl ⟨?_, ?_, ⟨_, h4 (hx _)⟩, ?_, ?_⟩ (by simp [asRead])
  · intro k hk r hr
    simp only [List.mem_cons, List.not_mem_nil, or_false] at hk
    rcases hk with rfl | rfl | rfl | rfl
    · rw [hn "Time" (by decide +kernel)] at hr; cases hr
    · rw [h2 (hx _)] at hr; cases hr; exact ⟨_, _, rfl⟩
    · rw [hn "Redshift" (by decide +kernel)] at hr; cases hr
    · rw [h3 (hx _)] at hr; cases hr; exact ⟨_, _, rfl⟩
  · intro r hr
    rw [h1 (hx _)] at hr
    cases hr
    exact .inr ⟨_, rfl⟩
  · intro k hk r hr
    simp only [List.mem_cons, List.not_mem_nil, or_false] at hk
    rcases hk with rfl | rfl
    · rw [h5 (hx _)] at hr; cases hr; exact ⟨_, rfl⟩
    · rw [hn "InitialMassTable" (by decide +kernel)] at hr; cases hr
  · intro k hk r hr
    have : k ∉ ownEntries := by
      clear hr
      revert k
      decide +kernel
    rw [hn k this] at hr
    cases hr

/-- Scale factor, number of dimensions and number of files are those of the writer. -/
theorem c68_numbers [Zero K] [One K] [NatCast K] {lib : Lib D} (c : Conf K) (num : α → K) (f : Writer.File α) {s : Dict (Val K D)}
    (hs : postprocess lib (asRead (header c num f)) = .ok s) :
    ("Scale-factor" ∉ (c.extra.getD []).map Prod.fst → s "scale_factor" = some (.raw (.scalar c.scaleFactor)) ∧
      s "a" = some (.raw (.scalar c.scaleFactor))) ∧
    ("Dimension" ∉ (c.extra.getD []).map Prod.fst → s "dimension" = some (.raw (.scalar (c.dimension : K)))) ∧
    ("NumFilesPerSnapshot" ∉ (c.extra.getD []).map Prod.fst → s "num_files_per_snapshot" = some (.raw (.scalar ((1 : Nat) : K)))) := by
  obtain ⟨-, h2, h3, -, -, -, h7⟩ := own_all c num f
  refine ⟨fun h => (c64_scale_factor rfl hs).1 _ _ (h3 h), fun h => (c64_numbers rfl hs "dimension" "Dimension" (by decide +kernel)).1 _ _ (h2 h),
    fun h => ?_⟩
  rw [c64_plain rfl hs "num_files_per_snapshot" "NumFilesPerSnapshot" (by decide +kernel), h7 h]
  rfl

/-- A comoving box at the scale factor of the writer is read back with the same physical size. -/
theorem c68_box [Field K] {lib : Lib D} (b : Box K) (dim : Nat) (a : K) (extra : Option (List (String × Raw K))) (c : Conf K)
    (hc : init b dim a extra = .ok c) (hb : b.comoving = true) (ha : b.scale = a) (num : α → K) (f : Writer.File α)
    (h1 : "BoxSize" ∉ (c.extra.getD []).map Prod.fst) (h2 : "Scale-factor" ∉ (c.extra.getD []).map Prod.fst) {s : Dict (Val K D)}
    (hs : postprocess lib (asRead (header c num f)) = .ok s) :
    (readPhysical (s "boxsize")).isSome = true ∧ readPhysical (s "boxsize") = boxPhysical b := by
  obtain ⟨a', e1, e2⟩ := c64_box rfl hs _ ((own_all c num f).1 h1)
  have e3 := ((c68_numbers c num f hs).1 h2).1
  rw [e1] at e3
  cases e3
  unfold init at hc
  cases hv : b.vals with
  | none => rw [hv] at hc; cases hc
  | some l =>
    rw [hv] at hc
    simp only at hc
    split at hc
    · cases hc
    · cases hc
      rw [e2]
      simp [readPhysical, boxPhysical, hv, hb, ha, mul_assoc]

/-- A box that is not an array, or has another length than there are dimensions, is refused. -/
theorem c68_refused [Mul K] (b : Box K) (dim : Nat) (a : K) (extra : Option (List (String × Raw K)))
    (h : ∀ l : List K, b.vals = some l → l.length ≠ dim) : init b dim a extra = .error .value := by
  unfold init
  cases hv : b.vals with
  | none => rfl
  | some l => simp only [ne_eq, h l hv, not_false_eq_true, if_true]

/-- A reader finds for each type the number of particles that were written, zero for types that were not. -/
theorem c68_counts [Zero K] [One K] [NatCast K] {lib : Lib D} (c : Conf K) (num : α → K) (w : State α) (f : Writer.File α)
    (hw : (write none w).result = .ok f) (he : "NumPart_ThisFile" ∉ (c.extra.getD []).map Prod.fst) {s : Dict (Val K D)}
    (hs : postprocess lib (asRead (header c num f)) = .ok s) (t : Nat) (name : String) (ht : typeOf t = some name) :
    (∀ n : Nat, t ∈ toWrite w → Consistent (w t) t n → s ("n_" ++ name) = some (.raw (.scalar (n : K)))) ∧
    (t ∉ toWrite w → s ("n_" ++ name) = some (.raw (.scalar ((0 : Nat) : K)))) := by
  obtain ⟨h1, -, h3, h4⟩ := c31_written w f hw
  have hc := c64_counts rfl hs _ ((own_all c num f).2.2.2.1 he) t name ht
  have h8 : t < 8 := by
    rcases t with _ | _ | _ | _ | _ | _ | _ | _ | t <;> simp [typeOf] at ht ⊢
  constructor
  · intro n hn hcons
    rw [← h1] at hn
    obtain ⟨e, hem, rfl⟩ := List.mem_map.mp hn
    obtain ⟨m, -, hm, hmn, -⟩ := h3 e hem
    have : m = n := by
      obtain ⟨r1, d1, q1, l1⟩ := hm.fields .masses (by simp [needs])
      obtain ⟨r2, d2, q2, l2⟩ := hcons.fields .masses (by simp [needs])
      rw [q1] at q2
      cases q2
      omega
    rw [hc, List.getElem?_map, hmn, this]
    rfl
  · intro hn
    rw [hc, List.getElem?_map, h4 t h8 hn]
    rfl

/-- The particle types that a reader finds are those that were written. -/
theorem c68_types [Zero K] [One K] [NatCast K] [DecidableEq K] (hk : ∀ n : Nat, (n : K) = 0 ↔ n = 0) {lib : Lib D} (c : Conf K)
    (num : α → K) (w : State α) (f : Writer.File α) (hw : (write none w).result = .ok f)
    (he : "NumPart_ThisFile" ∉ (c.extra.getD []).map Prod.fst) (he' : "CanHaveTypes" ∉ (c.extra.getD []).map Prod.fst)
    {s : Dict (Val K D)} (hs : postprocess lib (asRead (header c num f)) = .ok s) : readTypes s = .ok (toWrite w) := by
  obtain ⟨h1, h2, h3, h4⟩ := c31_written w f hw
  obtain ⟨-, -, -, o4, -, o6, -⟩ := own_all c num f
  have e1 : s "has_type" = none := by
    rw [c64_plain rfl hs "has_type" "CanHaveTypes" (by decide +kernel), o6 he']
    rfl
  have e2 : s "num_part" = some (.raw (.array (f.numPart.map (fun n : Nat => (n : K))))) := by
    rw [c64_plain rfl hs "num_part" "NumPart_ThisFile" (by decide +kernel), o4 he]
    rfl
  unfold readTypes
  rw [e1, e2, Option.none_or]
  simp only [Except.ok.injEq]
  rw [List.length_map, h2]
  unfold toWrite
  refine List.filter_congr ?_
  intro t ht
  have h8 := List.mem_range.mp ht
  rw [List.getElem?_map]
  by_cases hp : t ∈ toWrite w
  · have hp' : Spec.populated (w t) t = true := (List.mem_filter.mp hp).2
    rw [hp']
    rw [← h1] at hp
    obtain ⟨e, hem, rfl⟩ := List.mem_map.mp hp
    obtain ⟨m, hm0, -, hmn, -⟩ := h3 e hem
    rw [hmn]
    simp only [Option.map_some, Option.getD_some, decide_eq_true_eq, ne_eq, hk]
    omega
  · have hp' : Spec.populated (w t) t = false := by
      cases h : Spec.populated (w t) t with
      | false => rfl
      | true =>
        have : t ∈ toWrite w := List.mem_filter.mpr ⟨ht, h⟩
        exact absurd this hp
    rw [hp', h4 t h8 hp]
    simp [hk]

/-- The mass table has the first mass of each type that was written, zero for the others. -/
theorem c68_masses [Zero K] [One K] [NatCast K] {lib : Lib D} (c : Conf K) (num : α → K) (w : State α) (f : Writer.File α)
    (hw : (write none w).result = .ok f) (he : "MassTable" ∉ (c.extra.getD []).map Prod.fst) {s : Dict (Val K D)}
    (hs : postprocess lib (asRead (header c num f)) = .ok s) (t : Nat) (name : String) (ht : typeOf t = some name) :
    ∃ tab : List (String × Option K), s "mass_table" = some (.masses tab) ∧
      (∀ (r : Option (List Nat)) (x : α) (l : List α), t ∈ toWrite w → (w t).field .masses = some ⟨r, x :: l⟩ →
        tab.lookup name = some (some (num x))) ∧
      (t ∉ toWrite w → tab.lookup name = some (some 0)) := by
  obtain ⟨h1, -, h3, -⟩ := c31_written w f hw
  obtain ⟨tab, e1, e2, -⟩ := c64_masses rfl hs "mass_table" "MassTable" (by decide +kernel) t name ht
  have h8 : t < 8 := by
    rcases t with _ | _ | _ | _ | _ | _ | _ | _ | t <;> simp [typeOf] at ht ⊢
  have e3 := e2 _ ((own_all c num f).2.2.2.2.1 he)
  rw [List.getElem?_map, List.getElem?_range h8, Option.map_some] at e3
  refine ⟨tab, e1, ?_, ?_⟩
  · intro r x l hp hf
    rw [e3]
    unfold WriterHeader.massEntry
    have hp' := hp
    rw [← h1] at hp'
    cases hfind : f.groups.find? (fun e => e.type == t) with
    | none =>
      rw [List.find?_eq_none] at hfind
      obtain ⟨e, hem, rfl⟩ := List.mem_map.mp hp'
      exact absurd (beq_self_eq_true _) (hfind e hem)
    | some e =>
      have hem := List.mem_of_find?_eq_some hfind
      have het : e.type = t := by simpa using List.find?_some hfind
      subst het
      obtain ⟨m, -, -, -, -, hin, hout⟩ := h3 e hem
      have hmem := hin .masses (by simp [needs])
      have hl : e.fields.lookup .masses = some (some ⟨r, x :: l⟩) := by
        rw [← hf]
        have : ∀ fs : List (Name × Option (Arr α)), (∀ y ∈ fs, y.2 = (w e.type).field y.1) → (∃ v, (Name.masses, v) ∈ fs) →
            fs.lookup .masses = some ((w e.type).field .masses) := by
          intro fs
          induction fs with
          | nil => rintro - ⟨v, h⟩; cases h
          | cons y fs ih =>
            intro ha hx
            by_cases hy : y.1 = .masses
            · have : (Name.masses == y.1) = true := by rw [hy]; rfl
              rw [List.lookup_cons, this]
              simp only
              rw [ha y (List.mem_cons_self ..), hy]
            · have : (Name.masses == y.1) = false := by simpa using Ne.symm hy
              rw [List.lookup_cons, this]
              refine ih (fun z hz => ha z (List.mem_cons_of_mem _ hz)) ?_
              obtain ⟨v, hv⟩ := hx
              rcases List.mem_cons.mp hv with rfl | hv
              · exact absurd rfl hy
              · exact ⟨v, hv⟩
        exact this e.fields (fun y hy => (hout y hy).2) ⟨_, hmem⟩
      simp only [hl]
      rfl
  · intro hp
    rw [e3]
    unfold WriterHeader.massEntry
    have : f.groups.find? (fun e => e.type == t) = none := by
      rw [List.find?_eq_none]
      intro e hem hb
      have hb : e.type = t := by simpa using hb
      exact hp (h1 ▸ hb ▸ List.mem_map_of_mem hem)
    rw [this]

end

/-- A physical box is written as it is and read as comoving: at scale factor one half it is read with half its size. -/
theorem c68_box_fails (lib : Lib Nat) (f : Writer.File Nat) : ∃ (c : Conf ℚ) (s : Dict (Val ℚ Nat)),
    init ⟨some [10, 10, 10], 1, false, 1 / 2⟩ 3 (1 / 2) none = .ok c ∧
    postprocess lib (asRead (header c (fun x : Nat => (x : ℚ)) f)) = .ok s ∧
    boxPhysical (⟨some [10, 10, 10], 1, false, 1 / 2⟩ : Box ℚ) = some [10, 10, 10] ∧
    readPhysical (s "boxsize") = some [5, 5, 5] := by
  obtain ⟨s, hs⟩ := c68_succeeds lib (⟨[10, 10, 10], 3, 1 / 2, none⟩ : Conf ℚ) rfl (fun x : Nat => (x : ℚ)) f
  refine ⟨_, s, ?_, hs, ?_, ?_⟩
  · simp [init]
  · simp [boxPhysical]
  · have := (c68_box (⟨some [10, 10, 10], 1, true, 1 / 2⟩ : Box ℚ) 3 (1 / 2) none _ (by simp [init]) rfl rfl
      (fun x : Nat => (x : ℚ)) f (by simp) (by simp) hs).2
    rw [this]
    simp only [boxPhysical, Option.map_some, List.map_cons, List.map_nil, if_true]
    norm_num

/-- The units of a written file are read back up to five parts in a hundred thousand, and exactly if they are numbers of five
digits times a unit of the table of the reader. -/
theorem c68_units (base : Dim → ℝ) (table : Dim → List ℝ) (ht : ∀ d : Dim, ∀ x : ℝ, x ∈ table d → 0 < x) (hb : ∀ d : Dim, 0 < base d)
    (d : Dim) (hd : d ≠ .current) (hne : table d ≠ []) :
    ∃ (i : Nat) (v c : ℝ), loadUnit table (unitAttrs base) d = .ok (i, v) ∧ (table d)[i]? = some c ∧
      |v * c - base d| ≤ 5 / 100000 * base d ∧ (FiveDigits (base d / c) → v * c = base d) := by
  obtain ⟨i, v, h⟩ := c51_total (table d) (base d) hne
  obtain ⟨c, h1, h2, -⟩ := c51_error (table d) (base d) (ht d) (hb d) i v h
  refine ⟨i, v, c, ?_, h1, h2, fun h5 => c51_exact (table d) (base d) i v c h h1 (ne_of_gt (ht d c (List.mem_of_getElem? h1))) h5⟩
  rw [← h]
  have hu : Units.unitDict (unitAttrs base) = .ok [(.mass, base .mass), (.length, base .length), (.time, base .time), (.current, 1),
      (.temperature, base .temperature)] := rfl
  unfold loadUnit
  rw [hu]
  cases d <;> first | exact absurd rfl hd | rfl

/-- The unit of current is always written as one ampere. -/
theorem c68_current_fails : ∃ (base : Dim → ℝ) (i : Nat) (v : ℝ), base .current = 1 / 10 ∧
    loadUnit (fun _ => [1]) (unitAttrs base) .current = .ok (i, v) ∧ v = 1 := by
  refine ⟨fun d => if d = .current then 1 / 10 else 1, 0, _, by simp, rfl, ?_⟩
  have h1 : findNearest [1] 1 = .ok (0, Units.sig5 (1 / ([1] : List ℝ)[0]?.getD 0)) := rfl
  have := c51_exact [1] 1 0 _ 1 h1 rfl one_ne_zero ⟨1, 0, by norm_num, by norm_num⟩
  simpa using this

/-! A writer with two gas and three dark matter particles. -/

private def exampleWriter : State Nat := sampleState (some (sample 2 none)) (some (sample 3 (some [7, 8, 9])))

private def exampleConf : Conf ℚ := ⟨[100, 100, 100], 3, 1 / 2, none⟩

private def exampleLib : Lib Nat := ⟨fun _ => none, fun _ => none, fun _ => none⟩

private theorem exampleFile : ∃ f : Writer.File Nat, (write none exampleWriter).result = .ok f := by
  cases h : (write none exampleWriter).result with
  | ok f => exact ⟨f, rfl⟩
  | error e =>
    have : (write none exampleWriter).result.toOption.isSome = true := by decide +kernel
    rw [h] at this
    cases this

private theorem exampleTypes : toWrite exampleWriter = [0, 1] := by decide +kernel

private theorem exampleRead (f : Writer.File Nat) :
    ∃ s : Dict (Val ℚ Nat), postprocess exampleLib (asRead (header exampleConf (fun x : Nat => (x : ℚ)) f)) = .ok s := by
  exact c68_succeeds exampleLib exampleConf rfl _ f

example : ∃ (f : Writer.File Nat) (s : Dict (Val ℚ Nat)), (write none exampleWriter).result = .ok f ∧
    postprocess exampleLib (asRead (header exampleConf (fun x : Nat => (x : ℚ)) f)) = .ok s ∧
    readTypes s = .ok [0, 1] ∧ s "n_sidm" = some (.raw (.scalar ((0 : Nat) : ℚ))) ∧
    s "dimension" = some (.raw (.scalar ((3 : Nat) : ℚ))) ∧ ∃ tab : List (String × Option ℚ), s "mass_table" = some (.masses tab) ∧
      tab.lookup "gas" = some (some ((0 : Nat) : ℚ)) := by
  obtain ⟨f, hf⟩ := exampleFile
  obtain ⟨s, hs⟩ := exampleRead f
  refine ⟨f, s, hf, hs, ?_, ?_, ?_, ?_⟩
  · rw [← exampleTypes]
    exact c68_types (fun n => Nat.cast_eq_zero) exampleConf _ exampleWriter f hf (by decide +kernel) (by decide +kernel) hs
  · exact (c68_counts exampleConf _ exampleWriter f hf (by decide +kernel) hs 7 "sidm" rfl).2 (by rw [exampleTypes]; decide)
  · exact (c68_numbers exampleConf _ f hs).2.1 (by decide +kernel)
  · obtain ⟨tab, h1, h2, -⟩ := c68_masses exampleConf _ exampleWriter f hf (by decide +kernel) hs 0 "gas" rfl
    exact ⟨tab, h1, h2 (some []) 0 [1] (by rw [exampleTypes]; decide) rfl⟩

example (f : Writer.File Nat) :
    header (⟨[1], 1, 1, some [("RunName", .text "test")]⟩ : Conf ℚ) (fun x : Nat => (x : ℚ)) f "RunName" = some (.text "test") :=
  (c68_extra _ _ f "RunName").1 _ (by decide +kernel) (by decide +kernel)

example : (init (⟨some [10, 10], 1, true, 1⟩ : Box ℚ) 3 1 none).toOption.isNone = true := by
  rw [c68_refused _ _ _ _ (by rintro l ⟨⟩; decide)]
  rfl

example : ∃ (i : Nat) (v c : ℝ), loadUnit (fun _ => [1]) (unitAttrs (fun _ => 2)) .mass = .ok (i, v) ∧ ([1] : List ℝ)[i]? = some c ∧
    |v * c - 2| ≤ 5 / 100000 * 2 ∧ (FiveDigits (2 / c) → v * c = 2) :=
  c68_units (fun _ => 2) (fun _ => [1]) (by simp) (by simp) .mass (by decide) (by simp)

/-- A unit of six digits is not read back as it was written. -/
theorem c68_units_fails : ∃ (base : Dim → ℝ) (i : Nat) (v : ℝ), loadUnit (fun _ => [1]) (unitAttrs base) .time = .ok (i, v) ∧
    base .time = 977792 / 1000 ∧ v * 1 ≠ base .time := by
  obtain ⟨i, v, h⟩ := c51_total [1] (977792 / 1000) (by simp)
  refine ⟨fun _ => 977792 / 1000, i, v, ?_, rfl, ?_⟩
  · rw [← h]
    rfl
  · intro e
    obtain ⟨m, k, hm, hv⟩ := c51_digits [1] _ i v h
    rw [mul_one] at e
    rw [e] at hv
    by_cases hk : -2 ≤ k
    · obtain ⟨n, hn⟩ := Int.eq_ofNat_of_zero_le (by omega : 0 ≤ k + 2)
      have h10 : (10 : ℝ) ^ k * 100 = 10 ^ n := by
        have : (10 : ℝ) ^ (k + 2) = 10 ^ n := by rw [hn]; exact zpow_natCast _ _
        rw [← this, zpow_add₀ (by norm_num)]
        norm_num
      have h11 : (977792 : ℝ) = m * 10 ^ n * 10 := by
        rw [← h10]
        linarith
      have h12 : (977792 : Int) = m * 10 ^ n * 10 := by exact_mod_cast h11
      omega
    · have h1 : (10 : ℝ) ^ k ≤ (10 : ℝ) ^ (-3 : Int) := zpow_le_zpow_right₀ (by norm_num) (by omega)
      have h2 : (m : ℝ) ≤ 100000 := by exact_mod_cast (le_trans (le_abs_self m) hm)
      have h3 : (0 : ℝ) < (10 : ℝ) ^ k := by positivity
      have h4 : (10 : ℝ) ^ (-3 : Int) = 1 / 1000 := by norm_num
      have h5 : (m : ℝ) * (10 : ℝ) ^ k ≤ 100000 * (10 : ℝ) ^ k := mul_le_mul_of_nonneg_right h2 h3.le
      dsimp only at hv
      rw [h4] at h1
      linarith

end Verif.Props
