import Verif.Spec.Refusals
import Verif.Props.Values
import Verif.Props.Subset
import Verif.Props.Writer

/-! # C109: what is left behind by calls that raise -/

namespace Verif.Props
open Verif Verif.Cosmo Verif.Spec Verif.Names Verif.Refusals
open Verif.Mask (File State Op run init advertised toRanges writeSubset)
open Verif.Accel (Layout)

private theorem stuck_error {c : Bool} {x : Arr} (h : Stuck c x) :
    ∃ e, (if c then x.convertToComoving else x.convertToPhysical) = .error e := by
  rcases h with h | ⟨h, h'⟩
  · cases c
    · exact ⟨.invalidConversion, by simp [Arr.convertToPhysical, h]⟩
    · exact ⟨.invalidConversion, by simp [Arr.convertToComoving, h]⟩
  · cases c
    · rcases h' with ⟨h', -⟩ | h'
      · cases h'
      · exact ⟨.attribute, by simp [Arr.convertToPhysical, h, Arr.factor, h']⟩
    · rcases h' with ⟨-, h'⟩ | h'
      · exact ⟨.invalidConversion, by simp [Arr.convertToComoving, h, h']⟩
      · by_cases hv : x.vt = false
        · exact ⟨.invalidConversion, by simp [Arr.convertToComoving, h, hv]⟩
        · exact ⟨.attribute, by simp [Arr.convertToComoving, h, hv, Arr.factor, h']⟩

/-- C109 (missing part: conversions with units, `c109_conversion_fails`). A conversion in place without units, or with units of other
dimensions, that raises leaves the array as it was. -/
theorem c109_conversion_partial (c : Bool) (q : Ask) (hq : ∀ u, q ≠ .unit u) (x : Full) (e : Err) (h : (convertTo c q x).2 = some e) :
    (convertTo c q x).1 = x := by
  unfold convertTo at h ⊢
  cases q with
  | unit u => exact absurd rfl (hq u)
  | foreign => rfl
  | keep =>
    simp only [unitsFirst] at h ⊢
    generalize (if c then x.arr.convertToComoving else x.arr.convertToPhysical) = r at h ⊢
    cases r with
    | ok z => cases h
    | error e => rfl

/-- C109. A conversion in place that raises never changes what the array means: its values in base units, its frame, its factor and
its other attributes are the same. -/
theorem c109_meaning (c : Bool) (q : Ask) (hq : ∀ u, q = .unit u → u ≠ 0) (x : Full) (e : Err) (h : (convertTo c q x).2 = some e) :
    inBase (convertTo c q x).1 = inBase x ∧ (convertTo c q x).1.arr.comoving = x.arr.comoving ∧ (convertTo c q x).1.arr.cf = x.arr.cf ∧
      (convertTo c q x).1.arr.vt = x.arr.vt ∧ (convertTo c q x).1.compression = x.compression := by
  cases q with
  | keep => rw [c109_conversion_partial c .keep (fun u h => by cases h) x e h]; exact ⟨rfl, rfl, rfl, rfl, rfl⟩
  | foreign => rw [c109_conversion_partial c .foreign (fun u h => by cases h) x e h]; exact ⟨rfl, rfl, rfl, rfl, rfl⟩
  | unit u =>
    have hu := hq u rfl
    unfold convertTo at h ⊢
    simp only [unitsFirst] at h ⊢
    generalize (if c then (x.inUnits u).arr.convertToComoving else (x.inUnits u).arr.convertToPhysical) = r at h ⊢
    cases r with
    | ok z => cases h
    | error e =>
      refine ⟨?_, rfl, rfl, rfl, rfl⟩
      simp only [finish, inBase, Full.inUnits, List.map_map]
      refine List.map_congr_left fun v _ => ?_
      simp only [Function.comp]
      field_simp

/-- C109 fails for conversions with units: an array that cannot be converted to the frame has other units after the exception. -/
theorem c109_conversion_fails (c : Bool) {u : ℝ} {x : Full} (h : Stuck c x.arr) (hu : u ≠ x.unit) :
    (∃ e, (convertTo c (.unit u) x).2 = some e) ∧ (convertTo c (.unit u) x).1 ≠ x := by
  obtain ⟨e, he⟩ : ∃ e, (if c then (x.inUnits u).arr.convertToComoving else (x.inUnits u).arr.convertToPhysical) = .error e :=
    stuck_error (x := (x.inUnits u).arr) h
  unfold convertTo
  simp only [unitsFirst, he, finish]
  refine ⟨⟨e, rfl⟩, fun q => hu ?_⟩
  rw [← q]
  rfl

/-- C109. A conversion in place of a convertible array is accepted unless units of other dimensions are asked for; the array then has the
unit that was asked for (or its own), the frame, and the same physical values. -/
theorem c109_converted {a k : ℝ} (c : Bool) {q : Ask} (hq : ∀ u, q = .unit u → u ≠ 0) {x : Full} (hx : Conv a k x.arr) :
    ((convertTo c q x).2 = none ↔ q ≠ .foreign) ∧
      (q ≠ .foreign → Conv a k (convertTo c q x).1.arr ∧ (convertTo c q x).1.phys = x.phys ∧ (convertTo c q x).1.arr.comoving = some c ∧
        ((∀ u, q = .unit u → (convertTo c q x).1.unit = u) ∧ (q = .keep → (convertTo c q x).1.unit = x.unit)) ∧
        (convertTo c q x).1.compression = x.compression) := by
  have key : ∀ (u : Option ℝ) (y : Full), x.to u (some c) = .ok y → finish (x.maybeUnits u)
      (if c then (x.maybeUnits u).arr.convertToComoving else (x.maybeUnits u).arr.convertToPhysical) = (y, none) := by
    intro u y h
    unfold Full.to at h
    rw [if_neg (by simp [hx.vt])] at h
    dsimp only at h
    cases c with
    | true =>
      cases hr : (x.maybeUnits u).arr.convertToComoving with
      | error e => rw [hr] at h; cases h
      | ok z => rw [hr] at h; cases h; simp [finish]
    | false =>
      cases hr : (x.maybeUnits u).arr.convertToPhysical with
      | error e => rw [hr] at h; cases h
      | ok z => rw [hr] at h; cases h; simp [finish]
  cases q with
  | foreign => simp [convertTo, unitsFirst]
  | keep =>
    obtain ⟨y, e1, e2, e3, e4, e5, e6⟩ := c75_to hx none (by simp) (some c)
    have e : convertTo c .keep x = (y, none) := key none y e1
    rw [e]
    exact ⟨by simp, fun _ => ⟨e2, e3, e5, ⟨fun u h => (nomatch h), fun _ => e4⟩, e6⟩⟩
  | unit u =>
    obtain ⟨y, e1, e2, e3, e4, e5, e6⟩ := c75_to hx (some u) (by simpa using hq u rfl) (some c)
    have e : convertTo c (.unit u) x = (y, none) := key (some u) y e1
    rw [e]
    exact ⟨by simp, fun _ => ⟨e2, e3, e5, ⟨fun v h => (by cases h; exact e4), fun h => nomatch h⟩, e6⟩⟩

example : Conv (1 / 2) 1 (⟨com (1 / 2) 1 3, 2, none⟩ : Full).arr ∧ ∀ u, Ask.unit 3 = .unit u → u ≠ 0 :=
  ⟨com_conv (by norm_num) _ _, fun u h => by cases h; norm_num⟩
example : Stuck true (⟨[1, 2], some false, some ⟨some 1, some (1 / 2)⟩, false⟩ : Arr) ∧ (3 : ℝ) ≠ 1 :=
  ⟨.inr ⟨rfl, .inl ⟨rfl, rfl⟩⟩, by norm_num⟩
example : ∃ e, (convertTo true .keep (⟨⟨[1, 2], some false, none, true⟩, 1, none⟩ : Full)).2 = some e := ⟨.attribute, by
  simp [convertTo, unitsFirst, Arr.convertToComoving, Arr.factor, finish]⟩

section Subset
variable {K : Type} [Field K] [LinearOrder K] {m : Nat}

/-- C109. `write_subset` never touches files at other paths, or the file of the mask; without a constraint it changes nothing at all. -/
theorem c109_other_files (d : SubsetDisk K m) (own path : Str) (f : File K m) (s : State m) (allow : Bool)
    (names : List (String × String)) (lay : String × String → Layout) :
    (∀ p, p ≠ path → (saveSubset d own path f s allow names lay).disk p = d p) ∧
      (saveSubset d own path f s allow names lay).disk own = d own ∧
      (path = own → (saveSubset d own path f s allow names lay).err ≠ none) ∧
      (s.constrained = none → saveSubset d own path f s false names lay = ⟨d, s, some .value⟩) := by
  have key : ∀ p, (p ≠ path ∨ path = own) → (saveSubset d own path f s allow names lay).disk p = d p := by
    intro p hp
    unfold saveSubset
    by_cases h1 : s.constrained = none ∧ allow = false
    · rw [if_pos h1]
    · rw [if_neg h1]
      by_cases h2 : path = own
      · rw [if_pos h2]
      · rw [if_neg h2]
        have hp : p ≠ path := hp.resolve_right h2
        cases Mask.writeBody f s names lay with
        | ok out => simp [Disk.put, hp]
        | error e => simp [Disk.put, hp]
  refine ⟨fun p hp => key p (.inl hp), ?_, ?_, fun h => by simp [saveSubset, h]⟩
  · by_cases h : path = own
    · exact key own (.inr h)
    · exact key own (.inl (Ne.symm h))
  · intro h
    unfold saveSubset
    by_cases h1 : s.constrained = none ∧ allow = false
    · rw [if_pos h1]; simp
    · rw [if_neg h1, if_pos h]; simp

variable [IsStrictOrderedRing K]

/-- C109. Whether it raises or not, `write_subset` leaves a mask that selects the same rows, has the same last constraint and would be
loaded in the same way. -/
theorem c109_mask (d : SubsetDisk K m) (own path : Str) (f : File K m) (hf : WF f) (ops : List (Op K)) (hi : ∀ op ∈ ops, IndicesOk f op)
    (allow : Bool) (names : List (String × String)) (lay : String × String → Layout) (k : Fin m) :
    (∀ i, Selects (saveSubset d own path f (run f ops) allow names lay).mask k i ↔ Selects (run f ops) k i) ∧
      (saveSubset d own path f (run f ops) allow names lay).mask.constrained = (run f ops).constrained ∧
      advertised (saveSubset d own path f (run f ops) allow names lay).mask k = advertised (run f ops) k := by
  have hm : (saveSubset d own path f (run f ops) allow names lay).mask = run f ops ∨
      (saveSubset d own path f (run f ops) allow names lay).mask = toRanges (run f ops) := by
    unfold saveSubset
    by_cases h1 : (run f ops).constrained = none ∧ allow = false
    · rw [if_pos h1]; exact .inl rfl
    · rw [if_neg h1]
      by_cases h2 : path = own
      · rw [if_pos h2]; exact .inr rfl
      · rw [if_neg h2]
        cases Mask.writeBody f (run f ops) names lay <;> exact .inr rfl
  rcases hm with hm | hm
  · rw [hm]; exact ⟨fun i => Iff.rfl, rfl, rfl⟩
  · have hr : toRanges (run f ops) = run f (ops ++ [.toRanges]) := by
      unfold run; rw [List.foldl_append]; rfl
    refine ⟨fun i => ?_, ?_, ?_⟩
    · rw [hm, hr]
      exact c08_conversions_preserve f hf ops [.toRanges] hi (by simp) k i
    · rw [hm]; unfold toRanges; cases (run f ops).rep <;> rfl
    · rw [hm]
      unfold advertised
      congr 1
      conv_lhs => unfold toRanges
      generalize hs : run f ops = s
      cases hrep : s.rep with
      | ranges r => simp [toRanges, hrep]
      | bools b => simp [toRanges, hrep]

/-- C109 (missing part: datasets without rows, `c109_subset_fails`). If all datasets have rows, a call to `write_subset` either leaves
all files as they were or finishes the file at the path. -/
theorem c109_subset_partial (d : SubsetDisk K m) (own path : Str) (f : File K m) (hf : WF f) (hc : ∀ k, f.cells k ≠ []) (ops : List (Op K))
    (hi : ∀ op ∈ ops, IndicesOk f op) (allow : Bool) (names : List (String × String)) (lay : String × String → Layout)
    (hw : ∀ n ∈ names, Writable f lay n) :
    ((saveSubset d own path f (run f ops) allow names lay).err ≠ none → (saveSubset d own path f (run f ops) allow names lay).disk = d) ∧
      ((saveSubset d own path f (run f ops) allow names lay).err = none →
        ∃ out, writeSubset f (run f ops) allow names lay = .ok out ∧
          (saveSubset d own path f (run f ops) allow names lay).disk path = some (.whole out)) := by
  obtain ⟨out, h1, -⟩ := c17_subset_partial f hf hc ops hi true (.inr rfl) names lay hw
  have h1 : Mask.writeBody f (run f ops) names lay = .ok out := by simpa [writeSubset] using h1
  unfold saveSubset
  by_cases h2 : (run f ops).constrained = none ∧ allow = false
  · simp [h2]
  · rw [if_neg h2]
    by_cases h3 : path = own
    · simp [h3]
    · rw [if_neg h3, h1]
      refine ⟨fun h => absurd rfl h, fun _ => ⟨out, ?_, by simp [Disk.put]⟩⟩
      unfold writeSubset
      rw [if_neg h2, h1]

/-- C109 fails for `write_subset` when the file has a kind of particle without cells: with any range of it in the mask the call raises an
IndexError, and whatever was at the path is replaced by a broken file. -/
theorem c109_no_cells_fails (d : SubsetDisk K m) {own path : Str} (hp : path ≠ own) (f : File K m) (s : State m)
    {allow : Bool} (ha : s.constrained ≠ none ∨ allow = true) (names : List (String × String)) (lay : String × String → Layout)
    {r : Fin m → List Rng} (hr : (toRanges s).rep = .ranges r) {k : Fin m} (hk : r k ≠ []) (hc : f.cells k = []) :
    writeSubset f s allow names lay = .error .index ∧
      (saveSubset d own path f s allow names lay).err = some .index ∧
      ∃ y, (saveSubset d own path f s allow names lay).disk path = some (.broken y) := by
  have hm : Mask.maskedCounts f (toRanges s) k = .error .index := by
    unfold Mask.maskedCounts
    rw [hr]
    obtain ⟨x, xs, hx⟩ := List.exists_cons_of_ne_nil hk
    simp [Mask.cellTable, hc, Mask.rangeCounts, hx, Mask.cellsOfRange, Mask.addCell, Mask.searchRight, bind, Except.bind]
  have hf : Mask.forKeys (fun k => Mask.maskedCounts f (toRanges s) k) = .error .index := by
    unfold Mask.forKeys
    rw [dif_neg]
    intro h
    have := h k
    simp only [hm] at this
    cases this
  have hb : Mask.writeBody f s names lay = .error .index := by
    unfold Mask.writeBody
    rw [hr]
    simp [hf, bind, Except.bind]
  have hg : ¬ (s.constrained = none ∧ allow = false) := by
    rintro ⟨h1, h2⟩
    rcases ha with h | h
    · exact h h1
    · rw [h] at h2; cases h2
  refine ⟨by unfold writeSubset; rw [if_neg hg, hb], ?_⟩
  unfold saveSubset
  rw [if_neg hg, if_neg hp, hb]
  exact ⟨rfl, leftover f s names lay, by simp [Disk.put]⟩

/-- C109 fails for `write_subset` with a dataset without rows: whatever was at the path is replaced by a broken file, and the call
raises. -/
theorem c109_subset_fails (d : SubsetDisk K m) {own path : Str} (hp : path ≠ own) (f : File K m) (s : State m)
    {allow : Bool} (ha : s.constrained ≠ none ∨ allow = true) {names : List (String × String)} (lay : String × String → Layout)
    {n : String × String} (hn : n ∈ names) (he : f.field n.1 n.2 = some []) :
    (saveSubset d own path f s allow names lay).err ≠ none ∧
      ∃ y, (saveSubset d own path f s allow names lay).disk path = some (.broken y) ∧ ∀ v, (n, v) ∉ y := by
  have hd : ∀ (r : Fin m → List Rng) size, ∀ names, n ∈ names → ∃ e, Mask.writeData f r size lay names = .error e := by
    intro r size names
    induction names with
    | nil => intro h; cases h
    | cons n' ns ih =>
      intro h
      unfold Mask.writeData
      by_cases hnn : n = n'
      · subst hnn
        refine ⟨.index, ?_⟩
        simp [Mask.writeDataset, he, bind, Except.bind]
      · obtain ⟨e, h⟩ := ih ((List.mem_cons.mp h).resolve_left hnn)
        cases Mask.writeDataset f r size (lay n') n' with
        | error e => exact ⟨e, rfl⟩
        | ok v => exact ⟨e, by simp [bind, Except.bind, h]⟩
  have hb : ∃ e, Mask.writeBody f s names lay = .error e := by
    unfold Mask.writeBody
    cases (toRanges s).rep with
    | bools b => exact ⟨_, rfl⟩
    | ranges r =>
      dsimp only
      cases Mask.forKeys (fun k => Mask.maskedCounts f (toRanges s) k) with
      | error e => exact ⟨e, rfl⟩
      | ok c =>
        obtain ⟨e, h⟩ := hd r (toRanges s).size names hn
        exact ⟨e, by simp [bind, Except.bind, h]⟩
  obtain ⟨e, hb⟩ := hb
  unfold saveSubset
  rw [if_neg (by rintro ⟨h1, h2⟩; rcases ha with h | h; exact h h1; rw [h] at h2; cases h2), if_neg hp, hb]
  refine ⟨by simp, leftover f s names lay, by simp [Disk.put], ?_⟩
  have hl : ∀ (r : Fin m → List Rng) size, ∀ names v, (n, v) ∉ writtenData f r size lay names := by
    intro r size names
    induction names with
    | nil => intro v h; cases h
    | cons n' ns ih =>
      intro v h
      unfold writtenData at h
      cases hx : Mask.writeDataset f r size (lay n') n' with
      | error e => rw [hx] at h; cases h
      | ok w =>
        rw [hx] at h
        rcases List.mem_cons.mp h with h | h
        · cases h
          simp [Mask.writeDataset, he] at hx
        · exact ih v h
  intro v h
  unfold leftover at h
  split at h
  · exact hl _ _ _ v h
  · cases h

end Subset

section Example
open Verif.Mask

/-- A file that is there is lost, one dataset is in the broken file. -/
example : (saveSubset (fun _ => some (.old 7)) "a".toList "b".toList { exFile with field := fun g q => if g = "stars" then some [] else exFile.field g q }
      (run exFile [.spatial [some [1/4, 3/4], none, none] false]) false [("gas", "masses"), ("stars", "masses"), ("gas", "masses")]
      (fun _ => .contiguous)).err = some .index ∧
    leftover { exFile with field := fun g q => if g = "stars" then some [] else exFile.field g q }
      (run exFile [.spatial [some [1/4, 3/4], none, none] false]) [("gas", "masses"), ("stars", "masses"), ("gas", "masses")]
      (fun _ => .contiguous) = [(("gas", "masses"), [some 1, some 2])] := by decide +kernel

/-- Without cells for the first kind of particle. -/
example : writeSubset { exFile with cells := fun k => if k = 0 then [] else exFile.cells k } (run exFile []) true
      [("gas", "masses")] (fun _ => .contiguous) = .error .index :=
  (c109_no_cells_fails (fun _ => none) (own := "a".toList) (path := "b".toList) (by decide) _ (run exFile []) (.inr rfl) _ _ (k := 0)
    rfl (by decide +kernel) rfl).1

example : ("b".toList : Str) ≠ "a".toList := by decide
end Example

variable {α : Type}

private theorem closed_error (extra : Option (List Nat)) (w : Writer.State α) (h : (Writer.write extra w).opened = false) :
    ∃ e, (Writer.write extra w).result = .error e := by
  unfold Writer.write at h ⊢
  cases h1 : Writer.collect w (List.range 8) with
  | error e => exact ⟨e, rfl⟩
  | ok names =>
    rw [h1] at h
    dsimp only at h ⊢
    by_cases h2 : (names.any fun x => x.2.2) = true
    · rw [if_pos h2] at h ⊢
      cases h3 : Writer.generateIds (names.map (fun x => (x.1, x.2.1))) 1 w with
      | error e => exact ⟨e, rfl⟩
      | ok w' => rw [h3] at h; cases h
    · rw [if_neg h2] at h ⊢
      by_cases h4 : names = []
      · rw [if_pos h4]; exact ⟨_, rfl⟩
      · rw [if_neg h4] at h ⊢
        by_cases h5 : (names.flatMap (fun x => ((w x.1).ids).getD [])).dedup.length ≠ (names.flatMap (fun x => ((w x.1).ids).getD [])).length
        · rw [if_pos h5]; exact ⟨_, rfl⟩
        · rw [if_neg h5] at h; cases h

/-- C109 (missing part: types without particles, `c109_snapshot_fails`). If no type that is written has zero particles, a call to `write`
that raises leaves all files as they were; one that does not raise finishes the file. Other paths are never touched. -/
theorem c109_snapshot_partial (d : Disk (Writer.File α) Unit) (path : Str) (w : Writer.State α) :
    (∀ p, p ≠ path → (saveSnapshot d path none w).1 p = d p) ∧
      (∀ e, (saveSnapshot d path none w).2 = some e → (∀ t : Nat, t ∈ toWrite w → ¬ Consistent (w t) t 0) →
        (saveSnapshot d path none w).1 = d) ∧
      ((saveSnapshot d path none w).2 = none →
        ∃ f, (Writer.write none w).result = .ok f ∧ (saveSnapshot d path none w).1 path = some (.whole f)) := by
  have hclosed := closed_error none w
  unfold saveSnapshot
  refine ⟨fun p hp => ?_, fun e he hz => ?_, fun he => ?_⟩
  · rcases (Writer.write none w).opened with _ | _ <;> rcases (Writer.write none w).result with _ | _ <;> simp [Disk.put, hp]
  · cases ho : (Writer.write none w).opened with
    | false => cases (Writer.write none w).result <;> rfl
    | true =>
      cases hr : (Writer.write none w).result with
      | ok f => rw [ho, hr] at he; cases he
      | error e' =>
        obtain ⟨-, t, h1, h2⟩ := c31_refused w e' hr ho
        exact absurd h2 (hz t h1)
  · cases ho : (Writer.write none w).opened with
    | false =>
      obtain ⟨e, hr⟩ := hclosed ho
      rw [ho, hr] at he
      cases he
    | true =>
      cases hr : (Writer.write none w).result with
      | ok f => exact ⟨f, rfl, by simp [Disk.put]⟩
      | error e => rw [ho, hr] at he; cases he

/-- C109 fails for a type without particles: the file that was there is replaced by a broken one. -/
theorem c109_snapshot_fails (d : Disk (Writer.File Nat) Unit) (path : Str) :
    (saveSnapshot d path none (sampleState (some (sample 0 none)) none)).2 ≠ none ∧
      ∃ y, (saveSnapshot d path none (sampleState (some (sample 0 none)) none)).1 path = some (.broken y) := by
  obtain ⟨h1, h2⟩ := c31_no_particles_fails
  unfold saveSnapshot
  rw [h1]
  cases h : (Writer.write none (sampleState (some (sample 0 none)) none)).result with
  | ok f => rw [h] at h2; cases h2
  | error e => exact ⟨by simp, (), by simp [Disk.put]⟩

end Verif.Props
