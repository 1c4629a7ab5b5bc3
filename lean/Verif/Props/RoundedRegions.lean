import Verif.Props.RoundedCuts
import Verif.Props.FloatingGrowth

/-!
# C146: laws that relate spatial masks in double precision (`swiftsimio/masks.py`)
-/

namespace Verif.Props
open Verif Verif.Spec Verif.Accel Verif.Mask

variable {K : Type} [Field K] [LinearOrder K] {m : Nat}

/-- The call is accepted: it is a region inside of the window in which regions may lie. -/
def AcceptedAs (fl : K → K) (f : File K m) (rows : List (Option (List K))) (reg : Fin 3 → K × K) : Prop :=
  RegionIs f.box rows reg ∧ RoundedMask.regionOk fl f.box reg = true

/-- The second region contains the first one, whose ends are in order along each axis. -/
def InsideOf (reg reg' : Fin 3 → K × K) : Prop := ∀ d, (reg' d).1 ≤ (reg d).1 ∧ (reg d).1 ≤ (reg d).2 ∧ (reg d).2 ≤ (reg' d).2

/-- C146. The order of the calls and repeated calls do not matter, and neither do calls that are refused. -/
theorem c146_order (fl : K → K) (f : File K m) (hf : WF f) (calls calls' : List (List (Option (List K))))
    (h : ∀ rows reg, AcceptedAs fl f rows reg → (rows ∈ calls ↔ rows ∈ calls')) (k : Fin m) (i : Int) :
    Selects (RoundedMask.spatials fl f calls) k i ↔ Selects (RoundedMask.spatials fl f calls') k i := by
  rw [selects_iff_keeps fl f hf, selects_iff_keeps fl f hf]
  have e1 : ∀ P : (Fin 3 → K × K) → Prop,
      (∃ rows ∈ calls, ∃ reg, RegionIs f.box rows reg ∧ RoundedMask.regionOk fl f.box reg = true ∧ P reg) ↔
      (∃ rows ∈ calls', ∃ reg, RegionIs f.box rows reg ∧ RoundedMask.regionOk fl f.box reg = true ∧ P reg) := by
    intro P
    constructor
    · rintro ⟨rows, hr, reg, q1, q2, q3⟩
      exact ⟨rows, (h rows reg ⟨q1, q2⟩).1 hr, reg, q1, q2, q3⟩
    · rintro ⟨rows, hr, reg, q1, q2, q3⟩
      exact ⟨rows, (h rows reg ⟨q1, q2⟩).2 hr, reg, q1, q2, q3⟩
  have e2 := e1 fun _ => True
  simp only [and_true] at e2
  rw [e2, e1]

private theorem ordered_same {fl : K → K} {L l u : K} (h : l ≤ u) : RoundedMask.normaliseAxis fl L l u = (l, u) := by
  unfold RoundedMask.normaliseAxis
  rw [if_neg (not_lt.2 h)]

private theorem keep_wider {fl : K → K} {L l u l' u' lo hi : K} (h1 : l' ≤ l) (h2 : u ≤ u') (h : RoundedMask.axisKeep fl L l u lo hi = true) :
    RoundedMask.axisKeep fl L l' u' lo hi = true := by
  unfold RoundedMask.axisKeep at h ⊢
  rw [List.any_eq_true] at h ⊢
  obtain ⟨s, hs, h⟩ := h
  refine ⟨s, hs, ?_⟩
  rw [Bool.and_eq_true, decide_eq_true_iff, decide_eq_true_iff] at h ⊢
  exact ⟨lt_of_le_of_lt h1 h.1, lt_of_lt_of_le h.2 h2⟩

section
variable [IsStrictOrderedRing K]

private theorem keeps_wider {fl : K → K} (hfl : OrderKeeping fl) {box : Fin 3 → K} {reg reg' : Fin 3 → K × K} (h : InsideOf reg reg') {d : Fin 3} {c : Cell K}
    (hk : RoundedMask.keeps fl box reg d c = true) : RoundedMask.keeps fl box reg' d c = true := by
  obtain ⟨h1, h2, h3⟩ := h d
  have h4 : (reg' d).1 ≤ (reg' d).2 := h1.trans (h2.trans h3)
  unfold RoundedMask.keeps at hk ⊢
  have pos : ∀ a b : K, a ≤ b → 0 ≤ fl (b - a) := fun a b hab => by
    have := hfl.mono 0 (b - a) (sub_nonneg.2 hab)
    rwa [hfl.zero] at this
  rw [abs_of_nonneg (pos _ _ h2), ordered_same h2] at hk
  rw [abs_of_nonneg (pos _ _ h4), ordered_same h4]
  have hw : fl ((reg d).2 - (reg d).1) ≤ fl ((reg' d).2 - (reg' d).1) := hfl.mono _ _ (by linarith)
  by_cases hb : fl ((reg' d).2 - (reg' d).1) > box d
  · rw [if_pos hb]
  · rw [if_neg hb]
    rw [if_neg (fun hcon => hb (lt_of_lt_of_le hcon hw))] at hk
    exact keep_wider h1 h3 hk

/-- C146. Larger regions select at least the same rows, to the last digit. -/
theorem c146_wider (fl : K → K) (hfl : OrderKeeping fl) (f : File K m) (hf : WF f) (calls calls' : List (List (Option (List K))))
    (hy : ∃ rows ∈ calls, ∃ reg, AcceptedAs fl f rows reg)
    (h : ∀ rows ∈ calls, ∀ reg, AcceptedAs fl f rows reg → ∃ rows' ∈ calls', ∃ reg', AcceptedAs fl f rows' reg' ∧ InsideOf reg reg') (k : Fin m)
    (i : Int) (hs : Selects (RoundedMask.spatials fl f calls) k i) : Selects (RoundedMask.spatials fl f calls') k i := by
  rw [selects_iff_keeps fl f hf] at hs ⊢
  rcases hs with ⟨rows, hr, reg, q1, q2, c, hc, hi, hk⟩ | ⟨hn, -⟩
  · obtain ⟨rows', hr', reg', ⟨p1, p2⟩, hw⟩ := h rows hr reg ⟨q1, q2⟩
    exact .inl ⟨rows', hr', reg', p1, p2, c, hc, hi, fun d => keeps_wider hfl hw (hk d)⟩
  · exact absurd hy hn

/-- The part of a region below and above a plane. -/
def lowerPart (reg : Fin 3 → K × K) (e : Fin 3) (x : K) : Fin 3 → K × K := fun d => if d = e then ((reg d).1, x) else reg d

/-- See `lowerPart`. -/
def upperPart (reg : Fin 3 → K × K) (e : Fin 3) (x : K) : Fin 3 → K × K := fun d => if d = e then (x, (reg d).2) else reg d

omit [IsStrictOrderedRing K] in
private theorem window_part {fl : K → K} {L a b a' b' : K} (h : RoundedMask.windowOk fl L a b = true) (h1 : a ≤ a') (h2 : a' ≤ b) (h3 : a ≤ b') (h4 : b' ≤ b) :
    RoundedMask.windowOk fl L a' b' = true := by
  rw [RoundedMask.window_iff] at h ⊢
  obtain ⟨w1, w2, w3, w4⟩ := h
  exact ⟨w1.trans h1, w1.trans h3, h2.trans w4, h4.trans w4⟩

/-- C146. A region is cut by a plane in two parts, which are joined again: the rows are the same to the last digit, unless a cell is flat and, after
the shift, lies in the plane. Cells that contain their geometric bounds are not flat. -/
theorem c146_parts (fl : K → K) (hfl : OrderKeeping fl) (f : File K m) (hf : WF f) (rows lower upper : List (Option (List K))) (reg : Fin 3 → K × K) (e : Fin 3)
    (x : K) (hx : (reg e).1 ≤ x ∧ x ≤ (reg e).2) (ho : ∀ d, (reg d).1 ≤ (reg d).2) (hw : fl ((reg e).2 - (reg e).1) ≤ f.box e)
    (hr : AcceptedAs fl f rows reg) (hlo : RegionIs f.box lower (lowerPart reg e x)) (hup : RegionIs f.box upper (upperPart reg e x)) (k : Fin m)
    (hc : ∀ c ∈ f.cells k, c.lo e ≤ c.hi e ∧ ∀ s ∈ [(-1 : K), 0, 1], fl (c.lo e + fl (s * f.box e)) ≠ x ∨ fl (c.hi e + fl (s * f.box e)) ≠ x) (i : Int) :
    Selects (RoundedMask.spatials fl f [lower, upper]) k i ↔ Selects (RoundedMask.spatials fl f [rows]) k i := by
  have hwin := (RoundedMask.regionOk_iff fl f.box reg).1 hr.2
  have oklo : RoundedMask.regionOk fl f.box (lowerPart reg e x) = true := by
    refine (RoundedMask.regionOk_iff fl f.box _).2 fun d => ?_
    unfold lowerPart
    split
    · next hd =>
      subst hd
      exact window_part (hwin d) le_rfl (ho d) hx.1 hx.2
    · exact hwin d
  have okup : RoundedMask.regionOk fl f.box (upperPart reg e x) = true := by
    refine (RoundedMask.regionOk_iff fl f.box _).2 fun d => ?_
    unfold upperPart
    split
    · next hd =>
      subst hd
      exact window_part (hwin d) hx.1 hx.2 (ho d) le_rfl
    · exact hwin d
  have uniq : ∀ (r : List (Option (List K))) (a b : Fin 3 → K × K), RegionIs f.box r a → RegionIs f.box r b → a = b := fun r a b h1 h2 => by
    have e1 := (sanitize_ok_iff f.box r a).mpr h1
    have e2 := (sanitize_ok_iff f.box r b).mpr h2
    rw [e1] at e2
    exact Except.ok.inj e2
  constructor
  · refine c146_wider fl hfl f hf _ _ ⟨lower, by simp, _, hlo, oklo⟩ (fun r hmem a ha => ?_) k i
    simp only [List.mem_cons, List.not_mem_nil, or_false] at hmem
    rcases hmem with rfl | rfl
    · rw [uniq _ _ _ ha.1 hlo]
      refine ⟨rows, by simp, reg, hr, fun d => ?_⟩
      unfold lowerPart
      split
      · next hd =>
        subst hd
        exact ⟨le_rfl, hx.1, hx.2⟩
      · exact ⟨le_rfl, ho d, le_rfl⟩
    · rw [uniq _ _ _ ha.1 hup]
      refine ⟨rows, by simp, reg, hr, fun d => ?_⟩
      unfold upperPart
      split
      · next hd =>
        subst hd
        exact ⟨hx.1, hx.2, le_rfl⟩
      · exact ⟨le_rfl, ho d, le_rfl⟩
  · intro hs
    rw [selects_iff_keeps fl f hf] at hs ⊢
    rcases hs with ⟨r, hmem, a, q1, q2, c, hcm, hi, hk⟩ | ⟨hn, -⟩
    swap
    · exact absurd ⟨rows, by simp, reg, hr.1, hr.2⟩ hn
    rw [List.mem_singleton] at hmem
    subst hmem
    rw [uniq _ _ _ q1 hr.1] at hk
    have pos : ∀ a b : K, a ≤ b → 0 ≤ fl (b - a) := fun a b hab => by
      have := hfl.mono 0 (b - a) (sub_nonneg.2 hab)
      rwa [hfl.zero] at this
    have hke := hk e
    unfold RoundedMask.keeps at hke
    rw [abs_of_nonneg (pos _ _ (ho e)), if_neg (not_lt.2 hw), ordered_same (ho e)] at hke
    unfold RoundedMask.axisKeep at hke
    rw [List.any_eq_true] at hke
    obtain ⟨s, hsm, hke⟩ := hke
    rw [Bool.and_eq_true, decide_eq_true_iff, decide_eq_true_iff] at hke
    dsimp only at hke
    obtain ⟨hflat1, hflat2⟩ := hc c hcm
    have hle : fl (c.lo e + fl (s * f.box e)) ≤ fl (c.hi e + fl (s * f.box e)) := hfl.mono _ _ (by linarith)
    by_cases hcase : x < fl (c.hi e + fl (s * f.box e))
    · refine .inl ⟨upper, by simp, _, hup, okup, c, hcm, hi, fun d => ?_⟩
      by_cases hd : d = e
      · subst hd
        unfold RoundedMask.keeps
        have hv : upperPart reg d x d = (x, (reg d).2) := if_pos rfl
        rw [hv]
        dsimp only
        split
        · rfl
        · rw [ordered_same hx.2]
          unfold RoundedMask.axisKeep
          rw [List.any_eq_true]
          exact ⟨s, hsm, by rw [Bool.and_eq_true, decide_eq_true_iff, decide_eq_true_iff]; exact ⟨hcase, hke.2⟩⟩
      · have hv : upperPart reg e x d = reg d := if_neg hd
        have := hk d
        unfold RoundedMask.keeps at this ⊢
        rw [hv]
        exact this
    · have hlt : fl (c.lo e + fl (s * f.box e)) < x := by
        rcases lt_or_eq_of_le (hle.trans (not_lt.1 hcase)) with h | h
        · exact h
        · have h' : fl (c.hi e + fl (s * f.box e)) = x := le_antisymm (not_lt.1 hcase) (h ▸ hle)
          rcases hflat2 s hsm with h2 | h2
          · exact absurd h h2
          · exact absurd h' h2
      refine .inl ⟨lower, by simp, _, hlo, oklo, c, hcm, hi, fun d => ?_⟩
      by_cases hd : d = e
      · subst hd
        unfold RoundedMask.keeps
        have hv : lowerPart reg d x d = ((reg d).1, x) := if_pos rfl
        rw [hv]
        dsimp only
        split
        · rfl
        · rw [ordered_same hx.1]
          unfold RoundedMask.axisKeep
          rw [List.any_eq_true]
          exact ⟨s, hsm, by rw [Bool.and_eq_true, decide_eq_true_iff, decide_eq_true_iff]; exact ⟨hke.1, hlt⟩⟩
      · have hv : lowerPart reg e x d = reg d := if_neg hd
        have := hk d
        unfold RoundedMask.keeps at this ⊢
        rw [hv]
        exact this

private theorem sorted_sub : ∀ {l l' : List Int}, l.Pairwise (· < ·) → l'.Pairwise (· < ·) → (∀ i ∈ l, i ∈ l') → l.Sublist l' := by
  intro l l' h h' hs
  exact List.sublist_of_subperm_of_pairwise (r := (· ≤ ·)) (List.Nodup.subperm (h.imp fun h => ne_of_lt h) hs) (h.imp fun h => le_of_lt h)
    (h'.imp fun h => le_of_lt h)

/-- C146. What is read with larger regions contains what is read with the smaller ones, in the same order and for all fields of a type at the same
places: there are row numbers `l` and `l'` with these properties that are the same for all fields and layouts. -/
theorem c146_read (fl : K → K) (hfl : OrderKeeping fl) (f : File K m) (hf : WF f) (calls calls' : List (List (Option (List K))))
    (hy : ∃ rows ∈ calls, ∃ reg, AcceptedAs fl f rows reg)
    (h : ∀ rows ∈ calls, ∀ reg, AcceptedAs fl f rows reg → ∃ rows' ∈ calls', ∃ reg', AcceptedAs fl f rows' reg' ∧ InsideOf reg reg') (k : Fin m)
    {α : Type} (ds : List α) (hds : ds.length = f.rows k) (lay lay' : Layout) (hlay : lay ≠ .remote) (hlay' : lay' ≠ .remote)
    (hc : ∀ c, lay = .chunked c → 0 < c) (hc' : ∀ c, lay' = .chunked c → 0 < c) (ds' ds'' : List α)
    (hl : load (RoundedMask.spatials fl f calls) lay ds k = .ok (ds'.map some))
    (hl' : load (RoundedMask.spatials fl f calls') lay' ds k = .ok (ds''.map some)) : ds'.Sublist ds'' := by
  obtain ⟨l, r1, r2, r3, r4⟩ := c138_read fl f hf calls k ds hds lay hlay hc
  obtain ⟨l', q1, q2, q3, q4⟩ := c138_read fl f hf calls' k ds hds lay' hlay' hc'
  have hsub : l.Sublist l' := sorted_sub r2 q2 fun i hi => (q3 i).2 (c146_wider fl hfl f hf calls calls' hy h k i ((r3 i).1 hi))
  have e1 : ds'.map some = select ds l := by
    rw [hl] at r1
    exact Except.ok.inj r1
  have e2 : ds''.map some = select ds l' := by
    rw [hl'] at q1
    exact Except.ok.inj q1
  have : (ds'.map some).Sublist (ds''.map some) := by
    rw [e1, e2]
    exact hsub.map _
  have h2 := this.filterMap id
  rw [List.filterMap_map, List.filterMap_map] at h2
  simpa using h2

/-- C146. So no pixel of an image of masses gets smaller if the regions of the mask get larger, to the last digit. -/
theorem c146_images {F ι : Type} [LinearOrder F] {zero : F} {draw : List (Scatter.Part F) → Except Err (ι → F)} (hd : Growing zero draw) (fl : K → K)
    (hfl : OrderKeeping fl) (f : File K m) (hf : WF f) (calls calls' : List (List (Option (List K))))
    (hy : ∃ rows ∈ calls, ∃ reg, AcceptedAs fl f rows reg)
    (h : ∀ rows ∈ calls, ∀ reg, AcceptedAs fl f rows reg → ∃ rows' ∈ calls', ∃ reg', AcceptedAs fl f rows' reg' ∧ InsideOf reg reg') (k : Fin m)
    (ps : List (Scatter.Part F)) (hps : ps.length = f.rows k) (hm : ∀ p ∈ ps, zero ≤ p.m) (lay lay' : Layout) (hlay : lay ≠ .remote)
    (hlay' : lay' ≠ .remote) (hc : ∀ c, lay = .chunked c → 0 < c) (hc' : ∀ c, lay' = .chunked c → 0 < c) (ps' ps'' : List (Scatter.Part F))
    (hl : load (RoundedMask.spatials fl f calls) lay ps k = .ok (ps'.map some))
    (hl' : load (RoundedMask.spatials fl f calls') lay' ps k = .ok (ps''.map some)) (img img' : ι → F) (hi : draw ps' = .ok img)
    (hi' : draw ps'' = .ok img') (q : ι) : img q ≤ img' q := by
  refine hd.more ps' ps'' img img' (c146_read fl hfl f hf calls calls' hy h k ps hps lay lay' hlay hlay' hc hc' ps' ps'' hl hl') (fun p hp => hm p ?_) hi hi' q
  obtain ⟨l, r1, -, -, -⟩ := c138_read fl f hf calls' k ps hps lay' hlay' hc'
  rw [hl'] at r1
  have e2 : ps''.map some = select ps l := Except.ok.inj r1
  have hp' : some p ∈ select ps l := e2 ▸ List.mem_map_of_mem hp
  unfold select at hp'
  obtain ⟨i, -, hv⟩ := List.mem_map.1 hp'
  unfold valueAt at hv
  split_ifs at hv
  exact List.mem_of_getElem? hv

end

-- The hypotheses can be met in double precision: a region, a larger one, and its two parts; rows that are read with each of them.
example :
    let fl := nearest 53 (-1074) toEven
    let reg : Fin 3 → ℚ × ℚ := fun d => if d = 0 then (3 / 2, 5 / 2) else (0, 4)
    let reg' : Fin 3 → ℚ × ℚ := fun d => if d = 0 then (1 / 2, 7 / 2) else (0, 4)
    OrderKeeping fl ∧ WF exFile ∧ AcceptedAs fl exFile [some [3 / 2, 5 / 2], none, none] reg ∧ AcceptedAs fl exFile [some [1 / 2, 7 / 2], none, none] reg' ∧
      InsideOf reg reg' ∧
      rowsLoaded (RoundedMask.spatials fl exFile [[some [3 / 2, 5 / 2], none, none]]) 0 6 =
        rowsLoaded (RoundedMask.spatials fl exFile [[some [3 / 2, 2], none, none], [some [2, 5 / 2], none, none]]) 0 6 := by
  refine ⟨c140_nearest 53 (by norm_num) _ toEven c138_toEven, exFile_wf, ⟨⟨rfl, fun d => ?_⟩, by decide +kernel⟩, ⟨⟨rfl, fun d => ?_⟩, by decide +kernel⟩,
    fun d => ?_, by decide +kernel⟩
  · fin_cases d
    · exact .inr rfl
    · exact .inl ⟨rfl, rfl⟩
    · exact .inl ⟨rfl, rfl⟩
  · fin_cases d
    · exact .inr rfl
    · exact .inl ⟨rfl, rfl⟩
    · exact .inl ⟨rfl, rfl⟩
  · fin_cases d <;> decide +kernel

-- The two parts of the region, for the rows of gas.
example (i : Int) :
    Selects (RoundedMask.spatials (nearest 53 (-1074) toEven) exFile [[some [3 / 2, 2], none, none], [some [2, 5 / 2], none, none]]) 0 i ↔
      Selects (RoundedMask.spatials (nearest 53 (-1074) toEven) exFile [[some [3 / 2, 5 / 2], none, none]]) 0 i := by
  refine c146_parts _ (c140_nearest 53 (by norm_num) _ toEven c138_toEven) exFile exFile_wf _ _ _ (fun d => if d = 0 then (3 / 2, 5 / 2) else (0, 4)) 0 2
    ⟨by decide +kernel, by decide +kernel⟩ (fun d => by fin_cases d <;> decide +kernel) (by decide +kernel) ⟨⟨rfl, fun d => ?_⟩, by decide +kernel⟩
    ⟨rfl, fun d => ?_⟩ ⟨rfl, fun d => ?_⟩ 0 ?_ i
  · fin_cases d
    · exact .inr rfl
    · exact .inl ⟨rfl, rfl⟩
    · exact .inl ⟨rfl, rfl⟩
  · fin_cases d
    · exact .inr rfl
    · exact .inl ⟨rfl, rfl⟩
    · exact .inl ⟨rfl, rfl⟩
  · fin_cases d
    · exact .inr rfl
    · exact .inl ⟨rfl, rfl⟩
    · exact .inl ⟨rfl, rfl⟩
  · intro c hc
    simp only [exFile, if_true, List.mem_cons, List.not_mem_nil, or_false] at hc
    rcases hc with rfl | rfl | rfl | rfl <;> decide +kernel

end Verif.Props
