import Verif.Props.RoundedPrograms
import Verif.Props.RoundedRegions

/-!
# C148: from masks of regions and cuts to images in double precision (`swiftsimio/masks.py`, `swiftsimio/reader.py`, `swiftsimio/visualisation`)
-/

namespace Verif.Props
open Verif Verif.Spec Verif.Accel Verif.Mask Verif.RoundedBounds

variable {K : Type} [Field K] [LinearOrder K] [IsStrictOrderedRing K] {m : Nat}

/-- The cut `t` is on the same quantity as `t'`, in the same frames and units, and its bounds are inside those of `t'`. -/
def CutInside (t t' : RoundedBounds.Call K) : Prop :=
  t.group = t'.group ∧ t.quantity = t'.quantity ∧ BelowBound t'.lower t.lower ∧ BelowBound t.upper t'.upper ∧ PositiveBound t'.lower ∧
    PositiveBound t.upper

/-- Every region of the first list is in one of the second list. -/
def RegionsInside (fl : K → K) (f : File K m) (calls calls' : List (List (Option (List K)))) : Prop :=
  (∃ rows ∈ calls, ∃ reg, AcceptedAs fl f rows reg) ∧
    ∀ rows ∈ calls, ∀ reg, AcceptedAs fl f rows reg → ∃ rows' ∈ calls', ∃ reg', AcceptedAs fl f rows' reg' ∧ InsideOf reg reg'

private theorem between_wider {flx flq : K → K} (hq : ∀ x y, x ≤ y → flq x ≤ flq y) {disk : String → String → Option (Column K)}
    {t t' : RoundedBounds.Call K} (h : CutInside t t') {i : Int} (hb : BetweenBounds flx flq disk t i) : BetweenBounds flx flq disk t' i := by
  obtain ⟨e1, e2, hl, hu, p1, p2⟩ := h
  intro c hc
  obtain ⟨v, hv, h1, h2⟩ := hb c (by rw [e1, e2]; exact hc)
  refine ⟨v, hv, ?_, ?_⟩
  · rw [data_same flx c hl]
    exact (bound_mono hq c hl p1).trans_lt h1
  · rw [← data_same flx c hu]
    exact h2.trans (bound_mono hq c hu p2)

/-- C148. Larger regions with fewer and wider cuts select at least the same rows, to the last digit. -/
theorem c148_wider (fl flx flq : K → K) (hfl : OrderKeeping fl) (hq : ∀ x y, x ≤ y → flq x ≤ flq y) (f : File K m) (hf : WF f)
    (disk : String → String → Option (Column K)) (hd : ColumnsFit f disk) (calls calls' : List (List (Option (List K))))
    (hr : RegionsInside fl f calls calls') (cuts cuts' : List (RoundedBounds.Call K)) (hc : ∀ t' ∈ cuts', ∃ t ∈ cuts, CutInside t t') (k : Fin m) (i : Int)
    (h : Selects (RoundedBounds.properties flx flq f disk (RoundedMask.spatials fl f calls) cuts) k i) :
    Selects (RoundedBounds.properties flx flq f disk (RoundedMask.spatials fl f calls') cuts') k i := by
  rw [c147_rows fl flx flq f hf disk hd] at h ⊢
  refine ⟨c146_wider fl hfl f hf calls calls' hr.1 hr.2 k i h.1, fun t' ht' hg => ?_⟩
  obtain ⟨t, ht, hin⟩ := hc t' ht'
  exact between_wider hq hin (h.2 t ht (by rw [hin.1]; exact hg))

private theorem rows_within {l l' : List Int} (h : l.Pairwise (· < ·)) (h' : l'.Pairwise (· < ·)) (hs : ∀ i ∈ l, i ∈ l') : l.Sublist l' :=
  List.sublist_of_subperm_of_pairwise (r := (· ≤ ·)) (List.Nodup.subperm (h.imp fun h => ne_of_lt h) hs) (h.imp fun h => le_of_lt h)
    (h'.imp fun h => le_of_lt h)

/-- C148. What is read with the larger mask contains what is read with the smaller one, in the same order. -/
theorem c148_read (fl flx flq : K → K) (hfl : OrderKeeping fl) (hq : ∀ x y, x ≤ y → flq x ≤ flq y) (f : File K m) (hf : WF f)
    (disk : String → String → Option (Column K)) (hd : ColumnsFit f disk) (calls calls' : List (List (Option (List K))))
    (hr : RegionsInside fl f calls calls') (cuts cuts' : List (RoundedBounds.Call K)) (hc : ∀ t' ∈ cuts', ∃ t ∈ cuts, CutInside t t') (k : Fin m)
    {α : Type} (ds : List α) (hds : ds.length = f.rows k) (lay lay' : Layout) (hlay : lay ≠ .remote) (hlay' : lay' ≠ .remote)
    (hch : ∀ c, lay = .chunked c → 0 < c) (hch' : ∀ c, lay' = .chunked c → 0 < c) (ds' ds'' : List α)
    (hl : load (RoundedBounds.properties flx flq f disk (RoundedMask.spatials fl f calls) cuts) lay ds k = .ok (ds'.map some))
    (hl' : load (RoundedBounds.properties flx flq f disk (RoundedMask.spatials fl f calls') cuts') lay' ds k = .ok (ds''.map some)) :
    ds'.Sublist ds'' := by
  obtain ⟨l, r1, r2, r3, -⟩ := c147_read fl flx flq f hf disk hd calls cuts k ds hds lay hlay hch
  obtain ⟨l', q1, q2, q3, -⟩ := c147_read fl flx flq f hf disk hd calls' cuts' k ds hds lay' hlay' hch'
  have hsub : l.Sublist l' := rows_within r2 q2 fun i hi => by
    have h1 := (c147_rows fl flx flq f hf disk hd calls cuts k i).2 ((r3 i).1 hi)
    exact (q3 i).2 ((c147_rows fl flx flq f hf disk hd calls' cuts' k i).1
      (c148_wider fl flx flq hfl hq f hf disk hd calls calls' hr cuts cuts' hc k i h1))
  have e1 : ds'.map some = select ds l := Except.ok.inj (hl.symm.trans r1)
  have e2 : ds''.map some = select ds l' := Except.ok.inj (hl'.symm.trans q1)
  have : (ds'.map some).Sublist (ds''.map some) := by
    rw [e1, e2]
    exact hsub.map _
  have h2 := this.filterMap id
  rw [List.filterMap_map, List.filterMap_map] at h2
  simpa using h2

/-- C148. So no pixel of an image of masses gets smaller when the regions grow and the cuts get wider or are dropped, for all loops of the image code in
which pixels only grow (C142), to the last digit. -/
theorem c148_images {F ι : Type} [LinearOrder F] {zero : F} {draw : List (Scatter.Part F) → Except Err (ι → F)} (hdr : Growing zero draw)
    (fl flx flq : K → K) (hfl : OrderKeeping fl) (hq : ∀ x y, x ≤ y → flq x ≤ flq y) (f : File K m) (hf : WF f)
    (disk : String → String → Option (Column K)) (hd : ColumnsFit f disk) (calls calls' : List (List (Option (List K))))
    (hr : RegionsInside fl f calls calls') (cuts cuts' : List (RoundedBounds.Call K)) (hc : ∀ t' ∈ cuts', ∃ t ∈ cuts, CutInside t t') (k : Fin m)
    (ps : List (Scatter.Part F)) (hps : ps.length = f.rows k) (hm : ∀ p ∈ ps, zero ≤ p.m) (lay lay' : Layout) (hlay : lay ≠ .remote)
    (hlay' : lay' ≠ .remote) (hch : ∀ c, lay = .chunked c → 0 < c) (hch' : ∀ c, lay' = .chunked c → 0 < c) (ps' ps'' : List (Scatter.Part F))
    (hl : load (RoundedBounds.properties flx flq f disk (RoundedMask.spatials fl f calls) cuts) lay ps k = .ok (ps'.map some))
    (hl' : load (RoundedBounds.properties flx flq f disk (RoundedMask.spatials fl f calls') cuts') lay' ps k = .ok (ps''.map some))
    (img img' : ι → F) (hi : draw ps' = .ok img) (hi' : draw ps'' = .ok img') (q : ι) : img q ≤ img' q := by
  refine hdr.more ps' ps'' img img' (c148_read fl flx flq hfl hq f hf disk hd calls calls' hr cuts cuts' hc k ps hps lay lay' hlay hlay' hch hch' ps' ps'' hl hl')
    (fun p hp => hm p ?_) hi hi' q
  obtain ⟨l, r1, -, -, -⟩ := c147_read fl flx flq f hf disk hd calls' cuts' k ps hps lay' hlay' hch'
  have e2 : ps''.map some = select ps l := Except.ok.inj (hl'.symm.trans r1)
  have hp' : some p ∈ select ps l := e2 ▸ List.mem_map_of_mem hp
  unfold select at hp'
  obtain ⟨i, -, hv⟩ := List.mem_map.1 hp'
  unfold valueAt at hv
  split_ifs at hv
  exact List.mem_of_getElem? hv

-- The hypotheses can be met in double precision: a region in a larger one and a cut in a wider one; the rows read with the smaller mask are among
-- those read with the larger one.
example :
    let fl := nearest 53 (-1074) toEven
    let b : ℚ → Bound ℚ := fun v => ⟨v, true, 1, none⟩
    let reg : Fin 3 → ℚ × ℚ := fun d => if d = 0 then (5 / 4, 9 / 4) else (0, 4)
    let reg' : Fin 3 → ℚ × ℚ := fun d => if d = 0 then (1 / 2, 7 / 2) else (0, 4)
    OrderKeeping fl ∧ AcceptedAs fl exFile [some [5 / 4, 9 / 4], none, none] reg ∧ AcceptedAs fl exFile [some [1 / 2, 7 / 2], none, none] reg' ∧
      InsideOf reg reg' ∧ CutInside (K := ℚ) ⟨"gas", "masses", b 2, b 3⟩ ⟨"gas", "masses", b 1, b 5⟩ ∧
      rowsLoaded (RoundedBounds.properties fl fl exFile cutDisk (RoundedMask.spatials fl exFile [[some [5 / 4, 9 / 4], none, none]])
        [⟨"gas", "masses", b 2, b 3⟩]) 0 6 = .ok [some 2] ∧
      rowsLoaded (RoundedBounds.properties fl fl exFile cutDisk (RoundedMask.spatials fl exFile [[some [1 / 2, 7 / 2], none, none]])
        [⟨"gas", "masses", b 1, b 5⟩]) 0 6 = .ok [some 1, some 2, some 3, some 4] := by
  refine ⟨c140_nearest 53 (by norm_num) _ toEven c138_toEven, ⟨⟨rfl, fun d => ?_⟩, by decide +kernel⟩, ⟨⟨rfl, fun d => ?_⟩, by decide +kernel⟩,
    fun d => ?_, ⟨rfl, rfl, ⟨rfl, rfl, rfl, by decide +kernel⟩, ⟨rfl, rfl, rfl, by decide +kernel⟩, ?_, ?_⟩, by decide +kernel, by decide +kernel⟩
  · fin_cases d
    · exact .inr rfl
    · exact .inl ⟨rfl, rfl⟩
    · exact .inl ⟨rfl, rfl⟩
  · fin_cases d
    · exact .inr rfl
    · exact .inl ⟨rfl, rfl⟩
    · exact .inl ⟨rfl, rfl⟩
  · fin_cases d <;> decide +kernel
  · simp [PositiveBound]
  · simp [PositiveBound]

end Verif.Props
