import Verif.Props.RoundedRows
import Verif.Spec.RoundedCuts
import Verif.Spec.SelectionRows

/-!
# C140: cuts after reading with a mask are exact in double precision (`swiftsimio/masks.py`)
-/

namespace Verif.Props
open Verif Verif.Spec Verif.Accel Verif.Mask

variable {K : Type} [Field K] [LinearOrder K] {m : Nat}

private theorem sorted_eq {l l' : List Int} (h : l.Pairwise (· < ·)) (h' : l'.Pairwise (· < ·)) (hm : ∀ i, i ∈ l ↔ i ∈ l') : l = l' := by
  have n1 : l.Nodup := h.imp fun h => h.ne
  have n2 : l'.Nodup := h'.imp fun h => h.ne
  exact ((List.perm_ext_iff_of_nodup n1 n2).2 hm).eq_of_pairwise (fun a b _ _ h h' => absurd h (not_lt.2 h'.le)) h h'

private theorem filter_filterMap {α β : Type} (g : α → Option β) (P : β → Bool) : ∀ l : List α,
    (l.filterMap g).filter P = (l.filter fun i => (g i).any P).filterMap g
  | [] => rfl
  | i :: l => by
    cases h : g i with
    | none => simp [List.filterMap_cons, List.filter_cons, h, filter_filterMap g P l]
    | some v =>
      cases hp : P v <;> simp [List.filterMap_cons, List.filter_cons, h, hp, filter_filterMap g P l]

private theorem all_rows {α : Type} (ds : List α) : (allRows ds.length).filterMap (valueAt ds) = ds := by
  have h1 : (allRows ds.length).map (valueAt ds) = ds.map some := by
    refine List.ext_getElem (by simp [allRows]) fun i h1 h2 => ?_
    have : i < ds.length := by simpa using h2
    simp [allRows, valueAt, this]
  have h2 := congrArg (List.filterMap id) h1
  rw [List.filterMap_map, List.filterMap_map] at h2
  simpa using h2

private theorem rows_sorted (n : Nat) : (allRows n).Pairwise (· < ·) := by
  unfold allRows
  rw [List.pairwise_map]
  exact List.pairwise_lt_range.imp fun h => by simpa using h

/-- the values that satisfy a condition among some rows, if no such row is missing -/
private theorem filter_select {α : Type} {ds ds' : List α} {l : List Int} (h : ds'.map some = select ds l) (hl : l.Pairwise (· < ·))
    (hb : ∀ i ∈ l, 0 ≤ i ∧ i < ds.length) (P : α → Bool) (hP : ∀ (i : Int) (v : α), valueAt ds i = some v → P v = true → i ∈ l) :
    ds'.filter P = ds.filter P := by
  have h1 : ds' = l.filterMap (valueAt ds) := by
    have h2 := congrArg (List.filterMap id) h
    rw [select, List.filterMap_map, List.filterMap_map] at h2
    simpa using h2
  conv_rhs => rw [← all_rows ds]
  rw [h1, filter_filterMap, filter_filterMap]
  refine congrArg (List.filterMap (valueAt ds)) (sorted_eq (hl.filter _) ((rows_sorted _).filter _) fun i => ?_)
  simp only [List.mem_filter]
  refine ⟨fun ⟨h2, h3⟩ => ⟨?_, h3⟩, fun ⟨_, h3⟩ => ⟨?_, h3⟩⟩
  · have := hb i h2
    exact List.mem_map.2 ⟨i.toNat, List.mem_range.2 (by omega), by simp; omega⟩
  · cases hv : valueAt ds i with
    | none =>
      rw [hv] at h3
      cases h3
    | some v =>
      rw [hv] at h3
      exact hP i v hv h3

private theorem zip_select {α β : Type} {ds ds' : List α} {es es' : List β} {l : List Int} (hlen : es.length = ds.length)
    (h : ds'.map some = select ds l) (h' : es'.map some = select es l) (hb : ∀ i ∈ l, 0 ≤ i ∧ i < ds.length) :
    (ds'.zip es').map some = select (ds.zip es) l := by
  have l1 : ds'.length = l.length := by simpa [select] using congrArg List.length h
  have l2 : es'.length = l.length := by simpa [select] using congrArg List.length h'
  refine List.ext_getElem (by simp [select, l1, l2]) fun i h1 h2 => ?_
  have hi : i < l.length := by simpa [select] using h2
  have g1 : some (ds'[i]'(by omega)) = valueAt ds l[i] := by
    have := List.getElem_of_eq h (i := i) (by simpa using (by omega : i < ds'.length))
    simpa [select] using this
  have g2 : some (es'[i]'(by omega)) = valueAt es l[i] := by
    have := List.getElem_of_eq h' (i := i) (by simpa using (by omega : i < es'.length))
    simpa [select] using this
  have hbi := hb l[i] (List.getElem_mem hi)
  have n1 : ¬ l[i] < 0 := by omega
  have n2 : l[i].toNat < ds.length := by omega
  have n3 : l[i].toNat < es.length := by omega
  simp only [valueAt, n1, if_false, List.getElem?_eq_getElem n2, List.getElem?_eq_getElem n3, Option.some.injEq] at g1 g2
  simp only [List.getElem_map, List.getElem_zip, select, valueAt, n1, if_false]
  rw [g1, g2, List.getElem?_eq_getElem (by simp; omega), List.getElem_zip]

/-- C140. Two fields of one type are read with a mask of any number of regions. If the condition holds only for rows that the mask
selects, the pairs of values for which it holds are those of the whole file, in the same order: whatever is computed from them, in
whatever arithmetic, is the same to the last digit. -/
theorem c140_cut {α β : Type} (fl : K → K) (f : File K m) (hf : WF f) (calls : List (List (Option (List K)))) (k : Fin m)
    (ds : List α) (es : List β) (hds : ds.length = f.rows k) (hes : es.length = f.rows k) (lay lay' : Layout) (hlay : lay ≠ .remote)
    (hc : ∀ c, lay = .chunked c → 0 < c) (hlay' : lay' ≠ .remote) (hc' : ∀ c, lay' = .chunked c → 0 < c) (ds' : List α) (es' : List β)
    (hl : load (RoundedMask.spatials fl f calls) lay ds k = .ok (ds'.map some))
    (hl' : load (RoundedMask.spatials fl f calls) lay' es k = .ok (es'.map some)) (P : α → Bool)
    (hP : ∀ (i : Nat) (v : α), ds[i]? = some v → P v = true → Selects (RoundedMask.spatials fl f calls) k i) :
    (ds'.zip es').filter (fun r => P r.1) = (ds.zip es).filter (fun r => P r.1) := by
  obtain ⟨l, r1, r2, r3, r4⟩ := c138_read fl f hf calls k ds hds lay hlay hc
  obtain ⟨l', q1, q2, q3, q4⟩ := c138_read fl f hf calls k es hes lay' hlay' hc'
  have hll : l' = l := sorted_eq q2 r2 fun i => by rw [r3, q3]
  subst hll
  have e1 : ds'.map some = select ds l' := by
    rw [hl] at r1
    exact Except.ok.inj r1
  have e2 : es'.map some = select es l' := by
    rw [hl'] at q1
    exact Except.ok.inj q1
  have hlen : es.length = ds.length := by omega
  refine filter_select (zip_select hlen e1 e2 r4) r2 (fun i hi => by
    have := r4 i hi
    simp only [List.length_zip, hlen, min_self]
    exact this) _ fun i v hv hp => ?_
  rw [r3]
  unfold valueAt at hv
  split_ifs at hv with hneg
  obtain ⟨n, rfl⟩ := Int.eq_ofNat_of_zero_le (not_lt.mp hneg)
  simp only [Int.toNat_natCast] at hv
  rw [List.getElem?_zip_eq_some] at hv
  exact hP n v.1 hv.1 hp

/-- C140. A particle strictly between the ends of an accepted region along every axis is selected, however close to the ends it is. -/
theorem c140_inside (fl : K → K) (hfl : OrderKeeping fl) (f : File K m) (hf : WF f) (hb : ∀ d, fl (f.box d) = f.box d ∧ fl (-f.box d) = -f.box d)
    (calls : List (List (Option (List K)))) (rows : List (Option (List K))) (hr : rows ∈ calls) (reg : Fin 3 → K × K)
    (hreg : RegionIs f.box rows reg) (hok : RoundedMask.regionOk fl f.box reg = true) (k : Fin m) (c : Cell K) (hc : c ∈ f.cells k)
    (i : Int) (hi : Holds c i) (x : Fin 3 → K) (hx : ∀ d, fl (x d) = x d) (hxc : ∀ d, c.lo d ≤ x d ∧ x d ≤ c.hi d)
    (hin : ∀ d, (reg d).1 < x d ∧ x d < (reg d).2) : Selects (RoundedMask.spatials fl f calls) k i := by
  refine selects_of_keeps fl f hf calls rows hr reg hreg hok k c hc i hi ?_
  have hone : RoundedMask.cellMask fl f.box reg [c] = .ok (RoundedMask.cellMaskOf fl f.box reg [c]) := by
    unfold RoundedMask.cellMask
    rw [if_pos hok]
  exact (RoundedMask.selected_iff fl f.box reg [c] _ hone 0 c rfl).mp
    (c138_inside fl hfl.mono hfl.zero f.box hb reg [c] _ hone 0 c rfl x hx hxc hin)

section
variable [IsStrictOrderedRing K]

private theorem below_sum {fl : K → K} (hfl : OrderKeeping fl) {a b : K} (hb : 0 ≤ b) : fl a ≤ fl (fl a + b) := by
  have := hfl.mono (fl a) (fl a + b) (by linarith)
  rwa [hfl.twice] at this

private theorem square_nonneg {fl : K → K} (hfl : OrderKeeping fl) (z : K) : 0 ≤ fl (z * z) := by
  have := hfl.mono 0 (z * z) (mul_self_nonneg z)
  rwa [hfl.zero] at this

private theorem part_le {fl : K → K} (hfl : OrderKeeping fl) (c x : Fin 3 → K) (d : Fin 3) :
    fl (fl (x d - c d) * fl (x d - c d)) ≤ roundedSquare fl c x := by
  unfold roundedSquare
  have n0 := square_nonneg hfl (fl (x 0 - c 0))
  have n1 := square_nonneg hfl (fl (x 1 - c 1))
  have n2 := square_nonneg hfl (fl (x 2 - c 2))
  have s0 := below_sum hfl (a := fl (x 0 - c 0) * fl (x 0 - c 0)) n1
  have s1 := below_sum hfl (a := fl (x 1 - c 1) * fl (x 1 - c 1)) n0
  have s2 := below_sum hfl (a := fl (fl (x 0 - c 0) * fl (x 0 - c 0)) + fl (fl (x 1 - c 1) * fl (x 1 - c 1))) n2
  have s3 := below_sum hfl (a := fl (x 2 - c 2) * fl (x 2 - c 2)) (n0.trans s0)
  rw [add_comm] at s1
  rw [add_comm] at s3
  fin_cases d
  · exact s0.trans s2
  · exact s1.trans s2
  · exact s3

/-- C140. A position in the sphere, as rounded arithmetic sees it, differs from the centre by less than the radius along each axis, without
any rounding. -/
theorem c140_sphere_extent (fl : K → K) (hfl : OrderKeeping fl) (c x : Fin 3 → K) (r : K) (hr0 : 0 ≤ r) (hr : fl r = r) (hr' : fl (-r) = -r)
    (h : RoundedSphere fl c r x) (d : Fin 3) : c d - r < x d ∧ x d < c d + r := by
  have h1 : fl (fl (x d - c d) * fl (x d - c d)) < fl (r * r) := (part_le hfl c x d).trans_lt h
  have h2 : fl (x d - c d) * fl (x d - c d) < r * r := by
    by_contra hc
    exact absurd h1 (not_lt.2 (hfl.mono _ _ (not_lt.1 hc)))
  have h3 : |fl (x d - c d)| < r := by
    by_contra hc
    have := mul_self_le_mul_self hr0 (not_lt.1 hc)
    rw [abs_mul_abs_self] at this
    linarith
  rw [abs_lt] at h3
  constructor
  · by_contra hc
    have := hfl.mono (x d - c d) (-r) (by linarith)
    rw [hr'] at this
    linarith
  · by_contra hc
    have := hfl.mono r (x d - c d) (by linarith)
    rw [hr] at this
    linarith

/-- The region reaches the ends of the sphere: exactly, or it reaches over the rounded ends. -/
def ReachesOver (fl : K → K) (c : Fin 3 → K) (r : K) (reg : Fin 3 → K × K) : Prop :=
  ∀ d, ((reg d).1 ≤ c d - r ∨ (reg d).1 < fl (c d - r)) ∧ (c d + r ≤ (reg d).2 ∨ fl (c d + r) < (reg d).2)

/-- C140. The mask of a region that contains the cube around a sphere selects all particles that are in the sphere according to rounded
arithmetic. -/
theorem c140_sphere (fl : K → K) (hfl : OrderKeeping fl) (f : File K m) (hf : WF f) (hb : ∀ d, fl (f.box d) = f.box d ∧ fl (-f.box d) = -f.box d)
    (calls : List (List (Option (List K)))) (rows : List (Option (List K))) (hr : rows ∈ calls) (reg : Fin 3 → K × K)
    (hreg : RegionIs f.box rows reg) (hok : RoundedMask.regionOk fl f.box reg = true) (k : Fin m) (c : Cell K) (hc : c ∈ f.cells k)
    (i : Int) (hi : Holds c i) (x : Fin 3 → K) (hx : ∀ d, fl (x d) = x d) (hxc : ∀ d, c.lo d ≤ x d ∧ x d ≤ c.hi d)
    (ctr : Fin 3 → K) (r : K) (hr0 : 0 ≤ r) (hrf : fl r = r) (hrf' : fl (-r) = -r) (hover : ReachesOver fl ctr r reg)
    (hin : RoundedSphere fl ctr r x) : Selects (RoundedMask.spatials fl f calls) k i := by
  refine c140_inside fl hfl f hf hb calls rows hr reg hreg hok k c hc i hi x hx hxc fun d => ?_
  obtain ⟨h1, h2⟩ := c140_sphere_extent fl hfl ctr x r hr0 hrf hrf' hin d
  obtain ⟨o1, o2⟩ := hover d
  constructor
  · rcases o1 with o | o
    · exact o.trans_lt h1
    · have := hfl.mono _ _ h1.le
      rw [hx d] at this
      exact o.trans_le this
  · rcases o2 with o | o
    · exact h2.trans_le o
    · have := hfl.mono _ _ h2.le
      rw [hx d] at this
      exact this.trans_lt o

end

/-- C140. Rounding to a nearest number of a format with binary digits keeps the order. -/
theorem c140_nearest (p : ℕ) (hp : 1 ≤ p) (emin : ℤ) (ρ : ℚ → ℤ) (hρ : ToNearest ρ) : OrderKeeping (nearest p emin ρ) where
  mono _ _ h := Nearest.nearest_mono hp hρ h
  twice x := Nearest.nearest_twice hp hρ x
  zero := Nearest.nearest_zero hρ

private theorem box_format {p : ℕ} {emin : ℤ} {ρ : ℚ → ℤ} (hρ : ToNearest ρ) {x : ℚ} (h : InFormat p emin x) :
    nearest p emin ρ x = x ∧ nearest p emin ρ (-x) = -x := by
  refine ⟨Nearest.nearest_of_format hρ h, Nearest.nearest_of_format hρ ?_⟩
  obtain ⟨n, e, he, hn, rfl⟩ := h
  exact ⟨-n, e, he, by rwa [abs_neg], by push_cast; ring⟩

/-- C140 for double precision: positions and another field are read with the mask of one region. The particles strictly between the ends of the
region are the same as without the mask, in the same order. -/
theorem c140_box {β : Type} (ρ : ℚ → ℤ) (hρ : ToNearest ρ) (f : File ℚ m) (hf : WF f) (hb : ∀ d, InFormat 53 (-1074) (f.box d))
    (rows : List (Option (List ℚ))) (reg : Fin 3 → ℚ × ℚ) (hreg : RegionIs f.box rows reg)
    (hok : RoundedMask.regionOk (nearest 53 (-1074) ρ) f.box reg = true) (k : Fin m) (pos : List (Fin 3 → ℚ)) (vals : List β)
    (hpos : pos.length = f.rows k) (hvals : vals.length = f.rows k) (hform : ∀ x ∈ pos, ∀ d, InFormat 53 (-1074) (x d))
    (hcells : ∀ (i : Nat) (x : Fin 3 → ℚ), pos[i]? = some x → ∃ c ∈ f.cells k, Holds c i ∧ ∀ d, c.lo d ≤ x d ∧ x d ≤ c.hi d)
    (lay lay' : Layout) (hlay : lay ≠ .remote) (hc : ∀ c, lay = .chunked c → 0 < c) (hlay' : lay' ≠ .remote)
    (hc' : ∀ c, lay' = .chunked c → 0 < c) (pos' : List (Fin 3 → ℚ)) (vals' : List β)
    (hl : load (RoundedMask.spatials (nearest 53 (-1074) ρ) f [rows]) lay pos k = .ok (pos'.map some))
    (hl' : load (RoundedMask.spatials (nearest 53 (-1074) ρ) f [rows]) lay' vals k = .ok (vals'.map some)) :
    (pos'.zip vals').filter (fun y => decide (∀ d, (reg d).1 < y.1 d ∧ y.1 d < (reg d).2)) =
      (pos.zip vals).filter (fun y => decide (∀ d, (reg d).1 < y.1 d ∧ y.1 d < (reg d).2)) := by
  refine c140_cut _ f hf [rows] k pos vals hpos hvals lay lay' hlay hc hlay' hc' pos' vals' hl hl'
    (fun x => decide (∀ d, (reg d).1 < x d ∧ x d < (reg d).2)) fun i x hx hp => ?_
  obtain ⟨c, hcm, hh, hxc⟩ := hcells i x hx
  exact c140_inside _ (c140_nearest 53 (by norm_num) _ ρ hρ) f hf (fun d => box_format hρ (hb d)) [rows] rows (by simp) reg hreg hok k c hcm
    i hh x (fun d => Nearest.nearest_of_format hρ (hform x (List.mem_of_getElem? hx) d)) hxc (by simpa using hp)

open Classical in
/-- C140 for double precision: the same for the particles in a sphere, where the cut is computed in double precision as well. -/
theorem c140_double {β : Type} (ρ : ℚ → ℤ) (hρ : ToNearest ρ) (f : File ℚ m) (hf : WF f) (hb : ∀ d, InFormat 53 (-1074) (f.box d))
    (rows : List (Option (List ℚ))) (reg : Fin 3 → ℚ × ℚ) (hreg : RegionIs f.box rows reg)
    (hok : RoundedMask.regionOk (nearest 53 (-1074) ρ) f.box reg = true) (k : Fin m) (pos : List (Fin 3 → ℚ)) (vals : List β)
    (hpos : pos.length = f.rows k) (hvals : vals.length = f.rows k) (hform : ∀ x ∈ pos, ∀ d, InFormat 53 (-1074) (x d))
    (hcells : ∀ (i : Nat) (x : Fin 3 → ℚ), pos[i]? = some x → ∃ c ∈ f.cells k, Holds c i ∧ ∀ d, c.lo d ≤ x d ∧ x d ≤ c.hi d)
    (lay lay' : Layout) (hlay : lay ≠ .remote) (hc : ∀ c, lay = .chunked c → 0 < c) (hlay' : lay' ≠ .remote)
    (hc' : ∀ c, lay' = .chunked c → 0 < c) (pos' : List (Fin 3 → ℚ)) (vals' : List β)
    (hl : load (RoundedMask.spatials (nearest 53 (-1074) ρ) f [rows]) lay pos k = .ok (pos'.map some))
    (hl' : load (RoundedMask.spatials (nearest 53 (-1074) ρ) f [rows]) lay' vals k = .ok (vals'.map some)) (ctr : Fin 3 → ℚ) (r : ℚ)
    (hr0 : 0 ≤ r) (hr : InFormat 53 (-1074) r) (hover : ReachesOver (nearest 53 (-1074) ρ) ctr r reg) :
    (pos'.zip vals').filter (fun y => decide (RoundedSphere (nearest 53 (-1074) ρ) ctr r y.1)) =
      (pos.zip vals).filter (fun y => decide (RoundedSphere (nearest 53 (-1074) ρ) ctr r y.1)) := by
  refine c140_cut _ f hf [rows] k pos vals hpos hvals lay lay' hlay hc hlay' hc' pos' vals' hl hl'
    (fun x => decide (RoundedSphere (nearest 53 (-1074) ρ) ctr r x)) fun i x hx hp => ?_
  obtain ⟨c, hcm, hh, hxc⟩ := hcells i x hx
  obtain ⟨r1, r2⟩ := box_format hρ hr
  exact c140_sphere _ (c140_nearest 53 (by norm_num) _ ρ hρ) f hf (fun d => box_format hρ (hb d)) [rows] rows (by simp) reg hreg hok k c hcm
    i hh x (fun d => Nearest.nearest_of_format hρ (hform x (List.mem_of_getElem? hx) d)) hxc ctr r hr0 r1 r2 hover (by simpa using hp)

/-- C140 for double precision and regions that reach over the sides of the box: any condition on positions that holds only inside one of the
accepted regions, by more than the box length divided by 2 to the power 49, gives the same particles as without the mask. -/
theorem c140_periodic {β : Type} (ρ : ℚ → ℤ) (hρ : ToNearest ρ) (f : File ℚ m) (hf : WF f) (hb : ∀ d, InFormat 53 (-1074) (f.box d))
    (hL : ∀ d, 2 ^ (-1000 : ℤ) ≤ f.box d) (calls : List (List (Option (List ℚ)))) (k : Fin m) (pos : List (Fin 3 → ℚ)) (vals : List β)
    (hpos : pos.length = f.rows k) (hvals : vals.length = f.rows k) (hbox : ∀ x ∈ pos, ∀ d, 0 ≤ x d ∧ x d ≤ f.box d)
    (hcells : ∀ (i : Nat) (x : Fin 3 → ℚ), pos[i]? = some x → ∃ c ∈ f.cells k, Holds c i ∧ ∀ d, c.lo d ≤ x d ∧ x d ≤ c.hi d)
    (lay lay' : Layout) (hlay : lay ≠ .remote) (hc : ∀ c, lay = .chunked c → 0 < c) (hlay' : lay' ≠ .remote)
    (hc' : ∀ c, lay' = .chunked c → 0 < c) (pos' : List (Fin 3 → ℚ)) (vals' : List β)
    (hl : load (RoundedMask.spatials (nearest 53 (-1074) ρ) f calls) lay pos k = .ok (pos'.map some))
    (hl' : load (RoundedMask.spatials (nearest 53 (-1074) ρ) f calls) lay' vals k = .ok (vals'.map some)) (P : (Fin 3 → ℚ) → Bool)
    (hP : ∀ x ∈ pos, P x = true → ∃ rows ∈ calls, ∃ reg, RegionIs f.box rows reg ∧
      RoundedMask.regionOk (nearest 53 (-1074) ρ) f.box reg = true ∧
      ∀ d, WellInside (f.box d / 2 ^ 49) (f.box d) (reg d).1 (reg d).2 (x d)) :
    (pos'.zip vals').filter (fun y => P y.1) = (pos.zip vals).filter (fun y => P y.1) := by
  refine c140_cut _ f hf calls k pos vals hpos hvals lay lay' hlay hc hlay' hc' pos' vals' hl hl' P fun i x hx hp => ?_
  obtain ⟨c, hcm, hh, hxc⟩ := hcells i x hx
  have hxm := List.mem_of_getElem? hx
  obtain ⟨rows, hr, reg, hreg, hok, hin⟩ := hP x hxm hp
  refine selects_of_keeps _ f hf calls rows hr reg hreg hok k c hcm i hh ?_
  have hone : RoundedMask.cellMask (nearest 53 (-1074) ρ) f.box reg [c] = .ok (RoundedMask.cellMaskOf (nearest 53 (-1074) ρ) f.box reg [c]) := by
    unfold RoundedMask.cellMask
    rw [if_pos hok]
  exact (RoundedMask.selected_iff _ f.box reg [c] _ hone 0 c rfl).mp
    (c138_double ρ hρ f.box hb hL reg [c] _ hone 0 c rfl x (hbox x hxm) hxc hin)

/-- C140. The rounded ends of the sphere are not enough: in double precision, the region from `centre - radius` to `centre + radius`, as they are
computed, does not select the cell of a particle whose computed distance is less than the radius. The sum of the centre and the radius is
rounded down to the position of the particle, with which its cell begins. -/
theorem c140_edge_fails :
    ∃ (ctr x : Fin 3 → ℚ) (r : ℚ) (c : Cell ℚ), (∀ d, InFormat 53 (-1074) (ctr d) ∧ InFormat 53 (-1074) (x d)) ∧ InFormat 53 (-1074) r ∧
      RoundedSphere (nearest 53 (-1074) toEven) ctr r x ∧ (∀ d, c.lo d ≤ x d ∧ x d ≤ c.hi d) ∧
      RoundedMask.cellMask (nearest 53 (-1074) toEven) (fun _ => 4)
        (fun d => (nearest 53 (-1074) toEven (ctr d - r), nearest 53 (-1074) toEven (ctr d + r))) [c] = .ok [false] := by
  refine ⟨fun _ => 1, fun d => if d = 0 then 1 + 1 / 2 ^ 52 else 1, 5 / 2 ^ 54,
    ⟨0, 1, fun d => if d = 0 then 1 + 1 / 2 ^ 52 else 1, fun d => if d = 0 then 1 + 2 / 2 ^ 52 else 2⟩, ?_, ?_, ?_, ?_, ?_⟩
  · intro d
    refine ⟨⟨1, 0, by norm_num, by norm_num, by norm_num⟩, ?_⟩
    by_cases hd : d = 0
    · simp only [if_pos hd]
      exact ⟨2 ^ 52 + 1, -52, by norm_num, by norm_num, by norm_num⟩
    · simp only [if_neg hd]
      exact ⟨1, 0, by norm_num, by norm_num, by norm_num⟩
  · exact ⟨5, -54, by norm_num, by norm_num, by norm_num⟩
  · unfold RoundedSphere
    decide +kernel
  · intro d
    by_cases hd : d = 0
    · simp only [hd, if_true]
      constructor <;> norm_num
    · simp only [hd, if_false]
      constructor <;> norm_num
  · decide +kernel

/-! ### Example: six particles in four cells, a sphere that meets two of the cells and holds one particle. -/

def cutPos : List (Fin 3 → ℚ) := [1 / 4, 3 / 4, 3 / 2, 5 / 2, 13 / 4, 15 / 4].map fun x d => if d = 0 then x else 2

def cutPos' : List (Fin 3 → ℚ) := [3 / 2, 5 / 2].map fun x d => if d = 0 then x else 2

def cutReg : Fin 3 → ℚ × ℚ := fun d => if d = 0 then (5 / 4, 9 / 4) else (3 / 2, 5 / 2)

theorem cutPos_format (x : Fin 3 → ℚ) (hx : x ∈ cutPos) (d : Fin 3) : InFormat 53 (-1074) (x d) := by
  simp only [cutPos, List.mem_map, List.mem_cons, List.not_mem_nil, or_false] at hx
  obtain ⟨q, hq, rfl⟩ := hx
  by_cases hd : d = 0
  · simp only [if_pos hd]
    rcases hq with rfl | rfl | rfl | rfl | rfl | rfl
    · exact ⟨1, -2, by norm_num, by norm_num, by norm_num⟩
    · exact ⟨3, -2, by norm_num, by norm_num, by norm_num⟩
    · exact ⟨3, -1, by norm_num, by norm_num, by norm_num⟩
    · exact ⟨5, -1, by norm_num, by norm_num, by norm_num⟩
    · exact ⟨13, -2, by norm_num, by norm_num, by norm_num⟩
    · exact ⟨15, -2, by norm_num, by norm_num, by norm_num⟩
  · simp only [if_neg hd]
    exact ⟨1, 1, by norm_num, by norm_num, by norm_num⟩

theorem cutPos_cells (i : Nat) (x : Fin 3 → ℚ) (h : cutPos[i]? = some x) :
    ∃ c ∈ exFile.cells 0, Holds c i ∧ ∀ d, c.lo d ≤ x d ∧ x d ≤ c.hi d := by
  have hi : i < 6 := by
    have := (List.getElem?_eq_some_iff.1 h).1
    simpa [cutPos] using this
  have key : ∀ (c : Cell ℚ), c ∈ exFile.cells 0 → Holds c i → (∀ d, c.lo d ≤ x d ∧ x d ≤ c.hi d) →
      ∃ c ∈ exFile.cells 0, Holds c i ∧ ∀ d, c.lo d ≤ x d ∧ x d ≤ c.hi d := fun c h1 h2 h3 => ⟨c, h1, h2, h3⟩
  have hi' : i = 0 ∨ i = 1 ∨ i = 2 ∨ i = 3 ∨ i = 4 ∨ i = 5 := by omega
  rcases hi' with rfl | rfl | rfl | rfl | rfl | rfl
  · cases h
    exact key (exCell 0 2 0) (by simp [exFile]) ⟨by decide, by decide⟩ (by decide +kernel)
  · cases h
    exact key (exCell 0 2 0) (by simp [exFile]) ⟨by decide, by decide⟩ (by decide +kernel)
  · cases h
    exact key (exCell 2 1 1) (by simp [exFile]) ⟨by decide, by decide⟩ (by decide +kernel)
  · cases h
    exact key (exCell 3 1 2) (by simp [exFile]) ⟨by decide, by decide⟩ (by decide +kernel)
  · cases h
    exact key (exCell 4 2 3) (by simp [exFile]) ⟨by decide, by decide⟩ (by decide +kernel)
  · cases h
    exact key (exCell 4 2 3) (by simp [exFile]) ⟨by decide, by decide⟩ (by decide +kernel)

open Classical in
example :
    (cutPos'.zip ([30, 40] : List ℚ)).filter (fun y => decide (RoundedSphere (nearest 53 (-1074) toEven) (fun d => if d = 0 then 7 / 4 else 2) (1 / 2) y.1)) =
      (cutPos.zip ([10, 20, 30, 40, 50, 60] : List ℚ)).filter
        (fun y => decide (RoundedSphere (nearest 53 (-1074) toEven) (fun d => if d = 0 then 7 / 4 else 2) (1 / 2) y.1)) := by
  refine c140_double (β := ℚ) toEven c138_toEven exFile exFile_wf (fun d => ⟨1, 2, by norm_num, by norm_num, by norm_num [exFile]⟩)
    [some [5 / 4, 9 / 4], some [3 / 2, 5 / 2], some [3 / 2, 5 / 2]] cutReg ?_ (by decide +kernel) 0 cutPos [10, 20, 30, 40, 50, 60] rfl rfl cutPos_format cutPos_cells
    .contiguous .contiguous (by simp) (by simp) (by simp) (by simp) cutPos' [30, 40] ?_ ?_ (fun d => if d = 0 then 7 / 4 else 2) (1 / 2) (by norm_num)
    ⟨1, -1, by norm_num, by norm_num, by norm_num⟩ ?_
  · refine ⟨rfl, fun d => Or.inr ?_⟩
    fin_cases d <;> rfl
  · decide +kernel
  · decide +kernel
  · intro d
    fin_cases d <;> (refine ⟨Or.inl ?_, Or.inl ?_⟩ <;> norm_num [cutReg])

end Verif.Props
