import Verif.Props.Frame

/-!
# C53 for slices and renders (`swiftsimio/visualisation/slice.py`, `volume_render.py`)
-/

set_option linter.unusedSectionVars false

namespace Verif.Props
open Verif Verif.Spec Verif.Scatter Verif.Frame

variable {K : Type} [Field K] [LinearOrder K] [IsStrictOrderedRing K] [FloorRing K]

private theorem isCopy_shift {b : K} {i : Int} (hi : IsCopy b i) (k : Int) : IsCopy b (k + -i) ↔ IsCopy b k := by
  unfold IsCopy at *
  constructor
  · intro h h0; have := h h0; have := hi h0; omega
  · intro h h0; have := h h0; have := hi h0; omega

private theorem tile3_place {bx by_ bz R : K} (hR : R ≠ 0) (f : K → K → K → K) {x y z x' y' z' a b c : K} (i j l : Int)
    (hi : IsCopy bx i) (hj : IsCopy by_ j) (hl : IsCopy bz l) (hx : x' = (x - a) / R + i * (bx / R))
    (hy : y' = (y - b) / R + j * (by_ / R)) (hz : z' = (z - c) / R + l * (bz / R)) :
    tile3 (bx / R) (by_ / R) (bz / R) f x' y' z' =
      tile3 bx by_ bz (fun X Y Z => f ((X - a) / R) ((Y - b) / R) ((Z - c) / R)) x y z := by
  unfold tile3
  rw [← finsum_comp_equiv (Equiv.prodCongr (Equiv.addRight (-i))
    (Equiv.prodCongr (Equiv.addRight (-j)) (Equiv.addRight (-l))))]
  apply finsum_congr
  rintro ⟨k, m, n⟩
  simp only [Equiv.prodCongr_apply, Equiv.coe_addRight, Prod.map, isCopy_scale hR, isCopy_shift hi, isCopy_shift hj,
    isCopy_shift hl]
  split
  · congr 1
    · rw [hx]; push_cast; field_simp; ring
    · rw [hy]; push_cast; field_simp; ring
    · rw [hz]; push_cast; field_simp; ring
  · rfl

private theorem tile3_mul (bx by_ bz c : K) (f : K → K → K → K) (x y z : K) :
    tile3 bx by_ bz (fun X Y Z => c * f X Y Z) x y z = c * tile3 bx by_ bz f x y z := by
  unfold tile3
  rw [← smul_eq_mul, smul_finsum]
  apply finsum_congr
  intro k
  split <;> simp

private theorem trimmed_self {res : Nat} {R : K} (hR : 0 < R) : trimmed res R R = res := by
  unfold trimmed
  rw [div_self hR.ne', mul_one, Int.ceil_natCast, Int.toNat_natCast]

private theorem trimmed_le {res : Nat} {r R : K} (hR : 0 < R) (h : r ≤ R) : trimmed res r R ≤ res := by
  have h1 : (res : K) * (r / R) ≤ ((res : Int) : K) := by
    rw [Int.cast_natCast]
    exact mul_le_of_le_one_right (by positivity) ((div_le_one hR).2 h)
  have h2 := Int.ceil_le.2 h1
  unfold trimmed
  omega

private theorem trimmed_max (res : Nat) {r s : K} (h : 0 < max r s) :
    max (trimmed res r (max r s)) (trimmed res s (max r s)) = res := by
  rcases le_total r s with hrs | hrs
  · rw [max_eq_right hrs] at h ⊢
    rw [trimmed_self h, max_eq_right (trimmed_le h hrs)]
  · rw [max_eq_left hrs] at h ⊢
    rw [trimmed_self h, max_eq_left (trimmed_le h hrs)]

/-- along the line of sight there is no corner -/
private theorem placez {periodic : Bool} {L R : K} (z : K) :
    ∃ k : Int, IsCopy (period periodic L) k ∧
      (let w := if periodic then pmod z L else z
       if periodic then pmod (w / R) (L / R) else w / R) = z / R + k * (period periodic L / R) ∧
        (periodic = true → 0 < L → 0 < R → Wrapped (L / R) (pmod (pmod z L / R) (L / R))) := by
  obtain ⟨k, h1, h2, h3⟩ := place (periodic := periodic) (L := L) (R := R) z 0
  simp only [sub_zero] at h2 h3
  exact ⟨k, h1, h2, h3⟩

private theorem floor_place {res : Nat} (hr : 0 < res) {R : K} (hR : 0 < R) (v : K) : (res : K) * (v / R) = v / (R / res) := by
  have hr' : (res : K) ≠ 0 := by exact_mod_cast hr.ne'
  have := hR.ne'
  field_simp

/-- C53 for the slice, end to end, up to the truncation of the kernels found under C36 (which is in `sliceAt`): for every
region, box, height and mask the pixels returned are the ones that overlap the region, and each holds the density of all
periodic copies at the position of the pixel in the box. -/
theorem c53_slice_partial {W : K → K → K} (hW : Compact W) (hsc : Scales 3 W) {g : K} {res : Nat} (hr : 0 < res)
    (Lx Ly Lz : K) (periodic : Bool) (hL : periodic = true → 0 < Lx ∧ 0 < Ly ∧ 0 < Lz) {x0 x1 y0 y1 : K} (hx : x0 < x1)
    (_hy : y0 < y1) (depth : Option (K × K)) (zs : K) (ps : List (Part K × Bool))
    (hp : ∀ p ∈ ps, 0 < g * p.1.h ∧ (periodic = true → g * p.1.h ≤ Lx ∧ g * p.1.h ≤ Ly ∧ g * p.1.h ≤ Lz)) :
    ∃ out, sliceGrid (slice W g) (Lx, Ly, Lz) (some (limits x0 x1 y0 y1 depth)) zs periodic true res ps = .ok out ∧
      (∀ i : Int, OnImage out.nx i ↔ 0 ≤ i ∧ x0 + i * (max (x1 - x0) (y1 - y0) / res) < x1) ∧
      (∀ j : Int, OnImage out.ny j ↔ 0 ≤ j ∧ y0 + j * (max (x1 - x0) (y1 - y0) / res) < y1) ∧
      ∀ q, OnImage out.nx q.1 → OnImage out.ny q.2 → out.img q =
        (ps.map fun p => if p.2 = true then
          tile3 (period periodic Lx) (period periodic Ly) (period periodic Lz)
            (sliceAt W x0 y0 zs (max (x1 - x0) (y1 - y0)) res p.1.m (g * p.1.h) q) p.1.x p.1.y p.1.z else 0).sum := by
  obtain ⟨info, h0, i1, i2, i3, i4, i5, i6, i7, i8, i9, i10⟩ := regionInfo_limits (Lx, Ly, Lz) x0 x1 y0 y1 depth periodic
  set R := max (x1 - x0) (y1 - y0) with hRdef
  have hR : 0 < R := lt_max_of_lt_left (by linarith)
  have hmax : max (trimmed res info.xRange info.maxRange) (trimmed res info.yRange info.maxRange) = res := by
    rw [i3, i4, i5]; exact trimmed_max res hR
  set pts := (((ps.filter fun p => p.2).map Prod.fst).map (wrapped (Lx, Ly, Lz) periodic)).map (normedSlice info periodic)
    with hpts
  have hb : ∀ {L B : K}, B = period periodic (L / R) → B = period periodic L / R := by
    intro L B h; rw [h]; unfold period; split <;> simp
  have hbx : info.boxX = period periodic Lx / R := hb i8
  have hby : info.boxY = period periodic Ly / R := hb i9
  have hbz : info.boxZ = period periodic Lz / R := hb i10
  have hb0x : 0 ≤ info.boxX := by rw [hbx]; exact div_nonneg (period_pos fun h => (hL h).1) hR.le
  have hb0y : 0 ≤ info.boxY := by rw [hby]; exact div_nonneg (period_pos fun h => (hL h).2.1) hR.le
  have hb0z : 0 ≤ info.boxZ := by rw [hbz]; exact div_nonneg (period_pos fun h => (hL h).2.2) hR.le
  set zs' := (if periodic then pmod (zs / info.maxRange) info.boxZ else zs / info.maxRange) with hzs'
  obtain ⟨n, hn, en, wn⟩ : ∃ n : Int, IsCopy (period periodic Lz) n ∧ zs' = zs / R + n * (period periodic Lz / R) ∧
      Wrapped info.boxZ zs' := by
    rw [hzs', i5, i10]
    cases periodic with
    | false => exact ⟨0, fun _ => rfl, by simp, fun h => by simp [period] at h⟩
    | true =>
      have hLz := (hL rfl).2.2
      refine ⟨-⌊zs / R / (Lz / R)⌋, fun h => absurd h hLz.ne', ?_, ?_⟩
      · simp only [if_true, period]; exact pmod_eq _ _
      · intro _; simp only [if_true, period]; exact pmod_mem (by positivity) _
  have place3 : ∀ p : Part K, ∃ i j l : Int, IsCopy (period periodic Lx) i ∧ IsCopy (period periodic Ly) j ∧
      IsCopy (period periodic Lz) l ∧
      (normedSlice info periodic (wrapped (Lx, Ly, Lz) periodic p)).x = (p.x - x0) / R + i * (period periodic Lx / R) ∧
      (normedSlice info periodic (wrapped (Lx, Ly, Lz) periodic p)).y = (p.y - y0) / R + j * (period periodic Ly / R) ∧
      (normedSlice info periodic (wrapped (Lx, Ly, Lz) periodic p)).z = p.z / R + l * (period periodic Lz / R) ∧
      Wrapped info.boxX (normedSlice info periodic (wrapped (Lx, Ly, Lz) periodic p)).x ∧
      Wrapped info.boxY (normedSlice info periodic (wrapped (Lx, Ly, Lz) periodic p)).y ∧
      Wrapped info.boxZ (normedSlice info periodic (wrapped (Lx, Ly, Lz) periodic p)).z := by
    intro p
    obtain ⟨i, hi, ei, wi⟩ := place (periodic := periodic) (L := Lx) (R := R) p.x x0
    obtain ⟨j, hj, ej, wj⟩ := place (periodic := periodic) (L := Ly) (R := R) p.y y0
    obtain ⟨l, hl, el, wl⟩ := placez (periodic := periodic) (L := Lz) (R := R) p.z
    refine ⟨i, j, l, hi, hj, hl, ?_, ?_, ?_, ?_, ?_, ?_⟩
    · rw [← ei]; unfold normedSlice normed wrapped; cases periodic <;> simp [i1, i5, i8, period]
    · rw [← ej]; unfold normedSlice normed wrapped; cases periodic <;> simp [i2, i5, i9, period]
    · rw [← el]; unfold normedSlice normed wrapped; cases periodic <;> simp [i5, i10, period]
    · cases periodic with
      | false => intro h; rw [i8] at h; simp [period] at h
      | true =>
        have := wi rfl (hL rfl).1 hR
        unfold normedSlice normed wrapped; simpa [i1, i5, i8, period] using this
    · cases periodic with
      | false => intro h; rw [i9] at h; simp [period] at h
      | true =>
        have := wj rfl (hL rfl).2.1 hR
        unfold normedSlice normed wrapped; simpa [i2, i5, i9, period] using this
    · cases periodic with
      | false => intro h; rw [i10] at h; simp [period] at h
      | true =>
        have := wl rfl (hL rfl).2.2 hR
        unfold normedSlice normed wrapped; simpa [i5, i10, period] using this
  have hh : ∀ p : Part K, (normedSlice info periodic (wrapped (Lx, Ly, Lz) periodic p)).h = p.h / R ∧
      (normedSlice info periodic (wrapped (Lx, Ly, Lz) periodic p)).m = p.m := by
    intro p
    unfold normedSlice normed wrapped
    cases periodic <;> simp [i5]
  have hper : ∀ {L B : K}, B = period periodic (L / R) → B ≠ 0 → periodic = true ∧ B = L / R := by
    intro L B h hB
    have : periodic = true := by
      by_contra hn; apply hB; rw [h]; simp [period, hn]
    exact ⟨this, by rw [h, this]; rfl⟩
  have hfits : ∀ c ∈ pts, Wrapped info.boxX c.x ∧ Wrapped info.boxY c.y ∧ Wrapped info.boxZ c.z ∧ 0 < g * c.h ∧
      (info.boxX ≠ 0 → g * c.h ≤ info.boxX) ∧ (info.boxY ≠ 0 → g * c.h ≤ info.boxY) ∧
      (info.boxZ ≠ 0 → g * c.h ≤ info.boxZ) := by
    intro c hc
    rw [hpts, List.mem_map] at hc
    obtain ⟨c', hc', rfl⟩ := hc
    rw [List.mem_map] at hc'
    obtain ⟨c'', hc'', rfl⟩ := hc'
    rw [List.mem_map] at hc''
    obtain ⟨p, hpm, rfl⟩ := hc''
    have hpm' := List.mem_of_mem_filter hpm
    obtain ⟨i, j, l, _, _, _, _, _, _, w1, w2, w3⟩ := place3 p.1
    obtain ⟨g1, g2⟩ := hp p hpm'
    have e : g * (p.1.h / R) = g * p.1.h / R := by ring
    rw [(hh p.1).1, e]
    refine ⟨w1, w2, w3, div_pos g1 hR, ?_, ?_, ?_⟩
    · intro h
      obtain ⟨h1, h2⟩ := hper i8 h
      rw [h2]; exact div_le_div_of_nonneg_right (g2 h1).1 hR.le
    · intro h
      obtain ⟨h1, h2⟩ := hper i9 h
      rw [h2]; exact div_le_div_of_nonneg_right (g2 h1).2.1 hR.le
    · intro h
      obtain ⟨h1, h2⟩ := hper i10 h
      rw [h2]; exact div_le_div_of_nonneg_right (g2 h1).2.2 hR.le
  have himg := c36_slice_partial hW (g := g) (zs := zs') (xres := trimmed res info.xRange info.maxRange)
    (yres := trimmed res info.yRange info.maxRange) (by rw [hmax]; exact hr) hb0x hb0y hb0z wn pts hfits
  have hgrid : sliceGrid (slice W g) (Lx, Ly, Lz) (some (limits x0 x1 y0 y1 depth)) zs periodic true res ps =
      (slice W g zs' (trimmed res info.xRange info.maxRange) (trimmed res info.yRange info.maxRange) info.boxX info.boxY
        info.boxZ pts >>= fun img => .ok
        { nx := trimmed res info.xRange info.maxRange, ny := trimmed res info.yRange info.maxRange,
          img := fun q => img q / info.maxRange ^ 3 }) := by
    unfold sliceGrid
    rw [h0]
    rfl
  rw [himg] at hgrid
  have hnx : ∀ i : Int, OnImage (trimmed res info.xRange info.maxRange) i ↔ 0 ≤ i ∧ x0 + i * (R / res) < x1 := by
    intro i
    unfold OnImage
    rw [i3, i5]
    constructor
    · rintro ⟨a1, a2⟩; exact ⟨a1, (trimmed_iff hr hR i a1).1 a2⟩
    · rintro ⟨a1, a2⟩; exact ⟨a1, (trimmed_iff hr hR i a1).2 a2⟩
  have hny : ∀ i : Int, OnImage (trimmed res info.yRange info.maxRange) i ↔ 0 ≤ i ∧ y0 + i * (R / res) < y1 := by
    intro i
    unfold OnImage
    rw [i4, i5]
    constructor
    · rintro ⟨a1, a2⟩; exact ⟨a1, (trimmed_iff hr hR i a1).1 a2⟩
    · rintro ⟨a1, a2⟩; exact ⟨a1, (trimmed_iff hr hR i a1).2 a2⟩
  refine ⟨_, hgrid, hnx, hny, ?_⟩
  intro q hq1 hq2
  dsimp only
  dsimp only at hq1 hq2
  rw [if_pos ⟨hq1, hq2⟩, div_eq_iff (by rw [i5]; positivity), i5]
  rw [hpts, List.map_map, List.map_map, List.map_map, ← List.sum_map_mul_right]
  rw [sum_filter]
  congr 1
  apply List.map_congr_left
  intro p _
  rw [ite_mul, zero_mul]
  congr 1
  obtain ⟨i, j, l, hi, hj, hl, ei, ej, el, _⟩ := place3 p.1
  simp only [Function.comp_def]
  rw [(hh p.1).1, (hh p.1).2, ← i5, hmax, i5]
  -- measure heights from the slice
  have e1 : tile3 info.boxX info.boxY info.boxZ (fun x y z =>
      if q.1 ≤ ⌊(res : K) * x⌋ + ⌊(res : K) * (g * (p.1.h / R))⌋ ∧ q.2 ≤ ⌊(res : K) * y⌋ + ⌊(res : K) * (g * (p.1.h / R))⌋ then
        p.1.m * W (gap2 res q x y + (z - zs') ^ 2) (g * (p.1.h / R)) else 0)
      (normedSlice info periodic (wrapped (Lx, Ly, Lz) periodic p.1)).x
      (normedSlice info periodic (wrapped (Lx, Ly, Lz) periodic p.1)).y
      (normedSlice info periodic (wrapped (Lx, Ly, Lz) periodic p.1)).z =
      tile3 info.boxX info.boxY info.boxZ (fun x y z =>
      if q.1 ≤ ⌊(res : K) * x⌋ + ⌊(res : K) * (g * (p.1.h / R))⌋ ∧ q.2 ≤ ⌊(res : K) * y⌋ + ⌊(res : K) * (g * (p.1.h / R))⌋ then
        p.1.m * W (gap2 res q x y + z ^ 2) (g * (p.1.h / R)) else 0)
      (normedSlice info periodic (wrapped (Lx, Ly, Lz) periodic p.1)).x
      (normedSlice info periodic (wrapped (Lx, Ly, Lz) periodic p.1)).y
      ((normedSlice info periodic (wrapped (Lx, Ly, Lz) periodic p.1)).z - zs') := by
    unfold tile3
    apply finsum_congr
    intro k
    simp only [add_sub_right_comm]
  have ez : (normedSlice info periodic (wrapped (Lx, Ly, Lz) periodic p.1)).z - zs' =
      (p.1.z - zs) / R + ((l - n : Int) : K) * (period periodic Lz / R) := by
    rw [el, en]; push_cast; ring
  have hln : IsCopy (period periodic Lz) (l - n) := by
    intro h; rw [hl h, hn h]; rfl
  rw [e1, hbx, hby, hbz, tile3_place hR.ne' _ i j (l - n) hi hj hln ei ej ez, mul_comm _ (R ^ 3), ← tile3_mul]
  congr 1
  funext X Y Z
  unfold sliceAt
  rw [show g * (p.1.h / R) = g * p.1.h / R by ring, floor_place hr hR, floor_place hr hR, floor_place hr hR]
  split
  · unfold gap2
    rw [centre_place hr hR, centre_place hr hR, show (Z - zs) / R = 1 / R * (Z - zs) by ring, mul_pow, mul_pow, mul_pow,
      ← mul_add, ← mul_add, show g * p.1.h / R = 1 / R * (g * p.1.h) by ring, hsc _ _ _ (by positivity)]
    field_simp
  · rw [mul_zero]

private theorem voxel_place {W : K → K → K} (hsc : Scales 3 W) {res : Nat} (hr : 0 < res) {R : K} (hR : 0 < R) (a b c m H : K)
    (q : Int × Int × Int) (X Y Z : K) :
    voxelAt W res res m (H / R) q ((X - a) / R) ((Y - b) / R) ((Z - c) / R) = R ^ 3 * densityAt W a b c R res m H q X Y Z := by
  have hr' : (0 : K) < res := by exact_mod_cast hr
  unfold voxelAt densityAt
  have e : (H / R * res < 1 / 2 ∨ H / R * res < 1 / 2) ↔ H < R / res / 2 := by
    rw [or_self, div_mul_eq_mul_div, div_lt_iff₀ hR, div_div, lt_div_iff₀ (by positivity)]
    constructor <;> intro h <;> linarith
  simp only [e, floor_place hr hR, inPixel_place hr hR]
  split
  · split
    · field_simp
    · rw [mul_zero]
  · split
    · unfold gap3
      rw [centre_place hr hR, centre_place hr hR, centre_place hr hR, mul_pow, mul_pow, mul_pow, ← mul_add, ← mul_add,
        show H / R = 1 / R * H by ring, hsc _ _ _ (by positivity)]
      field_simp
    · rw [mul_zero]

/-- C53 for the render, end to end, up to the truncation of the kernels found under C36 (which is in `densityAt`): for every
cubic region, box and mask each voxel holds the density of all periodic copies at the position of the voxel in the box. -/
theorem c53_render_partial {W : K → K → K} (hW : Compact W) (hsc : Scales 3 W) {g : K} {res : Nat} (hr : 0 < res)
    (Lx Ly Lz : K) (periodic : Bool) (hL : periodic = true → 0 < Lx ∧ 0 < Ly ∧ 0 < Lz) (x0 y0 z0 : K) {R : K} (hR : 0 < R)
    (ps : List (Part K × Bool))
    (hp : ∀ p ∈ ps, 0 ≤ g * p.1.h ∧ (periodic = true → g * p.1.h ≤ Lx ∧ g * p.1.h ≤ Ly ∧ g * p.1.h ≤ Lz)) :
    ∃ out, renderGrid (volume W g) (Lx, Ly, Lz) (some [x0, x0 + R, y0, y0 + R, z0, z0 + R]) periodic true res ps = .ok out ∧
      ∀ q, OnImage res q.1 → OnImage res q.2.1 → OnImage res q.2.2 → out q =
        (ps.map fun p => if p.2 = true then
          tile3 (period periodic Lx) (period periodic Ly) (period periodic Lz)
            (densityAt W x0 y0 z0 R res p.1.m (g * p.1.h) q) p.1.x p.1.y p.1.z else 0).sum := by
  obtain ⟨info, h0, i1, i2, i3, i4, i5, i6, i8, i9, i10⟩ :
      ∃ info, regionInfo (Lx, Ly, Lz) (some [x0, x0 + R, y0, y0 + R, z0, z0 + R]) true periodic = .ok info ∧
        info.xMin = x0 ∧ info.yMin = y0 ∧ info.zMin = z0 ∧ info.xRange = R ∧ info.yRange = R ∧ info.zRange = R ∧
        info.boxX = period periodic (Lx / R) ∧ info.boxY = period periodic (Ly / R) ∧
        info.boxZ = period periodic (Lz / R) := by
    have hc : isclose R R := by unfold isclose; rw [sub_self, abs_zero]; positivity
    unfold regionInfo infoOf
    simp only [add_sub_cancel_left, max_self, hc, decide_true, Bool.and_self, Bool.not_true, Bool.and_false]
    exact ⟨_, rfl, rfl, rfl, rfl, rfl, rfl, rfl, rfl, rfl, rfl⟩
  set pts := (((ps.filter fun p => p.2).map Prod.fst).map (wrapped (Lx, Ly, Lz) periodic)).map (normedVolume info periodic)
    with hpts
  have hb : ∀ {L B : K}, B = period periodic (L / R) → B = period periodic L / R := by
    intro L B h; rw [h]; unfold period; split <;> simp
  have hbx : info.boxX = period periodic Lx / R := hb i8
  have hby : info.boxY = period periodic Ly / R := hb i9
  have hbz : info.boxZ = period periodic Lz / R := hb i10
  have hb0x : 0 ≤ info.boxX := by rw [hbx]; exact div_nonneg (period_pos fun h => (hL h).1) hR.le
  have hb0y : 0 ≤ info.boxY := by rw [hby]; exact div_nonneg (period_pos fun h => (hL h).2.1) hR.le
  have hb0z : 0 ≤ info.boxZ := by rw [hbz]; exact div_nonneg (period_pos fun h => (hL h).2.2) hR.le
  have place3 : ∀ p : Part K, ∃ i j l : Int, IsCopy (period periodic Lx) i ∧ IsCopy (period periodic Ly) j ∧
      IsCopy (period periodic Lz) l ∧
      (normedVolume info periodic (wrapped (Lx, Ly, Lz) periodic p)).x = (p.x - x0) / R + i * (period periodic Lx / R) ∧
      (normedVolume info periodic (wrapped (Lx, Ly, Lz) periodic p)).y = (p.y - y0) / R + j * (period periodic Ly / R) ∧
      (normedVolume info periodic (wrapped (Lx, Ly, Lz) periodic p)).z = (p.z - z0) / R + l * (period periodic Lz / R) ∧
      Wrapped info.boxX (normedVolume info periodic (wrapped (Lx, Ly, Lz) periodic p)).x ∧
      Wrapped info.boxY (normedVolume info periodic (wrapped (Lx, Ly, Lz) periodic p)).y ∧
      Wrapped info.boxZ (normedVolume info periodic (wrapped (Lx, Ly, Lz) periodic p)).z := by
    intro p
    obtain ⟨i, hi, ei, wi⟩ := place (periodic := periodic) (L := Lx) (R := R) p.x x0
    obtain ⟨j, hj, ej, wj⟩ := place (periodic := periodic) (L := Ly) (R := R) p.y y0
    obtain ⟨l, hl, el, wl⟩ := place (periodic := periodic) (L := Lz) (R := R) p.z z0
    refine ⟨i, j, l, hi, hj, hl, ?_, ?_, ?_, ?_, ?_, ?_⟩
    · rw [← ei]; unfold normedVolume wrapped; cases periodic <;> simp [i1, i4, i8, period]
    · rw [← ej]; unfold normedVolume wrapped; cases periodic <;> simp [i2, i5, i9, period]
    · rw [← el]; unfold normedVolume wrapped; cases periodic <;> simp [i3, i6, i10, period]
    · cases periodic with
      | false => intro h; rw [i8] at h; simp [period] at h
      | true =>
        have := wi rfl (hL rfl).1 hR
        unfold normedVolume wrapped; simpa [i1, i4, i8, period] using this
    · cases periodic with
      | false => intro h; rw [i9] at h; simp [period] at h
      | true =>
        have := wj rfl (hL rfl).2.1 hR
        unfold normedVolume wrapped; simpa [i2, i5, i9, period] using this
    · cases periodic with
      | false => intro h; rw [i10] at h; simp [period] at h
      | true =>
        have := wl rfl (hL rfl).2.2 hR
        unfold normedVolume wrapped; simpa [i3, i6, i10, period] using this
  have hh : ∀ p : Part K, (normedVolume info periodic (wrapped (Lx, Ly, Lz) periodic p)).h = p.h / R ∧
      (normedVolume info periodic (wrapped (Lx, Ly, Lz) periodic p)).m = p.m := by
    intro p
    unfold normedVolume wrapped
    cases periodic <;> simp [i4]
  have hper : ∀ {L B : K}, B = period periodic (L / R) → B ≠ 0 → periodic = true ∧ B = L / R := by
    intro L B h hB
    have : periodic = true := by
      by_contra hn; apply hB; rw [h]; simp [period, hn]
    exact ⟨this, by rw [h, this]; rfl⟩
  have hfits : Fits3 g info.boxX info.boxY info.boxZ pts := by
    intro c hc
    rw [hpts, List.mem_map] at hc
    obtain ⟨c', hc', rfl⟩ := hc
    rw [List.mem_map] at hc'
    obtain ⟨c'', hc'', rfl⟩ := hc'
    rw [List.mem_map] at hc''
    obtain ⟨p, hpm, rfl⟩ := hc''
    have hpm' := List.mem_of_mem_filter hpm
    obtain ⟨i, j, l, _, _, _, _, _, _, w1, w2, w3⟩ := place3 p.1
    obtain ⟨g1, g2⟩ := hp p hpm'
    have e : g * (p.1.h / R) = g * p.1.h / R := by ring
    rw [(hh p.1).1, e]
    refine ⟨w1, w2, w3, div_nonneg g1 hR.le, ?_, ?_, ?_⟩
    · intro h
      obtain ⟨h1, h2⟩ := hper i8 h
      rw [h2]; exact div_le_div_of_nonneg_right (g2 h1).1 hR.le
    · intro h
      obtain ⟨h1, h2⟩ := hper i9 h
      rw [h2]; exact div_le_div_of_nonneg_right (g2 h1).2.1 hR.le
    · intro h
      obtain ⟨h1, h2⟩ := hper i10 h
      rw [h2]; exact div_le_div_of_nonneg_right (g2 h1).2.2 hR.le
  have himg := c36_volume_partial hW (g := g) hr hb0x hb0y hb0z pts hfits
  have hgrid : renderGrid (volume W g) (Lx, Ly, Lz) (some [x0, x0 + R, y0, y0 + R, z0, z0 + R]) periodic true res ps =
      (volume W g res info.boxX info.boxY info.boxZ pts >>= fun img => .ok fun q =>
        img q / (info.xRange * info.yRange * info.zRange)) := by
    unfold renderGrid
    rw [h0]
    rfl
  rw [himg] at hgrid
  refine ⟨_, hgrid, ?_⟩
  intro q hq1 hq2 hq3
  dsimp only
  rw [if_pos ⟨hq1, hq2, hq3⟩, i4, i5, i6, div_eq_iff (by positivity)]
  rw [hpts, List.map_map, List.map_map, List.map_map, ← List.sum_map_mul_right]
  rw [sum_filter]
  congr 1
  apply List.map_congr_left
  intro p _
  rw [ite_mul, zero_mul]
  congr 1
  obtain ⟨i, j, l, hi, hj, hl, ei, ej, el, _⟩ := place3 p.1
  simp only [Function.comp_def]
  rw [(hh p.1).1, (hh p.1).2, hbx, hby, hbz, tile3_place hR.ne' _ i j l hi hj hl ei ej el, mul_comm _ (R * R * R), ← tile3_mul]
  congr 1
  funext X Y Z
  rw [show g * (p.1.h / R) = g * p.1.h / R by ring, voxel_place hsc hr hR]
  ring

/-- Regions that are far from cubic are refused, whatever is drawn. -/
theorem c53_render_refused (scatter : Nat → K → K → K → List (Part K) → Except Err (Int × Int × Int → K)) (box : K × K × K)
    (x0 x1 y0 y1 z0 z1 : K) (periodic framed : Bool) (res : Nat) (ps : List (Part K × Bool))
    (h : 1 / 10 ^ 8 + 1 / 10 ^ 5 * |y1 - y0| < |(x1 - x0) - (y1 - y0)| ∨
      1 / 10 ^ 8 + 1 / 10 ^ 5 * |z1 - z0| < |(x1 - x0) - (z1 - z0)|) :
    renderGrid scatter box (some [x0, x1, y0, y1, z0, z1]) periodic framed res ps = .error .attribute := by
  have hc : (true && !(decide (isclose (x1 - x0) (y1 - y0)) && decide (isclose (x1 - x0) (z1 - z0)))) = true := by
    rw [Bool.true_and, Bool.not_eq_true', Bool.and_eq_false_iff, decide_eq_false_iff_not, decide_eq_false_iff_not]
    rcases h with h | h
    · exact Or.inl (not_le.2 h)
    · exact Or.inr (not_le.2 h)
  have h0 : regionInfo box (some [x0, x1, y0, y1, z0, z1]) true periodic = .error .attribute := by
    unfold regionInfo infoOf
    dsimp only
    rw [if_pos hc]
  unfold renderGrid
  rw [h0]
  rfl

/-- C53, failing part: the tolerance of the check has an absolute part, so in large units a region that is three times as
long in one direction is accepted. The density of a particle in it is then divided by the wrong lengths: a kernel with a
radius of two cells covers a voxel four cells away in the box. -/
theorem c53_render_tiny_fails (W : ℚ → ℚ → ℚ) (hW : Compact W) (hpos : PositiveInside W) :
    ∃ (x1 y1 z1 : ℚ) (p : Part ℚ) (q : Int × Int × Int) (out : Int × Int × Int → ℚ),
      0 < x1 ∧ y1 = 3 * x1 ∧ z1 = x1 ∧
      renderGrid (volume W 1) (1, 1, 1) (some [0, x1, 0, y1, 0, z1]) false true 10 [(p, true)] = .ok out ∧
      OnImage 10 q.1 ∧ OnImage 10 q.2.1 ∧ OnImage 10 q.2.2 ∧
      p.h ^ 2 < (cellCentre 0 y1 10 q.2.1 - p.y) ^ 2 ∧ 0 < out q := by
  have hv : ∀ ps : List (Part ℚ), Fits3 1 0 0 0 ps → volume W 1 10 0 0 0 ps = _ :=
    fun ps h => c36_volume_partial hW (g := 1) (res := 10) (by norm_num) le_rfl le_rfl le_rfl ps h
  have hc : (true && !(decide (isclose ((1 : ℚ) / 10 ^ 9 - 0) (3 / 10 ^ 9 - 0)) &&
      decide (isclose ((1 : ℚ) / 10 ^ 9 - 0) (1 / 10 ^ 9 - 0)))) = false := by decide +kernel
  have h0 : regionInfo ((1 : ℚ), (1 : ℚ), (1 : ℚ)) (some [0, 1 / 10 ^ 9, 0, 3 / 10 ^ 9, 0, 1 / 10 ^ 9]) true false =
      .ok ⟨0, 0, 0, 1 / 10 ^ 9, 1 / 10 ^ 9, 3 / 10 ^ 9, 1 / 10 ^ 9, 3 / 10 ^ 9, true, 0, 0, 0⟩ := by
    unfold regionInfo infoOf
    dsimp only
    rw [if_neg (by rw [hc]; simp)]
    norm_num
  have hg : renderGrid (volume W 1) (1, 1, 1) (some [0, 1 / 10 ^ 9, 0, 3 / 10 ^ 9, 0, 1 / 10 ^ 9]) false true 10
      [(⟨45 / 100 / 10 ^ 9, 135 / 100 / 10 ^ 9, 45 / 100 / 10 ^ 9, 1, 26 / 100 / 10 ^ 9⟩, true)] =
      (volume W 1 10 0 0 0 [⟨45 / 100, 45 / 100, 45 / 100, 1, 26 / 100⟩] >>= fun img => .ok fun q =>
        img q / (1 / 10 ^ 9 * (3 / 10 ^ 9) * (1 / 10 ^ 9))) := by
    unfold renderGrid
    rw [h0]
    simp only [bind, Except.bind, pure, Except.pure, List.filter_cons, if_true, List.filter_nil, List.map_cons, List.map_nil,
      wrapped, normedVolume, Bool.false_eq_true, if_false]
    norm_num
  rw [hv _ (by simp [Fits3, Wrapped]; norm_num)] at hg
  refine ⟨1 / 10 ^ 9, 3 / 10 ^ 9, 1 / 10 ^ 9,
    ⟨45 / 100 / 10 ^ 9, 135 / 100 / 10 ^ 9, 45 / 100 / 10 ^ 9, 1, 26 / 100 / 10 ^ 9⟩, (4, 6, 4), _, by norm_num, by norm_num,
    rfl, hg, by decide, by decide, by decide, by norm_num [cellCentre], ?_⟩
  · dsimp only
    rw [if_pos (by decide)]
    apply div_pos _ (by norm_num)
    simp only [List.map_cons, List.map_nil, List.sum_cons, List.sum_nil, add_zero, tile3]
    rw [finsum_eq_single _ (0, 0, 0)]
    · rw [if_pos (by simp [IsCopy])]
      unfold voxelAt
      rw [if_neg (by norm_num), if_pos (by norm_num)]
      rw [one_mul]
      apply hpos
      · norm_num
      · unfold gap3; positivity
      · norm_num [gap3, centre]
    · rintro ⟨i, j, k⟩ h
      rw [if_neg]
      simp only [IsCopy, true_implies, not_and]
      rintro rfl rfl rfl
      exact h rfl

/-- Kernels as the theorems of this file ask for exist in every dimension. -/
example (d : Nat) : ∃ W : ℚ → ℚ → ℚ, Compact W ∧ Scales d W ∧ PositiveInside W := by
  refine ⟨fun r2 H => if r2 < H * H then (1 - r2 / (H * H)) / H ^ d else 0, ?_, ?_, ?_⟩
  · intro r2 H _ h
    exact if_neg (not_lt.2 h)
  · intro c r2 H hc
    have e : c ^ 2 * r2 < c * H * (c * H) ↔ r2 < H * H := by
      rw [show c * H * (c * H) = c ^ 2 * (H * H) by ring]
      exact mul_lt_mul_iff_right₀ (by positivity)
    simp only [e]
    split
    · rw [show c * H * (c * H) = c ^ 2 * (H * H) by ring, mul_div_mul_left _ _ (by positivity), mul_pow, div_div, mul_comm (c ^ d)]
    · rw [zero_div]
  · intro r2 H hH h0 h
    simp only [if_pos h]
    exact div_pos (sub_pos.2 ((div_lt_one (by positivity)).2 h)) (by positivity)

/-- Regions, boxes and particles as the theorems ask for: a region across the border of the box. -/
example : ∀ p ∈ [((⟨1, 9, 5, 2, 3⟩ : Part ℚ), true), (⟨-1, 4, 12, 1, 1⟩, false)],
    0 < (3 / 2 : ℚ) * p.1.h ∧ (true = true → (3 / 2 : ℚ) * p.1.h ≤ 10 ∧ (3 / 2 : ℚ) * p.1.h ≤ 10 ∧ (3 / 2 : ℚ) * p.1.h ≤ 12) := by
  simp
  norm_num

end Verif.Props
