import Verif.Props.FrameSlice
import Verif.Props.ImageLinear

/-!
# C119: images of overlapping regions agree, slices are layers of renders, ranges of depth add up
-/

namespace Verif.Props
open Verif Verif.Scatter Verif.Frame Verif.Spec

variable {K : Type} [Field K] [LinearOrder K] [IsStrictOrderedRing K] [FloorRing K]

/-! ## Regions with the same pixels -/

omit [IsStrictOrderedRing K] in
private theorem incell_move {a a' R R' : K} {res res' : Nat} (hw : R' / res' = R / res) {n : Int} (ha : a' = a + n * (R / res)) (i : Int) (X : K) :
    InCell a' R' res' i X ↔ InCell a R res (i + n) X := by
  unfold InCell
  rw [hw, ha]
  push_cast
  rw [show a + (n : K) * (R / res) + i * (R / res) = a + (i + n) * (R / res) by ring,
    show a + (n : K) * (R / res) + (i + 1) * (R / res) = a + (i + n + 1) * (R / res) by ring]

omit [IsStrictOrderedRing K] in
private theorem centre_move {a a' R R' : K} {res res' : Nat} (hw : R' / res' = R / res) {n : Int} (ha : a' = a + n * (R / res)) (i : Int) :
    cellCentre a' R' res' i = cellCentre a R res (i + n) := by
  unfold cellCentre
  rw [hw, ha]
  push_cast
  ring

private theorem floor_move {a a' w : K} (hw : 0 < w) {n : Int} (ha : a' = a + n * w) (X : K) :
    ⌊(X - a') / w⌋ = ⌊(X - a) / w⌋ - n := by
  rw [ha, show (X - (a + n * w)) / w = (X - a) / w - (n : K) by field_simp; ring, Int.floor_sub_intCast]

private theorem surface_move (W : K → K → K) {a b a' b' R R' : K} {res res' : Nat} (h0 : 0 < res) (h0' : 0 < res')
    (hw : R' / res' = R / res) {n o : Int} (ha : a' = a + n * (R / res)) (hb : b' = b + o * (R / res)) (m H : K) (q : Int × Int) :
    surfaceAt W a' b' R' res' m H q = surfaceAt W a b R res m H (q.1 + n, q.2 + o) := by
  have e1 : (0 : K) < res := by exact_mod_cast h0
  have e2 : (0 : K) < res' := by exact_mod_cast h0'
  have e : H * res' < R' ↔ H * res < R := by rw [← lt_div_iff₀ e1, ← lt_div_iff₀ e2, hw]
  funext X Y
  unfold surfaceAt
  simp only [e, incell_move hw ha, incell_move hw hb, centre_move hw ha, centre_move hw hb, hw]

private theorem slice_move (W : K → K → K) {a b a' b' R R' : K} (zs : K) {res res' : Nat} (h0 : 0 < res) (hR : 0 < R)
    (hw : R' / res' = R / res) {n o : Int} (ha : a' = a + n * (R / res)) (hb : b' = b + o * (R / res)) (m H : K) (q : Int × Int) :
    sliceAt W a' b' zs R' res' m H q = sliceAt W a b zs R res m H (q.1 + n, q.2 + o) := by
  have hpos : 0 < R / (res : K) := div_pos hR (by exact_mod_cast h0)
  funext X Y Z
  unfold sliceAt
  rw [hw, floor_move hpos ha, floor_move hpos hb, centre_move hw ha, centre_move hw hb]
  refine if_congr ?_ rfl rfl
  constructor
  · rintro ⟨h1, h2⟩; constructor <;> dsimp only <;> omega
  · rintro ⟨h1, h2⟩; dsimp only at h1 h2; constructor <;> omega

private theorem density_move (W : K → K → K) {a b c a' b' c' R R' : K} {res res' : Nat} (h0 : 0 < res) (hR : 0 < R)
    (hw : R' / res' = R / res) {n o l : Int} (ha : a' = a + n * (R / res)) (hb : b' = b + o * (R / res)) (hc : c' = c + l * (R / res))
    (m H : K) (q : Int × Int × Int) :
    densityAt W a' b' c' R' res' m H q = densityAt W a b c R res m H (q.1 + n, q.2.1 + o, q.2.2 + l) := by
  have hpos : 0 < R / (res : K) := div_pos hR (by exact_mod_cast h0)
  funext X Y Z
  unfold densityAt
  simp only [hw, incell_move hw ha, incell_move hw hb, incell_move hw hc, floor_move hpos ha, floor_move hpos hb, floor_move hpos hc,
    centre_move hw ha, centre_move hw hb, centre_move hw hc]
  refine if_congr Iff.rfl rfl (if_congr ?_ rfl rfl)
  constructor
  · rintro ⟨h1, h2, h3⟩; refine ⟨?_, ?_, ?_⟩ <;> omega
  · rintro ⟨h1, h2, h3⟩; refine ⟨?_, ?_, ?_⟩ <;> omega

/-- C119. Two projections of regions whose pixels have the same size and are on the same grid agree on the pixels that they share, up to
the ratios of `max_range ^ 2` to the areas of the regions (C53), whatever the regions are otherwise. -/
theorem c119_projection {W : K → K → K} (hW : Compact W) (hsc : Scales 2 W) {g : K} {res res' : Nat} (hr : 0 < res) (hr' : 0 < res')
    (Lx Ly Lz : K) (periodic : Bool) (hL : periodic = true → 0 < Lx ∧ 0 < Ly ∧ 0 < Lz) {x0 x1 y0 y1 x0' x1' y0' y1' : K} (hx : x0 < x1)
    (hy : y0 < y1) (hx' : x0' < x1') (hy' : y0' < y1') (depth : Option (K × K)) (hd : DepthFits periodic Lz depth) (ps : List (Part K × Bool))
    (hp : ∀ p ∈ ps, 0 ≤ g * p.1.h ∧ (periodic = true → g * p.1.h ≤ Lx ∧ g * p.1.h ≤ Ly))
    (hw : max (x1' - x0') (y1' - y0') / res' = max (x1 - x0) (y1 - y0) / res) {n o : Int}
    (ha : x0' = x0 + n * (max (x1 - x0) (y1 - y0) / res)) (hb : y0' = y0 + o * (max (x1 - x0) (y1 - y0) / res)) :
    ∃ out out', project (fast W g) (Lx, Ly, Lz) (some (limits x0 x1 y0 y1 depth)) periodic true res ps = .ok out ∧
      project (fast W g) (Lx, Ly, Lz) (some (limits x0' x1' y0' y1' depth)) periodic true res' ps = .ok out' ∧
      ∀ q : Int × Int, OnImage out'.nx q.1 → OnImage out'.ny q.2 → OnImage out.nx (q.1 + n) → OnImage out.ny (q.2 + o) →
        out'.img q / (max (x1' - x0') (y1' - y0') ^ 2 / ((x1' - x0') * (y1' - y0'))) =
          out.img (q.1 + n, q.2 + o) / (max (x1 - x0) (y1 - y0) ^ 2 / ((x1 - x0) * (y1 - y0))) := by
  classical
  obtain ⟨out, h1, -, -, h4⟩ := c53_projection_partial hW hsc hr Lx Ly Lz periodic hL hx hy depth hd ps hp
  obtain ⟨out', h1', -, -, h4'⟩ := c53_projection_partial hW hsc hr' Lx Ly Lz periodic hL hx' hy' depth hd ps hp
  refine ⟨out, out', h1, h1', fun q q1 q2 q3 q4 => ?_⟩
  have pos : ∀ {a b c d : K}, a < b → c < d → max (b - a) (d - c) ^ 2 / ((b - a) * (d - c)) ≠ 0 := by
    intro a b c d h h'
    have e1 : 0 < b - a := sub_pos.2 h
    have e2 : 0 < d - c := sub_pos.2 h'
    have e3 : 0 < max (b - a) (d - c) := lt_max_of_lt_left e1
    positivity
  rw [h4' q q1 q2, h4 (q.1 + n, q.2 + o) q3 q4, mul_div_cancel_left₀ _ (pos hx' hy'), mul_div_cancel_left₀ _ (pos hx hy)]
  simp only [surface_move W hr hr' hw ha hb]

/-- C119. A part of the image of a square region is the image of the part. -/
theorem c119_square {W : K → K → K} (hW : Compact W) (hsc : Scales 2 W) {g : K} {res res' : Nat} (hr : 0 < res) (hr' : 0 < res')
    (Lx Ly Lz : K) (periodic : Bool) (hL : periodic = true → 0 < Lx ∧ 0 < Ly ∧ 0 < Lz) {x0 y0 R R' : K} (hR : 0 < R)
    (depth : Option (K × K)) (hd : DepthFits periodic Lz depth) (ps : List (Part K × Bool))
    (hp : ∀ p ∈ ps, 0 ≤ g * p.1.h ∧ (periodic = true → g * p.1.h ≤ Lx ∧ g * p.1.h ≤ Ly))
    (hw : R' / res' = R / res) (n o : Int) :
    ∃ out out', project (fast W g) (Lx, Ly, Lz) (some (limits x0 (x0 + R) y0 (y0 + R) depth)) periodic true res ps = .ok out ∧
      project (fast W g) (Lx, Ly, Lz) (some (limits (x0 + n * (R / res)) (x0 + n * (R / res) + R') (y0 + o * (R / res))
        (y0 + o * (R / res) + R') depth)) periodic true res' ps = .ok out' ∧
      ∀ q : Int × Int, OnImage res' q.1 → OnImage res' q.2 → OnImage res (q.1 + n) → OnImage res (q.2 + o) →
        out'.img q = out.img (q.1 + n, q.2 + o) := by
  classical
  have hR' : 0 < R' := by
    have e1 : (0 : K) < res := by exact_mod_cast hr
    have e2 : (0 : K) < res' := by exact_mod_cast hr'
    have : 0 < R' / res' := by rw [hw]; positivity
    by_contra h
    exact absurd this (not_lt.2 (div_nonpos_of_nonpos_of_nonneg (not_lt.1 h) e2.le))
  obtain ⟨out, h1, -, -, h4⟩ := c53_square hW hsc hr Lx Ly Lz periodic hL (x0 := x0) (y0 := y0) hR depth hd ps hp
  obtain ⟨out', h1', -, -, h4'⟩ := c53_square hW hsc hr' Lx Ly Lz periodic hL (x0 := x0 + n * (R / res)) (y0 := y0 + o * (R / res)) hR' depth hd ps hp
  refine ⟨out, out', h1, h1', fun q q1 q2 q3 q4 => ?_⟩
  rw [h4' q q1 q2, h4 (q.1 + n, q.2 + o) q3 q4]
  simp only [surface_move W hr hr' hw rfl rfl]

/-- C119. Slices at the same height of regions whose pixels have the same size and are on the same grid agree on the pixels that they
share. -/
theorem c119_slice {W : K → K → K} (hW : Compact W) (hsc : Scales 3 W) {g : K} {res res' : Nat} (hr : 0 < res) (hr' : 0 < res')
    (Lx Ly Lz : K) (periodic : Bool) (hL : periodic = true → 0 < Lx ∧ 0 < Ly ∧ 0 < Lz) {x0 x1 y0 y1 x0' x1' y0' y1' : K} (hx : x0 < x1)
    (hy : y0 < y1) (hx' : x0' < x1') (hy' : y0' < y1') (depth depth' : Option (K × K)) (zs : K) (ps : List (Part K × Bool))
    (hp : ∀ p ∈ ps, 0 < g * p.1.h ∧ (periodic = true → g * p.1.h ≤ Lx ∧ g * p.1.h ≤ Ly ∧ g * p.1.h ≤ Lz))
    (hw : max (x1' - x0') (y1' - y0') / res' = max (x1 - x0) (y1 - y0) / res) {n o : Int}
    (ha : x0' = x0 + n * (max (x1 - x0) (y1 - y0) / res)) (hb : y0' = y0 + o * (max (x1 - x0) (y1 - y0) / res)) :
    ∃ out out', sliceGrid (slice W g) (Lx, Ly, Lz) (some (limits x0 x1 y0 y1 depth)) zs periodic true res ps = .ok out ∧
      sliceGrid (slice W g) (Lx, Ly, Lz) (some (limits x0' x1' y0' y1' depth')) zs periodic true res' ps = .ok out' ∧
      ∀ q : Int × Int, OnImage out'.nx q.1 → OnImage out'.ny q.2 → OnImage out.nx (q.1 + n) → OnImage out.ny (q.2 + o) →
        out'.img q = out.img (q.1 + n, q.2 + o) := by
  obtain ⟨out, h1, -, -, h4⟩ := c53_slice_partial hW hsc hr Lx Ly Lz periodic hL hx hy depth zs ps hp
  obtain ⟨out', h1', -, -, h4'⟩ := c53_slice_partial hW hsc hr' Lx Ly Lz periodic hL hx' hy' depth' zs ps hp
  refine ⟨out, out', h1, h1', fun q q1 q2 q3 q4 => ?_⟩
  rw [h4' q q1 q2, h4 (q.1 + n, q.2 + o) q3 q4]
  simp only [slice_move W zs hr (lt_max_of_lt_left (sub_pos.2 hx)) hw ha hb]

/-- C119. Renders of cubes whose voxels have the same size and are on the same grid agree on the voxels that they share. -/
theorem c119_render {W : K → K → K} (hW : Compact W) (hsc : Scales 3 W) {g : K} {res res' : Nat} (hr : 0 < res) (hr' : 0 < res')
    (Lx Ly Lz : K) (periodic : Bool) (hL : periodic = true → 0 < Lx ∧ 0 < Ly ∧ 0 < Lz) (x0 y0 z0 : K) {R R' : K} (hR : 0 < R) (hR' : 0 < R')
    (ps : List (Part K × Bool))
    (hp : ∀ p ∈ ps, 0 ≤ g * p.1.h ∧ (periodic = true → g * p.1.h ≤ Lx ∧ g * p.1.h ≤ Ly ∧ g * p.1.h ≤ Lz))
    (hw : R' / res' = R / res) {x0' y0' z0' : K} {n o l : Int} (ha : x0' = x0 + n * (R / res)) (hb : y0' = y0 + o * (R / res))
    (hc : z0' = z0 + l * (R / res)) :
    ∃ out out', renderGrid (volume W g) (Lx, Ly, Lz) (some [x0, x0 + R, y0, y0 + R, z0, z0 + R]) periodic true res ps = .ok out ∧
      renderGrid (volume W g) (Lx, Ly, Lz) (some [x0', x0' + R', y0', y0' + R', z0', z0' + R']) periodic true res' ps = .ok out' ∧
      ∀ q : Int × Int × Int, OnImage res' q.1 → OnImage res' q.2.1 → OnImage res' q.2.2 → OnImage res (q.1 + n) → OnImage res (q.2.1 + o) →
        OnImage res (q.2.2 + l) → out' q = out (q.1 + n, q.2.1 + o, q.2.2 + l) := by
  obtain ⟨out, h1, h4⟩ := c53_render_partial hW hsc hr Lx Ly Lz periodic hL x0 y0 z0 hR ps hp
  obtain ⟨out', h1', h4'⟩ := c53_render_partial hW hsc hr' Lx Ly Lz periodic hL x0' y0' z0' hR' ps hp
  refine ⟨out, out', h1, h1', fun q q1 q2 q3 q4 q5 q6 => ?_⟩
  rw [h4' q q1 q2 q3, h4 (q.1 + n, q.2.1 + o, q.2.2 + l) q4 q5 q6]
  simp only [density_move W hr hR hw ha hb hc]

/-! ## Slices and renders -/

/-- C119. A slice of a square at the height of the centres of a layer of voxels is that layer of the render of a cube on the square, if no
kernel is narrower than half a voxel and no kernel loses its last column (C36): the part of its radius, in voxels, behind the point is at
most one half. -/
theorem c119_layer {W : K → K → K} (hW : Compact W) (hsc : Scales 3 W) {g : K} {res : Nat} (hr : 0 < res)
    (Lx Ly Lz : K) (periodic : Bool) (hL : periodic = true → 0 < Lx ∧ 0 < Ly ∧ 0 < Lz) (x0 y0 z0 : K) {R : K} (hR : 0 < R)
    (ps : List (Part K × Bool))
    (hp : ∀ p ∈ ps, 0 < g * p.1.h ∧ (periodic = true → g * p.1.h ≤ Lx ∧ g * p.1.h ≤ Ly ∧ g * p.1.h ≤ Lz))
    (hh : ∀ p ∈ ps, R / res / 2 ≤ g * p.1.h ∧ Int.fract (g * p.1.h / (R / res)) ≤ 1 / 2) (k : Int) (hk : OnImage res k) :
    ∃ out img, renderGrid (volume W g) (Lx, Ly, Lz) (some [x0, x0 + R, y0, y0 + R, z0, z0 + R]) periodic true res ps = .ok out ∧
      sliceGrid (slice W g) (Lx, Ly, Lz) (some [x0, x0 + R, y0, y0 + R]) (cellCentre z0 R res k) periodic true res ps = .ok img ∧
      img.nx = res ∧ img.ny = res ∧ ∀ q : Int × Int, OnImage res q.1 → OnImage res q.2 → img.img q = out (q.1, q.2, k) := by
  obtain ⟨out, h1, h2⟩ := c53_render_partial hW hsc hr Lx Ly Lz periodic hL x0 y0 z0 hR ps (fun p h => ⟨(hp p h).1.le, (hp p h).2⟩)
  obtain ⟨img, s1, s2, s3, s4⟩ := c53_slice_partial hW hsc hr Lx Ly Lz periodic hL (x0 := x0) (x1 := x0 + R) (y0 := y0) (y1 := y0 + R)
    (by linarith) (by linarith) none (cellCentre z0 R res k) ps hp
  simp only [add_sub_cancel_left, max_self] at s2 s3 s4
  have hr' : (0 : K) < res := by exact_mod_cast hr
  have hw : 0 < R / (res : K) := by positivity
  have key : ∀ (a : K) (i : Int), a + i * (R / res) < a + R ↔ i < res := by
    intro a i
    rw [add_lt_add_iff_left, mul_div_assoc', div_lt_iff₀ hr', mul_comm R, mul_lt_mul_iff_left₀ hR]
    constructor <;> intro h <;> exact_mod_cast h
  have eq_of : ∀ n : Nat, (∀ i : Int, OnImage n i ↔ 0 ≤ i ∧ i < (res : Int)) → n = res := by
    intro n h
    unfold OnImage at h
    have h1 := h n
    have h2 := h res
    omega
  have e1 : img.nx = res := eq_of _ fun i => by rw [s2, key]
  have e2 : img.ny = res := eq_of _ fun i => by rw [s3, key]
  refine ⟨out, img, h1, s1, e1, e2, fun q q1 q2 => ?_⟩
  rw [s4 q (e1.symm ▸ q1) (e2.symm ▸ q2), h2 (q.1, q.2, k) q1 q2 hk]
  congr 1
  apply List.map_congr_left
  intro p hpm
  by_cases hb : p.2 = true
  · rw [if_pos hb, if_pos hb]
    congr 1
    funext X Y Z
    obtain ⟨g1, g2⟩ := hh p hpm
    have hH := (hp p hpm).1
    unfold sliceAt densityAt
    rw [if_neg (not_lt.2 g1)]
    by_cases hc : q.1 ≤ ⌊(X - x0) / (R / res)⌋ + ⌊g * p.1.h / (R / res)⌋ ∧ q.2 ≤ ⌊(Y - y0) / (R / res)⌋ + ⌊g * p.1.h / (R / res)⌋
    · rw [if_pos hc]
      by_cases hz : k ≤ ⌊(Z - z0) / (R / res)⌋ + ⌊g * p.1.h / (R / res)⌋
      · rw [if_pos ⟨hc.1, hc.2, hz⟩]
        congr 2
        ring
      · rw [if_neg fun h => hz h.2.2, hW _ _ hH, mul_zero]
        have far : g * p.1.h ≤ cellCentre z0 R res k - Z := by
          set w := R / (res : K) with hwdef
          set H := g * p.1.h with hHdef
          have f1 : (Z - z0) / w < ⌊(Z - z0) / w⌋ + 1 := Int.lt_floor_add_one _
          have f2 : H / w = ⌊H / w⌋ + Int.fract (H / w) := (Int.floor_add_fract _).symm
          have f3 : (⌊(Z - z0) / w⌋ : K) + ⌊H / w⌋ + 1 ≤ k := by
            have := not_le.1 hz
            exact_mod_cast this
          have f4 : Z - z0 < (⌊(Z - z0) / w⌋ + 1) * w := (div_lt_iff₀ hw).1 f1
          have f5 : H = (⌊H / w⌋ + Int.fract (H / w)) * w := by rw [← f2]; field_simp
          have f6 : H ≤ (⌊H / w⌋ + 1 / 2) * w := by
            rw [f5]
            have : (⌊(⌊H / w⌋ + Int.fract (H / w)) * w / w⌋ : K) = ⌊H / w⌋ := by rw [← f5]
            rw [this]
            exact mul_le_mul_of_nonneg_right (by linarith) hw.le
          unfold cellCentre
          rw [← hwdef]
          nlinarith [mul_le_mul_of_nonneg_right f3 hw.le]
        have : (g * p.1.h) * (g * p.1.h) ≤ (cellCentre z0 R res k - Z) * (cellCentre z0 R res k - Z) := mul_self_le_mul_self hH.le far
        nlinarith [sq_nonneg (cellCentre x0 R res q.1 - X), sq_nonneg (cellCentre y0 R res q.2 - Y)]
    · rw [if_neg hc, if_neg fun h => hc ⟨h.1, h.2.1⟩]
  · rw [if_neg hb, if_neg hb]

/-! ## Ranges of depth -/

/-- C119. The projections of two ranges of depth that follow each other add up to that of the whole range, if the range is shorter than a
periodic box and no copy of a particle is exactly between them. -/
theorem c119_depths {W : K → K → K} (hW : Compact W) (hsc : Scales 2 W) {g : K} {res : Nat} (hr : 0 < res)
    (Lx Ly Lz : K) (periodic : Bool) (hL : periodic = true → 0 < Lx ∧ 0 < Ly ∧ 0 < Lz) {x0 x1 y0 y1 : K} (hx : x0 < x1)
    (hy : y0 < y1) {z0 z1 z2 : K} (h01 : z0 < z1) (h12 : z1 < z2) (hz : periodic = true → z2 - z0 < Lz) (ps : List (Part K × Bool))
    (hp : ∀ p ∈ ps, 0 ≤ g * p.1.h ∧ (periodic = true → g * p.1.h ≤ Lx ∧ g * p.1.h ≤ Ly))
    (hb : ∀ p ∈ ps, ∀ k : Int, IsCopy (period periodic Lz) k → p.1.z + k * period periodic Lz ≠ z1) :
    ∃ a b c, project (fast W g) (Lx, Ly, Lz) (some [x0, x1, y0, y1, z0, z1]) periodic true res ps = .ok a ∧
      project (fast W g) (Lx, Ly, Lz) (some [x0, x1, y0, y1, z1, z2]) periodic true res ps = .ok b ∧
      project (fast W g) (Lx, Ly, Lz) (some [x0, x1, y0, y1, z0, z2]) periodic true res ps = .ok c ∧
      c.nx = a.nx ∧ c.ny = a.ny ∧ b.nx = a.nx ∧ b.ny = a.ny ∧
      ∀ q : Int × Int, OnImage c.nx q.1 → OnImage c.ny q.2 → c.img q = a.img q + b.img q := by
  classical
  have fits : ∀ u v : K, u < v → z0 ≤ u → v ≤ z2 → DepthFits periodic Lz (some (u, v)) := by
    rintro u v h1 h2 h3 r hr
    cases hr
    exact ⟨h1, fun h => by have := hz h; dsimp only; linarith⟩
  obtain ⟨a, a1, a2, a3, a4⟩ := c53_projection_partial hW hsc hr Lx Ly Lz periodic hL hx hy (some (z0, z1)) (fits _ _ h01 le_rfl h12.le) ps hp
  obtain ⟨b, b1, b2, b3, b4⟩ := c53_projection_partial hW hsc hr Lx Ly Lz periodic hL hx hy (some (z1, z2)) (fits _ _ h12 h01.le le_rfl) ps hp
  obtain ⟨c, c1, c2, c3, c4⟩ := c53_projection_partial hW hsc hr Lx Ly Lz periodic hL hx hy (some (z0, z2)) (fits _ _ (h01.trans h12) le_rfl le_rfl) ps hp
  have same : ∀ n m : Nat, (∀ i : Int, OnImage n i ↔ OnImage m i) → n = m := by
    intro n m h
    unfold OnImage at h
    have h1 := h n
    have h2 := h m
    omega
  have ex : c.nx = a.nx := same _ _ fun i => by rw [c2, a2]
  have ey : c.ny = a.ny := same _ _ fun i => by rw [c3, a3]
  have fx : b.nx = a.nx := same _ _ fun i => by rw [b2, a2]
  have fy : b.ny = a.ny := same _ _ fun i => by rw [b3, a3]
  refine ⟨a, b, c, a1, b1, c1, ex, ey, fx, fy, fun q q1 q2 => ?_⟩
  rw [c4 q q1 q2, a4 q (ex ▸ q1) (ey ▸ q2), b4 q (fx.symm ▸ ex ▸ q1) (fy.symm ▸ ey ▸ q2), ← mul_add]
  congr 1
  have sum_add : ∀ (l : List (Part K × Bool)) (u v w : Part K × Bool → K), (∀ p ∈ l, u p = v p + w p) → (l.map u).sum = (l.map v).sum + (l.map w).sum := by
    intro l u v w h
    induction l with
    | nil => simp
    | cons p l ih =>
      simp only [List.map_cons, List.sum_cons]
      rw [h p (List.mem_cons_self ..), ih fun p hp => h p (List.mem_cons_of_mem _ hp)]
      ring
  apply sum_add
  intro p hpm
  have ok_iff : ∀ u v : K, DepthOk (period periodic Lz) (some (u, v)) p.1.z ↔
      ∃ k : Int, IsCopy (period periodic Lz) k ∧ u ≤ p.1.z + k * period periodic Lz ∧ p.1.z + k * period periodic Lz ≤ v := by
    intro u v
    exact ⟨fun h => h _ rfl, fun h r hr => by cases hr; exact h⟩
  by_cases h2 : p.2 = true
  · by_cases d0 : DepthOk (period periodic Lz) (some (z0, z1)) p.1.z
    · have d2 : DepthOk (period periodic Lz) (some (z0, z2)) p.1.z := by
        rw [ok_iff] at d0 ⊢
        obtain ⟨k, k1, k2, k3⟩ := d0
        exact ⟨k, k1, k2, k3.trans h12.le⟩
      have d1 : ¬ DepthOk (period periodic Lz) (some (z1, z2)) p.1.z := by
        rw [ok_iff] at d0 ⊢
        rintro ⟨j, j1, j2, j3⟩
        obtain ⟨k, k1, k2, k3⟩ := d0
        have k3' : p.1.z + k * period periodic Lz < z1 := lt_of_le_of_ne k3 (hb p hpm k k1)
        have hkj : (k : K) * period periodic Lz < j * period periodic Lz := by linarith
        unfold period at *
        cases periodic with
        | false => simp at hkj
        | true =>
          simp only [if_true] at *
          have hlz := (hL trivial).2.2
          have : (k : K) < j := lt_of_mul_lt_mul_right hkj hlz.le
          have h1 : (k : K) + 1 ≤ j := by exact_mod_cast this
          have h3 := mul_le_mul_of_nonneg_right h1 hlz.le
          have := hz trivial
          nlinarith
      rw [if_pos ⟨h2, d2⟩, if_pos ⟨h2, d0⟩, if_neg fun h => d1 h.2, add_zero]
    · by_cases d1 : DepthOk (period periodic Lz) (some (z1, z2)) p.1.z
      · have d2 : DepthOk (period periodic Lz) (some (z0, z2)) p.1.z := by
          rw [ok_iff] at d1 ⊢
          obtain ⟨k, k1, k2, k3⟩ := d1
          exact ⟨k, k1, h01.le.trans k2, k3⟩
        rw [if_pos ⟨h2, d2⟩, if_neg fun h => d0 h.2, if_pos ⟨h2, d1⟩, zero_add]
      · have d2 : ¬ DepthOk (period periodic Lz) (some (z0, z2)) p.1.z := by
          rw [ok_iff] at d0 d1 ⊢
          rintro ⟨k, k1, k2, k3⟩
          rcases le_total (p.1.z + k * period periodic Lz) z1 with h | h
          · exact d0 ⟨k, k1, k2, h⟩
          · exact d1 ⟨k, k1, h, k3⟩
        rw [if_neg fun h => d2 h.2, if_neg fun h => d0 h.2, if_neg fun h => d1 h.2, add_zero]
  · rw [if_neg fun h => h2 h.1, if_neg fun h => h2 h.1, if_neg fun h => h2 h.1, add_zero]

/-! ## Examples, and what the hypotheses are for -/

/-- A kernel for the examples. -/
def bell (d : Nat) (r2 H : ℚ) : ℚ := if r2 < H * H then (1 - r2 / (H * H)) / H ^ d else 0

/-- It is compact. -/
theorem bell_compact (d : Nat) : Compact (bell d) := fun _ _ _ h => if_neg (not_lt.2 h)

/-- It has no scale of its own. -/
theorem bell_scales (d : Nat) : Scales d (bell d) := by
  intro c r2 H hc
  have e : c ^ 2 * r2 < c * H * (c * H) ↔ r2 < H * H := by
    rw [show c * H * (c * H) = c ^ 2 * (H * H) by ring]
    exact mul_lt_mul_iff_right₀ (by positivity)
  unfold bell
  simp only [e]
  split
  · rw [show c * H * (c * H) = c ^ 2 * (H * H) by ring, mul_div_mul_left _ _ (by positivity), mul_pow, div_div, mul_comm (c ^ d)]
  · rw [zero_div]

/-- Particles for the examples. -/
def crowd : List (Part ℚ × Bool) := [(⟨1, 9, 5, 2, 3⟩, true), (⟨-1, 4, 12, 1, 1⟩, false), (⟨3, 3, 2, 1 / 2, 2⟩, true)]

/-- The middle of an image of the whole box with 20 pixels is an image of the middle with 8 pixels, with particles across the border. -/
example : ∃ out out', project (fast (bell 2) (3 / 2)) (10, 10, 10) (some (limits 0 (0 + 10) 0 (0 + 10) (some (1, 7)))) true true 20 crowd = .ok out ∧
    project (fast (bell 2) (3 / 2)) (10, 10, 10) (some (limits (0 + (4 : Int) * (10 / (20 : Nat))) (0 + (4 : Int) * (10 / (20 : Nat)) + 4)
      (0 + (15 : Int) * (10 / (20 : Nat))) (0 + (15 : Int) * (10 / (20 : Nat)) + 4) (some (1, 7)))) true true 8 crowd = .ok out' ∧
    ∀ q : Int × Int, OnImage 8 q.1 → OnImage 8 q.2 → OnImage 20 (q.1 + 4) → OnImage 20 (q.2 + 15) → out'.img q = out.img (q.1 + 4, q.2 + 15) :=
  c119_square (bell_compact 2) (bell_scales 2) (by norm_num) (by norm_num) 10 10 10 true (by norm_num) (by norm_num) _
    (by intro r hr; cases hr; norm_num) crowd (by simp [crowd]; norm_num) (by norm_num) 4 15

/-- The two regions may have other shapes. -/
example : ∃ out out', project (fast (bell 2) (3 / 2)) (10, 10, 10) (some (limits 0 10 0 5 none)) true true 20 crowd = .ok out ∧
    project (fast (bell 2) (3 / 2)) (10, 10, 10) (some (limits 2 5 (-1) 5 none)) true true 12 crowd = .ok out' ∧
    ∀ q : Int × Int, OnImage out'.nx q.1 → OnImage out'.ny q.2 → OnImage out.nx (q.1 + 4) → OnImage out.ny (q.2 + (-2)) →
      out'.img q / (max (5 - 2) (5 - (-1)) ^ 2 / ((5 - 2) * (5 - (-1)))) =
        out.img (q.1 + 4, q.2 + (-2)) / (max (10 - 0) (5 - 0) ^ 2 / ((10 - 0) * (5 - 0))) :=
  c119_projection (bell_compact 2) (bell_scales 2) (by norm_num) (by norm_num) 10 10 10 true (by norm_num) (by norm_num) (by norm_num)
    (by norm_num) (by norm_num) none (by intro r hr; cases hr) crowd (by simp [crowd]; norm_num) (by norm_num) (by norm_num) (by norm_num)

example : ∃ out out', sliceGrid (slice (bell 3) (3 / 2)) (10, 10, 10) (some (limits 0 10 0 5 none)) 3 true true 20 crowd = .ok out ∧
    sliceGrid (slice (bell 3) (3 / 2)) (10, 10, 10) (some (limits 2 5 (-1) 5 none)) 3 true true 12 crowd = .ok out' ∧
    ∀ q : Int × Int, OnImage out'.nx q.1 → OnImage out'.ny q.2 → OnImage out.nx (q.1 + 4) → OnImage out.ny (q.2 + (-2)) →
      out'.img q = out.img (q.1 + 4, q.2 + (-2)) :=
  c119_slice (bell_compact 3) (bell_scales 3) (by norm_num) (by norm_num) 10 10 10 true (by norm_num) (by norm_num) (by norm_num)
    (by norm_num) (by norm_num) none none 3 crowd (by simp [crowd]; norm_num) (by norm_num) (by norm_num) (by norm_num)

example : ∃ out out', renderGrid (volume (bell 3) (3 / 2)) (10, 10, 10) (some [0, 0 + 10, 0, 0 + 10, 0, 0 + 10]) true true 20 crowd = .ok out ∧
    renderGrid (volume (bell 3) (3 / 2)) (10, 10, 10) (some [2, 2 + 3, 1, 1 + 3, -1, -1 + 3]) true true 6 crowd = .ok out' ∧
    ∀ q : Int × Int × Int, OnImage 6 q.1 → OnImage 6 q.2.1 → OnImage 6 q.2.2 → OnImage 20 (q.1 + 4) → OnImage 20 (q.2.1 + 2) →
      OnImage 20 (q.2.2 + (-2)) → out' q = out (q.1 + 4, q.2.1 + 2, q.2.2 + (-2)) :=
  c119_render (bell_compact 3) (bell_scales 3) (by norm_num) (by norm_num) 10 10 10 true (by norm_num) 0 0 0 (by norm_num) (by norm_num)
    crowd (by simp [crowd]; norm_num) (by norm_num) (by norm_num) (by norm_num) (by norm_num)

private theorem layers : ∀ p ∈ crowd, (10 : ℚ) / (20 : Nat) / 2 ≤ 3 / 2 * p.1.h ∧ Int.fract (3 / 2 * p.1.h / (10 / (20 : Nat))) ≤ 1 / 2 := by
  decide +kernel

/-- Kernels of 9, 3 and 6 voxels. -/
example : ∃ out img, renderGrid (volume (bell 3) (3 / 2)) (10, 10, 10) (some [0, 0 + 10, 0, 0 + 10, 0, 0 + 10]) true true 20 crowd = .ok out ∧
    sliceGrid (slice (bell 3) (3 / 2)) (10, 10, 10) (some [0, 0 + 10, 0, 0 + 10]) (cellCentre 0 10 20 7) true true 20 crowd = .ok img ∧
    img.nx = 20 ∧ img.ny = 20 ∧ ∀ q : Int × Int, OnImage 20 q.1 → OnImage 20 q.2 → img.img q = out (q.1, q.2, 7) :=
  c119_layer (bell_compact 3) (bell_scales 3) (by norm_num) 10 10 10 true (by norm_num) 0 0 0 (by norm_num) crowd
    (by simp [crowd]; norm_num) layers 7 (by norm_num [OnImage])

example : ∃ a b c, project (fast (bell 2) (3 / 2)) (10, 10, 10) (some [0, 10, 0, 5, -2, 4]) true true 20 crowd = .ok a ∧
    project (fast (bell 2) (3 / 2)) (10, 10, 10) (some [0, 10, 0, 5, 4, 7]) true true 20 crowd = .ok b ∧
    project (fast (bell 2) (3 / 2)) (10, 10, 10) (some [0, 10, 0, 5, -2, 7]) true true 20 crowd = .ok c ∧
    c.nx = a.nx ∧ c.ny = a.ny ∧ b.nx = a.nx ∧ b.ny = a.ny ∧
    ∀ q : Int × Int, OnImage c.nx q.1 → OnImage c.ny q.2 → c.img q = a.img q + b.img q := by
  refine c119_depths (bell_compact 2) (bell_scales 2) (by norm_num) 10 10 10 true (by norm_num) (by norm_num) (by norm_num) (by norm_num)
    (by norm_num) (by norm_num) crowd (by simp [crowd]; norm_num) ?_
  intro p hp k _ h
  simp only [crowd, List.mem_cons, List.not_mem_nil, or_false, period, if_true] at hp h
  rcases hp with rfl | rfl | rfl <;> dsimp only at h
  · have : (5 : Int) + k * 10 = 4 := by exact_mod_cast h
    omega
  · have : (12 : Int) + k * 10 = 4 := by exact_mod_cast h
    omega
  · have : (2 : Int) + k * 10 = 4 := by exact_mod_cast h
    omega

/-- C119 fails for a particle exactly between the ranges: it is in both. -/
theorem c119_depths_fails : ∃ (W : ℚ → ℚ → ℚ) (p : Part ℚ), Compact W ∧ Scales 2 W ∧
    ((do
      let a ← project (fast W 1) (10, 10, 10) (some [0, 4, 0, 4, 1, 3]) false true 4 [(p, true)]
      let b ← project (fast W 1) (10, 10, 10) (some [0, 4, 0, 4, 3, 5]) false true 4 [(p, true)]
      let c ← project (fast W 1) (10, 10, 10) (some [0, 4, 0, 4, 1, 5]) false true 4 [(p, true)]
      pure (c.img (1, 1), a.img (1, 1) + b.img (1, 1))) : Except Err (ℚ × ℚ)) = .ok (2, 4) :=
  ⟨bell 2, ⟨3 / 2, 3 / 2, 3, 2, 1⟩, bell_compact 2, bell_scales 2, by decide +kernel⟩

/-- C119 fails for a kernel of 3.6 pixels: the render leaves the last layer that it reaches empty, the slice does not. -/
theorem c119_layer_fails : ∃ (W : ℚ → ℚ → ℚ) (p : Part ℚ) (v : ℚ), Compact W ∧ Scales 3 W ∧ 0 < v ∧
    ((do
      let out ← renderGrid (volume W 1) (10, 10, 10) (some [0, 10, 0, 10, 0, 10]) false true 10 [(p, true)]
      let img ← sliceGrid (slice W 1) (10, 10, 10) (some [0, 10, 0, 10]) (cellCentre 0 10 10 9) false true 10 [(p, true)]
      pure (out (5, 5, 9), img.img (5, 5))) : Except Err (ℚ × ℚ)) = .ok (0, v) :=
  ⟨bell 3, ⟨11 / 2, 11 / 2, 299 / 50, 1, 18 / 5⟩, 445 / 472392, bell_compact 3, bell_scales 3, by norm_num, by decide +kernel⟩

end Verif.Props
