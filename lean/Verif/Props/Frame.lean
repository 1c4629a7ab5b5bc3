import Verif.Model.Frame
import Verif.Spec.Frame
import Verif.Props.Image

/-!
# C41, C53: depth selection and placement of a region in the image (`swiftsimio/visualisation`)
-/

set_option linter.unusedSectionVars false

namespace Verif.Props
open Verif Verif.Spec Verif.Scatter Verif.Frame

variable {K : Type} [Field K] [LinearOrder K] [IsStrictOrderedRing K] [FloorRing K]

theorem pmod_mem {b : K} (hb : 0 < b) (a : K) : 0 ≤ pmod a b ∧ pmod a b < b := by
  unfold pmod
  have h1 := Int.floor_le (a / b)
  have h2 := Int.lt_floor_add_one (a / b)
  rw [le_div_iff₀ hb] at h1
  rw [div_lt_iff₀ hb] at h2
  constructor <;> linarith

theorem pmod_eq (a b : K) : pmod a b = a + ((-⌊a / b⌋ : Int) : K) * b := by
  unfold pmod; push_cast; ring

/-! ## C41 -/

/-- the two comparisons of the code on the circle -/
private theorem depth_circle {L a b z : K} (hL : 0 < L) (hab : a < b) (hle : b - a ≤ L) (hz : 0 ≤ z ∧ z < L) :
    (if pmod b L ≤ pmod a L then z ≤ pmod b L ∨ z ≥ pmod a L else z ≤ pmod b L ∧ z ≥ pmod a L) ↔
      ∃ k : Int, a ≤ z + k * L ∧ z + k * L ≤ b := by
  obtain ⟨a1, a2⟩ := pmod_mem hL a
  obtain ⟨b1, b2⟩ := pmod_mem hL b
  have ea := pmod_eq a L
  have eb := pmod_eq b L
  set m := ⌊a / L⌋ with hm
  set n := ⌊b / L⌋ with hn
  push_cast at ea eb
  -- b is in the same box as a or in the next one
  have hnm : n = m ∨ n = m + 1 := by
    have h1 : ((m : Int) : K) < n + 1 := by nlinarith
    have h2 : ((n : Int) : K) < m + 2 := by nlinarith
    have h1' : m < n + 1 := by exact_mod_cast h1
    have h2' : n < m + 2 := by exact_mod_cast h2
    omega
  rcases hnm with h | h
  · have hlt : pmod a L < pmod b L := by rw [ea, eb, h]; linarith
    rw [if_neg (not_le.2 hlt)]
    constructor
    · rintro ⟨h1, h2⟩
      refine ⟨m, ?_, ?_⟩
      · linarith
      · rw [h] at eb; linarith
    · rintro ⟨k, h1, h2⟩
      have hk : k = m := by
        have k1 : ((m : Int) : K) < k + 1 := by nlinarith
        have k2 : ((k : Int) : K) < m + 1 := by rw [h] at eb; nlinarith
        have k1' : m < k + 1 := by exact_mod_cast k1
        have k2' : k < m + 1 := by exact_mod_cast k2
        omega
      rw [hk] at h1 h2
      rw [h] at eb
      constructor <;> linarith
  · have hle' : pmod b L ≤ pmod a L := by
      rw [ea, eb, h]; push_cast; linarith
    rw [if_pos hle']
    rw [h] at eb
    push_cast at eb
    constructor
    · rintro (h1 | h1)
      · refine ⟨m + 1, ?_, ?_⟩ <;> push_cast <;> linarith
      · refine ⟨m, ?_, ?_⟩ <;> linarith
    · rintro ⟨k, h1, h2⟩
      have hk : k = m ∨ k = m + 1 := by
        have k1 : ((m : Int) : K) < k + 1 := by nlinarith
        have k2 : ((k : Int) : K) < m + 2 := by nlinarith
        have k1' : m < k + 1 := by exact_mod_cast k1
        have k2' : k < m + 2 := by exact_mod_cast k2
        omega
      rcases hk with hk | hk <;> rw [hk] at h1 h2
      · right; linarith
      · left; push_cast at h1 h2; linarith

/-- The limits of a region as the user gives them. -/
def limits (x0 x1 y0 y1 : K) (depth : Option (K × K)) : List K :=
  match depth with
  | none => [x0, x1, y0, y1]
  | some (z0, z1) => [x0, x1, y0, y1, z0, z1]

/-- The period along an axis. -/
def period (periodic : Bool) (L : K) : K := if periodic then L else 0

theorem period_pos {periodic : Bool} {L : K} (h : periodic = true → 0 < L) : 0 ≤ period periodic L := by
  unfold period; split
  · exact (h (by assumption)).le
  · exact le_rfl

/-- `_get_region_info` for four or six limits. -/
theorem regionInfo_limits (box : K × K × K) (x0 x1 y0 y1 : K) (depth : Option (K × K)) (periodic : Bool) :
    ∃ info, regionInfo box (some (limits x0 x1 y0 y1 depth)) false periodic = .ok info ∧ info.xMin = x0 ∧ info.yMin = y0 ∧
      info.xRange = x1 - x0 ∧ info.yRange = y1 - y0 ∧ info.maxRange = max (x1 - x0) (y1 - y0) ∧
      info.includesZ = depth.isSome ∧ (∀ r, depth = some r → info.zMin = r.1 ∧ info.zMax = r.2 ∧ info.zRange = r.2 - r.1) ∧
      info.boxX = period periodic (box.1 / max (x1 - x0) (y1 - y0)) ∧
      info.boxY = period periodic (box.2.1 / max (x1 - x0) (y1 - y0)) ∧
      info.boxZ = period periodic (box.2.2 / max (x1 - x0) (y1 - y0)) := by
  cases depth with
  | none => exact ⟨_, rfl, rfl, rfl, rfl, rfl, rfl, rfl, by simp, rfl, rfl, rfl⟩
  | some r =>
    obtain ⟨z0, z1⟩ := r
    refine ⟨_, rfl, rfl, rfl, rfl, rfl, rfl, rfl, ?_, rfl, rfl, rfl⟩
    intro r hr
    cases hr
    exact ⟨rfl, rfl, rfl⟩

/-- the depth as the claim wants it: increasing, and no larger than the box if periodic -/
def DepthFits (periodic : Bool) (Lz : K) (depth : Option (K × K)) : Prop :=
  ∀ r, depth = some r → r.1 < r.2 ∧ (periodic = true → r.2 - r.1 ≤ Lz)

private theorem inDepth_iff {Lz : K} {info : Info K} {periodic : Bool} (hL : periodic = true → 0 < Lz) {r : K × K}
    (hi : info.zMin = r.1 ∧ info.zMax = r.2 ∧ info.zRange = r.2 - r.1) (hr : r.1 < r.2)
    (hle : periodic = true → r.2 - r.1 ≤ Lz) (z : K) :
    inDepth Lz info periodic (if periodic then pmod z Lz else z) = true ↔
      ∃ k : Int, IsCopy (period periodic Lz) k ∧ r.1 ≤ z + k * period periodic Lz ∧ z + k * period periodic Lz ≤ r.2 := by
  unfold inDepth
  rw [hi.1, hi.2.1]
  cases periodic with
  | false =>
    simp only [period, Bool.false_eq_true, if_false, IsCopy, Bool.and_eq_true, decide_eq_true_eq]
    constructor
    · rintro ⟨h1, h2⟩; exact ⟨0, fun _ => rfl, by simpa using h2, by simpa using h1⟩
    · rintro ⟨k, _, h1, h2⟩; exact ⟨by simpa using h2, by simpa using h1⟩
  | true =>
    have hL := hL rfl
    have h := depth_circle hL hr (hle rfl) (pmod_mem hL z)
    simp only [if_true, period]
    have e : (if pmod r.2 Lz ≤ pmod r.1 Lz then decide (pmod z Lz ≤ pmod r.2 Lz) || decide (pmod z Lz ≥ pmod r.1 Lz)
        else decide (pmod z Lz ≤ pmod r.2 Lz) && decide (pmod z Lz ≥ pmod r.1 Lz)) = true ↔
        ∃ k : Int, r.1 ≤ pmod z Lz + k * Lz ∧ pmod z Lz + k * Lz ≤ r.2 := by
      rw [← h]
      split <;> simp
    rw [e, pmod_eq]
    constructor
    · rintro ⟨k, h1, h2⟩
      refine ⟨k - ⌊z / Lz⌋, fun h0 => absurd h0 hL.ne', ?_, ?_⟩ <;> push_cast at h1 h2 ⊢ <;> linarith
    · rintro ⟨k, _, h1, h2⟩
      refine ⟨k + ⌊z / Lz⌋, ?_, ?_⟩ <;> push_cast at h1 h2 ⊢ <;> linarith

open scoped Classical in
private theorem select_eq {box : K × K × K} {info : Info K} {periodic : Bool} {depth : Option (K × K)}
    (hL : periodic = true → 0 < box.2.2) (hi : info.includesZ = depth.isSome)
    (hz : ∀ r, depth = some r → info.zMin = r.1 ∧ info.zMax = r.2 ∧ info.zRange = r.2 - r.1)
    (hd : DepthFits periodic box.2.2 depth) (ps : List (Part K × Bool)) :
    select box.2.2 info periodic (ps.map fun p => (wrapped box periodic p.1, p.2)) =
      .ok ((ps.filter fun p => p.2 && decide (DepthOk (period periodic box.2.2) depth p.1.z)).map
        fun p => wrapped box periodic p.1) := by
  unfold select
  cases depth with
  | none =>
    rw [hi]
    simp only [Option.isSome_none, Bool.false_eq_true, if_false]
    congr 1
    rw [List.filter_map, List.map_map]
    simp [Function.comp_def, DepthOk]
  | some r =>
    rw [hi]
    obtain ⟨h1, h2⟩ := hd r rfl
    have hzr := hz r rfl
    rw [if_pos (by rfl), if_neg]
    · congr 1
      rw [List.filter_map, List.map_map]
      have e : (fun p : Part K × Bool => (p.2 && inDepth box.2.2 info periodic (wrapped box periodic p.1).z)) =
          fun p => p.2 && decide (DepthOk (period periodic box.2.2) (some r) p.1.z) := by
        funext p
        congr 1
        rw [Bool.eq_iff_iff, decide_eq_true_eq]
        have e : (wrapped box periodic p.1).z = if periodic then pmod p.1.z box.2.2 else p.1.z := by
          unfold wrapped; split <;> rfl
        rw [e, inDepth_iff hL hzr h1 h2]
        simp [DepthOk]
      simp only [Function.comp_def]
      rw [e]
    · rw [Bool.and_eq_true, decide_eq_true_eq, hzr.2.2]
      rintro ⟨h3, h4⟩
      exact absurd (h2 h3) (not_le.2 h4)

/-- The particles that `project_pixel_grid` uses for a region, in the order in which they are handed on. -/
def chosen (box : K × K × K) (region : Option (List K)) (periodic : Bool) (ps : List (Part K × Bool)) :
    Except Err (List (Part K)) :=
  regionInfo box region false periodic >>= fun info =>
    select box.2.2 info periodic (ps.map fun p => (wrapped box periodic p.1, p.2))

open scoped Classical in
/-- C41. A depth range that is not empty and not deeper than the box selects exactly the particles with a periodic copy in
the range (both ends included), whatever the region, the positions and the mask of the user; without periodicity only
the particle itself counts. Missing: ranges of length zero and reversed ranges, see `c41_empty_range_fails` and
`c41_reversed_fails`. -/
theorem c41_depth_partial (box : K × K × K) (periodic : Bool) (hL : periodic = true → 0 < box.2.2) (x0 x1 y0 y1 : K)
    (depth : Option (K × K)) (hd : DepthFits periodic box.2.2 depth) (ps : List (Part K × Bool)) :
    chosen box (some (limits x0 x1 y0 y1 depth)) periodic ps =
      .ok ((ps.filter fun p => p.2 && decide (DepthOk (period periodic box.2.2) depth p.1.z)).map
        fun p => wrapped box periodic p.1) := by
  obtain ⟨info, h, _, _, _, _, _, h1, h2, _⟩ := regionInfo_limits box x0 x1 y0 y1 depth periodic
  unfold chosen
  rw [h]
  exact select_eq hL h1 h2 hd ps

-- a range across the boundary of the box, given outside the box
example : DepthFits true (10 : ℚ) (some (28, 33)) ∧ DepthOk (10 : ℚ) (some (28, 33)) 2 ∧ ¬DepthOk (10 : ℚ) (some (28, 33)) 5 := by
  refine ⟨?_, ?_, ?_⟩
  · intro r hr; cases hr; norm_num
  · intro r hr; cases hr; exact ⟨3, by simp [IsCopy], by norm_num, by norm_num⟩
  · intro h
    obtain ⟨k, _, h1, h2⟩ := h _ rfl
    dsimp only at h1 h2
    have a1 : (2 : ℚ) < k := by linarith
    have a2 : (k : ℚ) < 3 := by linarith
    have a1 : (2 : Int) < k := by exact_mod_cast a1
    have a2 : k < (3 : Int) := by exact_mod_cast a2
    omega

/-- C41. A periodic projection deeper than the box is refused, for every backend. -/
theorem c41_too_deep (scatter : Nat → K → K → List (Part K) → Except Err (Int × Int → K)) (box : K × K × K)
    (x0 x1 y0 y1 z0 z1 : K) (h : box.2.2 < z1 - z0) (framed : Bool) (res : Nat) (ps : List (Part K × Bool)) :
    project scatter box (some [x0, x1, y0, y1, z0, z1]) true framed res ps = .error .value := by
  obtain ⟨info, h0, _, _, _, _, _, h1, h2, _⟩ := regionInfo_limits box x0 x1 y0 y1 (some (z0, z1)) true
  have hs : ∀ l, select box.2.2 info true l = .error .value := by
    intro l
    unfold select
    rw [h1, (h2 _ rfl).2.2]
    simp [h]
  unfold project
  change (regionInfo box (some (limits x0 x1 y0 y1 (some (z0, z1)))) false true >>= _) = _
  rw [h0]
  change (select _ _ _ _ >>= _) = _
  rw [hs]
  rfl

example : project (histogram (K := ℚ)) (10, 10, 10) (some [0, 10, 0, 10, 0, 11]) true true 8 [] = .error .value :=
  c41_too_deep _ _ _ _ _ _ _ _ (by norm_num) _ _ _

private theorem notDepth {a b z : ℚ} (h : ∀ k : Int, a ≤ z + k * 10 → ¬z + k * 10 ≤ b) : ¬DepthOk (10 : ℚ) (some (a, b)) z := by
  intro hd
  obtain ⟨k, _, h1, h2⟩ := hd _ rfl
  exact h k h1 h2

/-- C41 fails for a range of length zero: a particle far from it is selected. -/
theorem c41_empty_range_fails : ∃ p : Part ℚ, ¬DepthOk (10 : ℚ) (some (3, 3)) p.z ∧
    chosen (10, 10, 10) (some (limits 0 10 0 10 (some (3, 3)))) true [(p, true)] = .ok [p] := by
  refine ⟨⟨1, 2, 7, 1, 1⟩, notDepth ?_, ?_⟩
  · intro k h1 h2
    dsimp only at h1 h2
    have e : (7 : ℚ) + k * 10 = 3 := le_antisymm h2 h1
    have e : (7 : Int) + k * 10 = 3 := by exact_mod_cast e
    omega
  · decide +kernel

/-- C41 fails for limits in the wrong order: particles are selected although the range is empty. -/
theorem c41_reversed_fails : ∃ p : Part ℚ, ¬DepthOk (10 : ℚ) (some (3, 1)) p.z ∧
    chosen (10, 10, 10) (some (limits 0 10 0 10 (some (3, 1)))) true [(p, true)] = .ok [p] := by
  refine ⟨⟨1, 2, 7, 1, 1⟩, notDepth ?_, ?_⟩
  · intro k h1 h2
    dsimp only at h1 h2
    linarith
  · decide +kernel

/-! ## C53 -/

theorem isCopy_scale {b R : K} (hR : R ≠ 0) (k : Int) : IsCopy (b / R) k ↔ IsCopy b k := by
  unfold IsCopy
  rw [div_eq_zero_iff]
  simp [hR]

/-- the sum over the copies does not depend on which copy is taken, and can be computed in units of `R` -/
private theorem tile2_place {bx by_ R : K} (hR : R ≠ 0) (f : K → K → K) {x y x' y' a b : K} (i j : Int)
    (hi : IsCopy bx i) (hj : IsCopy by_ j) (hx : x' = (x - a) / R + i * (bx / R)) (hy : y' = (y - b) / R + j * (by_ / R)) :
    tile2 (bx / R) (by_ / R) f x' y' = tile2 bx by_ (fun X Y => f ((X - a) / R) ((Y - b) / R)) x y := by
  unfold tile2
  rw [← finsum_comp_equiv (Equiv.prodCongr (Equiv.addRight (-i)) (Equiv.addRight (-j)))]
  apply finsum_congr
  rintro ⟨k, l⟩
  simp only [Equiv.prodCongr_apply, Equiv.coe_addRight, Prod.map, isCopy_scale hR]
  have h1 : IsCopy bx (k + -i) ↔ IsCopy bx k := by
    unfold IsCopy at *
    constructor
    · intro h h0; have := h h0; have := hi h0; omega
    · intro h h0; have := h h0; have := hi h0; omega
  have h2 : IsCopy by_ (l + -j) ↔ IsCopy by_ l := by
    unfold IsCopy at *
    constructor
    · intro h h0; have := h h0; have := hj h0; omega
    · intro h h0; have := h h0; have := hj h0; omega
  simp only [h1, h2]
  split
  · congr 1
    · rw [hx]; push_cast; field_simp; ring
    · rw [hy]; push_cast; field_simp; ring
  · rfl

private theorem tile2_mul (bx by_ c : K) (f : K → K → K) (x y : K) :
    tile2 bx by_ (fun X Y => c * f X Y) x y = c * tile2 bx by_ f x y := by
  unfold tile2
  rw [← smul_eq_mul, smul_finsum]
  apply finsum_congr
  intro k
  split <;> simp

theorem le_place {res : Nat} (hr : 0 < res) (R a X t : K) :
    (t * R ≤ (X - a) * res ↔ a + t * (R / res) ≤ X) ∧ ((X - a) * res < t * R ↔ X < a + t * (R / res)) := by
  have hr' : (0 : K) < res := by exact_mod_cast hr
  have e : t * (R / res) = t * R / res := by ring
  rw [e]
  constructor
  · rw [← div_le_iff₀ hr', le_sub_iff_add_le']
  · rw [← lt_div_iff₀ hr', sub_lt_iff_lt_add']

theorem inPixel_place {res : Nat} (hr : 0 < res) {R : K} (hR : 0 < R) (a X : K) (i : Int) :
    InPixel res i ((X - a) / R) ↔ InCell a R res i X := by
  have hr' : (0 : K) < res := by exact_mod_cast hr
  unfold InPixel InCell
  rw [div_le_div_iff₀ hr' hR, div_lt_div_iff₀ hR hr', (le_place hr R a X i).1, (le_place hr R a X (i + 1)).2]

theorem centre_place {res : Nat} (hr : 0 < res) {R : K} (hR : 0 < R) (a X : K) (i : Int) :
    centre res i - (X - a) / R = 1 / R * (cellCentre a R res i - X) := by
  have hr' : (res : K) ≠ 0 := by exact_mod_cast hr.ne'
  have hR' := hR.ne'
  unfold centre cellCentre
  field_simp
  ring

private theorem smoothAt_place {W : K → K → K} (hsc : Scales 2 W) {res : Nat} (hr : 0 < res) {R : K} (hR : 0 < R)
    (a b m H : K) (q : Int × Int) (X Y : K) :
    smoothAt W res m (H / R) q ((X - a) / R) ((Y - b) / R) = R ^ 2 * surfaceAt W a b R res m H q X Y := by
  have hr' : (res : K) ≠ 0 := by exact_mod_cast hr.ne'
  unfold smoothAt surfaceAt
  have e : H / R * res < 1 ↔ H * res < R := by
    rw [div_mul_eq_mul_div, div_lt_one hR]
  by_cases h : H * res < R
  · rw [if_pos h, if_pos (e.2 h)]
    unfold pointAt
    simp only [inPixel_place hr hR]
    split
    · field_simp
    · rw [mul_zero]
  · rw [if_neg h, if_neg fun h' => h (e.1 h')]
    unfold gap2
    rw [centre_place hr hR, centre_place hr hR, mul_pow, mul_pow, ← mul_add, show H / R = 1 / R * H by ring,
      hsc _ _ _ (by positivity)]
    field_simp

theorem trimmed_iff {res : Nat} (hr : 0 < res) {a b R : K} (hR : 0 < R) (i : Int) (hi : 0 ≤ i) :
    i < trimmed res (b - a) R ↔ a + i * (R / res) < b := by
  have hr' : (0 : K) < res := by exact_mod_cast hr
  have e : ∀ n : Int, i < (n.toNat : Int) ↔ i < n := by intro n; omega
  unfold trimmed
  rw [e, Int.lt_ceil, mul_div_assoc', lt_div_iff₀ hR, mul_comm (res : K), ← div_lt_iff₀ hr', ← lt_sub_iff_add_lt', mul_div_assoc']

/-- where the front end puts a coordinate: at its relative position, up to whole periods -/
theorem place {periodic : Bool} {L R : K} (x a : K) :
    ∃ k : Int, IsCopy (period periodic L) k ∧
      (let w := if periodic then pmod x L else x
       if periodic then pmod ((w - a) / R) (L / R) else (w - a) / R) =
        (x - a) / R + k * (period periodic L / R) ∧ (periodic = true → 0 < L → 0 < R →
          Wrapped (L / R) (pmod ((pmod x L - a) / R) (L / R))) := by
  cases periodic with
  | false => exact ⟨0, fun _ => rfl, by simp, by simp⟩
  | true =>
    by_cases hL : L = 0
    · subst hL
      refine ⟨0, fun _ => rfl, ?_, fun _ h => absurd h (lt_irrefl _)⟩
      simp [pmod]
    · refine ⟨-⌊x / L⌋ + -⌊(pmod x L - a) / R / (L / R)⌋, fun h => absurd h hL, ?_, ?_⟩
      · simp only [if_true, period]
        rw [pmod_eq (pmod x L - a |> (· / R))]
        rw [pmod_eq x L]
        push_cast
        ring
      · intro _ h1 h2 _
        exact pmod_mem (by positivity) _

theorem sum_filter {α : Type} (c : α → Bool) (f : α → K) (l : List α) :
    ((l.filter c).map f).sum = (l.map fun a => if c a = true then f a else 0).sum := by
  induction l with
  | nil => rfl
  | cons a l ih =>
    by_cases h : c a = true
    · simp [h, ih]
    · simp [h, ih]

open scoped Classical in
/-- C53 for the projection, end to end. For every region (also outside the box), every box, periodic or not, every depth
and mask: the image is not written outside its bounds; the pixels returned are exactly the ones that overlap the region;
and a pixel holds the kernel-smoothed surface density of all periodic copies at the position of the pixel in the box, times
the ratio of `max_range ^ 2` to the area of the region. -/
theorem c53_projection_partial {W : K → K → K} (hW : Compact W) (hsc : Scales 2 W) {g : K} {res : Nat} (hr : 0 < res)
    (Lx Ly Lz : K) (periodic : Bool) (hL : periodic = true → 0 < Lx ∧ 0 < Ly ∧ 0 < Lz) {x0 x1 y0 y1 : K} (hx : x0 < x1)
    (_hy : y0 < y1) (depth : Option (K × K)) (hd : DepthFits periodic Lz depth) (ps : List (Part K × Bool))
    (hp : ∀ p ∈ ps, 0 ≤ g * p.1.h ∧ (periodic = true → g * p.1.h ≤ Lx ∧ g * p.1.h ≤ Ly)) :
    ∃ out, project (fast W g) (Lx, Ly, Lz) (some (limits x0 x1 y0 y1 depth)) periodic true res ps = .ok out ∧
      (∀ i : Int, OnImage out.nx i ↔ 0 ≤ i ∧ x0 + i * (max (x1 - x0) (y1 - y0) / res) < x1) ∧
      (∀ j : Int, OnImage out.ny j ↔ 0 ≤ j ∧ y0 + j * (max (x1 - x0) (y1 - y0) / res) < y1) ∧
      ∀ q, OnImage out.nx q.1 → OnImage out.ny q.2 → out.img q =
        max (x1 - x0) (y1 - y0) ^ 2 / ((x1 - x0) * (y1 - y0)) *
        (ps.map fun p => if p.2 = true ∧ DepthOk (period periodic Lz) depth p.1.z then
          tile2 (period periodic Lx) (period periodic Ly)
            (surfaceAt W x0 y0 (max (x1 - x0) (y1 - y0)) res p.1.m (g * p.1.h) q) p.1.x p.1.y else 0).sum := by
  obtain ⟨info, h0, i1, i2, i3, i4, i5, i6, i7, i8, i9, i10⟩ := regionInfo_limits (Lx, Ly, Lz) x0 x1 y0 y1 depth periodic
  set R := max (x1 - x0) (y1 - y0) with hRdef
  have hR : 0 < R := lt_max_of_lt_left (by linarith)
  have hsel := select_eq (box := (Lx, Ly, Lz)) (fun h => (hL h).2.2) i6 i7 hd ps
  set sel := (ps.filter fun p => p.2 && decide (DepthOk (period periodic Lz) depth p.1.z)) with hseldef
  set pts := (sel.map fun p => wrapped (Lx, Ly, Lz) periodic p.1).map (normed info periodic) with hpts
  have hbx : info.boxX = period periodic Lx / R := by rw [i8]; unfold period; split <;> simp
  have hby : info.boxY = period periodic Ly / R := by rw [i9]; unfold period; split <;> simp
  have hb0x : 0 ≤ info.boxX := by rw [hbx]; exact div_nonneg (period_pos fun h => (hL h).1) hR.le
  have hb0y : 0 ≤ info.boxY := by rw [hby]; exact div_nonneg (period_pos fun h => (hL h).2.1) hR.le
  have place2 : ∀ p : Part K, ∃ i j : Int, IsCopy (period periodic Lx) i ∧ IsCopy (period periodic Ly) j ∧
      (normed info periodic (wrapped (Lx, Ly, Lz) periodic p)).x = (p.x - x0) / R + i * (period periodic Lx / R) ∧
      (normed info periodic (wrapped (Lx, Ly, Lz) periodic p)).y = (p.y - y0) / R + j * (period periodic Ly / R) ∧
      Wrapped info.boxX (normed info periodic (wrapped (Lx, Ly, Lz) periodic p)).x ∧
      Wrapped info.boxY (normed info periodic (wrapped (Lx, Ly, Lz) periodic p)).y := by
    intro p
    obtain ⟨i, hi, ei, wi⟩ := place (periodic := periodic) (L := Lx) (R := R) p.x x0
    obtain ⟨j, hj, ej, wj⟩ := place (periodic := periodic) (L := Ly) (R := R) p.y y0
    refine ⟨i, j, hi, hj, ?_, ?_, ?_, ?_⟩
    · rw [← ei]; unfold normed wrapped; cases periodic <;> simp [i1, i5, i8, period]
    · rw [← ej]; unfold normed wrapped; cases periodic <;> simp [i2, i5, i9, period]
    · cases periodic with
      | false => intro h; rw [i8] at h; simp [period] at h
      | true =>
        have := wi rfl (hL rfl).1 hR
        unfold normed wrapped; simpa [i1, i5, i8, period] using this
    · cases periodic with
      | false => intro h; rw [i9] at h; simp [period] at h
      | true =>
        have := wj rfl (hL rfl).2.1 hR
        unfold normed wrapped; simpa [i2, i5, i9, period] using this
  have hh : ∀ p : Part K, (normed info periodic (wrapped (Lx, Ly, Lz) periodic p)).h = p.h / R ∧
      (normed info periodic (wrapped (Lx, Ly, Lz) periodic p)).m = p.m := by
    intro p
    unfold normed wrapped
    cases periodic <;> simp [i5]
  have hfits : Fits g info.boxX info.boxY pts := by
    intro c hc
    rw [hpts, List.mem_map] at hc
    obtain ⟨c', hc', rfl⟩ := hc
    rw [List.mem_map] at hc'
    obtain ⟨p, hpm, rfl⟩ := hc'
    have hpm' := List.mem_of_mem_filter hpm
    obtain ⟨i, j, _, _, _, _, w1, w2⟩ := place2 p.1
    obtain ⟨g1, g2⟩ := hp p hpm'
    have e : g * (p.1.h / R) = g * p.1.h / R := by ring
    rw [(hh p.1).1, e]
    refine ⟨w1, w2, div_nonneg g1 hR.le, ?_, ?_⟩
    · intro h
      have hper : periodic = true := by
        by_contra hn; apply h; rw [i8]; simp [period, hn]
      rw [hbx]; simp only [period, hper, if_true]
      exact div_le_div_of_nonneg_right (g2 hper).1 hR.le
    · intro h
      have hper : periodic = true := by
        by_contra hn; apply h; rw [i9]; simp [period, hn]
      rw [hby]; simp only [period, hper, if_true]
      exact div_le_div_of_nonneg_right (g2 hper).2 hR.le
  have himg := c36_fast hW hr hb0x hb0y pts hfits
  have hgrid : project (fast W g) (Lx, Ly, Lz) (some (limits x0 x1 y0 y1 depth)) periodic true res ps =
      .ok { nx := trimmed res info.xRange info.maxRange, ny := trimmed res info.yRange info.maxRange,
            img := fun q => (if OnImage res q.1 ∧ OnImage res q.2 then
              (pts.map fun p => tile2 info.boxX info.boxY (smoothAt W res p.m (g * p.h) q) p.x p.y).sum else 0) /
                (info.xRange * info.yRange) } := by
    unfold project
    rw [h0]
    change (select _ _ _ _ >>= _) = _
    rw [hsel]
    change (fast W g res info.boxX info.boxY pts >>= _) = _
    rw [himg]
    rfl
  have hnx : ∀ i : Int, OnImage (trimmed res info.xRange info.maxRange) i ↔ 0 ≤ i ∧ x0 + i * (R / res) < x1 := by
    intro i
    unfold OnImage
    rw [i3, i5]
    constructor
    · rintro ⟨a1, a2⟩; exact ⟨a1, (trimmed_iff hr hR i a1).1 a2⟩
    · rintro ⟨a1, a2⟩; exact ⟨a1, (trimmed_iff hr hR i a1).2 a2⟩
  have hny : ∀ i : Int, OnImage (trimmed res info.yRange info.maxRange) i ↔ 0 ≤ i ∧ y0 + i * (R / res) < y1 := by
    intro i
    unfold OnImage
    rw [i4, i5]
    constructor
    · rintro ⟨a1, a2⟩; exact ⟨a1, (trimmed_iff hr hR i a1).1 a2⟩
    · rintro ⟨a1, a2⟩; exact ⟨a1, (trimmed_iff hr hR i a1).2 a2⟩
  have hsub : ∀ (a b : K) (i : Int), b - a ≤ R → 0 ≤ i → a + i * (R / res) < b → OnImage res i := by
    intro a b i hle h1 h2
    refine ⟨h1, ?_⟩
    have hr' : (0 : K) < res := by exact_mod_cast hr
    have : (i : K) * (R / res) < R := by linarith
    rw [mul_div_assoc', div_lt_iff₀ hr', mul_comm] at this
    have := lt_of_mul_lt_mul_left this hR.le
    exact_mod_cast this
  refine ⟨_, hgrid, hnx, hny, ?_⟩
  intro q hq1 hq2
  have hq : OnImage res q.1 ∧ OnImage res q.2 :=
    ⟨hsub x0 x1 q.1 (le_max_left _ _) ((hnx _).1 hq1).1 ((hnx _).1 hq1).2,
      hsub y0 y1 q.2 (le_max_right _ _) ((hny _).1 hq2).1 ((hny _).1 hq2).2⟩
  dsimp only
  rw [if_pos hq, i3, i4, div_mul_eq_mul_div]
  congr 1
  rw [hpts, List.map_map, List.map_map, ← List.sum_map_mul_left]
  have e : ∀ p : Part K, tile2 info.boxX info.boxY (smoothAt W res (normed info periodic (wrapped (Lx, Ly, Lz) periodic p)).m
      (g * (normed info periodic (wrapped (Lx, Ly, Lz) periodic p)).h) q)
      (normed info periodic (wrapped (Lx, Ly, Lz) periodic p)).x (normed info periodic (wrapped (Lx, Ly, Lz) periodic p)).y =
      R ^ 2 * tile2 (period periodic Lx) (period periodic Ly) (surfaceAt W x0 y0 R res p.m (g * p.h) q) p.x p.y := by
    intro p
    obtain ⟨i, j, hi, hj, ei, ej, _, _⟩ := place2 p
    rw [(hh p).1, (hh p).2, hbx, hby, tile2_place hR.ne' _ i j hi hj ei ej, ← tile2_mul]
    congr 1
    funext X Y
    rw [show g * (p.h / R) = g * p.h / R by ring]
    exact smoothAt_place hsc hr hR x0 y0 p.m (g * p.h) q X Y
  simp only [Function.comp_def, e]
  rw [hseldef, sum_filter]
  congr 1
  apply List.map_congr_left
  intro p _
  simp only [Bool.and_eq_true, decide_eq_true_eq]
  split <;> simp

/-- Without a region the whole box is used. -/
theorem c53_whole_box (scatter : Nat → K → K → List (Part K) → Except Err (Int × Int → K)) (Lx Ly Lz : K)
    (periodic framed : Bool) (res : Nat) (ps : List (Part K × Bool)) :
    project scatter (Lx, Ly, Lz) none periodic framed res ps =
      project scatter (Lx, Ly, Lz) (some (limits 0 Lx 0 Ly none)) periodic framed res ps := by
  have : regionInfo (Lx, Ly, Lz) none false periodic =
      regionInfo (Lx, Ly, Lz) (some (limits 0 Lx 0 Ly none)) false periodic := by
    simp [regionInfo, limits]
  unfold project
  rw [this]

open scoped Classical in
/-- C53 for square regions: the pixels hold the surface density. -/
theorem c53_square {W : K → K → K} (hW : Compact W) (hsc : Scales 2 W) {g : K} {res : Nat} (hr : 0 < res)
    (Lx Ly Lz : K) (periodic : Bool) (hL : periodic = true → 0 < Lx ∧ 0 < Ly ∧ 0 < Lz) {x0 y0 R : K} (hR : 0 < R)
    (depth : Option (K × K)) (hd : DepthFits periodic Lz depth) (ps : List (Part K × Bool))
    (hp : ∀ p ∈ ps, 0 ≤ g * p.1.h ∧ (periodic = true → g * p.1.h ≤ Lx ∧ g * p.1.h ≤ Ly)) :
    ∃ out, project (fast W g) (Lx, Ly, Lz) (some (limits x0 (x0 + R) y0 (y0 + R) depth)) periodic true res ps = .ok out ∧
      out.nx = res ∧ out.ny = res ∧ ∀ q, OnImage res q.1 → OnImage res q.2 → out.img q =
        (ps.map fun p => if p.2 = true ∧ DepthOk (period periodic Lz) depth p.1.z then
          tile2 (period periodic Lx) (period periodic Ly) (surfaceAt W x0 y0 R res p.1.m (g * p.1.h) q) p.1.x p.1.y
          else 0).sum := by
  obtain ⟨out, h1, h2, h3, h4⟩ := c53_projection_partial hW hsc hr Lx Ly Lz periodic hL (x0 := x0) (x1 := x0 + R)
    (y0 := y0) (y1 := y0 + R) (by linarith) (by linarith) depth hd ps hp
  simp only [add_sub_cancel_left, max_self] at h2 h3 h4
  have hr' : (0 : K) < res := by exact_mod_cast hr
  have key : ∀ (a : K) (i : Int), a + i * (R / res) < a + R ↔ i < res := by
    intro a i
    rw [add_lt_add_iff_left, mul_div_assoc', div_lt_iff₀ hr', mul_comm R, mul_lt_mul_iff_left₀ hR]
    constructor <;> intro h <;> exact_mod_cast h
  have eq_of : ∀ n : Nat, (∀ i : Int, OnImage n i ↔ 0 ≤ i ∧ i < (res : Int)) → n = res := by
    intro n h
    unfold OnImage at h
    have a := h n
    have b := h res
    omega
  have e1 : out.nx = res := eq_of _ fun i => by rw [h2, key]
  have e2 : out.ny = res := eq_of _ fun i => by rw [h3, key]
  refine ⟨out, h1, e1, e2, ?_⟩
  intro q q1 q2
  rw [h4 q (e1.symm ▸ q1) (e2.symm ▸ q2), pow_two, div_self (by positivity), one_mul]

/-- C53 fails for regions that are not square: the image is divided by the area of the region although its pixels have
the side `max_range / resolution`. Here a particle of mass 1 in a pixel of area 1 gives 2. -/
theorem c53_norm_fails : (project histogram (10, 10, 10) (some [0, 4, 0, 2]) true true 4
    [(⟨1 / 2, 1 / 2, 0, 1, 0⟩, true)]).map (fun out => (out.nx, out.ny, out.img (0, 0))) = .ok (4, 2, (2 : ℚ)) := by
  decide +kernel

/-- C53 fails for fields that are neither comoving nor physical: nothing is divided by the area. Here a particle of mass 1
in a pixel of area 1 gives 4. -/
theorem c53_unframed_fails : (project histogram (10, 10, 10) (some [0, 2, 0, 2]) true false 2
    [(⟨1 / 2, 1 / 2, 0, 1, 0⟩, true)]).map (fun out => (out.nx, out.ny, out.img (0, 0))) = .ok (2, 2, (4 : ℚ)) := by
  decide +kernel

end Verif.Props
