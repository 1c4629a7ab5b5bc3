import Mathlib.Algebra.BigOperators.Ring.Finset
import Verif.Model.Power
import Verif.Spec.Power
import Verif.Props.ImageLinear
import Verif.Props.Frame

/-!
# C42 and C43: depositions for power spectra
-/

set_option linter.unusedSectionVars false

namespace Verif.Props
open Verif Verif.Spec Verif.Scatter Verif.Frame Verif.Power

variable {K : Type} [Field K] [LinearOrder K] [IsStrictOrderedRing K] [FloorRing K]

private theorem pix_eq {res : Nat} {over : K} (ho : 0 < over) (v : K) :
    pix res over v = ⌊(res : K) * (v / over)⌋ - res * ⌊v / over⌋ := by
  have h0 : 0 ≤ pmod v over := (pmod_mem ho v).1
  unfold pix trunc
  rw [if_pos (by positivity)]
  have e : pmod v over * (1 / over) * (res : K) = (res : K) * (v / over) - ((res * ⌊v / over⌋ : Int) : K) := by
    unfold pmod; push_cast; field_simp
  rw [e, Int.floor_sub_intCast]

private theorem pix_on {res : Nat} (hr : 0 < res) {over : K} (ho : 0 < over) (v : K) : OnImage res (pix res over v) := by
  obtain ⟨h0, h1⟩ := pmod_mem ho v
  have hr' : (0 : K) < res := by exact_mod_cast hr
  unfold pix trunc OnImage
  rw [if_pos (by positivity)]
  refine ⟨Int.floor_nonneg.2 (by positivity), Int.floor_lt.2 ?_⟩
  have : pmod v over * (1 / over) < 1 := by rw [mul_one_div, div_lt_one ho]; exact h1
  push_cast
  nlinarith

private theorem cell_iff {w : K} (hw : 0 < w) (i : Int) (v : K) : ((i : K) * w ≤ v ∧ v < ((i : K) + 1) * w) ↔ ⌊v / w⌋ = i := by
  rw [Int.floor_eq_iff, le_div_iff₀ hw, div_lt_iff₀ hw]

private theorem folded_iff {L f : K} (hL : 0 < L) (hf : 0 < f) {n : Nat} (hn : 0 < n) {i : Int} (hi : OnImage n i) (v : K) :
    Folded L f n i v ↔ pix n (L / f) v = i := by
  have hn' : (0 : K) < n := by exact_mod_cast hn
  have hw : 0 < L / (f * n) := by positivity
  have ho : 0 < L / f := by positivity
  have e : (n : K) * (v / (L / f)) = v / (L / (f * n)) := by field_simp
  have hj : ∀ j : Int, ((i + n * j) * (L / (f * n)) ≤ v ∧ v < (i + n * j + 1) * (L / (f * n))) ↔
      ⌊v / (L / (f * n))⌋ = i + n * j := by
    intro j
    have := cell_iff hw (i + n * j) v
    push_cast at this
    exact this
  unfold Folded
  simp only [hj]
  have hp := pix_on hn ho v
  have hpe := pix_eq (res := n) ho v
  rw [e] at hpe
  constructor
  · rintro ⟨j, h⟩
    rw [h] at hpe
    unfold OnImage at hp hi
    have h1 : pix n (L / f) v = i + n * (j - ⌊v / (L / f)⌋) := by rw [hpe]; ring
    have hn'' : (0 : Int) < n := by exact_mod_cast hn
    have h2 : j - ⌊v / (L / f)⌋ = 0 := by
      by_contra hne
      rcases lt_or_gt_of_ne hne with h | h
      · have : (n : Int) * (j - ⌊v / (L / f)⌋) ≤ n * (-1) := mul_le_mul_of_nonneg_left (by omega) hn''.le
        omega
      · have : (n : Int) * 1 ≤ n * (j - ⌊v / (L / f)⌋) := mul_le_mul_of_nonneg_left (by omega) hn''.le
        omega
    rw [h1, h2]; ring
  · intro h
    exact ⟨⌊v / (L / f)⌋, by omega⟩

/-- Every coordinate lies in exactly one cell of the folded grid, also outside the box. -/
theorem c42_one_cell {L f : K} (hL : 0 < L) (hf : 0 < f) {n : Nat} (hn : 0 < n) (v : K) :
    ∃! i : Int, OnImage n i ∧ Folded L f n i v := by
  have ho : 0 < L / f := by positivity
  refine ⟨pix n (L / f) v, ⟨pix_on hn ho v, (folded_iff hL hf hn (pix_on hn ho v) v).2 rfl⟩, ?_⟩
  rintro i ⟨h1, h2⟩
  exact ((folded_iff hL hf hn h1 v).1 h2).symm

private theorem deps_inside {n : Nat} (hn : 0 < n) {f bx by_ bz : K} (hf : 0 < f) (hx : 0 < bx) (hy : 0 < by_) (hz : 0 < bz)
    (ps : List (Part K)) : ∀ d ∈ ps.map (depositDeps n f bx by_ bz), inside3 n n n d.1 = true := by
  intro d hd
  obtain ⟨p, _, rfl⟩ := List.mem_map.1 hd
  obtain ⟨a1, a2⟩ := pix_on hn (div_pos hx hf) p.x
  obtain ⟨b1, b2⟩ := pix_on hn (div_pos hy hf) p.y
  obtain ⟨c1, c2⟩ := pix_on hn (div_pos hz hf) p.z
  simp [inside3, depositDeps, a1, a2, b1, b2, c1, c2]

open Classical in
/-- C42. For all positions, also outside the box, and all foldings nothing is written outside the grid, and each cell holds
the weights of the particles in its pieces of the box, divided by the volume of one cell where the volume of the box is one. -/
theorem c42_cells {n : Nat} (hn : 0 < n) {f bx by_ bz : K} (hf : 0 < f) (hx : 0 < bx) (hy : 0 < by_) (hz : 0 < bz)
    (ps : List (Part K)) :
    ∃ out, deposit n f bx by_ bz ps = .ok out ∧ ∀ q, OnImage n q.1 → OnImage n q.2.1 → OnImage n q.2.2 →
      out q = (ps.map fun p => if Folded3 (bx, by_, bz) f n q p.x p.y p.z then p.m / (1 / (f * n)) ^ 3 else 0).sum := by
  have hn' : (0 : K) < n := by exact_mod_cast hn
  refine ⟨_, paint_ok _ _ (deps_inside hn hf hx hy hz ps), ?_⟩
  intro q h1 h2 h3
  unfold wsum
  rw [List.map_map]
  congr 1
  apply List.map_congr_left
  intro p _
  have e : (depositDeps n f bx by_ bz p).1 = q ↔ Folded3 (bx, by_, bz) f n q p.x p.y p.z := by
    unfold Folded3 depositDeps
    rw [folded_iff hx hf hn h1, folded_iff hy hf hn h2, folded_iff hz hf hn h3, Prod.ext_iff, Prod.ext_iff]
  simp only [Function.comp_def, e]
  split
  · simp only [depositDeps]
    field_simp
  · rfl

/-- The cells of a grid. -/
def cells (n : Nat) : Finset (Int × Int × Int) := Finset.Ico 0 (n : Int) ×ˢ Finset.Ico 0 (n : Int) ×ˢ Finset.Ico 0 (n : Int)

private theorem mem_cells {n : Nat} {q : Int × Int × Int} : q ∈ cells n ↔ OnImage n q.1 ∧ OnImage n q.2.1 ∧ OnImage n q.2.2 := by
  simp [cells, OnImage]

private theorem sum_wsum {ι κ : Type} [DecidableEq ι] [DecidableEq κ] (S : Finset ι) (r : ι → κ) (c : κ) (ds : List (ι × K))
    (h : ∀ d ∈ ds, d.1 ∈ S) : ∑ q ∈ S with r q = c, wsum q ds = (ds.map fun d => if r d.1 = c then d.2 else 0).sum := by
  induction ds with
  | nil => simp [wsum]
  | cons d ds ih =>
    have ih := ih fun e he => h e (List.mem_cons_of_mem _ he)
    have hd := h d (by simp)
    unfold wsum at ih ⊢
    simp only [List.map_cons, List.sum_cons]
    rw [Finset.sum_add_distrib, ih, Finset.sum_ite_eq]
    simp [hd]

private theorem deps_cells {n : Nat} (hn : 0 < n) {f bx by_ bz : K} (hf : 0 < f) (hx : 0 < bx) (hy : 0 < by_) (hz : 0 < bz)
    (ps : List (Part K)) : ∀ d ∈ ps.map (depositDeps n f bx by_ bz), d.1 ∈ cells n := by
  intro d hd
  obtain ⟨p, _, rfl⟩ := List.mem_map.1 hd
  exact mem_cells.2 ⟨pix_on hn (div_pos hx hf) p.x, pix_on hn (div_pos hy hf) p.y, pix_on hn (div_pos hz hf) p.z⟩

/-- C42, the total: the sum over all cells of the grid, times the volume of one cell where the box has volume one, is the sum
of the weights. -/
theorem c42_total {n : Nat} (hn : 0 < n) {f bx by_ bz : K} (hf : 0 < f) (hx : 0 < bx) (hy : 0 < by_) (hz : 0 < bz)
    (ps : List (Part K)) (out : Int × Int × Int → K) (h : deposit n f bx by_ bz ps = .ok out) :
    (∑ q ∈ cells n, out q) * (1 / (f * n)) ^ 3 = (ps.map fun p => p.m).sum := by
  have hn' : (0 : K) < n := by exact_mod_cast hn
  unfold deposit at h
  rw [paint_ok _ _ (deps_inside hn hf hx hy hz ps)] at h
  cases h
  have := sum_wsum (cells n) (fun _ => ()) () _ (deps_cells hn hf hx hy hz ps)
  simp only [Finset.filter_true, if_true, List.map_map, Function.comp_def] at this
  rw [this, ← List.sum_map_mul_right]
  congr 1
  apply List.map_congr_left
  intro p _
  simp only [depositDeps]
  field_simp

/-- C42, threads: the parallel deposition gives the same grid, for every number of threads and order of completion. -/
theorem c42_parallel {n : Nat} (hn : 0 < n) {f bx by_ bz : K} (hf : 0 < f) (hx : 0 < bx) (hy : 0 < by_) (hz : 0 < bz)
    (T : Nat) (hT : 0 < T) (order : List Nat) (ho : order.Perm (List.range T)) (ps : List (Part K)) :
    depositParallel T order n f bx by_ bz ps = deposit n f bx by_ bz ps := by
  refine c38_parallel ?_ T hT order ho ps
  intro a b
  refine ⟨_, _, paint_ok _ _ (deps_inside hn hf hx hy hz a), paint_ok _ _ (deps_inside hn hf hx hy hz b), ?_⟩
  unfold deposit
  rw [paint_ok _ _ (deps_inside hn hf hx hy hz (a ++ b))]
  simp [wsum]

/-! ## C43 -/

private theorem pix_mod {n f : Nat} (hn : 0 < n) (hf : 0 < f) {L : K} (hL : 0 < L) (v : K) :
    pix n (L / f) v = pix (f * n) L v % n := by
  have hf' : (0 : K) < f := by exact_mod_cast hf
  have ho : 0 < L / f := by positivity
  obtain ⟨h1, h2⟩ := pix_on hn ho v
  have e1 := pix_eq (res := n) ho v
  have e2 := pix_eq (res := f * n) hL v
  have e : ((f * n : Nat) : K) * (v / L) = (n : K) * (v / (L / f)) := by push_cast; field_simp
  rw [e] at e2
  have e3 : pix (f * n) L v = pix n (L / f) v + n * (⌊v / (L / f)⌋ - f * ⌊v / L⌋) := by
    rw [e1, e2]; push_cast; ring
  rw [e3, Int.add_mul_emod_self_left, Int.emod_eq_of_lt h1 h2]

/-- C43. The grid folded `f` times is the grid of the whole box with `f` times as many cells along each side, with all cells
that agree modulo `n` added. -/
theorem c43_folding {n f : Nat} (hn : 0 < n) (hf : 0 < f) {bx by_ bz : K} (hx : 0 < bx) (hy : 0 < by_) (hz : 0 < bz)
    (ps : List (Part K)) : ∃ out fine, deposit n (f : K) bx by_ bz ps = .ok out ∧ deposit (f * n) 1 bx by_ bz ps = .ok fine ∧
      ∀ q, out q = ∑ c ∈ cells (f * n) with (c.1 % (n : Int), c.2.1 % (n : Int), c.2.2 % (n : Int)) = q, fine c := by
  have hf' : (0 : K) < f := by exact_mod_cast hf
  have hfn : 0 < f * n := Nat.mul_pos hf hn
  refine ⟨_, _, paint_ok _ _ (deps_inside hn hf' hx hy hz ps), paint_ok _ _ (deps_inside hfn one_pos hx hy hz ps), ?_⟩
  intro q
  rw [sum_wsum (cells (f * n)) (fun c => (c.1 % (n : Int), c.2.1 % (n : Int), c.2.2 % (n : Int))) q _
    (deps_cells hfn one_pos hx hy hz ps)]
  unfold wsum
  rw [List.map_map, List.map_map]
  congr 1
  apply List.map_congr_left
  intro p _
  simp only [Function.comp_def, depositDeps, div_one, pix_mod hn hf hx, pix_mod hn hf hy, pix_mod hn hf hz]
  split
  · push_cast; ring
  · rfl

/-- C43, one particle: its cell is the one on the fine grid reduced modulo `n`. -/
theorem c43_cell {n f : Nat} (hn : 0 < n) (hf : 0 < f) {L : K} (hL : 0 < L) (v : K) {i : Int} (hi : OnImage n i) :
    Folded L (f : K) n i v ↔ ∃ c : Int, OnImage (f * n) c ∧ Folded L (1 : K) (f * n) c v ∧ c % n = i := by
  have hf' : (0 : K) < f := by exact_mod_cast hf
  have hfn : 0 < f * n := Nat.mul_pos hf hn
  rw [folded_iff hL hf' hn hi, pix_mod hn hf hL]
  constructor
  · intro h
    have := pix_on hfn hL v
    exact ⟨_, this, (folded_iff hL one_pos hfn this v).2 (by rw [div_one]), h⟩
  · rintro ⟨c, hc, h1, h2⟩
    rw [folded_iff hL one_pos hfn hc, div_one] at h1
    rw [h1, h2]

private theorem pix_shift {n f : Nat} (hf : 0 < f) {L : K} (hL : 0 < L) (v : K) (k : Int) :
    pix n (L / f) (v + k * (L / f)) = pix n (L / f) v := by
  have hf' : (0 : K) < f := by exact_mod_cast hf
  have ho : 0 < L / f := by positivity
  have e : (v + k * (L / f)) / (L / f) = v / (L / f) + k := by field_simp
  unfold pix pmod
  rw [e, Int.floor_add_intCast]
  congr 3
  push_cast
  ring

/-- C43, periodic copies: moving each particle by any whole numbers of pieces of the box, so in particular by whole boxes, does
not change the grid. -/
theorem c43_periodic {n f : Nat} (hf : 0 < f) {bx by_ bz : K} (hx : 0 < bx) (hy : 0 < by_) (hz : 0 < bz)
    (ps : List (Part K × Int × Int × Int)) :
    deposit n (f : K) bx by_ bz (ps.map fun p => (⟨p.1.x + p.2.1 * (bx / f), p.1.y + p.2.2.1 * (by_ / f),
      p.1.z + p.2.2.2 * (bz / f), p.1.m, p.1.h⟩ : Part K)) = deposit n (f : K) bx by_ bz (ps.map Prod.fst) := by
  unfold deposit
  rw [List.map_map, List.map_map]
  congr 1
  apply List.map_congr_left
  intro p _
  simp only [Function.comp_def, depositDeps]
  rw [pix_shift hf hx, pix_shift hf hy, pix_shift hf hz]

/-! ## `render_to_deposit` -/

open Classical in
/-- C42, end to end for comoving coordinates: a field that can be used with comoving coordinates gives, in each cell, the sum
of its weights over the volume of the cell, labelled comoving with three powers of the scale factor less. -/
theorem c42_render {a : K} {bx by_ bz : K} (hx : 0 < bx) (hy : 0 < by_) (hz : 0 < bz) {qComoving : Bool} {k : Int}
    (hq : qComoving = true ∨ a ^ k = 1) {n : Nat} (hn : 0 < n) (folding : Nat) (ps : List (Part K)) :
    ∃ d, renderToDeposit a (bx, by_, bz) true true qComoving k n folding ps = .ok d ∧ d.comoving = true ∧ d.exponent = k - 3 ∧
      ∀ q ∈ cells n, d.inComoving a q = (ps.map fun p => if Folded3 (bx, by_, bz) (2 ^ folding) n q p.x p.y p.z then
        p.m / (bx / (2 ^ folding * n) * (by_ / (2 ^ folding * n)) * (bz / (2 ^ folding * n))) else 0).sum := by
  have hn' : (0 : K) < n := by exact_mod_cast hn
  obtain ⟨out, h1, h2⟩ := c42_cells hn (f := (2 : K) ^ folding) (by positivity) hx hy hz ps
  refine ⟨⟨out, 1 / (bx * by_ * bz), true, k - 3⟩, ?_, rfl, rfl, ?_⟩
  · have hc : (true && !(qComoving || decide (a ^ k = 1))) = false := by
      rcases hq with rfl | h <;> simp [*]
    unfold renderToDeposit
    simp only [hc, zpow_natCast, h1]
    rfl
  · intro q hq
    obtain ⟨q1, q2, q3⟩ := mem_cells.1 hq
    simp only [Deposition.inComoving, if_true]
    rw [h2 q q1 q2 q3, ← List.sum_map_mul_right]
    congr 1
    apply List.map_congr_left
    intro p _
    split
    · field_simp
    · rw [zero_mul]

/-- C42: fields that cannot be used with the coordinates and coordinates that are not in the unit of the box are refused. -/
theorem c42_refused (a : K) (box : K × K × K) (sameUnits posComoving qComoving : Bool) (k : Int) (n : Nat) (folding : Int)
    (ps : List (Part K)) (h : sameUnits = false ∨ qComoving ≠ posComoving ∧ a ^ k ≠ 1) :
    renderToDeposit a box sameUnits posComoving qComoving k n folding ps = .error .attribute := by
  unfold renderToDeposit
  rcases h with rfl | ⟨hq, hk⟩
  · cases posComoving <;> cases qComoving <;> by_cases hk : a ^ k = 1 <;> simp [hk] <;> rfl
  · cases posComoving <;> cases qComoving <;> simp_all <;> rfl

/-- C42 fails for physical coordinates: they are folded with the comoving box. A particle in the middle of the box at scale
factor one half is put in the first quarter, and the total mass over the volume of the box comes out eight times too small. -/
theorem c42_physical_fails : ∃ p : Part ℚ,
    (renderToDeposit (1 / 2) (8, 8, 8) true true true 0 4 0 [p]).map (fun d => d.inComoving (1 / 2) (2, 2, 2)) = .ok (p.m / 2 ^ 3) ∧
    (renderToDeposit (1 / 2) (8, 8, 8) true false true 0 4 0 [⟨p.x / 2, p.y / 2, p.z / 2, p.m, p.h / 2⟩]).map
      (fun d => (d.inComoving (1 / 2) (2, 2, 2), d.inComoving (1 / 2) (1, 1, 1))) = .ok (0, p.m / 2 ^ 3 / 8) := by
  refine ⟨⟨5, 5, 5, 3, 1⟩, ?_, ?_⟩ <;> decide +kernel

/-- A particle outside the box, folded four times. -/
example : Folded (10 : ℚ) 4 8 7 (-41 / 4) ∧
    (deposit 8 (4 : ℚ) 10 10 10 [⟨-41 / 4, 1, 2, 5, 1⟩]).map (fun g => (g (7, 3, 6), g (6, 3, 6))) = .ok (5 * 32 ^ 3, 0) := by
  refine ⟨⟨-5, by norm_num, by norm_num⟩, ?_⟩
  decide +kernel

end Verif.Props
