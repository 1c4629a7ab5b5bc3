import Verif.Props.ImageParts
import Verif.Props.Power
import Mathlib.Algebra.BigOperators.Ring.Finset
import Mathlib.Algebra.BigOperators.Field

/-!
# C122: images and depositions of the same particles with different resolutions
-/

namespace Verif.Props
open Verif Verif.Scatter Verif.Frame Verif.Spec Verif.Power

variable {K : Type} [Field K] [LinearOrder K] [IsStrictOrderedRing K] [FloorRing K]

omit [LinearOrder K] [IsStrictOrderedRing K] [FloorRing K] in
/-- Of some cases at most one holds. -/
private theorem sum_one {k : Nat} {A : Prop} {F : Nat → Prop} [Decidable A] [DecidablePred F] (h1 : A ↔ ∃ i < k, F i) (h2 : ∀ i < k, ∀ j < k, F i → F j → i = j) (x : K) :
    (∑ i ∈ Finset.range k, if F i then x else 0) = if A then x else 0 := by
  by_cases hA : A
  · obtain ⟨i, hi, hF⟩ := h1.1 hA
    rw [if_pos hA, Finset.sum_eq_single i, if_pos hF]
    · intro j hj hne
      exact if_neg fun h => hne (h2 j (Finset.mem_range.1 hj) i hi h hF)
    · intro h; exact absurd (Finset.mem_range.2 hi) h
  · rw [if_neg hA]
    refine Finset.sum_eq_zero fun i hi => if_neg fun h => hA (h1.2 ⟨i, Finset.mem_range.1 hi, h⟩)

/-! ## Histograms -/

private theorem cell_fine (k : Nat) (hk : 0 < k) (res : Nat) (x : K) : cell res x = cell (k * res) x / k := by
  have hk' : (0 : K) < k := by exact_mod_cast hk
  have hkz : (0 : Int) < k := by exact_mod_cast hk
  unfold cell
  rw [eq_comm, Int.ediv_eq_iff_of_pos hkz]
  set c := ⌊(res : K) * x⌋ with hc
  have h1 : (c : K) ≤ res * x := Int.floor_le _
  have h2 : (res : K) * x < c + 1 := Int.lt_floor_add_one _
  push_cast
  constructor
  · rw [Int.le_floor]; push_cast; nlinarith
  · rw [Int.floor_lt]; push_cast; nlinarith

private theorem fine_iff {k : Nat} (hk : 0 < k) (c q : Int) : c / k = q ↔ ∃ i < k, c = k * q + (i : Nat) := by
  have hkz : (0 : Int) < k := by exact_mod_cast hk
  rw [Int.ediv_eq_iff_of_pos hkz]
  constructor
  · rintro ⟨h1, h2⟩
    refine ⟨(c - k * q).toNat, ?_, ?_⟩ <;> have := mul_comm (k : Int) q <;> omega
  · rintro ⟨i, hi, rfl⟩
    have := mul_comm (k : Int) q
    constructor <;> nlinarith [hi]


private theorem on_fine {k : Nat} (hk : 0 < k) (n : Nat) (c : Int) : onGrid n (c / k) = onGrid (k * n) c := by
  have hkz : (0 : Int) < k := by exact_mod_cast hk
  rw [Bool.eq_iff_iff, onGrid_iff, onGrid_iff]
  unfold OnImage
  push_cast
  rw [Int.ediv_nonneg_iff_of_pos hkz, Int.ediv_lt_iff_lt_mul hkz, mul_comm (n : Int)]

omit [LinearOrder K] [IsStrictOrderedRing K] [FloorRing K] in
private theorem sum_two {k : Nat} (hk : 0 < k) (c d : Int) (q : Int × Int) (x : K) :
    (∑ i ∈ Finset.range k, ∑ j ∈ Finset.range k, if (c, d) = ((k : Int) * q.1 + (i : Int), (k : Int) * q.2 + (j : Int)) then x else 0) =
      if (c / (k : Int), d / (k : Int)) = q then x else 0 := by
  have h1 : ∀ c q : Int, ∀ i < k, ∀ j < k, c = k * q + (i : Nat) → c = k * q + (j : Nat) → i = j := by
    intro c q i _ j _ h h'
    omega
  have e : ∀ i ∈ Finset.range k, (∑ j ∈ Finset.range k, if (c, d) = ((k : Int) * q.1 + (i : Int), (k : Int) * q.2 + (j : Int)) then x else 0) =
      if c = (k : Int) * q.1 + (i : Int) then (if d / (k : Int) = q.2 then x else 0) else 0 := by
    intro i _
    by_cases h : c = (k : Int) * q.1 + (i : Int)
    · rw [if_pos h, ← sum_one (fine_iff hk d q.2) (h1 d q.2) x]
      refine Finset.sum_congr rfl fun j _ => ?_
      simp only [Prod.mk.injEq, h, true_and]
    · rw [if_neg h]
      refine Finset.sum_eq_zero fun j _ => if_neg fun h' => h (Prod.mk.inj h').1
  rw [Finset.sum_congr rfl e, sum_one (fine_iff hk c q.1) (h1 c q.1)]
  obtain ⟨u, v⟩ := q
  by_cases h : c / (k : Int) = u <;> simp [h]

private theorem own_fine {k : Nat} (hk : 0 < k) (res : Nat) (p : Part K) (q : Int × Int) :
    wsum q (ownCell2 res p) * (k : K) ^ 2 =
      ∑ i ∈ Finset.range k, ∑ j ∈ Finset.range k, wsum ((k : Int) * q.1 + (i : Int), (k : Int) * q.2 + (j : Int)) (ownCell2 (k * res) p) := by
  unfold ownCell2
  rw [cell_fine k hk res p.x, cell_fine k hk res p.y, on_fine hk, on_fine hk]
  split
  · simp only [wsum_cons, wsum_nil, add_zero]
    have e := sum_two hk (cell (k * res) p.x) (cell (k * res) p.y) q (p.m * (((k * res : Nat) : K) * ((k * res : Nat) : K)))
    refine Eq.trans ?_ e.symm
    by_cases h : (cell (k * res) p.x / (k : Int), cell (k * res) p.y / (k : Int)) = q
    · rw [if_pos h, if_pos h]; push_cast; ring
    · rw [if_neg h, if_neg h, zero_mul]
  · simp

omit [LinearOrder K] [IsStrictOrderedRing K] [FloorRing K] in
/-- What holds of the statements of every particle holds of all of them. -/
private theorem flat_fine {α : Type} (k : Nat) (c : K) (f f' : α → List ((Int × Int) × K)) (q : Int × Int) (s : Nat → Nat → Int × Int)
    (h : ∀ a, wsum q (f a) * c = ∑ i ∈ Finset.range k, ∑ j ∈ Finset.range k, wsum (s i j) (f' a)) (l : List α) :
    wsum q (l.flatMap f) * c = ∑ i ∈ Finset.range k, ∑ j ∈ Finset.range k, wsum (s i j) (l.flatMap f') := by
  induction l with
  | nil => simp
  | cons a l ih =>
    simp only [List.flatMap_cons, wsum_append, add_mul, Finset.sum_add_distrib]
    rw [h, ih]

private theorem histogram_ok (res : Nat) (bx by_ : K) (ps : List (Part K)) :
    histogram res bx by_ ps = .ok fun q => wsum q (over (histogramDeps res) bx by_ ps) :=
  paint_ok _ _ (over_inside (fun p d h => ownCell2_inside res p d h) bx by_ ps)

private theorem trimmed_fine {k : Nat} (hk : 0 < k) (res : Nat) (r R : K) (i : Int) :
    OnImage (trimmed res r R) i ↔ OnImage (trimmed (k * res) r R) (k * i) := by
  have hk' : (0 : K) < k := by exact_mod_cast hk
  have hkz : (0 : Int) < k := by exact_mod_cast hk
  have e : ∀ n : Nat, ∀ j : Int, 0 ≤ j → (j < (trimmed n r R : Int) ↔ (j : K) < n * (r / R)) := by
    intro n j hj
    unfold trimmed
    rw [← Int.lt_ceil]
    omega
  unfold OnImage
  constructor
  · rintro ⟨h1, h2⟩
    refine ⟨by positivity, (e _ _ (by positivity)).2 ?_⟩
    have := (e _ _ h1).1 h2
    push_cast
    rw [mul_assoc]
    exact mul_lt_mul_of_pos_left this hk'
  · rintro ⟨h1, h2⟩
    have h1' : 0 ≤ i := nonneg_of_mul_nonneg_right h1 hkz
    refine ⟨h1', (e _ _ h1').2 ?_⟩
    have := (e _ _ h1).1 h2
    push_cast at this
    rw [mul_assoc] at this
    exact lt_of_mul_lt_mul_left this hk'.le

/-- C122. Every pixel of a histogram is the mean of the pixels that a finer grid has in its place, and the image ends at the
same place. -/
theorem c122_histogram {k : Nat} (hk : 0 < k) {box : K × K × K} {reg : Option (List K)} {periodic framed : Bool} {res : Nat}
    {ps : List (Part K × Bool)} {out : Frame.Grid K} (h : project histogram box reg periodic framed res ps = .ok out) :
    ∃ fine, project histogram box reg periodic framed (k * res) ps = .ok fine ∧
      (∀ i : Int, OnImage out.nx i ↔ OnImage fine.nx (k * i)) ∧ (∀ j : Int, OnImage out.ny j ↔ OnImage fine.ny (k * j)) ∧
      ∀ q : Int × Int, out.img q = (∑ i ∈ Finset.range k, ∑ j ∈ Finset.range k, fine.img (k * q.1 + i, k * q.2 + j)) / (k : K) ^ 2 := by
  have hk' : (0 : K) < k := by exact_mod_cast hk
  unfold project at h ⊢
  cases hi : regionInfo box reg false periodic with
  | error e => rw [hi] at h; exact absurd h (by intro h; cases h)
  | ok info =>
    rw [hi] at h
    change (select _ _ _ _).bind _ = _ at h
    cases hs : select box.2.2 info periodic (ps.map fun p => (wrapped box periodic p.1, p.2)) with
    | error e => rw [hs] at h; exact absurd h (by intro h; cases h)
    | ok sel =>
      rw [hs] at h
      change (histogram _ _ _ _).bind _ = _ at h
      rw [histogram_ok] at h
      obtain rfl := Except.ok.inj h
      refine ⟨⟨trimmed (k * res) info.xRange info.maxRange, trimmed (k * res) info.yRange info.maxRange, fun q =>
        wsum q (over (histogramDeps (k * res)) info.boxX info.boxY (sel.map (normed info periodic))) /
          (if framed then info.xRange * info.yRange else 1)⟩, ?_, trimmed_fine hk res _ _, trimmed_fine hk res _ _, ?_⟩
      · change (select _ _ _ _).bind _ = _
        rw [hs]
        change (histogram _ _ _ _).bind _ = _
        rw [histogram_ok]
        rfl
      · intro q
        rw [eq_div_iff (by positivity)]
        simp only [← Finset.sum_div]
        rw [div_mul_eq_mul_div]
        congr 1
        exact flat_fine k _ _ _ q _ (fun p => flat_fine k _ _ _ q _ (fun c => own_fine hk res c q) _) _

/-! ## Depositions -/

private theorem folded_fine {L f : K} (hL : 0 < L) (hf : 0 < f) {k n : Nat} (hk : 0 < k) (hn : 0 < n) (q : Int) (X : K) :
    Folded L f n q X ↔ ∃ i < k, Folded L f (k * n) (k * q + (i : Nat)) X := by
  have hk' : (0 : K) < k := by exact_mod_cast hk
  have hn' : (0 : K) < n := by exact_mod_cast hn
  have hw : 0 < L / (f * (k * n)) := by positivity
  set c := ⌊X / (L / (f * (k * n)))⌋ with hc
  have fine : ∀ s : Int, Folded L f (k * n) s X ↔ ∃ j : Int, c = s + k * n * j := by
    intro s
    unfold Folded
    refine exists_congr fun j => ?_
    rw [hc, Int.floor_eq_iff, le_div_iff₀ hw, div_lt_iff₀ hw]
    push_cast
    rfl
  have coarse : Folded L f n q X ↔ ∃ j : Int, c / k = q + n * j := by
    unfold Folded
    refine exists_congr fun j => ?_
    have hkz : (0 : Int) < k := by exact_mod_cast hk
    have ew : L / (f * n) = k * (L / (f * (k * n))) := by field_simp
    rw [Int.ediv_eq_iff_of_pos hkz, hc, Int.le_floor, Int.floor_lt, le_div_iff₀ hw, div_lt_iff₀ hw, ew]
    push_cast
    constructor <;> rintro ⟨h1, h2⟩ <;> constructor <;> linarith
  rw [coarse]
  simp only [fine]
  constructor
  · rintro ⟨j, hj⟩
    obtain ⟨i, hi, h⟩ := (fine_iff hk c _).1 hj
    exact ⟨i, hi, j, by rw [h]; ring⟩
  · rintro ⟨i, hi, j, hj⟩
    exact ⟨j, (fine_iff hk c _).2 ⟨i, hi, by rw [hj]; ring⟩⟩

private theorem folded_one {L f : K} (hL : 0 < L) (hf : 0 < f) {n : Nat} (hn : 0 < n) {q q' : Int} (hq : OnImage n q) (hq' : OnImage n q') {X : K}
    (h : Folded L f n q X) (h' : Folded L f n q' X) : q = q' := by
  have hn' : (0 : K) < n := by exact_mod_cast hn
  have hw : 0 < L / (f * n) := by positivity
  have fine : ∀ s : Int, Folded L f n s X → ∃ j : Int, ⌊X / (L / (f * n))⌋ = s + n * j := by
    rintro s ⟨j, h1, h2⟩
    refine ⟨j, ?_⟩
    rw [Int.floor_eq_iff, le_div_iff₀ hw, div_lt_iff₀ hw]
    push_cast
    exact ⟨h1, h2⟩
  obtain ⟨j, hj⟩ := fine q h
  obtain ⟨j', hj'⟩ := fine q' h'
  unfold OnImage at hq hq'
  have e : q % n = q' % n := by
    have := congrArg (· % (n : Int)) (hj.symm.trans hj')
    simpa using this
  rwa [Int.emod_eq_of_lt hq.1 hq.2, Int.emod_eq_of_lt hq'.1 hq'.2] at e

private theorem on_sub {k n i : Nat} (hi : i < k) {q : Int} (hq : OnImage n q) : OnImage (k * n) (k * q + (i : Nat)) := by
  unfold OnImage at *
  push_cast
  obtain ⟨h1, h2⟩ := hq
  have hi' : (i : Int) < k := by exact_mod_cast hi
  constructor
  · positivity
  · nlinarith

open Classical in
private theorem sum_three {Lx Ly Lz f : K} (hx : 0 < Lx) (hy : 0 < Ly) (hz : 0 < Lz) (hf : 0 < f) {k n : Nat} (hk : 0 < k) (hn : 0 < n)
    {q : Int × Int × Int} (q1 : OnImage n q.1) (q2 : OnImage n q.2.1) (q3 : OnImage n q.2.2) (X Y Z x : K) :
    (∑ i ∈ Finset.range k, ∑ j ∈ Finset.range k, ∑ l ∈ Finset.range k,
      if Folded3 (Lx, Ly, Lz) f (k * n) (k * q.1 + i, k * q.2.1 + j, k * q.2.2 + l) X Y Z then x else 0) =
      if Folded3 (Lx, Ly, Lz) f n q X Y Z then x else 0 := by
  have one : ∀ (L V : K) (c : Int), 0 < L → OnImage n c → ∀ x : K,
      (∑ i ∈ Finset.range k, if Folded L f (k * n) (k * c + (i : Nat)) V then x else 0) = if Folded L f n c V then x else 0 := by
    intro L V c hL hc x
    refine sum_one (folded_fine hL hf hk hn c V) (fun i hi j hj h h' => ?_) x
    have := folded_one hL hf (Nat.mul_pos hk hn) (on_sub hi hc) (on_sub hj hc) h h'
    omega
  have three : ∀ (n : Nat) (q : Int × Int × Int), (if Folded3 (Lx, Ly, Lz) f n q X Y Z then x else 0) =
      if Folded Lx f n q.1 X then (if Folded Ly f n q.2.1 Y then (if Folded Lz f n q.2.2 Z then x else 0) else 0) else 0 := by
    intro n q
    unfold Folded3
    by_cases h1 : Folded Lx f n q.1 X <;> by_cases h2 : Folded Ly f n q.2.1 Y <;> by_cases h3 : Folded Lz f n q.2.2 Z <;> simp [h1, h2, h3]
  simp only [three]
  rw [← one Lx X q.1 hx q1]
  refine Finset.sum_congr rfl fun i _ => ?_
  split
  · rw [← one Ly Y q.2.1 hy q2]
    refine Finset.sum_congr rfl fun j _ => ?_
    split
    · exact one Lz Z q.2.2 hz q3 x
    · simp
  · simp

/-- C122. Every cell of a deposition is the mean of the cells that a finer grid has in its place. -/
theorem c122_deposition {k : Nat} (hk : 0 < k) {a bx by_ bz : K} (hx : 0 < bx) (hy : 0 < by_) (hz : 0 < bz) {qComoving : Bool} {e : Int}
    (hq : qComoving = true ∨ a ^ e = 1) {n : Nat} (hn : 0 < n) (folding : Nat) (ps : List (Part K)) :
    ∃ d fine, renderToDeposit a (bx, by_, bz) true true qComoving e n folding ps = .ok d ∧
      renderToDeposit a (bx, by_, bz) true true qComoving e (k * n) folding ps = .ok fine ∧
      ∀ q : Int × Int × Int, OnImage n q.1 → OnImage n q.2.1 → OnImage n q.2.2 →
        d.inComoving a q = (∑ i ∈ Finset.range k, ∑ j ∈ Finset.range k, ∑ l ∈ Finset.range k,
          fine.inComoving a (k * q.1 + i, k * q.2.1 + j, k * q.2.2 + l)) / (k : K) ^ 3 := by
  classical
  have hk' : (0 : K) < k := by exact_mod_cast hk
  have hn' : (0 : K) < n := by exact_mod_cast hn
  obtain ⟨d, d1, -, -, d4⟩ := c42_render hx hy hz hq hn folding ps
  obtain ⟨m, m1, -, -, m4⟩ := c42_render hx hy hz hq (Nat.mul_pos hk hn) folding ps
  refine ⟨d, m, d1, m1, fun q q1 q2 q3 => ?_⟩
  have mem : ∀ (n : Nat) (q : Int × Int × Int), OnImage n q.1 → OnImage n q.2.1 → OnImage n q.2.2 → q ∈ cells n := by
    intro n q h1 h2 h3
    unfold OnImage at h1 h2 h3
    simp only [cells, Finset.mem_product, Finset.mem_Ico]
    exact ⟨h1, h2, h3⟩
  rw [d4 q (mem _ _ q1 q2 q3), eq_div_iff (by positivity)]
  have e1 : ∀ i ∈ Finset.range k, ∀ j ∈ Finset.range k, ∀ l ∈ Finset.range k, m.inComoving a (k * q.1 + i, k * q.2.1 + j, k * q.2.2 + l) = _ :=
    fun i hi j hj l hl => m4 _ (mem _ _ (on_sub (Finset.mem_range.1 hi) q1) (on_sub (Finset.mem_range.1 hj) q2) (on_sub (Finset.mem_range.1 hl) q3))
  rw [Finset.sum_congr rfl fun i hi => Finset.sum_congr rfl fun j hj => Finset.sum_congr rfl fun l hl => e1 i hi j hj l hl]
  clear d1 m1 d4 m4 e1
  induction ps with
  | nil => simp
  | cons p ps ih =>
    simp only [List.map_cons, List.sum_cons, add_mul, Finset.sum_add_distrib]
    rw [ih, sum_three hx hy hz (by positivity) hk hn q1 q2 q3]
    congr 1
    split
    · push_cast
      field_simp
    · rw [zero_mul]

/-! ## Kernels -/

/-- C122. Where no kernel is narrower than a pixel, an image with an odd number of times as many pixels has every pixel of the
coarse image among its own: the values are samples at the centres and not means. -/
theorem c122_sampled {W : K → K → K} (hW : Compact W) (hsc : Scales 2 W) {g : K} {res : Nat} (hr : 0 < res) (t : Nat)
    (Lx Ly Lz : K) (periodic : Bool) (hL : periodic = true → 0 < Lx ∧ 0 < Ly ∧ 0 < Lz) {x0 x1 y0 y1 : K} (hx : x0 < x1)
    (hy : y0 < y1) (depth : Option (K × K)) (hd : DepthFits periodic Lz depth) (ps : List (Part K × Bool))
    (hp : ∀ p ∈ ps, 0 ≤ g * p.1.h ∧ (periodic = true → g * p.1.h ≤ Lx ∧ g * p.1.h ≤ Ly))
    (hb : ∀ p ∈ ps, max (x1 - x0) (y1 - y0) / res ≤ g * p.1.h) :
    ∃ out fine, project (fast W g) (Lx, Ly, Lz) (some (limits x0 x1 y0 y1 depth)) periodic true res ps = .ok out ∧
      project (fast W g) (Lx, Ly, Lz) (some (limits x0 x1 y0 y1 depth)) periodic true ((2 * t + 1) * res) ps = .ok fine ∧
      ∀ q : Int × Int, OnImage out.nx q.1 → OnImage out.ny q.2 →
        OnImage fine.nx ((2 * t + 1) * q.1 + t) → OnImage fine.ny ((2 * t + 1) * q.2 + t) →
        out.img q = fine.img ((2 * t + 1) * q.1 + t, (2 * t + 1) * q.2 + t) := by
  have hr' : (0 : K) < res := by exact_mod_cast hr
  have hR : 0 < max (x1 - x0) (y1 - y0) := lt_max_of_lt_left (by linarith)
  obtain ⟨out, h1, -, -, h4⟩ := c53_projection_partial hW hsc hr Lx Ly Lz periodic hL hx hy depth hd ps hp
  obtain ⟨fine, f1, -, -, f4⟩ := c53_projection_partial hW hsc (Nat.mul_pos (Nat.succ_pos (2 * t)) hr) Lx Ly Lz periodic hL hx hy depth hd ps hp
  refine ⟨out, fine, h1, f1, fun q q1 q2 q3 q4 => ?_⟩
  rw [h4 q q1 q2, f4 (_, _) q3 q4]
  congr 2
  refine List.map_congr_left fun p hpm => ?_
  have hc : ∀ (a : K) (i : Int), cellCentre a (max (x1 - x0) (y1 - y0)) ((2 * t + 1) * res) ((2 * t + 1) * i + t) =
      cellCentre a (max (x1 - x0) (y1 - y0)) res i := by
    intro a i
    have : (2 * (t : K) + 1) ≠ 0 := by positivity
    unfold cellCentre
    push_cast
    field_simp
    ring
  have hb' := (div_le_iff₀ hr').1 (hb p hpm)
  have hw : surfaceAt W x0 y0 (max (x1 - x0) (y1 - y0)) res p.1.m (g * p.1.h) q =
      surfaceAt W x0 y0 (max (x1 - x0) (y1 - y0)) ((2 * t + 1) * res) p.1.m (g * p.1.h) ((2 * t + 1) * q.1 + t, (2 * t + 1) * q.2 + t) := by
    funext X Y
    unfold surfaceAt
    rw [if_neg (not_lt.2 hb'), if_neg, hc, hc]
    rw [not_lt]
    push_cast
    have : 0 ≤ g * p.1.h * (2 * (t : K) * res) := mul_nonneg (hp p hpm).1 (by positivity)
    nlinarith
  rw [hw]

/-- C122, what is not true: that the pixels of an image drawn with kernels are means. One particle in the middle of the image
gives each of the four pixels another value than the mean of the four pixels that a grid twice as fine has in its place. -/
theorem c122_means_fails : ∃ W : ℚ → ℚ → ℚ, Compact W ∧ Scales 2 W ∧ ∃ ps out fine,
    project (fast W 1) (1, 1, 1) (some [0, 1, 0, 1]) false true 2 ps = .ok out ∧
    project (fast W 1) (1, 1, 1) (some [0, 1, 0, 1]) false true (2 * 2) ps = .ok fine ∧
    out.img (0, 0) ≠ (∑ i ∈ Finset.range 2, ∑ j ∈ Finset.range 2, fine.img (((2 : Nat) : Int) * 0 + i, ((2 : Nat) : Int) * 0 + j)) / ((2 : Nat) : ℚ) ^ 2 := by
  have e : ∀ n : Nat, 0 < n → ∃ out, project (fast (bell 2) 1) (1, 1, 1) (some [0, 1, 0, 1]) false true n [(⟨1 / 2, 1 / 2, 0, 1, 1 / 2⟩, true)] = .ok out ∧
      ∀ q, out.img q = ((project (fast (bell 2) 1) (1, 1, 1) (some [0, 1, 0, 1]) false true n [(⟨1 / 2, 1 / 2, 0, 1, 1 / 2⟩, true)]).toOption.map (fun f => f.img q)).getD 0 := by
    intro n hn
    obtain ⟨out, h, -⟩ := c53_projection_partial (bell_compact 2) (bell_scales 2) hn 1 1 1 false (g := 1) (by simp) (zero_lt_one (α := ℚ)) (zero_lt_one (α := ℚ)) none
      (by intro r hr; cases hr) [(⟨1 / 2, 1 / 2, 0, 1, 1 / 2⟩, true)] (by simp)
    refine ⟨out, h, fun q => ?_⟩
    have h' : project (fast (bell 2) 1) (1, 1, 1) (some [0, 1, 0, 1]) false true n [(⟨1 / 2, 1 / 2, 0, 1, 1 / 2⟩, true)] = .ok out := h
    rw [h']; rfl
  obtain ⟨out, h1, h2⟩ := e 2 (by norm_num)
  obtain ⟨fine, h3, h4⟩ := e (2 * 2) (by norm_num)
  refine ⟨bell 2, bell_compact 2, bell_scales 2, _, out, fine, h1, h3, ?_⟩
  simp only [h2, h4]
  decide +kernel

/-! ## Examples -/

private def dust : List (Part ℚ × Bool) :=
  [(⟨1, 1, 5, 2, 1 / 10⟩, true), (⟨13 / 10, 17 / 10, 12, 3, 1 / 10⟩, true), (⟨9, 4, 2, 5, 0⟩, true), (⟨5, 5, 5, 7, 1⟩, false)]

/-- Pixels of two units: the first holds two particles, which are in two pixels when there are fifteen. -/
example : (project histogram (10, 10, 10) (some [0, 10, 0, 5]) true true 5 dust).toOption.map
    (fun f => (f.nx, f.ny, f.img (0, 0), f.img (4, 2))) = some (5, 3, 5 / 2, 5 / 2) := by
  decide +kernel

example : ∃ out, project histogram (10, 10, 10) (some [0, 10, 0, 5]) true true 5 dust = .ok out ∧
    ∃ fine, project histogram (10, 10, 10) (some [0, 10, 0, 5]) true true (3 * 5) dust = .ok fine ∧
      (∀ i : Int, OnImage out.nx i ↔ OnImage fine.nx ((3 : Nat) * i)) ∧ (∀ j : Int, OnImage out.ny j ↔ OnImage fine.ny ((3 : Nat) * j)) ∧
      ∀ q : Int × Int, out.img q = (∑ i ∈ Finset.range 3, ∑ j ∈ Finset.range 3, fine.img ((3 : Nat) * q.1 + i, (3 : Nat) * q.2 + j)) / ((3 : Nat) : ℚ) ^ 2 := by
  cases h : project histogram (10, 10, 10) (some [0, 10, 0, 5]) true true 5 dust with
  | error e =>
    have h' : (project histogram (10, 10, 10) (some [0, 10, 0, 5]) true true 5 dust).toOption.isSome = true := by decide +kernel
    rw [h] at h'; cases h'
  | ok out => exact ⟨out, rfl, c122_histogram (by norm_num) h⟩

example : ∃ d fine, renderToDeposit (1 / 2 : ℚ) (10, 10, 20) true true true 0 4 (1 : Nat) (dust.map Prod.fst) = .ok d ∧
    renderToDeposit (1 / 2 : ℚ) (10, 10, 20) true true true 0 (3 * 4) (1 : Nat) (dust.map Prod.fst) = .ok fine ∧
    ∀ q : Int × Int × Int, OnImage 4 q.1 → OnImage 4 q.2.1 → OnImage 4 q.2.2 →
      d.inComoving (1 / 2) q = (∑ i ∈ Finset.range 3, ∑ j ∈ Finset.range 3, ∑ l ∈ Finset.range 3,
        fine.inComoving (1 / 2) ((3 : Nat) * q.1 + i, (3 : Nat) * q.2.1 + j, (3 : Nat) * q.2.2 + l)) / ((3 : Nat) : ℚ) ^ 3 :=
  c122_deposition (by norm_num) (by norm_num) (by norm_num) (by norm_num) (Or.inl rfl) (by norm_num) 1 _

/-- Kernels of 9, 3 and 6 pixels. -/
example : ∃ out fine, project (fast (bell 2) (3 / 2)) (10, 10, 10) (some (limits 0 10 0 5 none)) true true 20 crowd = .ok out ∧
    project (fast (bell 2) (3 / 2)) (10, 10, 10) (some (limits 0 10 0 5 none)) true true ((2 * 2 + 1) * 20) crowd = .ok fine ∧
    ∀ q : Int × Int, OnImage out.nx q.1 → OnImage out.ny q.2 →
      OnImage fine.nx ((2 * (2 : Nat) + 1) * q.1 + (2 : Nat)) → OnImage fine.ny ((2 * (2 : Nat) + 1) * q.2 + (2 : Nat)) →
      out.img q = fine.img ((2 * (2 : Nat) + 1) * q.1 + (2 : Nat), (2 * (2 : Nat) + 1) * q.2 + (2 : Nat)) :=
  c122_sampled (bell_compact 2) (bell_scales 2) (by norm_num) 2 10 10 10 true (by norm_num) (by norm_num) (by norm_num) none
    (by intro r hr; cases hr) crowd (by simp [crowd]; norm_num) (by simp [crowd]; norm_num)

end Verif.Props
