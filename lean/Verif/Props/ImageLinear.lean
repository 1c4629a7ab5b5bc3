import Verif.Props.Image
import Mathlib.Data.List.Perm.Basic

/-!
# C38, C39: parallel deposition and linearity (`swiftsimio/visualisation`)
-/

set_option linter.unusedSectionVars false

namespace Verif.Props
open Verif Verif.Spec Verif.Scatter

variable {K : Type} [Field K] [LinearOrder K] [IsStrictOrderedRing K] [FloorRing K]

/-! ## C39 -/

/-- The image of two lists together is the sum of the images, and no list of particles is refused. -/
def Additive {α ι : Type} (scatter : List α → Except Err (ι → K)) : Prop :=
  ∀ ps qs : List α, ∃ a b, scatter ps = .ok a ∧ scatter qs = .ok b ∧ scatter (ps ++ qs) = .ok fun q => a q + b q

/-- The image is a linear function of the projected quantity: the image of `c * m + d * n` is `c` times the image of `m`
plus `d` times the image of `n`, for the same positions and smoothing lengths. -/
def LinearInMass {ι : Type} (scatter : List (Part K) → Except Err (ι → K)) : Prop :=
  ∀ (c d : K) (l : List (Part K × K)), ∃ a b,
    scatter (l.map Prod.fst) = .ok a ∧ scatter (l.map fun p => { p.1 with m := p.2 }) = .ok b ∧
      scatter (l.map fun p => { p.1 with m := c * p.1.m + d * p.2 }) = .ok fun q => c * a q + d * b q

/-- a backend that executes the statements `D p` for each particle -/
def Runs {α ι : Type} [DecidableEq ι] (scatter : List α → Except Err (ι → K)) (D : α → List (ι × K)) : Prop :=
  ∀ ps, scatter ps = .ok fun q => wsum q (ps.flatMap D)

/-- the weights are proportional to the mass -/
def Proportional {ι : Type} [DecidableEq ι] (D : Part K → List (ι × K)) : Prop :=
  ∀ p q, wsum q (D p) = p.m * wsum q (D { p with m := 1 })

theorem additive_of_runs {α ι : Type} [DecidableEq ι] {scatter : List α → Except Err (ι → K)}
    {D : α → List (ι × K)} (h : Runs scatter D) : Additive scatter := by
  intro ps qs
  exact ⟨_, _, h ps, h qs, by rw [h]; simp⟩

theorem linear_of_runs {ι : Type} [DecidableEq ι] {scatter : List (Part K) → Except Err (ι → K)}
    {D : Part K → List (ι × K)} (h : Runs scatter D) (hD : Proportional D) : LinearInMass scatter := by
  intro c d l
  refine ⟨_, _, h _, h _, ?_⟩
  rw [h]
  congr 1
  funext q
  induction l with
  | nil => simp
  | cons p l ih =>
    simp only [List.map_cons, List.flatMap_cons, wsum_append, ih]
    rw [hD p.1, hD { p.1 with m := p.2 }, hD { p.1 with m := c * p.1.m + d * p.2 }]
    ring

private theorem proportional_flatMap {ι : Type} [DecidableEq ι] {D : Part K → List (ι × K)} (hD : Proportional D)
    (cs : Part K → List (Part K)) (hm : ∀ p, ∀ c ∈ cs p, c.m = p.m)
    (h1 : ∀ p, cs { p with m := 1 } = (cs p).map fun c => { c with m := 1 }) :
    Proportional fun p => (cs p).flatMap D := by
  intro p q
  rw [wsum_flatMap, wsum_flatMap, h1, List.map_map, ← List.sum_map_mul_left]
  congr 1
  apply List.map_congr_left
  intro c hc
  rw [hD c, hm p c hc]
  rfl

theorem wsum_over2_mul (xs ys : List Int) (hx : xs.Nodup) (hy : ys.Nodup) (m : K) (w : Int → Int → K)
    (q : Int × Int) : wsum q (over2 xs ys fun i j => m * w i j) = m * wsum q (over2 xs ys fun i j => 1 * w i j) := by
  rw [wsum_over2 _ _ hx hy, wsum_over2 _ _ hx hy]
  split <;> simp

private theorem wsum_over3_mul (xs ys zs : List Int) (hx : xs.Nodup) (hy : ys.Nodup) (hz : zs.Nodup) (m : K)
    (w : Int → Int → Int → K) (q : Int × Int × Int) :
    wsum q (over3 xs ys zs fun i j k => m * w i j k) = m * wsum q (over3 xs ys zs fun i j k => 1 * w i j k) := by
  rw [wsum_over3 _ _ _ hx hy hz, wsum_over3 _ _ _ hx hy hz]
  split <;> simp

theorem prop_own (res : Nat) : Proportional (K := K) (ownCell2 res) := by
  intro p q
  unfold ownCell2
  dsimp only
  split
  · by_cases h : (cell res p.x, cell res p.y) = q <;> simp [h]
  · simp

private theorem prop_fast (W : K → K → K) (g : K) (res : Nat) : Proportional (fastDeps W g res) := by
  intro p q
  unfold fastDeps
  dsimp only
  split
  · simp
  · split
    · exact prop_own res p q
    · exact wsum_over2_mul _ _ (nodup_irange _ _) (nodup_irange _ _) _ _ _

private theorem prop_renormalised (W : K → K → K) (g : K) (res : Nat) : Proportional (renormalisedDeps W g res) := by
  intro p q
  unfold renormalisedDeps
  dsimp only
  split
  · simp
  · split
    · exact prop_own res p q
    · exact wsum_over2_mul _ _ (nodup_irange _ _) (nodup_irange _ _) _ _ _

private theorem prop_slice (W : K → K → K) (g zs : K) (res : Nat) : Proportional (sliceDeps W g zs res) := by
  intro p q
  unfold sliceDeps
  dsimp only
  split
  · simp
  · exact wsum_over2_mul _ _ (nodup_irange _ _) (nodup_irange _ _) _ _ _

private theorem prop_limited (W : K → K → K) (g : K) (res resz : Nat) : Proportional (limitedDeps W g res resz) := by
  intro p q
  unfold limitedDeps
  dsimp only
  split
  · simp
  · split
    · split
      · by_cases h : (cell res p.x, cell res p.y, cell resz p.z) = q <;> simp [h]
      · simp
    · exact wsum_over3_mul _ _ _ (nodup_irange _ _) (nodup_irange _ _) (nodup_irange _ _) _ _ _

theorem prop_copies2 (bx by_ : K) {D : Part K → List ((Int × Int) × K)} (hD : Proportional D) :
    Proportional fun p => (copies2 bx by_ p).flatMap D := by
  apply proportional_flatMap hD
  · intro p c hc
    simp only [copies2, List.mem_flatMap, List.mem_map] at hc
    obtain ⟨_, _, _, _, rfl⟩ := hc
    rfl
  · intro p
    simp [copies2, List.map_flatMap, Function.comp_def]

private theorem prop_copies3 {ι : Type} [DecidableEq ι] (sh : K → List Int) (bx by_ bz : K) {D : Part K → List (ι × K)}
    (hD : Proportional D) : Proportional fun p => (copies3 sh bx by_ bz p).flatMap D := by
  apply proportional_flatMap hD
  · intro p c hc
    simp only [copies3, List.mem_flatMap, List.mem_map] at hc
    obtain ⟨_, _, _, _, _, _, rfl⟩ := hc
    rfl
  · intro p
    simp [copies3, List.map_flatMap, Function.comp_def]

theorem runs_over {res : Nat} {D : Part K → List ((Int × Int) × K)}
    (hd : ∀ p d, d ∈ D p → inside2 res res d.1 = true) (bx by_ : K) :
    Runs (fun ps => paint (inside2 res res) (over D bx by_ ps)) fun p => (copies2 bx by_ p).flatMap D := by
  intro ps
  dsimp only
  rw [paint_ok _ _ (over_inside hd bx by_ ps)]
  rfl

private theorem renormalised_inside (W : K → K → K) (g : K) (res : Nat) (p : Part K) (d : (Int × Int) × K)
    (h : d ∈ renormalisedDeps W g res p) : inside2 res res d.1 = true := by
  unfold renormalisedDeps at h
  dsimp only at h
  split at h
  · simp at h
  · split at h
    · exact ownCell2_inside res p d h
    · have := mem_over2 h
      rw [mem_span, mem_span] at this
      rw [inside2_iff]; exact ⟨this.1.1, this.2.1⟩

theorem runs_slice (W : K → K → K) (g zs : K) (xres yres : Nat) (bx by_ bz : K) :
    ∀ ps, slice W g zs xres yres bx by_ bz ps = .ok fun q => if inside2 xres yres q then
      wsum q (ps.flatMap fun p => (copies3 shifts bx by_ bz p).flatMap (sliceDeps W g zs (max xres yres))) else 0 := by
  intro ps
  unfold slice
  rw [paint_ok]
  · rfl
  · intro d hd
    simp only [List.mem_flatMap] at hd
    obtain ⟨p, _, c, _, hd⟩ := hd
    exact sliceDeps_inside W g zs _ c d hd

theorem runs_limited (W : K → K → K) (g : K) (res ratio : Nat) (bx by_ bz : K) :
    Runs (limited W g res ratio bx by_ bz) fun p =>
      (copies3 shiftsLimited bx by_ bz p).flatMap (limitedDeps W g res (res / ratio)) := by
  intro ps
  unfold limited
  rw [paint_ok]
  intro d hd
  simp only [List.mem_flatMap] at hd
  obtain ⟨p, _, c, _, hd⟩ := hd
  exact limitedDeps_inside W g _ _ c d hd

theorem runs_volume (W : K → K → K) (g : K) (res : Nat) (bx by_ bz : K) :
    Runs (volume W g res bx by_ bz) fun p => (copies3 shifts bx by_ bz p).flatMap (limitedDeps W g res res) := by
  have e : volumeDeps W g res = limitedDeps W g res res := by funext p; exact volumeDeps_eq W g res p
  intro ps
  unfold volume
  rw [e, paint_ok]
  intro d hd
  simp only [List.mem_flatMap] at hd
  obtain ⟨p, _, c, _, hd⟩ := hd
  exact limitedDeps_inside W g _ _ c d hd

private theorem referenceRow_inside (W : K → K → K) (g : K) (res : Nat) (l : List (Part K)) :
    ∀ d ∈ referenceRow W g res l, inside2 res res d.1 = true := by
  induction l with
  | nil => simp [referenceRow]
  | cons p l ih =>
    intro d h
    unfold referenceRow at h
    dsimp only at h
    split at h
    · exact ih d h
    · split at h
      · simp at h
      · rw [List.mem_append] at h
        rcases h with h | h
        · have := mem_over2 h
          rw [mem_span, mem_span] at this
          rw [inside2_iff]; exact ⟨this.1.1, this.2.1⟩
        · exact ih d h

private theorem prop_referenceRow (W : K → K → K) (g : K) (res : Nat) (m : K) (l : List (Part K))
    (hm : ∀ p ∈ l, p.m = m) (q : Int × Int) :
    wsum q (referenceRow W g res l) = m * wsum q (referenceRow W g res (l.map fun p => { p with m := 1 })) := by
  induction l with
  | nil => simp [referenceRow]
  | cons p l ih =>
    have ih := ih fun p hp => hm p (by simp [hp])
    rw [List.map_cons]
    unfold referenceRow
    dsimp only
    split
    · exact ih
    · split
      · simp
      · rw [wsum_append, wsum_append, ih, mul_add, ← hm p (by simp)]
        congr 1
        exact wsum_over2_mul _ _ (nodup_irange _ _) (nodup_irange _ _) _ _ _

private theorem runs_reference (W : K → K → K) (g : K) (res : Nat) (bx by_ : K) :
    Runs (reference W g res bx by_) fun p => (shifts bx).flatMap fun i : Int =>
      referenceRow W g res ((shifts by_).map fun j : Int =>
        { p with x := p.x + (i : K) * bx, y := p.y + (j : K) * by_ }) := by
  intro ps
  unfold reference
  rw [paint_ok]
  intro d hd
  simp only [List.mem_flatMap] at hd
  obtain ⟨p, _, i, _, hd⟩ := hd
  exact referenceRow_inside W g res _ d hd

private theorem prop_reference (W : K → K → K) (g : K) (res : Nat) (bx by_ : K) :
    Proportional fun p => (shifts bx).flatMap fun i : Int =>
      referenceRow W g res ((shifts by_).map fun j : Int =>
        { p with x := p.x + (i : K) * bx, y := p.y + (j : K) * by_ }) := by
  intro p q
  rw [wsum_flatMap, wsum_flatMap, ← List.sum_map_mul_left]
  congr 1
  apply List.map_congr_left
  intro i _
  rw [prop_referenceRow W g res p.m]
  · simp [Function.comp_def]
  · intro c hc
    rw [List.mem_map] at hc
    obtain ⟨_, _, rfl⟩ := hc
    rfl

/-- C39 for the projection backends: for any particles whatsoever the image is additive in the particle list and linear
in the projected quantity. -/
theorem c39_projection (W : K → K → K) (g : K) (res : Nat) (bx by_ : K) :
    (Additive (histogram res bx by_) ∧ LinearInMass (histogram res bx by_)) ∧
    (Additive (fast W g res bx by_) ∧ LinearInMass (fast W g res bx by_)) ∧
    (Additive (renormalised W g res bx by_) ∧ LinearInMass (renormalised W g res bx by_)) ∧
    (Additive (reference W g res bx by_) ∧ LinearInMass (reference W g res bx by_)) := by
  have h1 := runs_over (D := histogramDeps res) (fun p d => ownCell2_inside (K := K) res p d) bx by_
  have h2 := runs_over (fun p d => fastDeps_inside W g res p d) bx by_
  have h3 := runs_over (fun p d => renormalised_inside W g res p d) bx by_
  have h4 := runs_reference W g res bx by_
  exact ⟨⟨additive_of_runs h1, linear_of_runs h1 (prop_copies2 bx by_ (prop_own res))⟩,
    ⟨additive_of_runs h2, linear_of_runs h2 (prop_copies2 bx by_ (prop_fast W g res))⟩,
    ⟨additive_of_runs h3, linear_of_runs h3 (prop_copies2 bx by_ (prop_renormalised W g res))⟩,
    ⟨additive_of_runs h4, linear_of_runs h4 (prop_reference W g res bx by_)⟩⟩

/-- C39 for the slice. -/
theorem c39_slice (W : K → K → K) (g zs : K) (xres yres : Nat) (bx by_ bz : K) :
    Additive (slice W g zs xres yres bx by_ bz) ∧ LinearInMass (slice W g zs xres yres bx by_ bz) := by
  have h := runs_slice W g zs xres yres bx by_ bz
  constructor
  · intro ps qs
    refine ⟨_, _, h ps, h qs, ?_⟩
    rw [h]
    congr 1
    funext q
    split <;> simp
  · intro c d l
    refine ⟨_, _, h _, h _, ?_⟩
    rw [h]
    congr 1
    funext q
    have hl := linear_of_runs (scatter := fun ps => .ok fun q => wsum q (ps.flatMap fun p =>
      (copies3 shifts bx by_ bz p).flatMap (sliceDeps W g zs (max xres yres)))) (fun _ => rfl)
      (prop_copies3 shifts bx by_ bz (prop_slice W g zs _)) c d l
    obtain ⟨a, b, ha, hb, hab⟩ := hl
    cases ha; cases hb
    have := congrFun (Except.ok.inj hab) q
    split
    · exact this
    · simp

/-- C39 for the voxel renders. -/
theorem c39_volume (W : K → K → K) (g : K) (res ratio : Nat) (bx by_ bz : K) :
    (Additive (volume W g res bx by_ bz) ∧ LinearInMass (volume W g res bx by_ bz)) ∧
    (Additive (limited W g res ratio bx by_ bz) ∧ LinearInMass (limited W g res ratio bx by_ bz)) := by
  have h1 := runs_volume W g res bx by_ bz
  have h2 := runs_limited W g res ratio bx by_ bz
  exact ⟨⟨additive_of_runs h1, linear_of_runs h1 (prop_copies3 _ bx by_ bz (prop_limited W g res res))⟩,
    ⟨additive_of_runs h2, linear_of_runs h2 (prop_copies3 _ bx by_ bz (prop_limited W g res _))⟩⟩

/-! ## C38 -/

private theorem blocks_take {α : Type} (T : Nat) (ps : List α) (n : Nat) (hn : n < T) :
    (List.range n).flatMap (fun t => block T t ps) = ps.take (n * (ps.length / T)) := by
  induction n with
  | zero => simp
  | succ n ih =>
    rw [List.range_succ, List.flatMap_append, ih (by omega), List.flatMap_singleton]
    unfold block
    dsimp only
    rw [if_neg (by omega)]
    have h1 : n * (ps.length / T) ≤ (n + 1) * (ps.length / T) := Nat.mul_le_mul_right _ (by omega)
    conv_rhs => rw [← List.take_append_drop (n * (ps.length / T)) (ps.take ((n + 1) * (ps.length / T)))]
    rw [List.take_take, Nat.min_eq_left h1]

/-- C38. The threads get consecutive blocks that together are the particle list, for every number of particles and
threads. -/
theorem c38_blocks {α : Type} (T : Nat) (hT : 0 < T) (ps : List α) :
    (List.range T).flatMap (fun t => block T t ps) = ps := by
  obtain ⟨n, rfl⟩ : ∃ n, T = n + 1 := ⟨T - 1, by omega⟩
  rw [List.range_succ, List.flatMap_append, blocks_take (n + 1) ps n (by omega), List.flatMap_singleton]
  unfold block
  simp [List.take_append_drop]

private theorem parallel_aux {α ι : Type} {scatter : List α → Except Err (ι → K)} {f : ι → List α → K}
    (hf : ∀ ps, scatter ps = .ok fun q => f q ps) (T : Nat) (ps : List α) (order : List Nat) (out : ι → K) :
    (order.foldlM (fun out t => do
      let img ← scatter (block T t ps)
      return fun q => out q + img q) out : Except Err (ι → K)) =
      .ok fun q => out q + (order.map fun t => f q (block T t ps)).sum := by
  induction order generalizing out with
  | nil => simp [pure, Except.pure]
  | cons t order ih =>
    rw [List.foldlM_cons]
    simp only [hf]
    simp only [hf] at ih
    change List.foldlM _ (fun q => out q + f q (block T t ps)) order = _
    erw [ih]
    congr 1
    funext q
    simp [add_assoc]

private theorem sum_flatMap_of_add {α β : Type} (f : List α → K) (h0 : f [] = 0) (hadd : ∀ a b, f (a ++ b) = f a + f b)
    (l : List β) (g : β → List α) : f (l.flatMap g) = (l.map fun b => f (g b)).sum := by
  induction l with
  | nil => simpa using h0
  | cons b l ih => simp [hadd, ih]

/-- C38. For every additive backend the parallel image is the serial image, for every number of threads and every order
in which the images of the threads are added. -/
theorem c38_parallel {α ι : Type} {scatter : List α → Except Err (ι → K)} (h : Additive scatter) (T : Nat) (hT : 0 < T)
    (order : List Nat) (ho : order.Perm (List.range T)) (ps : List α) :
    parallel scatter T order ps = scatter ps := by
  have hex : ∀ l, ∃ a, scatter l = .ok a := fun l => by obtain ⟨a, _, ha, _⟩ := h l []; exact ⟨a, ha⟩
  choose F hF using hex
  have hadd : ∀ a b q, F (a ++ b) q = F a q + F b q := by
    intro a b q
    obtain ⟨x, y, hx, hy, hxy⟩ := h a b
    rw [hF] at hx hy hxy
    cases hx; cases hy
    exact congrFun (Except.ok.inj hxy) q
  have h0 : ∀ q, F [] q = 0 := fun q => by
    have := hadd [] [] q
    simpa using this
  unfold parallel
  rw [parallel_aux (f := fun q l => F l q) hF T ps order, hF]
  congr 1
  funext q
  rw [zero_add, (ho.map _).sum_eq, ← sum_flatMap_of_add (fun l => F l q) (h0 q) (fun a b => hadd a b q),
    c38_blocks T hT]

/-- C38 for every backend with a parallel version: histogram, fast, renormalised, reference, slice and voxel render. -/
theorem c38_backends (W : K → K → K) (g zs : K) (res xres yres : Nat) (bx by_ bz : K) (T : Nat) (hT : 0 < T)
    (order : List Nat) (ho : order.Perm (List.range T)) (ps : List (Part K)) :
    parallel (histogram res bx by_) T order ps = histogram res bx by_ ps ∧
    parallel (fast W g res bx by_) T order ps = fast W g res bx by_ ps ∧
    parallel (renormalised W g res bx by_) T order ps = renormalised W g res bx by_ ps ∧
    parallel (reference W g res bx by_) T order ps = reference W g res bx by_ ps ∧
    parallel (slice W g zs xres yres bx by_ bz) T order ps = slice W g zs xres yres bx by_ bz ps ∧
    volumeParallel W g res 1 bx by_ bz T order ps = volume W g res bx by_ bz ps := by
  have h := c39_projection W g res bx by_
  exact ⟨c38_parallel h.1.1 T hT order ho ps, c38_parallel h.2.1.1 T hT order ho ps,
    c38_parallel h.2.2.1.1 T hT order ho ps, c38_parallel h.2.2.2.1 T hT order ho ps,
    c38_parallel (c39_slice W g zs xres yres bx by_ bz).1 T hT order ho ps,
    c38_parallel (c39_volume W g res 1 bx by_ bz).1.1 T hT order ho ps⟩

/-- C38, failing part. With a reduced number of layers the parallel render is refused for every particle list, kernel
and number of threads, although the serial one is drawn: the output array has `res` layers and not `res // ratio`. -/
theorem c38_layers_fails (W : K → K → K) (g : K) (res ratio : Nat) (bx by_ bz : K) (h1 : ratio ≠ 1)
    (h2 : res / ratio ≠ res) (h3 : res / ratio ≠ 1) (T : Nat) (order : List Nat) (ho : order ≠ [])
    (ps : List (Part K)) :
    volumeParallel W g res ratio bx by_ bz T order ps = .error .value ∧
      ∃ img, limited W g res ratio bx by_ bz ps = .ok img := by
  refine ⟨?_, _, runs_limited W g res ratio bx by_ bz ps⟩
  unfold volumeParallel
  rw [if_neg h1]
  obtain ⟨t, rest, rfl⟩ := List.exists_cons_of_ne_nil ho
  rw [List.foldlM_cons, runs_limited W g res ratio bx by_ bz (block T t ps)]
  simp only [addLayers, if_neg h2, if_neg h3]
  rfl

/-- C38, failing part. With as many layers left as one, the parallel render repeats the layer `res` times. -/
theorem c38_one_layer_fails (W : K → K → K) (g : K) (res ratio : Nat) (bx by_ bz : K) (h1 : ratio ≠ 1)
    (h2 : res / ratio = 1) (T : Nat) (hT : 0 < T) (order : List Nat) (ho : order.Perm (List.range T)) (ps : List (Part K)) :
    ∃ img, limited W g res ratio bx by_ bz ps = .ok img ∧
      volumeParallel W g res ratio bx by_ bz T order ps = .ok fun q => img (q.1, q.2.1, 0) := by
  have had := (c39_volume W g res ratio bx by_ bz).2.1
  have hr : ¬ res = 1 := by
    rintro rfl
    rcases Nat.eq_zero_or_pos ratio with rfl | h
    · simp at h2
    · exact h1 (by
        have := (Nat.le_div_iff_mul_le h).1 h2.ge
        omega)
  obtain ⟨img, _, hi, _⟩ := had ps []
  refine ⟨img, hi, ?_⟩
  have had' : Additive fun l => (limited W g res ratio bx by_ bz l).map
      fun (im : Int × Int × Int → K) (q : Int × Int × Int) => im (q.1, q.2.1, 0) := by
    intro a b
    obtain ⟨x, y, hx, hy, hxy⟩ := had a b
    exact ⟨_, _, by dsimp only; rw [hx]; rfl, by dsimp only; rw [hy]; rfl, by dsimp only; rw [hxy]; rfl⟩
  have := c38_parallel had' T hT order ho ps
  rw [hi] at this
  unfold volumeParallel
  rw [if_neg h1]
  simp only [addLayers, h2, if_neg (Ne.symm hr), if_true]
  rw [show (Except.ok fun q : Int × Int × Int => img (q.1, q.2.1, 0)) = _ from this.symm]
  unfold parallel
  congr 1
  funext out t
  dsimp only
  cases limited W g res ratio bx by_ bz (block T t ps) <;> rfl

-- the threads of a run with 7 particles
example : (List.range 3).map (fun t => block 3 t [0, 1, 2, 3, 4, 5, 6]) = [[0, 1], [2, 3], [4, 5, 6]] := by decide

example : [2, 0, 1].Perm (List.range 3) := by decide

-- more threads than particles: only the last one works
example : (List.range 4).map (fun t => block 4 t [7, 8]) = [[], [], [], [7, 8]] := by decide

example : (8 / 2 ≠ 8) ∧ (8 / 2 ≠ 1) ∧ 2 ≠ 1 ∧ 8 / 5 = 1 := by decide

end Verif.Props
