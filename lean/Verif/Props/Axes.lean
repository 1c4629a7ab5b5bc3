import Verif.Spec.Axes
import Verif.Props.ImageLaws

/-!
# C124: laws that relate slices and renders

The front ends of the slice and the render with any backend: the image of two sets of particles, the order of the particles, particles
that the mask leaves out, and axes exchanged. Exchanged axes of a render need a cube: nearly a cube is not enough.
-/

set_option linter.unusedSectionVars false

namespace Verif.Props
open Verif Verif.Spec Verif.Scatter Verif.Frame

variable {K : Type} [Field K] [LinearOrder K] [IsStrictOrderedRing K] [FloorRing K]

/-! ## Sets of particles -/

private theorem kept_append (l m : List (Scatter.Part K × Bool)) (f : Scatter.Part K → Scatter.Part K) (g : Scatter.Part K → Scatter.Part K) :
    ((((l ++ m).filter fun p => p.2).map Prod.fst).map f).map g =
      (((l.filter fun p => p.2).map Prod.fst).map f).map g ++ (((m.filter fun p => p.2).map Prod.fst).map f).map g := by
  simp only [List.filter_append, List.map_append]

/-- C124. The slice of two sets of particles is the sum of their slices, pixel by pixel, with every additive backend. -/
theorem c124_slice_sum {scatter : K → Nat → Nat → K → K → K → List (Scatter.Part K) → Except Err (Int × Int → K)}
    (ha : ∀ zs nx ny bx by_ bz, Additive (scatter zs nx ny bx by_ bz)) (box : K × K × K) (reg : Option (List K)) (zs : K)
    (periodic framed : Bool) (res : Nat) (ps qs : List (Scatter.Part K × Bool)) (a b : Grid K)
    (hp : sliceGrid scatter box reg zs periodic framed res ps = .ok a)
    (hq : sliceGrid scatter box reg zs periodic framed res qs = .ok b) :
    sliceGrid scatter box reg zs periodic framed res (ps ++ qs) = .ok { a with img := fun q => a.img q + b.img q } := by
  unfold sliceGrid at *
  cases hi : regionInfo box reg false periodic with
  | error e => rw [hi] at hp; cases hp
  | ok i =>
    rw [hi] at hp hq
    change (scatter _ _ _ _ _ _ _).bind _ = _ at hp hq
    change (scatter _ _ _ _ _ _ _).bind _ = _
    rw [kept_append]
    obtain ⟨x, y, hx, hy, hxy⟩ := ha (if periodic then pmod (zs / i.maxRange) i.boxZ else zs / i.maxRange)
      (trimmed res i.xRange i.maxRange) (trimmed res i.yRange i.maxRange) i.boxX i.boxY i.boxZ
      ((((ps.filter fun p => p.2).map Prod.fst).map (wrapped box periodic)).map (normedSlice i periodic))
      ((((qs.filter fun p => p.2).map Prod.fst).map (wrapped box periodic)).map (normedSlice i periodic))
    rw [hx] at hp
    rw [hy] at hq
    rw [hxy]
    cases hp
    cases hq
    change Except.ok _ = Except.ok _
    simp only [add_div]

/-- C124. The same for renders, voxel by voxel. -/
theorem c124_render_sum {scatter : Nat → K → K → K → List (Scatter.Part K) → Except Err (Int × Int × Int → K)}
    (ha : ∀ res bx by_ bz, Additive (scatter res bx by_ bz)) (box : K × K × K) (reg : Option (List K)) (periodic framed : Bool) (res : Nat)
    (ps qs : List (Scatter.Part K × Bool)) (a b : Int × Int × Int → K) (hp : renderGrid scatter box reg periodic framed res ps = .ok a)
    (hq : renderGrid scatter box reg periodic framed res qs = .ok b) :
    renderGrid scatter box reg periodic framed res (ps ++ qs) = .ok fun q => a q + b q := by
  unfold renderGrid at *
  cases hi : regionInfo box reg true periodic with
  | error e => rw [hi] at hp; cases hp
  | ok i =>
    rw [hi] at hp hq
    change (scatter _ _ _ _ _).bind _ = _ at hp hq
    change (scatter _ _ _ _ _).bind _ = _
    rw [kept_append]
    obtain ⟨x, y, hx, hy, hxy⟩ := ha res i.boxX i.boxY i.boxZ
      ((((ps.filter fun p => p.2).map Prod.fst).map (wrapped box periodic)).map (normedVolume i periodic))
      ((((qs.filter fun p => p.2).map Prod.fst).map (wrapped box periodic)).map (normedVolume i periodic))
    rw [hx] at hp
    rw [hy] at hq
    rw [hxy]
    cases hp
    cases hq
    change Except.ok _ = Except.ok _
    simp only [add_div]

/-- C124. Neither slices nor renders depend on the order of the particles. -/
theorem c124_order {scatter : K → Nat → Nat → K → K → K → List (Scatter.Part K) → Except Err (Int × Int → K)}
    {scatter' : Nat → K → K → K → List (Scatter.Part K) → Except Err (Int × Int × Int → K)}
    (ha : ∀ zs nx ny bx by_ bz, Additive (scatter zs nx ny bx by_ bz)) (ha' : ∀ res bx by_ bz, Additive (scatter' res bx by_ bz))
    (box : K × K × K) (reg : Option (List K)) (zs : K) (periodic framed : Bool) (res : Nat) {ps qs : List (Scatter.Part K × Bool)}
    (h : ps.Perm qs) :
    sliceGrid scatter box reg zs periodic framed res ps = sliceGrid scatter box reg zs periodic framed res qs ∧
    renderGrid scatter' box reg periodic framed res ps = renderGrid scatter' box reg periodic framed res qs := by
  have h' : ∀ f g : Scatter.Part K → Scatter.Part K, ((((ps.filter fun p => p.2).map Prod.fst).map f).map g).Perm
      ((((qs.filter fun p => p.2).map Prod.fst).map f).map g) := fun f g => (((h.filter _).map _).map _).map _
  constructor
  · unfold sliceGrid
    cases hi : regionInfo box reg false periodic with
    | error e => rfl
    | ok i =>
      change (scatter _ _ _ _ _ _ _).bind _ = (scatter _ _ _ _ _ _ _).bind _
      rw [additive_perm (ha _ _ _ _ _ _) (h' _ _)]
  · unfold renderGrid
    cases hi : regionInfo box reg true periodic with
    | error e => rfl
    | ok i =>
      change (scatter' _ _ _ _ _).bind _ = (scatter' _ _ _ _ _).bind _
      rw [additive_perm (ha' _ _ _ _) (h' _ _)]

/-- C124. Particles that the mask leaves out play no part in slices and renders, with any backend. -/
theorem c124_masked (scatter : K → Nat → Nat → K → K → K → List (Scatter.Part K) → Except Err (Int × Int → K))
    (scatter' : Nat → K → K → K → List (Scatter.Part K) → Except Err (Int × Int × Int → K))
    (box : K × K × K) (reg : Option (List K)) (zs : K) (periodic framed : Bool) (res : Nat) (ps : List (Scatter.Part K × Bool)) :
    sliceGrid scatter box reg zs periodic framed res ps = sliceGrid scatter box reg zs periodic framed res (ps.filter fun p => p.2) ∧
    renderGrid scatter' box reg periodic framed res ps = renderGrid scatter' box reg periodic framed res (ps.filter fun p => p.2) := by
  unfold sliceGrid renderGrid
  rw [List.filter_filter]
  simp only [Bool.and_self, and_self]

/-! ## Axes of the backends -/

private theorem slice_dep (W : K → K → K) (g zs : K) (res : Nat) (p : Scatter.Part K) (q : Int × Int) :
    wsum q (sliceDeps W g zs res (turned p)) = wsum (q.2, q.1) (sliceDeps W g zs res p) := by
  unfold sliceDeps
  dsimp only
  rw [show (turned p).x = p.y from rfl, show (turned p).y = p.x from rfl, show (turned p).h = p.h from rfl, show (turned p).m = p.m from rfl,
    show (turned p).z = p.z from rfl, Bool.or_right_comm]
  split
  · rfl
  · exact over2_turns _ _ (nodup_irange _ _) (nodup_irange _ _) _ _ (fun i j => by rw [add_comm (dist2 res p.y j)]) q

private theorem limited_turned (W : K → K → K) (g : K) (res resz : Nat) (p : Scatter.Part K) (q : Int × Int × Int) :
    wsum q (limitedDeps W g res resz (turned p)) = wsum (q.2.1, q.1, q.2.2) (limitedDeps W g res resz p) := by
  unfold limitedDeps
  dsimp only
  rw [show (turned p).x = p.y from rfl, show (turned p).y = p.x from rfl, show (turned p).h = p.h from rfl, show (turned p).m = p.m from rfl,
    show (turned p).z = p.z from rfl, Bool.or_comm (misses res (cell res p.y) _), Bool.and_comm (onGrid res (cell res p.y))]
  split
  · rfl
  · split
    · split
      · obtain ⟨a, b, c⟩ := q
        simp only [wsum_cons, wsum_nil, Prod.mk.injEq]
        simp only [and_left_comm]
      · rfl
    · have hn : ∀ r pc cs, (spanShort r pc cs).Nodup := fun _ _ _ => nodup_irange _ _
      rw [wsum_over3 _ _ _ (hn _ _ _) (hn _ _ _) (hn _ _ _), wsum_over3 _ _ _ (hn _ _ _) (hn _ _ _) (hn _ _ _)]
      dsimp only
      rw [add_comm (dist2 res p.y q.1)]
      simp only [and_left_comm]

private theorem limited_tipped (W : K → K → K) (g : K) (res : Nat) (p : Scatter.Part K) (q : Int × Int × Int) :
    wsum q (limitedDeps W g res res (tipped p)) = wsum (q.1, q.2.2, q.2.1) (limitedDeps W g res res p) := by
  unfold limitedDeps
  dsimp only
  rw [show (tipped p).x = p.x from rfl, show (tipped p).y = p.z from rfl, show (tipped p).h = p.h from rfl, show (tipped p).m = p.m from rfl,
    show (tipped p).z = p.y from rfl, Bool.or_right_comm (misses res (cell res p.x) _), Bool.and_right_comm (onGrid res (cell res p.x))]
  split
  · rfl
  · split
    · split
      · obtain ⟨a, b, c⟩ := q
        simp only [wsum_cons, wsum_nil, Prod.mk.injEq]
        simp only [and_comm (a := cell res p.y = c)]
      · rfl
    · have hn : ∀ r pc cs, (spanShort r pc cs).Nodup := fun _ _ _ => nodup_irange _ _
      rw [wsum_over3 _ _ _ (hn _ _ _) (hn _ _ _) (hn _ _ _), wsum_over3 _ _ _ (hn _ _ _) (hn _ _ _) (hn _ _ _)]
      dsimp only
      rw [add_right_comm]
      simp only [and_comm (a := q.2.2 ∈ _)]

private theorem copies_turned {ι : Type} [DecidableEq ι] {σ : ι → ι} (sh : K → List Int) {dep : Scatter.Part K → List (ι × K)}
    (hd : ∀ p q, wsum q (dep (turned p)) = wsum (σ q) (dep p)) (bx by_ bz : K) (ps : List (Scatter.Part K)) (q : ι) :
    wsum q ((ps.map turned).flatMap fun p => (copies3 sh by_ bx bz p).flatMap dep) =
      wsum (σ q) (ps.flatMap fun p => (copies3 sh bx by_ bz p).flatMap dep) := by
  rw [wsum_over_copies3, wsum_over_copies3, List.map_map]
  congr 1
  apply List.map_congr_left
  intro p _
  simp only [Function.comp_def]
  rw [sum_comm_map]
  simp only [← hd]
  rfl

private theorem copies_tipped {ι : Type} [DecidableEq ι] {σ : ι → ι} (sh : K → List Int) {dep : Scatter.Part K → List (ι × K)}
    (hd : ∀ p q, wsum q (dep (tipped p)) = wsum (σ q) (dep p)) (bx by_ bz : K) (ps : List (Scatter.Part K)) (q : ι) :
    wsum q ((ps.map tipped).flatMap fun p => (copies3 sh bx bz by_ p).flatMap dep) =
      wsum (σ q) (ps.flatMap fun p => (copies3 sh bx by_ bz p).flatMap dep) := by
  rw [wsum_over_copies3, wsum_over_copies3, List.map_map]
  congr 1
  apply List.map_congr_left
  intro p _
  simp only [Function.comp_def]
  congr 1
  apply List.map_congr_left
  intro i _
  rw [sum_comm_map]
  simp only [← hd]
  rfl

/-- C124. The SPH slice is transposed with the axes of the particles; the backend of renders exchanges any two axes with them, the one
with fewer voxels in depth only the first two. -/
theorem c124_turns (W : K → K → K) (g : K) (ratio : Nat) :
    SliceTurns (slice W g) ∧ RenderTurns (volume W g) ∧ RenderTips (volume W g) ∧
      RenderTurns (fun res => limited W g res ratio) := by
  refine ⟨fun zs nx ny bx by_ bz ps => ?_, fun res bx by_ bz ps => ?_, fun res bx by_ bz ps => ?_, fun res bx by_ bz ps => ?_⟩
  · rw [runs_slice, runs_slice]
    change Except.ok _ = Except.ok _
    congr 1
    funext q
    rw [copies_turned (σ := fun q => (q.2, q.1)) shifts (fun p q => slice_dep W g zs (max ny nx) p q), max_comm ny nx]
    have : inside2 ny nx q = inside2 nx ny (q.2, q.1) := by
      rw [Bool.eq_iff_iff, inside2_iff, inside2_iff, and_comm]
    rw [this]
  · rw [runs_volume, runs_volume]
    change Except.ok _ = Except.ok _
    congr 1
    funext q
    exact copies_turned (σ := fun q => (q.2.1, q.1, q.2.2)) shifts (fun p q => limited_turned W g res res p q) bx by_ bz ps q
  · rw [runs_volume, runs_volume]
    change Except.ok _ = Except.ok _
    congr 1
    funext q
    exact copies_tipped (σ := fun q => (q.1, q.2.2, q.2.1)) shifts (fun p q => limited_tipped W g res p q) bx by_ bz ps q
  · dsimp only
    rw [runs_limited, runs_limited]
    change Except.ok _ = Except.ok _
    congr 1
    funext q
    exact copies_turned (σ := fun q => (q.2.1, q.1, q.2.2)) shiftsLimited (fun p q => limited_turned W g res _ p q) bx by_ bz ps q

/-! ## Axes of the front ends -/

private theorem kept_turned {box box' : K × K × K} {periodic : Bool} {t f g : Scatter.Part K → Scatter.Part K}
    (h : ∀ p, g (wrapped box' periodic (t p)) = t (f (wrapped box periodic p))) (ps : List (Scatter.Part K × Bool)) :
    ((((ps.map fun p => (t p.1, p.2)).filter fun p => p.2).map Prod.fst).map (wrapped box' periodic)).map g =
      (((((ps.filter fun p => p.2).map Prod.fst).map (wrapped box periodic)).map f).map t) := by
  induction ps with
  | nil => rfl
  | cons p l ih =>
    simp only [List.map_cons, List.filter_cons]
    split
    · simp only [List.map_cons]; rw [ih, h]
    · exact ih

/-- C124. A slice with the two axes of the image exchanged is the transposed image. -/
theorem c124_slice_transposed {scatter : K → Nat → Nat → K → K → K → List (Scatter.Part K) → Except Err (Int × Int → K)}
    (ht : SliceTurns scatter) (box : K × K × K) (reg : Option (List K)) (zs : K) (periodic framed : Bool) (res : Nat)
    (ps : List (Scatter.Part K × Bool)) :
    sliceGrid scatter (turnBox box) (reg.map turnLimits) zs periodic framed res (ps.map fun p => (turned p.1, p.2)) =
      (sliceGrid scatter box reg zs periodic framed res ps).map fun out =>
        (⟨out.ny, out.nx, fun q => out.img (q.2, q.1)⟩ : Grid K) := by
  unfold sliceGrid
  rcases info_turned box reg periodic with ⟨e, h1, h2⟩ | ⟨i, h1, h2⟩
  · rw [h1, h2]; rfl
  · rw [h1, h2]
    set j : Info K := { i with xMin := i.yMin, yMin := i.xMin, xRange := i.yRange, yRange := i.xRange, boxX := i.boxY, boxY := i.boxX } with hj
    change (scatter _ _ _ j.boxX j.boxY j.boxZ _).bind _ = ((scatter _ _ _ i.boxX i.boxY i.boxZ _).bind _).map _
    rw [kept_turned (box := box) (f := normedSlice i periodic) (fun p => by
      unfold wrapped turned turnBox
      cases periodic <;> rfl)]
    rw [show j.boxX = i.boxY from rfl, show j.boxY = i.boxX from rfl, show j.boxZ = i.boxZ from rfl, show j.xRange = i.yRange from rfl,
      show j.yRange = i.xRange from rfl, show j.maxRange = i.maxRange from rfl, ht]
    generalize scatter _ _ _ _ _ _ _ = r
    cases r <;> rfl

/-- C124. A render without a region is the render of the whole box. -/
theorem c124_render_whole (scatter : Nat → K → K → K → List (Scatter.Part K) → Except Err (Int × Int × Int → K)) (box : K × K × K)
    (periodic framed : Bool) (res : Nat) (ps : List (Scatter.Part K × Bool)) :
    renderGrid scatter box none periodic framed res ps =
      renderGrid scatter box (some [0, box.1, 0, box.2.1, 0, box.2.2]) periodic framed res ps := by
  unfold renderGrid regionInfo infoOf
  dsimp only
  split
  · rfl
  · rfl

/-- C124. A render with the first two axes exchanged is the render with its axes exchanged, if the region is as long along them. -/
theorem c124_render_turned {scatter : Nat → K → K → K → List (Scatter.Part K) → Except Err (Int × Int × Int → K)}
    (ht : RenderTurns scatter) (box : K × K × K) (x0 x1 y0 y1 z0 z1 : K) (hxy : x1 - x0 = y1 - y0) (periodic framed : Bool) (res : Nat)
    (ps : List (Scatter.Part K × Bool)) :
    renderGrid scatter (turnBox box) (some [y0, y1, x0, x1, z0, z1]) periodic framed res (ps.map fun p => (turned p.1, p.2)) =
      (renderGrid scatter box (some [x0, x1, y0, y1, z0, z1]) periodic framed res ps).map fun img q => img (q.2.1, q.1, q.2.2) := by
  unfold renderGrid regionInfo infoOf
  dsimp only
  rw [hxy]
  split
  · rfl
  · dsimp only [bind, Except.bind]
    rw [kept_turned (box := box) (f := normedVolume ⟨x0, y0, z0, z1, y1 - y0, y1 - y0, z1 - z0, max (y1 - y0) (y1 - y0), true,
        if periodic then box.1 / max (y1 - y0) (y1 - y0) else 0, if periodic then box.2.1 / max (y1 - y0) (y1 - y0) else 0,
        if periodic then box.2.2 / max (y1 - y0) (y1 - y0) else 0⟩ periodic) (fun p => by
      unfold wrapped turned turnBox
      cases periodic <;> rfl)]
    change ((scatter res _ _ _ (List.map turned _)).bind _) = Except.map _ ((scatter _ _ _ _ _).bind _)
    dsimp only [turnBox]
    rw [ht]
    generalize scatter _ _ _ _ _ = r
    cases r <;> rfl

/-- C124. The same for the last two axes; without periodic boundaries any region that is accepted will do. -/
theorem c124_render_tipped {scatter : Nat → K → K → K → List (Scatter.Part K) → Except Err (Int × Int × Int → K)}
    (ht : RenderTips scatter) (box : K × K × K) (x0 x1 y0 y1 z0 z1 : K) (periodic framed : Bool) (hyz : periodic = true → y1 - y0 = z1 - z0)
    (res : Nat) (ps : List (Scatter.Part K × Bool)) :
    renderGrid scatter (tipBox box) (some [x0, x1, z0, z1, y0, y1]) periodic framed res (ps.map fun p => (tipped p.1, p.2)) =
      (renderGrid scatter box (some [x0, x1, y0, y1, z0, z1]) periodic framed res ps).map fun img q => img (q.1, q.2.2, q.2.1) := by
  unfold renderGrid regionInfo infoOf
  dsimp only
  rw [Bool.and_comm (decide (isclose (x1 - x0) (z1 - z0)))]
  split
  · rfl
  · dsimp only [bind, Except.bind]
    have hR : periodic = true → max (x1 - x0) (z1 - z0) = max (x1 - x0) (y1 - y0) := fun h => by rw [hyz h]
    rw [kept_turned (box := box) (f := normedVolume ⟨x0, y0, z0, z1, x1 - x0, y1 - y0, z1 - z0, max (x1 - x0) (y1 - y0), true,
        if periodic then box.1 / max (x1 - x0) (y1 - y0) else 0, if periodic then box.2.1 / max (x1 - x0) (y1 - y0) else 0,
        if periodic then box.2.2 / max (x1 - x0) (y1 - y0) else 0⟩ periodic) (fun p => by
      unfold wrapped tipped tipBox normedVolume
      cases periodic
      · rfl
      · simp only [if_true, hR rfl])]
    change ((scatter res _ _ _ (List.map tipped _)).bind _) = Except.map _ ((scatter _ _ _ _ _).bind _)
    have hb : ∀ b : K, (if periodic then b / max (x1 - x0) (z1 - z0) else 0) = if periodic then b / max (x1 - x0) (y1 - y0) else 0 := by
      intro b
      cases periodic
      · rfl
      · simp only [if_true, hR rfl]
    dsimp only [tipBox]
    rw [hb, hb, hb, ht, mul_right_comm]
    generalize scatter _ _ _ _ _ = r
    cases r <;> rfl

/-- C124 fails for regions that are only nearly cubes. The test compares the length along the first axis with the others, so that a
region is accepted that is refused with its axes in another order. -/
theorem c124_cube_fails (scatter : Nat → ℚ → ℚ → ℚ → List (Scatter.Part ℚ) → Except Err (Int × Int × Int → ℚ))
    (hs : ∀ res bx by_ bz ps, ∃ img, scatter res bx by_ bz ps = .ok img) (periodic framed : Bool) (res : Nat)
    (ps : List (Scatter.Part ℚ × Bool)) :
    (∃ img, renderGrid scatter (4, 4, 4) (some [0, 1, 0, 1 + 1 / 10 ^ 5, 0, 1 - 1 / 10 ^ 5]) periodic framed res ps = .ok img) ∧
    renderGrid scatter (4, 4, 4) (some [0, 1 + 1 / 10 ^ 5, 0, 1, 0, 1 - 1 / 10 ^ 5]) periodic framed res
      (ps.map fun p => (turned p.1, p.2)) = .error .attribute := by
  unfold renderGrid regionInfo infoOf
  dsimp only
  constructor
  · rw [if_neg (by decide +kernel)]
    change ∃ img, (scatter _ _ _ _ _).bind _ = Except.ok img
    obtain ⟨img, h⟩ := hs _ _ _ _ _
    rw [h]
    exact ⟨_, rfl⟩
  · rw [if_pos (by decide +kernel)]
    rfl

/-! ## Examples -/

private def bodies : List (Scatter.Part ℚ × Bool) :=
  [(⟨1 / 2, 3 / 2, 5 / 2, 1, 1⟩, true), (⟨7 / 2, 1 / 2, 5 / 2, 3, 1 / 4⟩, true), (⟨3, 1, 2, 2, 1⟩, false)]

/-- a slice and its transposed image; a region that is not a square, with a kernel that is one up to the width -/
example : (sliceGrid (slice (fun r _ => if r ≤ 1 / 16 then 1 else 0) 1) (4, 4, 8) (some [0, 4, 0, 2]) 2 true false 4 bodies).map
      (fun g => (g.nx, g.ny, g.img (0, 1), g.img (3, 0), g.img (1, 0))) = .ok (4, 2, 1, 0, 0) ∧
    (sliceGrid (slice (fun r _ => if r ≤ 1 / 16 then 1 else 0) 1) (turnBox (4, 4, 8)) (some (turnLimits [0, 4, 0, 2])) 2 true false 4
      (bodies.map fun p => (turned p.1, p.2))).map (fun g => (g.nx, g.ny, g.img (1, 0), g.img (0, 3), g.img (0, 1))) = .ok (2, 4, 1, 0, 0) := by
  decide +kernel

/-- a render of the box with its axes exchanged, first two and last two -/
example (W : ℚ → ℚ → ℚ) (g : ℚ) (periodic framed : Bool) (res : Nat) (ps : List (Scatter.Part ℚ × Bool)) :
    renderGrid (volume W g) (4, 4, 4) (some [0, 4, -1, 3, 2, 6]) periodic framed res (ps.map fun p => (turned p.1, p.2)) =
      (renderGrid (volume W g) (4, 4, 4) (some [-1, 3, 0, 4, 2, 6]) periodic framed res ps).map fun img q => img (q.2.1, q.1, q.2.2) :=
  c124_render_turned (c124_turns W g 1).2.1 (4, 4, 4) _ _ _ _ _ _ (by norm_num) _ _ _ _

example (W : ℚ → ℚ → ℚ) (g : ℚ) (framed : Bool) (res : Nat) (ps : List (Scatter.Part ℚ × Bool)) :
    renderGrid (volume W g) (4, 4, 4) (some [0, 1, 0, 1 - 1 / 10 ^ 5, 0, 1 + 1 / 10 ^ 5]) false framed res (ps.map fun p => (tipped p.1, p.2)) =
      (renderGrid (volume W g) (4, 4, 4) (some [0, 1, 0, 1 + 1 / 10 ^ 5, 0, 1 - 1 / 10 ^ 5]) false framed res ps).map
        fun img q => img (q.1, q.2.2, q.2.1) :=
  c124_render_tipped (c124_turns W g 1).2.2.1 (4, 4, 4) _ _ _ _ _ _ false _ (fun h => nomatch h) _ _

/-- what is in it: the small particle is in its voxel -/
example : (renderGrid (volume (fun _ _ => 0) (1 / 4)) (4, 4, 4) (some [0, 4, 0, 4, 0, 4]) true false 4 bodies).map
      (fun img => (img (3, 0, 2), img (0, 3, 2))) = .ok (192, 0) ∧
    (renderGrid (volume (fun _ _ => 0) (1 / 4)) (4, 4, 4) (some [0, 4, 0, 4, 0, 4]) true false 4 (bodies.map fun p => (turned p.1, p.2))).map
      (fun img => (img (3, 0, 2), img (0, 3, 2))) = .ok (0, 192) := by
  decide +kernel

/-- the backends of C39 are additive, and a slice and a render of them exist -/
example (W : ℚ → ℚ → ℚ) (g : ℚ) {ps qs : List (Scatter.Part ℚ × Bool)} (h : ps.Perm qs) :
    sliceGrid (slice W g) (4, 4, 4) none 2 true true 4 ps = sliceGrid (slice W g) (4, 4, 4) none 2 true true 4 qs ∧
      renderGrid (volume W g) (4, 4, 4) none true true 4 ps = renderGrid (volume W g) (4, 4, 4) none true true 4 qs :=
  c124_order (fun zs nx ny bx by_ bz => (c39_slice W g zs nx ny bx by_ bz).1) (fun res bx by_ bz => (c39_volume W g res 1 bx by_ bz).1.1)
    _ _ _ _ _ _ h

end Verif.Props
