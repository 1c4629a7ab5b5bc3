import Verif.Spec.FloatingImages
import Verif.Props.RoundedCuts

/-!
# C141: images are the same to the last digit without the particles beyond the edges (`swiftsimio/visualisation`)
-/

namespace Verif.Props
open Verif Verif.Spec Verif.Scatter

variable {F : Type} [LinearOrder F] {A : Floating.Arith F}

private theorem flatMap_kept {α β : Type} {keep : α → Bool} {g : α → List β} : ∀ {l : List α}, (∀ p ∈ l, keep p = false → g p = []) →
    (l.filter keep).flatMap g = l.flatMap g
  | [], _ => rfl
  | p :: l, h => by
    have ih := flatMap_kept (l := l) fun q hq => h q (by simp [hq])
    cases hp : keep p with
    | true => rw [List.filter_cons_of_pos hp, List.flatMap_cons, List.flatMap_cons, ih]
    | false =>
      rw [List.filter_cons_of_neg (by simp [hp]), List.flatMap_cons, h p (by simp) hp, List.nil_append, ih]

private theorem cell_mono (o : OrderedArith A) {res : Nat} {box x y : F} (i : Int) (h : x ≤ y) :
    Floating.cell A res (Floating.moved A x box i) ≤ Floating.cell A res (Floating.moved A y box i) :=
  o.toInt _ _ (o.floor _ _ (o.scale _ _ _ (o.add_left _ _ _ h)))

private theorem far (o : OrderedArith A) {res : Nat} {sh : List Int} {box : F} {reach : Int} {x : F} (h : Beyond A res sh box reach x) {i : Int}
    (hi : i ∈ sh) : Floating.cell A res (Floating.moved A x box i) + reach < 0 ∨
      (res : Int) ≤ Floating.cell A res (Floating.moved A x box i) - reach := by
  rcases h i hi with ⟨B, hB, hlt⟩ | ⟨B, hB, hlt⟩
  · left
    have h1 := cell_mono o (res := res) (box := box) i hB
    have h2 : Floating.cell A res (Floating.moved A B box i) + reach < 0 := hlt
    omega
  · right
    have h1 := cell_mono o (res := res) (box := box) i hB
    have h2 : (res : Int) ≤ Floating.cell A res (Floating.moved A B box i) - reach := hlt
    omega

private theorem misses_far {res : Nat} {pc cs cs' : Int} (hcs : cs ≤ cs') (h : pc + cs' < 0 ∨ (res : Int) ≤ pc - cs') : misses res pc cs = true := by
  unfold misses
  simp only [Bool.or_eq_true, decide_eq_true_eq]
  omega

private theorem span_mono (o : OrderedArith A) {n : Nat} {h hmax : F} (hh : h ≤ hmax) :
    Floating.spanned A (A.mul A.gamma h) (Floating.res32 A n) ≤ reachOf A (A.single (A.ofInt n)) hmax :=
  o.toInt _ _ (o.add_right _ _ _ (o.single n _ _ (o.width _ _ hh)))

private theorem span_mono' (o : OrderedArith A) {n : Nat} {h hmax : F} (hh : h ≤ hmax) :
    Floating.spanned A (A.mul A.gamma h) (A.ofInt n) ≤ reachOf A (A.ofInt n) hmax :=
  o.toInt _ _ (o.add_right _ _ _ (o.double n _ _ (o.width _ _ hh)))

private theorem copies2_nil {β : Type} {dep : Scatter.Part F → List β} {bx by_ : F} {p : Scatter.Part F}
    (h : ∀ i ∈ Floating.shifts A bx, ∀ j ∈ Floating.shifts A by_,
      dep { p with x := Floating.moved A p.x bx i, y := Floating.moved A p.y by_ j } = []) :
    (Floating.copies2 A bx by_ p).flatMap dep = [] := by
  rw [List.flatMap_eq_nil_iff]
  intro q hq
  simp only [Floating.copies2, List.mem_flatMap, List.mem_map] at hq
  obtain ⟨i, hi, j, hj, rfl⟩ := hq
  exact h i hi j hj

private theorem copies3_nil {β : Type} {dep : Scatter.Part F → List β} {sh : F → List Int} {bx by_ bz : F} {p : Scatter.Part F}
    (h : ∀ i ∈ sh bx, ∀ j ∈ sh by_, ∀ k ∈ sh bz,
      dep { p with x := Floating.moved A p.x bx i, y := Floating.moved A p.y by_ j, z := Floating.moved A p.z bz k } = []) :
    (Floating.copies3 A sh bx by_ bz p).flatMap dep = [] := by
  rw [List.flatMap_eq_nil_iff]
  intro q hq
  simp only [Floating.copies3, List.mem_flatMap, List.mem_map] at hq
  obtain ⟨i, hi, j, hj, k, hk, rfl⟩ := hq
  exact h i hi j hj k hk

/-- A particle without part in a projection: its kernel is at most as wide as `hmax`, and it is beyond an edge along one of the axes. -/
def NoPart2 (A : Floating.Arith F) (res : Nat) (bx by_ : F) (reach : Int) (p : Scatter.Part F) : Prop :=
  Beyond A res (Floating.shifts A bx) bx reach p.x ∨ Beyond A res (Floating.shifts A by_) by_ reach p.y

private theorem either {res : Nat} {a b : Int} {cs : Int} (h : misses res a cs = true ∨ misses res b cs = true) :
    (misses res a cs || misses res b cs) = true := by
  rcases h with h | h <;> simp [h]

private theorem nopart_misses (o : OrderedArith A) {res : Nat} {bx by_ : F} {reach cs : Int} (hcs : cs ≤ reach) {p : Scatter.Part F}
    (h : NoPart2 A res bx by_ reach p) {i j : Int} (hi : i ∈ Floating.shifts A bx) (hj : j ∈ Floating.shifts A by_) :
    (misses res (Floating.cell A res (Floating.moved A p.x bx i)) cs || misses res (Floating.cell A res (Floating.moved A p.y by_ j)) cs) = true := by
  refine either ?_
  rcases h with h | h
  · exact .inl (misses_far hcs (far o h hi))
  · exact .inr (misses_far hcs (far o h hj))

/-- C141. Projections with the fast and the renormalised backend do not change, to the last digit, if particles without part in them are left
out. -/
theorem c141_projections (o : OrderedArith A) (res : Nat) (bx by_ hmax : F) (keep : Scatter.Part F → Bool) (ps : List (Scatter.Part F))
    (hk : ∀ p ∈ ps, keep p = false → p.h ≤ hmax ∧ NoPart2 A res bx by_ (reachOf A (A.single (A.ofInt res)) hmax) p) :
    Floating.fast A res bx by_ (ps.filter keep) = Floating.fast A res bx by_ ps ∧
    Floating.renormalised A res bx by_ (ps.filter keep) = Floating.renormalised A res bx by_ ps := by
  unfold Floating.fast Floating.renormalised Floating.over
  refine ⟨congrArg _ (flatMap_kept fun p hp hf => ?_), congrArg _ (flatMap_kept fun p hp hf => ?_)⟩
  · obtain ⟨h1, h2⟩ := hk p hp hf
    refine copies2_nil fun i hi j hj => ?_
    unfold Floating.fastDeps
    dsimp only
    rw [if_pos (nopart_misses o (span_mono o h1) h2 hi hj)]
  · obtain ⟨h1, h2⟩ := hk p hp hf
    refine copies2_nil fun i hi j hj => ?_
    unfold Floating.renormalisedDeps
    dsimp only
    rw [if_pos (nopart_misses o (span_mono o h1) h2 hi hj)]

private theorem reference_nil {res : Nat} : ∀ {l : List (Scatter.Part F)}, (∀ p ∈ l,
    (misses res (Floating.cell A res p.x) (Floating.spanned A (A.mul A.gamma p.h) (A.ofInt res)) ||
      misses res (Floating.cell A res p.y) (Floating.spanned A (A.mul A.gamma p.h) (A.ofInt res))) = true) → Floating.referenceRow A res l = []
  | [], _ => rfl
  | p :: l, h => by
    unfold Floating.referenceRow
    dsimp only
    rw [if_pos (h p (by simp)), reference_nil fun q hq => h q (by simp [hq])]

/-- C141. The same for the reference and the subsampled backends, which compute the reach of kernels in double precision. -/
theorem c141_reference (o : OrderedArith A) (res : Nat) (bx by_ hmax : F) (keep : Scatter.Part F → Bool) (ps : List (Scatter.Part F))
    (hk : ∀ p ∈ ps, keep p = false → p.h ≤ hmax ∧ NoPart2 A res bx by_ (reachOf A (A.ofInt res) hmax) p) :
    Floating.reference A res bx by_ (ps.filter keep) = Floating.reference A res bx by_ ps ∧
    ∀ E D : Nat, Floating.subsampled A E D res bx by_ (ps.filter keep) = Floating.subsampled A E D res bx by_ ps := by
  unfold Floating.reference Floating.subsampled Floating.over
  refine ⟨congrArg _ (flatMap_kept fun p hp hf => ?_), fun E D => congrArg _ (flatMap_kept fun p hp hf => ?_)⟩
  · obtain ⟨h1, h2⟩ := hk p hp hf
    rw [List.flatMap_eq_nil_iff]
    intro i hi
    refine reference_nil fun q hq => ?_
    rw [List.mem_map] at hq
    obtain ⟨j, hj, rfl⟩ := hq
    exact nopart_misses o (span_mono' o h1) h2 hi hj
  · obtain ⟨h1, h2⟩ := hk p hp hf
    refine copies2_nil fun i hi j hj => ?_
    unfold Floating.subsampledDeps
    dsimp only
    rw [if_pos (nopart_misses o (span_mono' o h1) h2 hi hj)]

/-- C141. The same for histograms, which draw particles in their own pixels only. -/
theorem c141_histogram (o : OrderedArith A) (res : Nat) (bx by_ : F) (keep : Scatter.Part F → Bool) (ps : List (Scatter.Part F))
    (hk : ∀ p ∈ ps, keep p = false → NoPart2 A res bx by_ 0 p) :
    Floating.histogram A res bx by_ (ps.filter keep) = Floating.histogram A res bx by_ ps := by
  unfold Floating.histogram Floating.over
  refine congrArg _ (flatMap_kept fun p hp hf => copies2_nil fun i hi j hj => ?_)
  unfold Floating.histogramDeps Floating.ownCell2
  refine if_neg ?_
  have h2 := hk p hp hf
  simp only [onGrid, Bool.and_eq_true, decide_eq_true_eq]
  rcases h2 with h2 | h2
  · have := far o h2 hi
    omega
  · have := far o h2 hj
    omega

/-- C141. The same for slices, along the two axes of the image. -/
theorem c141_slice (o : OrderedArith A) (zs : F) (xres yres : Nat) (bx by_ bz hmax : F) (keep : Scatter.Part F → Bool) (ps : List (Scatter.Part F))
    (hk : ∀ p ∈ ps, keep p = false → p.h ≤ hmax ∧ NoPart2 A (max xres yres) bx by_ (reachOf A (A.single (A.ofInt (max xres yres : Nat))) hmax) p) :
    Floating.slice A zs xres yres bx by_ bz (ps.filter keep) = Floating.slice A zs xres yres bx by_ bz ps := by
  unfold Floating.slice
  rw [flatMap_kept fun p hp hf => ?_]
  obtain ⟨h1, h2⟩ := hk p hp hf
  refine copies3_nil fun i hi j hj k _ => ?_
  have := nopart_misses o (span_mono o h1) h2 hi hj
  unfold Floating.sliceDeps
  dsimp only
  rw [Bool.or_assoc, this, Bool.or_true, if_pos rfl]

/-- A particle without part in a voxel render. -/
def NoPart3 (A : Floating.Arith F) (sh : F → List Int) (res resz : Nat) (bx by_ bz hmax : F) (p : Scatter.Part F) : Prop :=
  Beyond A res (sh bx) bx (reachOf A (A.single (A.ofInt res)) hmax) p.x ∨
  Beyond A res (sh by_) by_ (reachOf A (A.single (A.ofInt res)) hmax) p.y ∨
  Beyond A resz (sh bz) bz (reachOf A (A.single (A.ofInt resz)) hmax) p.z

private theorem voxels_nil (o : OrderedArith A) {sh : F → List Int} {small : F → Bool} {res resz : Nat} {bx by_ bz hmax : F} {p : Scatter.Part F}
    (h1 : p.h ≤ hmax) (h : NoPart3 A sh res resz bx by_ bz hmax p) :
    (Floating.copies3 A sh bx by_ bz p).flatMap (Floating.limitedDeps A small res resz) = [] := by
  refine copies3_nil fun i hi j hj k hk => ?_
  unfold Floating.limitedDeps
  dsimp only
  refine if_pos ?_
  rcases h with h | h | h
  · simp [misses_far (span_mono o h1) (far o h hi)]
  · simp [misses_far (span_mono o h1) (far o h hj)]
  · simp [misses_far (span_mono o h1) (far o h hk)]

/-- C141. The same for voxel renders. -/
theorem c141_volume (o : OrderedArith A) (res : Nat) (bx by_ bz hmax : F) (keep : Scatter.Part F → Bool) (ps : List (Scatter.Part F))
    (hk : ∀ p ∈ ps, keep p = false → p.h ≤ hmax ∧ NoPart3 A (Floating.shifts A) res res bx by_ bz hmax p) :
    Floating.volume A res bx by_ bz (ps.filter keep) = Floating.volume A res bx by_ bz ps := by
  unfold Floating.volume
  exact congrArg _ (flatMap_kept fun p hp hf => voxels_nil o (hk p hp hf).1 (hk p hp hf).2)

/-- C141. The same for voxel renders with another number of layers. -/
theorem c141_limited (o : OrderedArith A) (res ratio : Nat) (bx by_ bz hmax : F) (keep : Scatter.Part F → Bool) (ps : List (Scatter.Part F))
    (hk : ∀ p ∈ ps, keep p = false → p.h ≤ hmax ∧ NoPart3 A (Floating.shiftsLimited A) res (res / ratio) bx by_ bz hmax p) :
    Floating.limited A res ratio bx by_ bz (ps.filter keep) = Floating.limited A res ratio bx by_ bz ps := by
  unfold Floating.limited
  exact congrArg _ (flatMap_kept fun p hp hf => voxels_nil o (hk p hp hf).1 (hk p hp hf).2)

section
variable {K : Type} [Field K] [LinearOrder K] [IsStrictOrderedRing K] [FloorRing K]

private theorem trunc_mono {x y : K} (h : x ≤ y) : trunc x ≤ trunc y := by
  unfold trunc
  split <;> split
  · exact Int.floor_le_floor h
  · exfalso; linarith
  · rename_i h1 h2
    have : ⌈x⌉ ≤ 0 := Int.ceil_le.2 (by push_cast; linarith)
    exact this.trans (Int.floor_nonneg.2 h2)
  · exact Int.ceil_le_ceil h

/-- C141. The arithmetic with rounded sums and products meets the assumption, whatever the rounding is, if it does not exchange numbers and
the kernel constant is not negative. -/
theorem c141_rounded (fl fl32 : K → K) (hfl : ∀ x y, x ≤ y → fl x ≤ fl y) (h32 : ∀ x, 0 ≤ x → 0 ≤ fl32 x) (W : K → K → K) (g : K) (hg : 0 ≤ g) :
    OrderedArith (roundedArith fl fl32 W g) where
  add_left _ _ z h := hfl _ _ (by linarith)
  add_right _ _ z h := hfl _ _ (by linarith)
  scale n _ _ h := hfl _ _ (mul_le_mul_of_nonneg_left h (by simp [roundedArith, Floating.exact]))
  width _ _ h := hfl _ _ (mul_le_mul_of_nonneg_left h hg)
  single n _ _ h := hfl _ _ (mul_le_mul_of_nonneg_right h (h32 _ (by simp [roundedArith, Floating.exact])))
  double n _ _ h := hfl _ _ (mul_le_mul_of_nonneg_right h (by simp [roundedArith, Floating.exact]))
  floor _ _ h := by
    have := Int.floor_le_floor h
    simp only [roundedArith, Floating.exact]
    exact_mod_cast this
  toInt _ _ h := trunc_mono h

end

open Mask Accel

private theorem loaded_mem {α : Type} {m : Nat} {fl : ℚ → ℚ} {f : File ℚ m} (hf : WF f) {calls : List (List (Option (List ℚ)))} {k : Fin m}
    {ds ds' : List α} (hds : ds.length = f.rows k) {lay : Layout} (hlay : lay ≠ .remote) (hc : ∀ c, lay = .chunked c → 0 < c)
    (hl : load (RoundedMask.spatials fl f calls) lay ds k = .ok (ds'.map some)) {v : α} (hv : v ∈ ds') : v ∈ ds := by
  obtain ⟨l, r1, -, -, -⟩ := c138_read fl f hf calls k ds hds lay hlay hc
  rw [hl] at r1
  have h1 : some v ∈ select ds l := (Except.ok.inj r1) ▸ List.mem_map.2 ⟨v, hv, rfl⟩
  unfold select at h1
  rw [List.mem_map] at h1
  obtain ⟨i, -, hi⟩ := h1
  unfold valueAt at hi
  split at hi
  · exact absurd hi (by simp)
  · exact List.mem_of_getElem? hi

open Classical in
/-- C141. Whatever is drawn from positions and other values read with a mask in double precision is the same as from the whole file, if leaving out
the particles with the property `Q` does not change the drawing and all particles that are not strictly inside the region have it. -/
theorem c141_masked {γ : Type} {β : Type} {m : Nat} (ρ : ℚ → ℤ) (hρ : ToNearest ρ) (f : File ℚ m) (hf : WF f)
    (hb : ∀ d, InFormat 53 (-1074) (f.box d)) (rows : List (Option (List ℚ))) (reg : Fin 3 → ℚ × ℚ) (hreg : RegionIs f.box rows reg)
    (hok : RoundedMask.regionOk (nearest 53 (-1074) ρ) f.box reg = true) (k : Fin m) (pos : List (Fin 3 → ℚ)) (vals : List β)
    (hpos : pos.length = f.rows k) (hvals : vals.length = f.rows k) (hform : ∀ x ∈ pos, ∀ d, InFormat 53 (-1074) (x d))
    (hcells : ∀ (i : Nat) (x : Fin 3 → ℚ), pos[i]? = some x → ∃ c ∈ f.cells k, Holds c i ∧ ∀ d, c.lo d ≤ x d ∧ x d ≤ c.hi d)
    (lay lay' : Layout) (hlay : lay ≠ .remote) (hc : ∀ c, lay = .chunked c → 0 < c) (hlay' : lay' ≠ .remote)
    (hc' : ∀ c, lay' = .chunked c → 0 < c) (pos' : List (Fin 3 → ℚ)) (vals' : List β)
    (hl : load (RoundedMask.spatials (nearest 53 (-1074) ρ) f [rows]) lay pos k = .ok (pos'.map some))
    (hl' : load (RoundedMask.spatials (nearest 53 (-1074) ρ) f [rows]) lay' vals k = .ok (vals'.map some))
    (part : (Fin 3 → ℚ) × β → Scatter.Part F) (hmax : F) (hw : ∀ x ∈ pos, ∀ v ∈ vals, (part (x, v)).h ≤ hmax) (Q : Scatter.Part F → Prop)
    (hQ : ∀ x ∈ pos, ∀ v ∈ vals, (¬ ∀ d, (reg d).1 < x d ∧ x d < (reg d).2) → Q (part (x, v))) (draw : List (Scatter.Part F) → γ)
    (hdraw : ∀ (keep : Scatter.Part F → Bool) (ps : List (Scatter.Part F)), (∀ p ∈ ps, keep p = false → p.h ≤ hmax ∧ Q p) →
      draw (ps.filter keep) = draw ps) :
    draw ((pos'.zip vals').map part) = draw ((pos.zip vals).map part) := by
  have hbox := c140_box ρ hρ f hf hb rows reg hreg hok k pos vals hpos hvals hform hcells lay lay' hlay hc hlay' hc' pos' vals' hl hl'
  have hall : ∀ ys : List ((Fin 3 → ℚ) × β), (∀ y ∈ ys, y.1 ∈ pos ∧ y.2 ∈ vals) →
      ys.filter (fun y => decide (¬ Q (part y))) =
        (ys.filter (fun y => decide (∀ d, (reg d).1 < y.1 d ∧ y.1 d < (reg d).2))).filter (fun y => decide (¬ Q (part y))) := by
    intro ys hys
    rw [List.filter_filter]
    refine List.filter_congr fun y hy => ?_
    by_cases hq : Q (part y)
    · simp [hq]
    · have : ∀ d, (reg d).1 < y.1 d ∧ y.1 d < (reg d).2 := by
        by_contra hn
        exact hq (hQ _ (hys y hy).1 _ (hys y hy).2 hn)
      simp [hq, this]
  have hmem : ∀ y ∈ pos.zip vals, y.1 ∈ pos ∧ y.2 ∈ vals := fun y hy => ⟨(List.of_mem_zip hy).1, (List.of_mem_zip hy).2⟩
  have hmem' : ∀ y ∈ pos'.zip vals', y.1 ∈ pos ∧ y.2 ∈ vals := fun y hy =>
    ⟨loaded_mem hf hpos hlay hc hl (List.of_mem_zip hy).1, loaded_mem hf hvals hlay' hc' hl' (List.of_mem_zip hy).2⟩
  have heq : ((pos'.zip vals').map part).filter (fun p => decide (¬ Q p)) = ((pos.zip vals).map part).filter (fun p => decide (¬ Q p)) := by
    rw [List.filter_map, List.filter_map]
    refine congrArg _ ?_
    exact (hall _ hmem').trans ((congrArg _ hbox).trans (hall _ hmem).symm)
  have hkeep : ∀ ys : List ((Fin 3 → ℚ) × β), (∀ y ∈ ys, y.1 ∈ pos ∧ y.2 ∈ vals) → ∀ p ∈ ys.map part, decide (¬ Q p) = false →
      p.h ≤ hmax ∧ Q p := by
    intro ys hys p hp hq
    rw [List.mem_map] at hp
    obtain ⟨y, hy, rfl⟩ := hp
    exact ⟨hw _ (hys y hy).1 _ (hys y hy).2, by simpa using hq⟩
  have c1 := hdraw (fun p => decide (¬ Q p)) _ (hkeep _ hmem)
  have c2 := hdraw (fun p => decide (¬ Q p)) _ (hkeep _ hmem')
  rw [heq] at c2
  exact c2.symm.trans c1

/-- The ends of a region along one axis are so far from the image that no kernel reaches it, for each of the copies. -/
def EndsBeyond (A : Floating.Arith F) (res : Nat) (sh : List Int) (box : F) (reach : Int) (norm : ℚ → F) (ends : ℚ × ℚ) : Prop :=
  ∀ i ∈ sh, pixelOf A res box (norm ends.1) i + reach < 0 ∧ (res : Int) ≤ pixelOf A res box (norm ends.2) i - reach

private theorem beyond_of_ends {res : Nat} {sh : List Int} {box : F} {reach : Int} {norm : ℚ → F} (hn : ∀ x y, x ≤ y → norm x ≤ norm y)
    {ends : ℚ × ℚ} (h : EndsBeyond A res sh box reach norm ends) {x : ℚ} (hx : ¬ (ends.1 < x ∧ x < ends.2)) : Beyond A res sh box reach (norm x) := by
  intro i hi
  have hx' : x ≤ ends.1 ∨ ends.2 ≤ x := by
    by_contra hc
    push Not at hc
    exact hx hc
  rcases hx' with h' | h'
  · exact .inl ⟨_, hn _ _ h', (h i hi).1⟩
  · exact .inr ⟨_, hn _ _ h', (h i hi).2⟩

private theorem outside_axis {reg : Fin 3 → ℚ × ℚ} {x : Fin 3 → ℚ} (h : ¬ ∀ d, (reg d).1 < x d ∧ x d < (reg d).2) :
    ¬ ((reg 0).1 < x 0 ∧ x 0 < (reg 0).2) ∨ ¬ ((reg 1).1 < x 1 ∧ x 1 < (reg 1).2) ∨ ¬ ((reg 2).1 < x 2 ∧ x 2 < (reg 2).2) := by
  by_contra hn
  push Not at hn
  refine h fun d => ?_
  fin_cases d
  · exact hn.1
  · exact hn.2.1
  · exact hn.2.2

/-- C141 for data read with a mask in double precision. The rows are positions together with whatever else the image needs; `norm` turns positions
into places in the image and may round in any way that does not exchange them. If the ends of the region are so far from the image that no kernel
reaches it, and the region covers all particles along the line of sight, the image drawn from the masked data is that of the whole file, to
the last digit of each pixel. -/
theorem c141_double (o : OrderedArith A) {β : Type} {m : Nat} (ρ : ℚ → ℤ) (hρ : ToNearest ρ) (f : File ℚ m) (hf : WF f)
    (hb : ∀ d, InFormat 53 (-1074) (f.box d)) (rows : List (Option (List ℚ))) (reg : Fin 3 → ℚ × ℚ) (hreg : RegionIs f.box rows reg)
    (hok : RoundedMask.regionOk (nearest 53 (-1074) ρ) f.box reg = true) (k : Fin m) (pos : List (Fin 3 → ℚ)) (vals : List β)
    (hpos : pos.length = f.rows k) (hvals : vals.length = f.rows k) (hform : ∀ x ∈ pos, ∀ d, InFormat 53 (-1074) (x d))
    (hcells : ∀ (i : Nat) (x : Fin 3 → ℚ), pos[i]? = some x → ∃ c ∈ f.cells k, Holds c i ∧ ∀ d, c.lo d ≤ x d ∧ x d ≤ c.hi d)
    (lay lay' : Layout) (hlay : lay ≠ .remote) (hc : ∀ c, lay = .chunked c → 0 < c) (hlay' : lay' ≠ .remote)
    (hc' : ∀ c, lay' = .chunked c → 0 < c) (pos' : List (Fin 3 → ℚ)) (vals' : List β)
    (hl : load (RoundedMask.spatials (nearest 53 (-1074) ρ) f [rows]) lay pos k = .ok (pos'.map some))
    (hl' : load (RoundedMask.spatials (nearest 53 (-1074) ρ) f [rows]) lay' vals k = .ok (vals'.map some))
    (norm : Fin 3 → ℚ → F) (hnorm : ∀ d x y, x ≤ y → norm d x ≤ norm d y) (width mass : β → F) (hmax : F) (hw : ∀ v ∈ vals, width v ≤ hmax)
    (hsight : ∀ x ∈ pos, (reg 2).1 < x 2 ∧ x 2 < (reg 2).2) (res : Nat) (bx by_ : F)
    (hx : EndsBeyond A res (Floating.shifts A bx) bx (reachOf A (A.single (A.ofInt res)) hmax) (norm 0) (reg 0))
    (hy : EndsBeyond A res (Floating.shifts A by_) by_ (reachOf A (A.single (A.ofInt res)) hmax) (norm 1) (reg 1)) :
    let part : (Fin 3 → ℚ) × β → Scatter.Part F := fun y => ⟨norm 0 (y.1 0), norm 1 (y.1 1), norm 2 (y.1 2), mass y.2, width y.2⟩
    Floating.fast A res bx by_ ((pos'.zip vals').map part) = Floating.fast A res bx by_ ((pos.zip vals).map part) ∧
    Floating.renormalised A res bx by_ ((pos'.zip vals').map part) = Floating.renormalised A res bx by_ ((pos.zip vals).map part) := by
  intro part
  have key := c141_masked (γ := Except Err (Int × Int → F)) ρ hρ f hf hb rows reg hreg hok k pos vals hpos hvals hform hcells lay lay' hlay hc hlay' hc' pos' vals' hl hl'
    part hmax (fun _ _ v hv => hw v hv) (NoPart2 A res bx by_ (reachOf A (A.single (A.ofInt res)) hmax)) (fun x hxp v hv hn => by
      rcases outside_axis hn with h | h | h
      · exact .inl (beyond_of_ends (hnorm 0) hx h)
      · exact .inr (beyond_of_ends (hnorm 1) hy h)
      · exact absurd (hsight x hxp) h)
  exact ⟨key _ fun keep ps h => (c141_projections o res bx by_ hmax keep ps h).1,
    key _ fun keep ps h => (c141_projections o res bx by_ hmax keep ps h).2⟩

/-- C141 for data read with a mask: the reference and the subsampled projections, and histograms, for which no width matters. -/
theorem c141_double_reference (o : OrderedArith A) {β : Type} {m : Nat} (ρ : ℚ → ℤ) (hρ : ToNearest ρ) (f : File ℚ m) (hf : WF f)
    (hb : ∀ d, InFormat 53 (-1074) (f.box d)) (rows : List (Option (List ℚ))) (reg : Fin 3 → ℚ × ℚ) (hreg : RegionIs f.box rows reg)
    (hok : RoundedMask.regionOk (nearest 53 (-1074) ρ) f.box reg = true) (k : Fin m) (pos : List (Fin 3 → ℚ)) (vals : List β)
    (hpos : pos.length = f.rows k) (hvals : vals.length = f.rows k) (hform : ∀ x ∈ pos, ∀ d, InFormat 53 (-1074) (x d))
    (hcells : ∀ (i : Nat) (x : Fin 3 → ℚ), pos[i]? = some x → ∃ c ∈ f.cells k, Holds c i ∧ ∀ d, c.lo d ≤ x d ∧ x d ≤ c.hi d)
    (lay lay' : Layout) (hlay : lay ≠ .remote) (hc : ∀ c, lay = .chunked c → 0 < c) (hlay' : lay' ≠ .remote)
    (hc' : ∀ c, lay' = .chunked c → 0 < c) (pos' : List (Fin 3 → ℚ)) (vals' : List β)
    (hl : load (RoundedMask.spatials (nearest 53 (-1074) ρ) f [rows]) lay pos k = .ok (pos'.map some))
    (hl' : load (RoundedMask.spatials (nearest 53 (-1074) ρ) f [rows]) lay' vals k = .ok (vals'.map some))
    (norm : Fin 3 → ℚ → F) (hnorm : ∀ d x y, x ≤ y → norm d x ≤ norm d y) (width mass : β → F) (hmax : F) (hw : ∀ v ∈ vals, width v ≤ hmax)
    (hsight : ∀ x ∈ pos, (reg 2).1 < x 2 ∧ x 2 < (reg 2).2) (res : Nat) (bx by_ : F)
    (hx : EndsBeyond A res (Floating.shifts A bx) bx (reachOf A (A.ofInt res) hmax) (norm 0) (reg 0))
    (hy : EndsBeyond A res (Floating.shifts A by_) by_ (reachOf A (A.ofInt res) hmax) (norm 1) (reg 1)) :
    let part : (Fin 3 → ℚ) × β → Scatter.Part F := fun y => ⟨norm 0 (y.1 0), norm 1 (y.1 1), norm 2 (y.1 2), mass y.2, width y.2⟩
    Floating.reference A res bx by_ ((pos'.zip vals').map part) = Floating.reference A res bx by_ ((pos.zip vals).map part) ∧
    (∀ E D : Nat, Floating.subsampled A E D res bx by_ ((pos'.zip vals').map part) = Floating.subsampled A E D res bx by_ ((pos.zip vals).map part)) ∧
    (EndsBeyond A res (Floating.shifts A bx) bx 0 (norm 0) (reg 0) → EndsBeyond A res (Floating.shifts A by_) by_ 0 (norm 1) (reg 1) →
      Floating.histogram A res bx by_ ((pos'.zip vals').map part) = Floating.histogram A res bx by_ ((pos.zip vals).map part)) := by
  intro part
  have key := fun (reach : Int) (hx : EndsBeyond A res (Floating.shifts A bx) bx reach (norm 0) (reg 0))
    (hy : EndsBeyond A res (Floating.shifts A by_) by_ reach (norm 1) (reg 1)) =>
    c141_masked (γ := Except Err (Int × Int → F)) ρ hρ f hf hb rows reg hreg hok k pos vals hpos hvals hform hcells lay lay' hlay hc hlay' hc' pos' vals' hl hl'
    part hmax (fun _ _ v hv => hw v hv) (NoPart2 A res bx by_ reach) (fun x hxp v hv hn => by
      rcases outside_axis hn with h | h | h
      · exact .inl (beyond_of_ends (hnorm 0) hx h)
      · exact .inr (beyond_of_ends (hnorm 1) hy h)
      · exact absurd (hsight x hxp) h)
  exact ⟨key _ hx hy _ fun keep ps h => (c141_reference o res bx by_ hmax keep ps h).1,
    fun E D => key _ hx hy _ fun keep ps h => (c141_reference o res bx by_ hmax keep ps h).2 E D,
    fun hx hy => key _ hx hy _ fun keep ps h => c141_histogram o res bx by_ keep ps fun p hp hk => (h p hp hk).2⟩

/-- C141 for data read with a mask: slices. -/
theorem c141_double_slice (o : OrderedArith A) {β : Type} {m : Nat} (ρ : ℚ → ℤ) (hρ : ToNearest ρ) (f : File ℚ m) (hf : WF f)
    (hb : ∀ d, InFormat 53 (-1074) (f.box d)) (rows : List (Option (List ℚ))) (reg : Fin 3 → ℚ × ℚ) (hreg : RegionIs f.box rows reg)
    (hok : RoundedMask.regionOk (nearest 53 (-1074) ρ) f.box reg = true) (k : Fin m) (pos : List (Fin 3 → ℚ)) (vals : List β)
    (hpos : pos.length = f.rows k) (hvals : vals.length = f.rows k) (hform : ∀ x ∈ pos, ∀ d, InFormat 53 (-1074) (x d))
    (hcells : ∀ (i : Nat) (x : Fin 3 → ℚ), pos[i]? = some x → ∃ c ∈ f.cells k, Holds c i ∧ ∀ d, c.lo d ≤ x d ∧ x d ≤ c.hi d)
    (lay lay' : Layout) (hlay : lay ≠ .remote) (hc : ∀ c, lay = .chunked c → 0 < c) (hlay' : lay' ≠ .remote)
    (hc' : ∀ c, lay' = .chunked c → 0 < c) (pos' : List (Fin 3 → ℚ)) (vals' : List β)
    (hl : load (RoundedMask.spatials (nearest 53 (-1074) ρ) f [rows]) lay pos k = .ok (pos'.map some))
    (hl' : load (RoundedMask.spatials (nearest 53 (-1074) ρ) f [rows]) lay' vals k = .ok (vals'.map some))
    (norm : Fin 3 → ℚ → F) (hnorm : ∀ d x y, x ≤ y → norm d x ≤ norm d y) (width mass : β → F) (hmax : F) (hw : ∀ v ∈ vals, width v ≤ hmax)
    (hsight : ∀ x ∈ pos, (reg 2).1 < x 2 ∧ x 2 < (reg 2).2) (zs : F) (xres yres : Nat) (bx by_ bz : F)
    (hx : EndsBeyond A (max xres yres) (Floating.shifts A bx) bx (reachOf A (A.single (A.ofInt (max xres yres : Nat))) hmax) (norm 0) (reg 0))
    (hy : EndsBeyond A (max xres yres) (Floating.shifts A by_) by_ (reachOf A (A.single (A.ofInt (max xres yres : Nat))) hmax) (norm 1) (reg 1)) :
    let part : (Fin 3 → ℚ) × β → Scatter.Part F := fun y => ⟨norm 0 (y.1 0), norm 1 (y.1 1), norm 2 (y.1 2), mass y.2, width y.2⟩
    Floating.slice A zs xres yres bx by_ bz ((pos'.zip vals').map part) = Floating.slice A zs xres yres bx by_ bz ((pos.zip vals).map part) := by
  intro part
  exact c141_masked ρ hρ f hf hb rows reg hreg hok k pos vals hpos hvals hform hcells lay lay' hlay hc hlay' hc' pos' vals' hl hl'
    part hmax (fun _ _ v hv => hw v hv) (NoPart2 A (max xres yres) bx by_ (reachOf A (A.single (A.ofInt (max xres yres : Nat))) hmax)) (fun x hxp v hv hn => by
      rcases outside_axis hn with h | h | h
      · exact .inl (beyond_of_ends (hnorm 0) hx h)
      · exact .inr (beyond_of_ends (hnorm 1) hy h)
      · exact absurd (hsight x hxp) h) _ fun keep ps h => c141_slice o zs xres yres bx by_ bz hmax keep ps h

/-- C141 for data read with a mask: voxel renders, for regions that are bounded along all axes. -/
theorem c141_double_volume (o : OrderedArith A) {β : Type} {m : Nat} (ρ : ℚ → ℤ) (hρ : ToNearest ρ) (f : File ℚ m) (hf : WF f)
    (hb : ∀ d, InFormat 53 (-1074) (f.box d)) (rows : List (Option (List ℚ))) (reg : Fin 3 → ℚ × ℚ) (hreg : RegionIs f.box rows reg)
    (hok : RoundedMask.regionOk (nearest 53 (-1074) ρ) f.box reg = true) (k : Fin m) (pos : List (Fin 3 → ℚ)) (vals : List β)
    (hpos : pos.length = f.rows k) (hvals : vals.length = f.rows k) (hform : ∀ x ∈ pos, ∀ d, InFormat 53 (-1074) (x d))
    (hcells : ∀ (i : Nat) (x : Fin 3 → ℚ), pos[i]? = some x → ∃ c ∈ f.cells k, Holds c i ∧ ∀ d, c.lo d ≤ x d ∧ x d ≤ c.hi d)
    (lay lay' : Layout) (hlay : lay ≠ .remote) (hc : ∀ c, lay = .chunked c → 0 < c) (hlay' : lay' ≠ .remote)
    (hc' : ∀ c, lay' = .chunked c → 0 < c) (pos' : List (Fin 3 → ℚ)) (vals' : List β)
    (hl : load (RoundedMask.spatials (nearest 53 (-1074) ρ) f [rows]) lay pos k = .ok (pos'.map some))
    (hl' : load (RoundedMask.spatials (nearest 53 (-1074) ρ) f [rows]) lay' vals k = .ok (vals'.map some))
    (norm : Fin 3 → ℚ → F) (hnorm : ∀ d x y, x ≤ y → norm d x ≤ norm d y) (width mass : β → F) (hmax : F) (hw : ∀ v ∈ vals, width v ≤ hmax)
    (res : Nat) (bx by_ bz : F)
    (hx : EndsBeyond A res (Floating.shifts A bx) bx (reachOf A (A.single (A.ofInt res)) hmax) (norm 0) (reg 0))
    (hy : EndsBeyond A res (Floating.shifts A by_) by_ (reachOf A (A.single (A.ofInt res)) hmax) (norm 1) (reg 1))
    (hz : EndsBeyond A res (Floating.shifts A bz) bz (reachOf A (A.single (A.ofInt res)) hmax) (norm 2) (reg 2)) :
    let part : (Fin 3 → ℚ) × β → Scatter.Part F := fun y => ⟨norm 0 (y.1 0), norm 1 (y.1 1), norm 2 (y.1 2), mass y.2, width y.2⟩
    Floating.volume A res bx by_ bz ((pos'.zip vals').map part) = Floating.volume A res bx by_ bz ((pos.zip vals).map part) := by
  intro part
  exact c141_masked ρ hρ f hf hb rows reg hreg hok k pos vals hpos hvals hform hcells lay lay' hlay hc hlay' hc' pos' vals' hl hl'
    part hmax (fun _ _ v hv => hw v hv) (NoPart3 A (Floating.shifts A) res res bx by_ bz hmax) (fun x hxp v hv hn => by
      rcases outside_axis hn with h | h | h
      · exact .inl (beyond_of_ends (hnorm 0) hx h)
      · exact .inr (.inl (beyond_of_ends (hnorm 1) hy h))
      · exact .inr (.inr (beyond_of_ends (hnorm 2) hz h))) _ fun keep ps h => c141_volume o res bx by_ bz hmax keep ps h

/-- Double precision in exact rational numbers, with a flat kernel. -/
def doubles : Floating.Arith ℚ := roundedArith (nearest 53 (-1074) toEven) (nearest 24 (-149) toEven) (fun r H => if r < H * H then 1 else 0) 1

/-- C141. Double precision meets the assumption. -/
theorem c141_doubles : OrderedArith doubles :=
  c141_rounded _ _ (fun _ _ h => Nearest.nearest_mono (by norm_num) c138_toEven h)
    (fun x h => by
      have := Nearest.nearest_mono (p := 24) (emin := -149) (by norm_num) c138_toEven h
      rwa [Nearest.nearest_zero c138_toEven] at this) _ _ (by norm_num)

/-- C141. With several threads the last digits may change: particles that are left out move the others from one thread to another, so that
the sums are formed in another order. Here two threads draw a histogram in double precision, and the fourth particle is beyond the edge. -/
theorem c141_threads_fails : ∃ (keep : Scatter.Part ℚ → Bool) (ps : List (Scatter.Part ℚ)),
    (∀ p ∈ ps, keep p = false → NoPart2 doubles 1 0 0 0 p) ∧
    Floating.parallel doubles (Floating.histogram doubles 1 0 0) 2 [0, 1] (ps.filter keep) ≠
      Floating.parallel doubles (Floating.histogram doubles 1 0 0) 2 [0, 1] ps := by
  refine ⟨fun p => decide (p.x < 1), [⟨1 / 2, 1 / 2, 0, 2 ^ 53, 0⟩, ⟨1 / 2, 1 / 2, 0, 1, 0⟩, ⟨1 / 2, 1 / 2, 0, 1, 0⟩, ⟨4, 1 / 2, 0, 1, 0⟩], ?_, ?_⟩
  · intro p hp hk
    simp only [List.mem_cons, List.not_mem_nil, or_false] at hp
    rcases hp with rfl | rfl | rfl | rfl
    · exact absurd hk (by decide +kernel)
    · exact absurd hk (by decide +kernel)
    · exact absurd hk (by decide +kernel)
    · left
      intro i hi
      refine .inr ⟨4, le_refl _, ?_⟩
      have hs : Floating.shifts doubles 0 = [0] := by decide +kernel
      rw [hs, List.mem_singleton] at hi
      subst hi
      decide +kernel
  · intro h
    have h2 := congrArg (fun e : Except Err (Int × Int → ℚ) => e.toOption.map fun img => img (0, 0)) h
    revert h2
    decide +kernel

private theorem no_copies {P : Int → Prop} (h : P 0) : ∀ i ∈ Floating.shifts doubles 0, P i := by
  intro i hi
  have hs : Floating.shifts doubles 0 = [0] := by decide +kernel
  rw [hs, List.mem_singleton] at hi
  exact hi ▸ h

/-- Two of six particles are read, and the image of two times two pixels is that of all six. -/
example :
    Floating.fast doubles 2 0 0 ((cutPos'.zip ([30, 40] : List ℚ)).map fun y => ⟨(y.1 0 - 13 / 8) * 4, (y.1 1 - 15 / 8) * 4, y.1 2, y.2, 1 / 8⟩) =
      Floating.fast doubles 2 0 0
        ((cutPos.zip ([10, 20, 30, 40, 50, 60] : List ℚ)).map fun y => ⟨(y.1 0 - 13 / 8) * 4, (y.1 1 - 15 / 8) * 4, y.1 2, y.2, 1 / 8⟩) := by
  refine (c141_double c141_doubles (β := ℚ) toEven c138_toEven exFile exFile_wf
    (fun d => ⟨1, 2, by norm_num, by norm_num, by norm_num [exFile]⟩)
    [some [5 / 4, 9 / 4], some [3 / 2, 5 / 2], some [3 / 2, 5 / 2]] cutReg ?_ (by decide +kernel) 0 cutPos [10, 20, 30, 40, 50, 60] rfl rfl
    cutPos_format cutPos_cells .contiguous .contiguous (by simp) (by simp) (by simp) (by simp) cutPos' [30, 40] ?_ ?_
    (fun d x => if d = 0 then (x - 13 / 8) * 4 else if d = 1 then (x - 15 / 8) * 4 else x) ?_ (fun _ => 1 / 8) id (1 / 8) (fun _ _ => le_refl _) ?_ 2 0 0
    (no_copies ?_) (no_copies ?_)).1
  · refine ⟨rfl, fun d => Or.inr ?_⟩
    fin_cases d <;> rfl
  · decide +kernel
  · decide +kernel
  · intro d x y h
    split
    · linarith
    · split <;> linarith
  · decide +kernel
  · decide +kernel
  · decide +kernel

/-- The same data in the reference projection. -/
example :
    Floating.reference doubles 2 0 0 ((cutPos'.zip ([30, 40] : List ℚ)).map fun y => ⟨(y.1 0 - 13 / 8) * 4, (y.1 1 - 15 / 8) * 4, y.1 2, y.2, 1 / 8⟩) =
      Floating.reference doubles 2 0 0 ((cutPos.zip ([10, 20, 30, 40, 50, 60] : List ℚ)).map fun y => ⟨(y.1 0 - 13 / 8) * 4, (y.1 1 - 15 / 8) * 4, y.1 2, y.2, 1 / 8⟩) := by
  refine (c141_double_reference c141_doubles (β := ℚ) toEven c138_toEven exFile exFile_wf
    (fun d => ⟨1, 2, by norm_num, by norm_num, by norm_num [exFile]⟩)
    [some [5 / 4, 9 / 4], some [3 / 2, 5 / 2], some [3 / 2, 5 / 2]] cutReg ?_ (by decide +kernel) 0 cutPos [10, 20, 30, 40, 50, 60] rfl rfl
    cutPos_format cutPos_cells .contiguous .contiguous (by simp) (by simp) (by simp) (by simp) cutPos' [30, 40] ?_ ?_
    (fun d x => if d = 0 then (x - 13 / 8) * 4 else if d = 1 then (x - 15 / 8) * 4 else x) ?_ (fun _ => 1 / 8) id (1 / 8) (fun _ _ => le_refl _) ?_ 2 0 0 (no_copies ?_) (no_copies ?_)).1
  · refine ⟨rfl, fun d => Or.inr ?_⟩
    fin_cases d <;> rfl
  · decide +kernel
  · decide +kernel
  · intro d x y h
    split
    · linarith
    · split <;> linarith
  · decide +kernel
  · decide +kernel
  · decide +kernel

/-- The same data in a slice. -/
example :
    Floating.slice doubles 2 2 2 0 0 0 ((cutPos'.zip ([30, 40] : List ℚ)).map fun y => ⟨(y.1 0 - 13 / 8) * 4, (y.1 1 - 15 / 8) * 4, y.1 2, y.2, 1 / 8⟩) =
      Floating.slice doubles 2 2 2 0 0 0 ((cutPos.zip ([10, 20, 30, 40, 50, 60] : List ℚ)).map fun y => ⟨(y.1 0 - 13 / 8) * 4, (y.1 1 - 15 / 8) * 4, y.1 2, y.2, 1 / 8⟩) := by
  refine c141_double_slice c141_doubles (β := ℚ) toEven c138_toEven exFile exFile_wf
    (fun d => ⟨1, 2, by norm_num, by norm_num, by norm_num [exFile]⟩)
    [some [5 / 4, 9 / 4], some [3 / 2, 5 / 2], some [3 / 2, 5 / 2]] cutReg ?_ (by decide +kernel) 0 cutPos [10, 20, 30, 40, 50, 60] rfl rfl
    cutPos_format cutPos_cells .contiguous .contiguous (by simp) (by simp) (by simp) (by simp) cutPos' [30, 40] ?_ ?_
    (fun d x => if d = 0 then (x - 13 / 8) * 4 else if d = 1 then (x - 15 / 8) * 4 else x) ?_ (fun _ => 1 / 8) id (1 / 8) (fun _ _ => le_refl _) ?_ 2 2 2 0 0 0 (no_copies ?_) (no_copies ?_)
  · refine ⟨rfl, fun d => Or.inr ?_⟩
    fin_cases d <;> rfl
  · decide +kernel
  · decide +kernel
  · intro d x y h
    split
    · linarith
    · split <;> linarith
  · decide +kernel
  · decide +kernel
  · decide +kernel

/-- The same data in a voxel render of a small cube. -/
example :
    Floating.volume doubles 2 0 0 0 ((cutPos'.zip ([30, 40] : List ℚ)).map fun y => ⟨(y.1 0 - 13 / 8) * 4, (y.1 1 - 15 / 8) * 4, (y.1 2 - 15 / 8) * 4, y.2, 1 / 8⟩) =
      Floating.volume doubles 2 0 0 0 ((cutPos.zip ([10, 20, 30, 40, 50, 60] : List ℚ)).map fun y => ⟨(y.1 0 - 13 / 8) * 4, (y.1 1 - 15 / 8) * 4, (y.1 2 - 15 / 8) * 4, y.2, 1 / 8⟩) := by
  refine c141_double_volume c141_doubles (β := ℚ) toEven c138_toEven exFile exFile_wf
    (fun d => ⟨1, 2, by norm_num, by norm_num, by norm_num [exFile]⟩)
    [some [5 / 4, 9 / 4], some [3 / 2, 5 / 2], some [3 / 2, 5 / 2]] cutReg ?_ (by decide +kernel) 0 cutPos [10, 20, 30, 40, 50, 60] rfl rfl
    cutPos_format cutPos_cells .contiguous .contiguous (by simp) (by simp) (by simp) (by simp) cutPos' [30, 40] ?_ ?_
    (fun d x => if d = 0 then (x - 13 / 8) * 4 else if d = 1 then (x - 15 / 8) * 4 else (x - 15 / 8) * 4) ?_ (fun _ => 1 / 8) id (1 / 8) (fun _ _ => le_refl _) 2 0 0 0 (no_copies ?_) (no_copies ?_) (no_copies ?_)
  · refine ⟨rfl, fun d => Or.inr ?_⟩
    fin_cases d <;> rfl
  · decide +kernel
  · decide +kernel
  · intro d x y h
    split
    · linarith
    · split <;> linarith
  · decide +kernel
  · decide +kernel
  · decide +kernel

end Verif.Props
