import Verif.Model.Floating
import Verif.Model.Power
import Mathlib.Data.Rat.Floor

/-!
# C79: compiled loops stay inside their arrays whatever the rounding
-/

set_option linter.unusedSectionVars false

namespace Verif.Props
open Verif Verif.Scatter

section
variable {F : Type} (A : Floating.Arith F)

private theorem fpaint_ok {ι : Type} [DecidableEq ι] (inside : ι → Bool) (ds : List (ι × F))
    (h : ∀ d ∈ ds, inside d.1 = true) : ∃ img, Floating.paint A inside ds = .ok img := by
  unfold Floating.paint
  generalize (fun _ : ι => A.zero) = img0
  induction ds generalizing img0 with
  | nil => exact ⟨img0, rfl⟩
  | cons d ds ih =>
    rw [List.foldlM_cons]
    have hd : inside d.1 = true := h d (by simp)
    unfold Floating.write
    rw [if_pos hd]
    exact ih (fun d' hd' => h d' (by simp [hd'])) _

private theorem fmem_irange {a b i : Int} : i ∈ irange a b → a ≤ i ∧ i < b := by
  unfold irange
  intro h
  rw [List.mem_map] at h
  obtain ⟨n, hn, rfl⟩ := h
  rw [List.mem_range] at hn
  omega

private theorem fspan_in {res : Nat} {pc cs i : Int} (h : i ∈ span res pc cs) : 0 ≤ i ∧ i < res := by
  have := fmem_irange h
  omega

private theorem fspanShort_in {res : Nat} {pc cs i : Int} (h : i ∈ spanShort res pc cs) : 0 ≤ i ∧ i < res := by
  have := fmem_irange h
  omega

private theorem fonGrid_in {res : Nat} {i : Int} (h : onGrid res i = true) : 0 ≤ i ∧ i < res := by
  unfold onGrid at h
  simp only [Bool.and_eq_true, decide_eq_true_eq] at h
  omega

private theorem finside2 {nx ny : Nat} {i j : Int} (hi : 0 ≤ i ∧ i < nx) (hj : 0 ≤ j ∧ j < ny) : inside2 nx ny (i, j) = true := by
  unfold inside2
  simp only [Bool.and_eq_true, decide_eq_true_eq]
  omega

private theorem finside3 {nx ny nz : Nat} {i j k : Int} (hi : 0 ≤ i ∧ i < nx) (hj : 0 ≤ j ∧ j < ny) (hk : 0 ≤ k ∧ k < nz) :
    inside3 nx ny nz (i, j, k) = true := by
  unfold inside3
  simp only [Bool.and_eq_true, decide_eq_true_eq]
  omega

private theorem fover2_in {res : Nat} {xs ys : List Int} {w : Int → Int → F} (hx : ∀ i ∈ xs, 0 ≤ i ∧ i < (res : Int))
    (hy : ∀ i ∈ ys, 0 ≤ i ∧ i < (res : Int)) : ∀ d ∈ Floating.over2 xs ys w, inside2 res res d.1 = true := by
  intro d hd
  unfold Floating.over2 at hd
  simp only [List.mem_flatMap, List.mem_map] at hd
  obtain ⟨i, hi, j, hj, rfl⟩ := hd
  exact finside2 (hx i hi) (hy j hj)

private theorem fover3_in {nx ny nz : Nat} {xs ys zs : List Int} {w : Int → Int → Int → F} (hx : ∀ i ∈ xs, 0 ≤ i ∧ i < (nx : Int))
    (hy : ∀ i ∈ ys, 0 ≤ i ∧ i < (ny : Int)) (hz : ∀ i ∈ zs, 0 ≤ i ∧ i < (nz : Int)) :
    ∀ d ∈ Floating.over3 xs ys zs w, inside3 nx ny nz d.1 = true := by
  intro d hd
  unfold Floating.over3 at hd
  simp only [List.mem_flatMap, List.mem_map] at hd
  obtain ⟨i, hi, j, hj, k, hk, rfl⟩ := hd
  exact finside3 (hx i hi) (hy j hj) (hz k hk)

private theorem fown_in {res : Nat} {p : Scatter.Part F} {w : F} : ∀ d ∈ Floating.ownCell2 A res p w, inside2 res res d.1 = true := by
  intro d hd
  unfold Floating.ownCell2 at hd
  split_ifs at hd with h
  · rw [Bool.and_eq_true] at h
    rw [List.mem_singleton] at hd
    rw [hd]
    exact finside2 (fonGrid_in h.1) (fonGrid_in h.2)
  · exact absurd hd (by simp)

private theorem ffast_in {res : Nat} {p : Scatter.Part F} : ∀ d ∈ Floating.fastDeps A res p, inside2 res res d.1 = true := by
  intro d hd
  unfold Floating.fastDeps at hd
  dsimp only at hd
  split_ifs at hd
  · exact absurd hd (by simp)
  · exact fown_in A d hd
  · exact fover2_in (fun _ => fspan_in) (fun _ => fspan_in) d hd

private theorem frenorm_in {res : Nat} {p : Scatter.Part F} : ∀ d ∈ Floating.renormalisedDeps A res p, inside2 res res d.1 = true := by
  intro d hd
  unfold Floating.renormalisedDeps at hd
  dsimp only at hd
  split_ifs at hd
  · exact absurd hd (by simp)
  · exact fown_in A d hd
  · exact fover2_in (fun _ => fspan_in) (fun _ => fspan_in) d hd

private theorem fref_in {res : Nat} (ps : List (Scatter.Part F)) : ∀ d ∈ Floating.referenceRow A res ps, inside2 res res d.1 = true := by
  induction ps with
  | nil => intro d hd; exact absurd hd (by simp [Floating.referenceRow])
  | cons p ps ih =>
    intro d hd
    unfold Floating.referenceRow at hd
    dsimp only at hd
    split_ifs at hd
    · exact ih d hd
    · exact absurd hd (by simp)
    · rw [List.mem_append] at hd
      rcases hd with hd | hd
      · exact fover2_in (fun _ => fspan_in) (fun _ => fspan_in) d hd
      · exact ih d hd

private theorem fdither_in {D res : Nat} {H : F} {p : Scatter.Part F} :
    ∀ d ∈ Floating.ditherDeps A D res H p, inside2 res res d.1 = true := by
  intro d hd
  unfold Floating.ditherDeps at hd
  simp only [List.mem_flatMap] at hd
  obtain ⟨a, -, b, -, hd⟩ := hd
  split_ifs at hd with h
  · rw [Bool.and_eq_true] at h
    rw [List.mem_singleton] at hd
    rw [hd]
    exact finside2 (fonGrid_in h.1) (fonGrid_in h.2)
  · exact absurd hd (by simp)

private theorem fsub_in {E D res : Nat} {p : Scatter.Part F} : ∀ d ∈ Floating.subsampledDeps A E D res p, inside2 res res d.1 = true := by
  intro d hd
  unfold Floating.subsampledDeps at hd
  dsimp only at hd
  split_ifs at hd with h1 h2 h3
  · exact absurd hd (by simp)
  · rw [Bool.and_eq_true, Bool.and_eq_true] at h3
    rw [List.mem_singleton] at hd
    rw [hd]
    exact finside2 (fonGrid_in h3.2.1) (fonGrid_in h3.2.2)
  · exact fdither_in A d hd
  · exact fover2_in (fun _ => fspan_in) (fun _ => fspan_in) d hd

private theorem fslice_in {res : Nat} {zs : F} {p : Scatter.Part F} : ∀ d ∈ Floating.sliceDeps A zs res p, inside2 res res d.1 = true := by
  intro d hd
  unfold Floating.sliceDeps at hd
  dsimp only at hd
  split_ifs at hd
  · exact absurd hd (by simp)
  · exact fover2_in (fun _ => fspanShort_in) (fun _ => fspanShort_in) d hd

private theorem flimited_in {small : F → Bool} {res resz : Nat} {p : Scatter.Part F} :
    ∀ d ∈ Floating.limitedDeps A small res resz p, inside3 res res resz d.1 = true := by
  intro d hd
  unfold Floating.limitedDeps at hd
  dsimp only at hd
  split_ifs at hd with h1 h2 h3
  · exact absurd hd (by simp)
  · rw [Bool.and_eq_true, Bool.and_eq_true] at h3
    rw [List.mem_singleton] at hd
    rw [hd]
    exact finside3 (fonGrid_in h3.1.1) (fonGrid_in h3.1.2) (fonGrid_in h3.2)
  · exact absurd hd (by simp)
  · exact fover3_in (fun _ => fspanShort_in) (fun _ => fspanShort_in) (fun _ => fspanShort_in) d hd

private theorem fover_in {inside : Int × Int → Bool} {dep : Scatter.Part F → List ((Int × Int) × F)} {bx by_ : F}
    (h : ∀ p, ∀ d ∈ dep p, inside d.1 = true) (ps : List (Scatter.Part F)) :
    ∀ d ∈ Floating.over A dep bx by_ ps, inside d.1 = true := by
  intro d hd
  unfold Floating.over at hd
  simp only [List.mem_flatMap] at hd
  obtain ⟨p, -, q, -, hd⟩ := hd
  exact h q d hd

private theorem fflat_in {ι : Type} {inside : ι → Bool} {dep : Scatter.Part F → List (ι × F)} {cop : Scatter.Part F → List (Scatter.Part F)}
    (h : ∀ p, ∀ d ∈ dep p, inside d.1 = true) (ps : List (Scatter.Part F)) :
    ∀ d ∈ ps.flatMap (fun p => (cop p).flatMap dep), inside d.1 = true := by
  intro d hd
  simp only [List.mem_flatMap] at hd
  obtain ⟨p, -, q, -, hd⟩ := hd
  exact h q d hd

/-- **C79** for the projections: whatever the results of the operations on floating-point numbers are, every backend writes
inside the image and returns one. -/
theorem c79_projections (res : Nat) (bx by_ : F) (ps : List (Scatter.Part F)) :
    (∃ img, Floating.histogram A res bx by_ ps = .ok img) ∧ (∃ img, Floating.fast A res bx by_ ps = .ok img) ∧
    (∃ img, Floating.renormalised A res bx by_ ps = .ok img) ∧ (∃ img, Floating.reference A res bx by_ ps = .ok img) ∧
    (∀ E D : Nat, ∃ img, Floating.subsampled A E D res bx by_ ps = .ok img) := by
  refine ⟨fpaint_ok A _ _ (fover_in A (fun p => fown_in A) ps), fpaint_ok A _ _ (fover_in A (fun p => ffast_in A) ps),
    fpaint_ok A _ _ (fover_in A (fun p => frenorm_in A) ps), fpaint_ok A _ _ ?_,
    fun E D => fpaint_ok A _ _ (fover_in A (fun p => fsub_in A) ps)⟩
  intro d hd
  simp only [List.mem_flatMap] at hd
  obtain ⟨p, -, i, -, hd⟩ := hd
  exact fref_in A _ d hd

/-- **C79** for the GPU: the same for every selection and order of the atomic additions of the threads. -/
theorem c79_gpu (res : Nat) (bx by_ : F) (ps : List (Scatter.Part F)) (ds : List ((Int × Int) × F))
    (h : ∀ d ∈ ds, ∃ t ∈ Floating.gpuThreads A bx by_ ps, d ∈ Floating.gpuThread A res bx by_ t) :
    ∃ img, Floating.gpu A res ds = .ok img := by
  refine fpaint_ok A _ _ fun d hd => ?_
  obtain ⟨t, -, ht⟩ := h d hd
  exact ffast_in A d ht

/-- **C79** for slices and voxel grids. -/
theorem c79_volumes (zs : F) (xres yres res ratio : Nat) (bx by_ bz : F) (ps : List (Scatter.Part F)) :
    (∃ img, Floating.slice A zs xres yres bx by_ bz ps = .ok img) ∧ (∃ img, Floating.volume A res bx by_ bz ps = .ok img) ∧
    (∃ img, Floating.limited A res ratio bx by_ bz ps = .ok img) := by
  refine ⟨?_, fpaint_ok A _ _ (fflat_in (fun p => flimited_in A) ps), fpaint_ok A _ _ (fflat_in (fun p => flimited_in A) ps)⟩
  obtain ⟨img, h⟩ := fpaint_ok A (inside2 (max xres yres) (max xres yres))
    (ps.flatMap fun p => (Floating.copies3 A (Floating.shifts A) bx by_ bz p).flatMap (Floating.sliceDeps A zs (max xres yres)))
    (fflat_in (fun p => fslice_in A) ps)
  refine ⟨fun q => if inside2 xres yres q then img q else A.zero, ?_⟩
  unfold Floating.slice
  rw [h]
  rfl

/-- **C79** for threads: a backend that returns an image for every list of particles does so with any number of threads,
whatever order they finish in. -/
theorem c79_parallel {α ι : Type} (scatter : List α → Except Err (ι → F)) (h : ∀ ps, ∃ img, scatter ps = .ok img)
    (threads : Nat) (order : List Nat) (ps : List α) : ∃ img, Floating.parallel A scatter threads order ps = .ok img := by
  unfold Floating.parallel
  generalize (fun _ : ι => A.zero) = img0
  induction order generalizing img0 with
  | nil => exact ⟨img0, rfl⟩
  | cons t l ih =>
    rw [List.foldlM_cons]
    obtain ⟨img, hi⟩ := h (block threads t ps)
    rw [hi]
    exact ih _

/-- `deposit` is different: its index is not tested, so it returns a grid exactly if every index happens to be inside. -/
theorem c79_deposit (res : Nat) (fold bx by_ bz : F) (ps : List (Scatter.Part F)) :
    (∃ grid, Floating.deposit A res fold bx by_ bz ps = .ok grid) ↔
      ∀ p ∈ ps, (0 ≤ Floating.pix A (A.single (A.ofInt res)) (A.div bx fold) p.x ∧
          Floating.pix A (A.single (A.ofInt res)) (A.div bx fold) p.x < res) ∧
        (0 ≤ Floating.pix A (A.single (A.ofInt res)) (A.div by_ fold) p.y ∧
          Floating.pix A (A.single (A.ofInt res)) (A.div by_ fold) p.y < res) ∧
        (0 ≤ Floating.pix A (A.single (A.ofInt res)) (A.div bz fold) p.z ∧
          Floating.pix A (A.single (A.ofInt res)) (A.div bz fold) p.z < res) := by
  constructor
  · rintro ⟨grid, h⟩ p hp
    have key : ∀ (ds : List ((Int × Int × Int) × F)) (img0 img : Int × Int × Int → F),
        ds.foldlM (Floating.write A (inside3 res res res)) img0 = .ok img → ∀ d ∈ ds, inside3 res res res d.1 = true := by
      intro ds
      induction ds with
      | nil => intro _ _ _ d hd; exact absurd hd (by simp)
      | cons e ds ih =>
        intro img0 img h d hd
        rw [List.foldlM_cons] at h
        by_cases he : inside3 res res res e.1 = true
        · unfold Floating.write at h
          rw [if_pos he] at h
          rcases List.mem_cons.1 hd with rfl | hd
          · exact he
          · exact ih _ _ h d hd
        · unfold Floating.write at h
          rw [if_neg he] at h
          exact absurd h (by simp [bind, Except.bind])
    have := key _ _ _ h _ (List.mem_map.2 ⟨p, hp, rfl⟩)
    unfold Floating.depositDeps inside3 Floating.res32 at this
    simp only [Bool.and_eq_true, decide_eq_true_eq] at this
    obtain ⟨⟨⟨⟨⟨h1, h2⟩, h3⟩, h4⟩, h5⟩, h6⟩ := this
    exact ⟨⟨h1, h2⟩, ⟨h3, h4⟩, h5, h6⟩
  · intro h
    refine fpaint_ok A _ _ fun d hd => ?_
    rw [List.mem_map] at hd
    obtain ⟨p, hp, rfl⟩ := hd
    obtain ⟨h1, h2, h3⟩ := h p hp
    exact finside3 h1 h2 h3

end

section
variable {K : Type} [Field K] [LinearOrder K] [FloorRing K] [IsStrictOrderedRing K]

private theorem ftrunc_int (n : Int) : trunc ((n : K)) = n := by
  unfold trunc
  split_ifs
  · exact Int.floor_intCast n
  · exact Int.ceil_intCast n

private theorem fsum (l : List K) : l.foldl (· + ·) 0 = l.sum := by
  rw [List.sum_eq_foldl]

private theorem fcell (W : K → K → K) (g : K) (res : Nat) (x : K) : Floating.cell (Floating.exact W g) res x = cell res x := by
  unfold Floating.cell cell Floating.exact
  dsimp only
  rw [ftrunc_int, Int.cast_natCast]

private theorem fpaint (W : K → K → K) (g : K) {ι : Type} [DecidableEq ι] (inside : ι → Bool) (ds : List (ι × K)) :
    Floating.paint (Floating.exact W g) inside ds = paint inside ds := rfl

private theorem fspanned (W : K → K → K) (g H : K) (res : Nat) : Floating.spanned (Floating.exact W g) H (res : K) = spanned H res := by
  unfold Floating.spanned spanned Floating.exact
  dsimp only
  rw [Int.cast_one]

private theorem fres32 (W : K → K → K) (g : K) (res : Nat) : Floating.res32 (Floating.exact W g) res = (res : K) := by
  unfold Floating.res32 Floating.exact
  dsimp only
  rw [Int.cast_natCast]
  rfl

private theorem fdist32 (W : K → K → K) (g : K) (res : Nat) (x : K) (i : Int) :
    Floating.dist32 (Floating.exact W g) res x i = dist2 res x i := by
  unfold Floating.dist32 dist2
  rw [fres32]
  unfold Floating.exact
  dsimp only [id]
  rw [Int.cast_one]

private theorem fdist64 (W : K → K → K) (g : K) (res : Nat) (x : K) (i : Int) :
    Floating.dist64 (Floating.exact W g) res x i = dist2 res x i := by
  unfold Floating.dist64 dist2 Floating.exact
  dsimp only
  rw [Int.cast_one, Int.cast_natCast]

private theorem fshifts (W : K → K → K) (g box : K) : Floating.shifts (Floating.exact W g) box = shifts box := by
  unfold Floating.shifts shifts Floating.exact
  dsimp only
  by_cases hb : box = 0
  · rw [if_pos hb, if_pos (by simpa using hb)]
  · rw [if_neg hb, if_neg (by simpa using hb)]
    rw [← Int.cast_add, ftrunc_int, Int.cast_one]

private theorem fcopies2 (W : K → K → K) (g bx by_ : K) (p : Scatter.Part K) :
    Floating.copies2 (Floating.exact W g) bx by_ p = copies2 bx by_ p := by
  unfold Floating.copies2 copies2
  rw [fshifts, fshifts]
  rfl

private theorem fcopies3 (W : K → K → K) (g : K) (sh : K → List Int) (bx by_ bz : K) (p : Scatter.Part K) :
    Floating.copies3 (Floating.exact W g) sh bx by_ bz p = copies3 sh bx by_ bz p := rfl

private theorem fown (W : K → K → K) (g : K) (res : Nat) (p : Scatter.Part K) :
    Floating.ownCell2 (Floating.exact W g) res p (p.m * ((res : K) * (res : K))) = ownCell2 res p := by
  unfold Floating.ownCell2 ownCell2
  rw [fcell, fcell]

private theorem ffastDeps (W : K → K → K) (g : K) (res : Nat) (p : Scatter.Part K) :
    Floating.fastDeps (Floating.exact W g) res p = fastDeps W g res p := by
  unfold Floating.fastDeps fastDeps
  rw [← fown W g]
  simp only [fcell, fres32, fdist32]
  have hH : (Floating.exact W g).mul (Floating.exact W g).gamma p.h = g * p.h := rfl
  rw [hH, fspanned]
  have hm : (Floating.exact W g).mul p.m ((Floating.exact W g).ofInt ((res : Int) * res)) = p.m * ((res : K) * (res : K)) := by
    unfold Floating.exact
    dsimp only
    rw [Int.cast_mul, Int.cast_natCast]
  rw [hm]
  rfl

private theorem fover (W : K → K → K) (g : K) (dep : Scatter.Part K → List ((Int × Int) × K)) (bx by_ : K) (ps : List (Scatter.Part K)) :
    Floating.over (Floating.exact W g) dep bx by_ ps = over dep bx by_ ps := by
  unfold Floating.over over
  simp only [fcopies2]

private theorem frenormDeps (W : K → K → K) (g : K) (res : Nat) (p : Scatter.Part K) :
    Floating.renormalisedDeps (Floating.exact W g) res p = renormalisedDeps W g res p := by
  have hH : (Floating.exact W g).mul (Floating.exact W g).gamma p.h = g * p.h := rfl
  have hr : (Floating.exact W g).ofInt ((res : Int) * res) = (res : K) * (res : K) := by
    unfold Floating.exact
    dsimp only
    rw [Int.cast_mul, Int.cast_natCast]
  have hs : ∀ (H : K) (cs : Int), Floating.kernelSum (Floating.exact W g) H res cs p = kernelSum W H res cs p := by
    intro H cs
    unfold Floating.kernelSum kernelSum
    simp only [fcell, fdist32]
    exact fsum _
  unfold Floating.renormalisedDeps renormalisedDeps
  rw [← fown W g]
  simp only [fcell, fres32, fdist32, hs, hr, hH, fspanned]
  rfl

private theorem frefRow (W : K → K → K) (g : K) (res : Nat) (ps : List (Scatter.Part K)) :
    Floating.referenceRow (Floating.exact W g) res ps = referenceRow W g res ps := by
  have hr : (Floating.exact W g).ofInt (res : Int) = (res : K) := by
    unfold Floating.exact
    dsimp only
    rw [Int.cast_natCast]
  induction ps with
  | nil => rfl
  | cons p ps ih =>
    have hH : (Floating.exact W g).mul (Floating.exact W g).gamma p.h = g * p.h := rfl
    unfold Floating.referenceRow referenceRow
    simp only [fcell, hr, fdist64, ih, hH, fspanned]
    rfl

private theorem fditherDeps (W : K → K → K) (g : K) (D res : Nat) (H : K) (p : Scatter.Part K) :
    Floating.ditherDeps (Floating.exact W g) D res H p = ditherDeps W D res H p := by
  have hp : ∀ (x : K) (a : Int), Floating.ditherPixel (Floating.exact W g) D res x H a = ditherPixel D res x H a := by
    intro x a
    unfold Floating.ditherPixel ditherPixel Floating.exact
    dsimp only
    rw [ftrunc_int, Int.cast_natCast, Int.cast_natCast, Int.cast_one]
  have hq : ∀ a : Int, Floating.ditherDist2 (Floating.exact W g) D a = ditherDist2 D a := by
    intro a
    unfold Floating.ditherDist2 ditherDist2 Floating.exact
    dsimp only
    rw [Int.cast_natCast]
  have hraw : ∀ a b : Int, Floating.ditherRaw (Floating.exact W g) D a b = ditherRaw W D a b := by
    intro a b
    unfold Floating.ditherRaw ditherRaw
    rw [hq, hq]
    unfold Floating.exact
    dsimp only [id]
    rw [Int.cast_natCast]
  have hsum : Floating.ditherSum (Floating.exact W g) D = ditherSum W D := by
    unfold Floating.ditherSum ditherSum
    simp only [hraw]
    exact fsum _
  have hd : ∀ a b : Int, Floating.dithered (Floating.exact W g) D res a b = dithered W D res a b := by
    intro a b
    unfold Floating.dithered dithered
    rw [hraw, hsum]
    unfold Floating.exact
    dsimp only
    rw [Int.cast_natCast]
  unfold Floating.ditherDeps ditherDeps
  simp only [hp, hd]
  rfl

private theorem fsubDeps (W : K → K → K) (g : K) (E D res : Nat) (p : Scatter.Part K) :
    Floating.subsampledDeps (Floating.exact W g) E D res p = subsampledDeps W E D g res p := by
  have hr : (Floating.exact W g).ofInt (res : Int) = (res : K) := by
    unfold Floating.exact
    dsimp only
    rw [Int.cast_natCast]
  have hH : (Floating.exact W g).mul (Floating.exact W g).gamma p.h = g * p.h := rfl
  have ho : ∀ x H : K, Floating.overlaps (Floating.exact W g) res x H = overlaps res x H := by
    intro x H
    unfold Floating.overlaps overlaps
    rw [fcell, hr]
    unfold Floating.exact
    dsimp only
    rw [Int.cast_one]
  have hS : ∀ H : K, Floating.subsampleFactor (Floating.exact W g) E H res = subsampleFactor E H res := by
    intro H
    unfold Floating.subsampleFactor subsampleFactor
    rw [hr]
    unfold Floating.exact
    dsimp only
    rw [ftrunc_int, Int.cast_one, Int.cast_natCast]
  have hd : ∀ (S : Int) (x : K) (i s : Int), Floating.sampleDist2 (Floating.exact W g) res S x i s = sampleDist2 res S x i s := by
    intro S x i s
    unfold Floating.sampleDist2 sampleDist2
    rw [hr]
    unfold Floating.exact
    dsimp only
    rw [Int.cast_one]
  have he : ∀ (S : Int) (H : K) (i j : Int), Floating.kernelEval (Floating.exact W g) res S H p i j = kernelEval W res S H p i j := by
    intro S H i j
    unfold Floating.kernelEval kernelEval
    simp only [hd]
    exact fsum _
  have hone : (Floating.exact W g).ofInt 1 = (1 : K) := Int.cast_one
  have hl : ∀ H : K, (Floating.exact W g).le H ((Floating.exact W g).mul (Floating.exact W g).quarter ((Floating.exact W g).div 1 (res : K)))
      = decide (H ≤ 1 / 4 * (1 / (res : K))) := fun H => rfl
  unfold Floating.subsampledDeps subsampledDeps
  simp only [fcell, hr, hH, fspanned, ho, hS, he, fditherDeps, hone, hl, decide_eq_true_eq]
  rfl

private theorem fsliceDeps (W : K → K → K) (g zs : K) (res : Nat) (p : Scatter.Part K) :
    Floating.sliceDeps (Floating.exact W g) zs res p = sliceDeps W g zs res p := by
  have hH : (Floating.exact W g).mul (Floating.exact W g).gamma p.h = g * p.h := rfl
  unfold Floating.sliceDeps sliceDeps
  simp only [fcell, fres32, fdist32, hH, fspanned]
  rfl

private theorem fdropped (W : K → K → K) (g : K) (res : Nat) (H : K) :
    Floating.dropped (Floating.exact W g) res H = decide (H < 1 / (res : K) * (1 / 2)) := by
  unfold Floating.dropped
  rw [fres32]
  unfold Floating.exact
  dsimp only
  rw [Int.cast_one]

private theorem fvolDeps (W : K → K → K) (g : K) (res : Nat) (p : Scatter.Part K) :
    Floating.limitedDeps (Floating.exact W g) (Floating.dropped (Floating.exact W g) res) res res p = volumeDeps W g res p := by
  have hH : (Floating.exact W g).mul (Floating.exact W g).gamma p.h = g * p.h := rfl
  unfold Floating.limitedDeps volumeDeps
  simp only [fcell, fres32, fdist32, hH, fspanned, fdropped, decide_eq_true_eq]
  rfl

private theorem flimDeps (W : K → K → K) (g : K) (res resz : Nat) (p : Scatter.Part K) :
    Floating.limitedDeps (Floating.exact W g)
      (fun H => Floating.dropped (Floating.exact W g) res H || Floating.dropped (Floating.exact W g) resz H) res resz p
      = limitedDeps W g res resz p := by
  have hH : (Floating.exact W g).mul (Floating.exact W g).gamma p.h = g * p.h := rfl
  unfold Floating.limitedDeps limitedDeps
  simp only [fcell, fres32, fdist32, hH, fspanned, fdropped]
  rfl

/-- With exact arithmetic the loops are those of `Verif.Model.Scatter`, `Verif.Model.Subsampled` and `Verif.Model.Power`, so
what C36 to C42 and C61 say about images is about an instance of the loops of C79. -/
theorem c79_exact (W : K → K → K) (g : K) (res : Nat) (bx by_ bz : K) (ps : List (Scatter.Part K)) :
    Floating.histogram (Floating.exact W g) res bx by_ ps = histogram res bx by_ ps ∧
    Floating.fast (Floating.exact W g) res bx by_ ps = fast W g res bx by_ ps ∧
    Floating.renormalised (Floating.exact W g) res bx by_ ps = renormalised W g res bx by_ ps ∧
    Floating.reference (Floating.exact W g) res bx by_ ps = reference W g res bx by_ ps ∧
    (∀ E D : Nat, Floating.subsampled (Floating.exact W g) E D res bx by_ ps = subsampled W E D g res bx by_ ps) ∧
    (∀ (zs : K) (xres yres : Nat), Floating.slice (Floating.exact W g) zs xres yres bx by_ bz ps = slice W g zs xres yres bx by_ bz ps) ∧
    Floating.volume (Floating.exact W g) res bx by_ bz ps = volume W g res bx by_ bz ps ∧
    (∀ ratio : Nat, Floating.limited (Floating.exact W g) res ratio bx by_ bz ps = limited W g res ratio bx by_ bz ps) ∧
    (∀ fold : K, Floating.deposit (Floating.exact W g) res fold bx by_ bz ps = Power.deposit res fold bx by_ bz ps) := by
  refine ⟨?_, ?_, ?_, ?_, ?_, ?_, ?_, ?_, ?_⟩
  · unfold Floating.histogram histogram
    rw [fover, fpaint]
    congr 2
    funext p
    unfold Floating.histogramDeps histogramDeps
    rw [← fown W g]
    unfold Floating.exact
    dsimp only
    rw [Int.cast_natCast]
  · unfold Floating.fast fast
    rw [fover, fpaint, funext (ffastDeps W g res)]
  · unfold Floating.renormalised renormalised
    rw [fover, fpaint, funext (frenormDeps W g res)]
  · unfold Floating.reference reference
    rw [fpaint, fshifts, fshifts]
    simp only [frefRow]
    rfl
  · intro E D
    unfold Floating.subsampled subsampled
    rw [fover, fpaint, funext (fsubDeps W g E D res)]
  · intro zs xres yres
    unfold Floating.slice slice
    rw [fpaint, funext (fsliceDeps W g zs (max xres yres)), funext (fshifts W g)]
    rfl
  · unfold Floating.volume volume
    rw [fpaint, funext (fvolDeps W g res), funext (fshifts W g)]
    rfl
  · intro ratio
    have hs : Floating.shiftsLimited (Floating.exact W g) = shiftsLimited := by
      funext b
      unfold Floating.shiftsLimited shiftsLimited Floating.exact
      simp only [decide_eq_true_eq]
    unfold Floating.limited limited
    rw [fpaint, funext (flimDeps W g res (res / ratio)), hs]
    rfl
  · intro fold
    unfold Floating.deposit Power.deposit
    rw [fpaint]
    congr 2
    funext p
    unfold Floating.depositDeps Power.depositDeps
    dsimp only
    rw [fres32]
    have hp : ∀ over v : K, Floating.pix (Floating.exact W g) (res : K) over v = Power.pix res over v := by
      intro over v
      unfold Floating.pix Power.pix Floating.exact Frame.pmod
      dsimp only
      rw [Int.cast_one]
    rw [hp, hp, hp]
    rfl

/-- The same for the threads of the GPU, each with its additions, and for threads of the processor. -/
theorem c79_exact_threads (W : K → K → K) (g : K) (res : Nat) (bx by_ : K) (ps : List (Scatter.Part K)) :
    (Floating.gpuThreads (Floating.exact W g) bx by_ ps).map (Floating.gpuThread (Floating.exact W g) res bx by_) =
      (gpuThreads bx by_ ps).map (gpuThread W g res bx by_) ∧
    (∀ ds, Floating.gpu (Floating.exact W g) res ds = gpu res ds) ∧
    ∀ {ι : Type} (scatter : List (Scatter.Part K) → Except Err (ι → K)) (threads : Nat) (order : List Nat),
      Floating.parallel (Floating.exact W g) scatter threads order ps = parallel scatter threads order ps := by
  refine ⟨?_, fun ds => ?_, fun scatter threads order => rfl⟩
  · have hs : ∀ box : K, shiftsGpu box = (List.range (Floating.shiftsGpu (Floating.exact W g) box)).map fun n : Nat => (n : Int) - 1 := by
      intro box
      unfold shiftsGpu Floating.shiftsGpu Floating.exact
      simp only [decide_eq_true_eq]
      congr 2
      by_cases h : box = 0
      · rw [if_pos h, if_pos h]
      · rw [if_neg h, if_neg h]
        congr 1
        rw [show ((⌈((1 : Int) : K) / box⌉ : K) + ((2 : Int) : K)) = ((⌈((1 : Int) : K) / box⌉ + 2 : Int) : K) by push_cast; rfl, ftrunc_int]
        simp
    unfold Floating.gpuThreads gpuThreads
    rw [hs, hs, List.map_flatMap, List.map_flatMap]
    congr 1
    funext p
    rw [List.map_flatMap, List.map_flatMap, List.flatMap_map]
    congr 1
    funext i
    rw [List.map_map, List.map_map, List.map_map]
    congr 1
    funext j
    simp only [Function.comp]
    unfold Floating.gpuThread gpuThread
    rw [ffastDeps]
    unfold Floating.exact
    simp only [Int.cast_natCast, Int.cast_one, Int.cast_sub]
  · unfold Floating.gpu gpu
    rw [fpaint]

end

/-- An arithmetic whose conversion to integers returns seven, whatever the number (as the conversion of a number that is not a
number may do). -/
private def nonsense : Floating.Arith Rat :=
  { Floating.exact (fun r _ => r) (1 : Rat) with toInt := fun _ => 7, lt := fun _ _ => true, le := fun _ _ => false }

/-- The backend returns an image of four pixels with it, `deposit` refuses a grid of four and takes one of eight cells. -/
example : (∃ img, Floating.fast nonsense 4 1 1 [⟨1 / 3, 1 / 2, 0, 1, 1 / 8⟩] = .ok img) ∧
    ¬ (∃ grid, Floating.deposit nonsense 4 1 1 1 1 [⟨1 / 3, 1 / 2, 0, 1, 1 / 8⟩] = .ok grid) ∧
    (∃ grid, Floating.deposit nonsense 8 1 1 1 1 [⟨1 / 3, 1 / 2, 0, 1, 1 / 8⟩] = .ok grid) := by
  refine ⟨(c79_projections nonsense 4 1 1 _).2.1, ?_, ?_⟩
  · rw [c79_deposit]
    intro h
    have := (h _ (List.mem_singleton.2 rfl)).1.2
    exact absurd this (by decide +kernel)
  · rw [c79_deposit]
    intro p hp
    exact ⟨⟨(by decide : (0 : Int) ≤ 7), (by decide : (7 : Int) < 8)⟩, ⟨(by decide : (0 : Int) ≤ 7), (by decide : (7 : Int) < 8)⟩,
      (by decide : (0 : Int) ≤ 7), (by decide : (7 : Int) < 8)⟩

/-- A box of half the image along one axis, not periodic along the other: four threads. -/
example : (Floating.gpuThreads (Floating.exact (fun r _ => r) (1 : Rat)) (1 / 2) 0 [⟨1 / 3, 1 / 2, 0, 1, 1 / 8⟩]).length = 4 := by decide +kernel

end Verif.Props
