import Verif.Model.Sizes
import Verif.Props.Cosmo
import Verif.Props.Nearest
import Verif.Props.MaskedImage

/-!
# C91: fields and sizes of particles in images
-/

namespace Verif.Props
open Verif Verif.Cosmo Verif.Sizes

private theorem cube_root (x : ℝ) : cubeRoot x ^ 3 = x := by
  unfold cubeRoot
  have key : ∀ y : ℝ, 0 ≤ y → (y ^ (1 / 3 : ℝ)) ^ 3 = y := by
    intro y hy
    rw [← Real.rpow_natCast, ← Real.rpow_mul hy]
    norm_num
  by_cases h : 0 ≤ x
  · rw [if_pos h, key x h]
  · rw [if_neg h, Odd.neg_pow (by decide), key (-x) (by linarith)]
    ring

private theorem root_array {a k : ℝ} {v : Arr} (hv : Conv a k v) :
    ∃ h, ufunc .cbrt (num1 cubeRoot) [.cosmo v] = .ok h ∧ Conv a (k / 3) h ∧ h.comoving = v.comoving ∧ h.phys.map (fun x => x ^ 3) = v.phys := by
  obtain ⟨z, h1, h2, h3, h4⟩ := (c24_unary hv).2.2.2
  refine ⟨z, h1, h2, h4, ?_⟩
  rw [h3, List.map_map]
  conv_rhs => rw [← List.map_id v.phys]
  apply List.map_congr_left
  intro x _
  exact cube_root x

/-- C91: with volumes, the cubes of the sizes are the volumes, in the frame of the volumes; sizes of volumes are lengths. -/
theorem c91_volumes {a k : ℝ} {g : Group} {v : Arr} (hg : g.volumes = some v) (hv : Conv a k v) :
    ∃ h, hsmlNearest g = .ok h ∧ Conv a (k / 3) h ∧ h.comoving = v.comoving ∧ h.phys.map (fun x => x ^ 3) = v.phys := by
  unfold hsmlNearest
  rw [hg]
  exact root_array hv

/-- C91: without volumes, the cubes of the sizes are masses over densities, whatever the frames of the two. -/
theorem c91_densities {a k l : ℝ} {g : Group} {m d : Arr} (hg : g.volumes = none) (hm : g.masses = some m) (hd : g.densities = some d)
    (hm' : Conv a k m) (hd' : Conv a l d) (hl : m.val.length = d.val.length) :
    ∃ h, hsmlNearest g = .ok h ∧ Conv a ((k - l) / 3) h ∧
      h.phys.map (fun x => x ^ 3) = List.zipWith (fun x y => x / y) m.phys d.phys := by
  have len : ∀ x : Arr, x.phys.length = x.val.length := by
    intro x
    unfold Arr.phys
    split <;> simp
  obtain ⟨e1, e2⟩ := c24_divide (o := .cosmo m) (p := .cosmo d) hm'.pos hm' hd' (.inl ⟨m, rfl⟩)
  have e3 : num2 (fun x y : ℝ => x / y) [m.phys, d.phys] = .ok (List.zipWith (fun x y => x / y) m.phys d.phys) := by
    unfold num2 bcast2
    dsimp only
    rw [if_pos (by rw [len, len, hl])]
  simp only [Opd.phys] at e1
  rw [e3] at e1
  unfold hsmlNearest
  rw [hg, hm, hd]
  dsimp only
  cases hq : ufunc .divide (num2 (fun x y : ℝ => x / y)) [.cosmo m, .cosmo d] with
  | error e => rw [hq] at e1; simp [Except.map] at e1
  | ok v =>
    rw [hq] at e1
    have e4 : v.phys = List.zipWith (fun x y => x / y) m.phys d.phys := Except.ok.inj e1
    obtain ⟨h, h1, h2, -, h4⟩ := root_array (e2 v hq)
    exact ⟨h, h1, h2, h4.trans e4⟩

/-- C91: groups with neither are drawn with their smoothing lengths, under the new name or the old one, and others raise. -/
theorem c91_fallback {g : Group} (hv : g.volumes = none) (hd : g.masses = none ∨ g.densities = none) :
    hsmlNearest g = hsmlSph g ∧ (∀ h, g.smoothingLengths = some h → hsmlSph g = .ok h) ∧
      (∀ h, g.smoothingLengths = none → g.smoothingLength = some h → hsmlSph g = .ok h) ∧
      (g.smoothingLengths = none → g.smoothingLength = none → hsmlSph g = .error .attribute) := by
  refine ⟨?_, ?_, ?_, ?_⟩
  · unfold hsmlNearest
    rw [hv]
    dsimp only
    rcases hd with h | h
    · rw [h]
    · rw [h]
      cases g.masses <;> rfl
  · intro h e; unfold hsmlSph; rw [e]
  · intro h e e'; unfold hsmlSph; rw [e, e']
  · intro e e'; unfold hsmlSph; rw [e, e']

section
open Verif.Spec Verif.Frame Verif.Nearest Verif.MaskedImage

private theorem slice_any {query : ℝ × ℝ × ℝ → List (ℝ × ℝ × ℝ) → ℝ × ℝ × ℝ → Nat} (hq : IsTree query) {res : Nat} (hr : 0 < res)
    {Lx Ly Lz : ℝ} {periodic : Bool} (hL : periodic = true → 0 < Lx ∧ 0 < Ly ∧ 0 < Lz) {x0 x1 y0 y1 : ℝ} (hx : x0 < x1) (hy : y0 < y1)
    (depth : Option (ℝ × ℝ)) (zs : ℝ) {hs vol : List ℝ} (hv : hs.map (fun x => x ^ 3) = vol)
    (xs : List (ℝ × ℝ × ℝ)) (fs : List ℝ) (flags : List Bool) (hsome : ∃ p ∈ assemble ⟨xs, fs, hs, flags⟩, p.2 = true) :
    ∃ out, sliceGrid (Nearest.slice query) (Lx, Ly, Lz) (some (limits x0 x1 y0 y1 depth)) zs periodic true res
        (assemble ⟨xs, fs, hs, flags⟩) = .ok out ∧
      ∀ i j, OnImage out.nx i → OnImage out.ny j → ∃ (n : Nat) (p : Scatter.Part ℝ) (f v : ℝ), (assemble ⟨xs, fs, hs, flags⟩)[n]? = some (p, true) ∧
        NearestOf (period periodic Lx) (period periodic Ly) (period periodic Lz)
          (((assemble ⟨xs, fs, hs, flags⟩).filter fun p => p.2).map Prod.fst)
          (x0 + (i + 1 / 2) * (max (x1 - x0) (y1 - y0) / res), y0 + (j + 1 / 2) * (max (x1 - x0) (y1 - y0) / res), zs) p ∧
        fs[n]? = some f ∧ vol[n]? = some v ∧ out.img (i, j) = f / v := by
  obtain ⟨out, o1, -, -, o2⟩ := c60_slice hq hr Lx Ly Lz periodic hL hx hy depth zs _ hsome
  refine ⟨out, o1, fun i j hi hj => ?_⟩
  obtain ⟨p, hn, ho⟩ := o2 i j hi hj
  obtain ⟨q, hq1, rfl⟩ := List.mem_map.1 hn.1
  obtain ⟨hq2, hq3⟩ := List.mem_filter.1 hq1
  obtain ⟨n, hn2⟩ := List.mem_iff_getElem?.1 hq2
  have hq4 : q = (q.1, true) := by obtain ⟨q1, q2⟩ := q; simp at hq3; rw [hq3]
  obtain ⟨-, em, eh, -⟩ := (c81_particles _ n q).1 hn2
  exact ⟨n, q.1, _, _, by rw [hn2, ← hq4], hn, em, by rw [← hv, List.getElem?_map, eh, Option.map_some], ho⟩

/-- C91: the nearest-neighbour slice of any field of a group with volumes. Every pixel has the field of a particle nearest to its centre,
over the physical volume of this particle. -/
theorem c91_slice_volumes {query : ℝ × ℝ × ℝ → List (ℝ × ℝ × ℝ) → ℝ × ℝ × ℝ → Nat} (hq : IsTree query) {res : Nat} (hr : 0 < res)
    {Lx Ly Lz : ℝ} {periodic : Bool} (hL : periodic = true → 0 < Lx ∧ 0 < Ly ∧ 0 < Lz) {x0 x1 y0 y1 : ℝ} (hx : x0 < x1) (hy : y0 < y1)
    (depth : Option (ℝ × ℝ)) (zs : ℝ) {a k : ℝ} {g : Group} {v h : Arr} (hg : g.volumes = some v) (hv : Conv a k v)
    (hs : sliceSizes "nearest_neighbours".toList g = .ok h)
    (xs : List (ℝ × ℝ × ℝ)) (fs : List ℝ) (flags : List Bool) (hsome : ∃ p ∈ assemble ⟨xs, fs, h.phys, flags⟩, p.2 = true) :
    ∃ out, sliceGrid (Nearest.slice query) (Lx, Ly, Lz) (some (limits x0 x1 y0 y1 depth)) zs periodic true res
        (assemble ⟨xs, fs, h.phys, flags⟩) = .ok out ∧
      ∀ i j, OnImage out.nx i → OnImage out.ny j → ∃ (n : Nat) (p : Scatter.Part ℝ) (f w : ℝ), (assemble ⟨xs, fs, h.phys, flags⟩)[n]? = some (p, true) ∧
        NearestOf (period periodic Lx) (period periodic Ly) (period periodic Lz)
          (((assemble ⟨xs, fs, h.phys, flags⟩).filter fun p => p.2).map Prod.fst)
          (x0 + (i + 1 / 2) * (max (x1 - x0) (y1 - y0) / res), y0 + (j + 1 / 2) * (max (x1 - x0) (y1 - y0) / res), zs) p ∧
        fs[n]? = some f ∧ v.phys[n]? = some w ∧ out.img (i, j) = f / w := by
  obtain ⟨h', e1, -, -, e2⟩ := c91_volumes hg hv
  have hs : hsmlNearest g = .ok h := hs
  rw [hs] at e1
  cases Except.ok.inj e1
  exact slice_any hq hr hL hx hy depth zs e2 xs fs flags hsome

/-- C91: the nearest-neighbour slice of the masses of a group without volumes shows densities. Every pixel has the physical density
of a particle nearest to its centre. -/
theorem c91_slice_densities {query : ℝ × ℝ × ℝ → List (ℝ × ℝ × ℝ) → ℝ × ℝ × ℝ → Nat} (hq : IsTree query) {res : Nat} (hr : 0 < res)
    {Lx Ly Lz : ℝ} {periodic : Bool} (hL : periodic = true → 0 < Lx ∧ 0 < Ly ∧ 0 < Lz) {x0 x1 y0 y1 : ℝ} (hx : x0 < x1) (hy : y0 < y1)
    (depth : Option (ℝ × ℝ)) (zs : ℝ) {a k l : ℝ} {g : Group} {m d h : Arr} (hg : g.volumes = none) (hm : g.masses = some m)
    (hd : g.densities = some d) (hm' : Conv a k m) (hd' : Conv a l d) (hl : m.val.length = d.val.length)
    (hm0 : ∀ x ∈ m.phys, x ≠ 0) (hd0 : ∀ x ∈ d.phys, x ≠ 0) (hs : sliceSizes "nearest_neighbours".toList g = .ok h)
    (xs : List (ℝ × ℝ × ℝ)) (flags : List Bool) (hsome : ∃ p ∈ assemble ⟨xs, m.phys, h.phys, flags⟩, p.2 = true) :
    ∃ out, sliceGrid (Nearest.slice query) (Lx, Ly, Lz) (some (limits x0 x1 y0 y1 depth)) zs periodic true res
        (assemble ⟨xs, m.phys, h.phys, flags⟩) = .ok out ∧
      ∀ i j, OnImage out.nx i → OnImage out.ny j → ∃ (n : Nat) (p : Scatter.Part ℝ), (assemble ⟨xs, m.phys, h.phys, flags⟩)[n]? = some (p, true) ∧
        NearestOf (period periodic Lx) (period periodic Ly) (period periodic Lz)
          (((assemble ⟨xs, m.phys, h.phys, flags⟩).filter fun p => p.2).map Prod.fst)
          (x0 + (i + 1 / 2) * (max (x1 - x0) (y1 - y0) / res), y0 + (j + 1 / 2) * (max (x1 - x0) (y1 - y0) / res), zs) p ∧
        d.phys[n]? = some (out.img (i, j)) := by
  obtain ⟨h', e1, -, e2⟩ := c91_densities hg hm hd hm' hd' hl
  have hs : hsmlNearest g = .ok h := hs
  rw [hs] at e1
  cases Except.ok.inj e1
  obtain ⟨out, o1, o2⟩ := slice_any hq hr hL hx hy depth zs e2 xs m.phys flags hsome
  refine ⟨out, o1, fun i j hi hj => ?_⟩
  obtain ⟨n, p, f, v, h1, h2, h3, h4, h5⟩ := o2 i j hi hj
  refine ⟨n, p, h1, h2, ?_⟩
  rw [List.getElem?_zipWith, h3] at h4
  cases ed : d.phys[n]? with
  | none => rw [ed] at h4; simp at h4
  | some ρ =>
    rw [ed] at h4
    simp only [Option.some.injEq] at h4
    have f0 := hm0 _ (List.mem_of_getElem? h3)
    have r0 := hd0 _ (List.mem_of_getElem? ed)
    rw [h5, ← h4]
    congr 1
    field_simp

end

/-! ## The field -/

/-- Names joined by dots. -/
def dotted : List (List Char) → List Char
  | [] => []
  | [w] => w
  | w :: ws => w ++ '.' :: dotted ws

private theorem split_word : ∀ (w s : List Char), '.' ∉ w → splitDots (w ++ '.' :: s) = w :: splitDots s
  | [], s, _ => by simp [splitDots]
  | c :: w, s, h => by
    simp only [List.mem_cons, not_or] at h
    rw [List.cons_append, splitDots, if_neg (Ne.symm h.1), split_word w s h.2]

private theorem split_last : ∀ w : List Char, '.' ∉ w → splitDots w = [w]
  | [], _ => rfl
  | c :: w, h => by
    simp only [List.mem_cons, not_or] at h
    rw [splitDots, if_neg (Ne.symm h.1), split_last w h.2]

private theorem split_dotted : ∀ ws : List (List Char), ws ≠ [] → (∀ w ∈ ws, '.' ∉ w) → splitDots (dotted ws) = ws
  | [], h, _ => absurd rfl h
  | [w], _, h => split_last w (h w (by simp))
  | w :: v :: ws, _, h => by
    rw [dotted, split_word w _ (h w (by simp)), split_dotted (v :: ws) (by simp) (fun x hx => h x (by simp [hx]))]
    simp

/-- C91: `project="a.b.c"` is the attribute `c` of the attribute `b` of the attribute `a` of the dataset; the first attribute that is not
there raises. Without a name every particle counts once. -/
theorem c91_field {O : Type} (getattr : O → List Char → Except Err O) (onesLike : O → O) (data : O) :
    (∀ w : List Char, '.' ∉ w → projectionField getattr onesLike data (some w) = getattr data w) ∧
    (∀ (w : List Char) (ws : List (List Char)), '.' ∉ w → ws ≠ [] → (∀ v ∈ ws, '.' ∉ v) →
      projectionField getattr onesLike data (some (dotted (w :: ws))) =
        (getattr data w).bind fun o => projectionField getattr onesLike o (some (dotted ws))) ∧
    projectionField getattr onesLike data none = (getattr data "particle_ids".toList).map onesLike := by
  refine ⟨fun w hw => ?_, fun w ws hw hne hws => ?_, ?_⟩
  · simp only [projectionField, split_last w hw, List.foldlM_cons, List.foldlM_nil]
    cases getattr data w <;> rfl
  · have h1 : splitDots (dotted (w :: ws)) = w :: ws := split_dotted _ (by simp) (by simpa using ⟨hw, hws⟩)
    simp only [projectionField, h1, split_dotted ws hne hws, List.foldlM_cons]
    rfl
  · simp only [projectionField]
    cases getattr data "particle_ids".toList <;> rfl

/-! ## What does not hold -/

/-- C91 fails for projections with `backend="histogram"` of groups without `masses`, such as black holes: whatever field is
projected, and although no size is used, the missing attribute raises. -/
theorem c91_histogram_fails (memory : Nat → ℝ) {g : Group} (hm : g.masses = none) :
    projectSizes "histogram".toList memory g = .error .attribute := by
  unfold projectSizes hsmlHistogram
  rw [if_pos rfl, hm]

/-- C91 fails for groups without volumes and densities: what a nearest-neighbour slice shows depends on the smoothing lengths, which are no
volumes. Here two groups that differ in nothing else. -/
theorem c91_fallback_fails {g : Group} (hv : g.volumes = none) (hd : g.densities = none) (h : Arr) :
    sliceSizes "nearest_neighbours".toList { g with smoothingLengths := some h } = .ok h := by
  have e : sliceSizes "nearest_neighbours".toList { g with smoothingLengths := some h } = hsmlNearest { g with smoothingLengths := some h } := rfl
  rw [e]
  obtain ⟨h1, h2, -⟩ := c91_fallback (g := { g with smoothingLengths := some h }) hv (.inr hd)
  rw [h1]
  exact h2 h rfl

/-! ## The hypotheses can be met -/

/-- Masses in the physical frame and comoving densities of two particles, as in `c91_slice_densities`. -/
example : ∃ m d : Arr, Conv (1 / 2) 0 m ∧ Conv (1 / 2) (-3) d ∧ m.comoving ≠ d.comoving ∧ m.val.length = d.val.length ∧
    (∀ x ∈ m.phys, x ≠ 0) ∧ ∀ x ∈ d.phys, x ≠ 0 := by
  refine ⟨⟨[1, 2], some false, some ⟨some 0, some (1 / 2)⟩, true⟩, ⟨[3, 5], some true, some ⟨some (-3), some (1 / 2)⟩, true⟩,
    ⟨by norm_num, rfl, rfl, by simp⟩, ⟨by norm_num, rfl, rfl, by simp⟩, by simp, rfl, ?_, ?_⟩
  · simp [Arr.phys]
  · simp only [Arr.phys, List.map_cons, List.map_nil, List.mem_cons, List.not_mem_nil, or_false]
    rintro x (rfl | rfl) <;> positivity

/-- A nested name. -/
example : splitDots "element_abundances.carbon".toList = ["element_abundances".toList, "carbon".toList] := by decide

end Verif.Props
