import Verif.Props.FloatingImages

/-!
# C143: images through the sides of the box made from masked data are the same to the last digit (`swiftsimio/visualisation`)
-/

namespace Verif.Props
open Verif Verif.Spec Verif.Scatter Mask Accel

variable {F : Type} [LinearOrder F] {A : Floating.Arith F}

private theorem mem_of_loaded {α : Type} {m : Nat} {fl : ℚ → ℚ} {f : File ℚ m} (hf : WF f) {calls : List (List (Option (List ℚ)))} {k : Fin m}
    {ds ds' : List α} (hds : ds.length = f.rows k) {lay : Layout} (hlay : lay ≠ .remote) (hc : ∀ c, lay = .chunked c → 0 < c)
    (hl : load (RoundedMask.spatials fl f calls) lay ds k = .ok (ds'.map some)) {v : α} (hv : v ∈ ds') : v ∈ ds := by
  obtain ⟨l, r1, -, -, -⟩ := c138_read fl f hf calls k ds hds lay hlay hc
  rw [hl] at r1
  have h1 : some v ∈ select ds l := (Except.ok.inj r1) ▸ List.mem_map.2 ⟨v, hv, rfl⟩
  unfold select at h1
  rw [List.mem_map] at h1
  obtain ⟨i, -, hi⟩ := h1
  unfold valueAt at hi
  split at hi
  · exact absurd hi (by simp)
  · exact List.mem_of_getElem? hi

/-- A position is in one of the accepted regions, or in a periodic copy of it, by more than the box length divided by 2 to the power 49. -/
def InRegions {m : Nat} (ρ : ℚ → ℤ) (f : File ℚ m) (calls : List (List (Option (List ℚ)))) (x : Fin 3 → ℚ) : Prop :=
  ∃ rows ∈ calls, ∃ reg, RegionIs f.box rows reg ∧ RoundedMask.regionOk (nearest 53 (-1074) ρ) f.box reg = true ∧
    ∀ d, WellInside (f.box d / 2 ^ 49) (f.box d) (reg d).1 (reg d).2 (x d)

open Classical in
/-- C143. Positions and other values are read in double precision with a mask of any number of regions, which may reach over the sides of the box.
Whatever is drawn from them is the same as from the whole file, if leaving out particles with the property `Q` does not change the drawing and all
particles that are in none of the regions have it. -/
theorem c143_masked {γ : Type} {β : Type} {m : Nat} (ρ : ℚ → ℤ) (hρ : ToNearest ρ) (f : File ℚ m) (hf : WF f) (hb : ∀ d, InFormat 53 (-1074) (f.box d))
    (hL : ∀ d, 2 ^ (-1000 : ℤ) ≤ f.box d) (calls : List (List (Option (List ℚ)))) (k : Fin m) (pos : List (Fin 3 → ℚ)) (vals : List β)
    (hpos : pos.length = f.rows k) (hvals : vals.length = f.rows k) (hbox : ∀ x ∈ pos, ∀ d, 0 ≤ x d ∧ x d ≤ f.box d)
    (hcells : ∀ (i : Nat) (x : Fin 3 → ℚ), pos[i]? = some x → ∃ c ∈ f.cells k, Holds c i ∧ ∀ d, c.lo d ≤ x d ∧ x d ≤ c.hi d)
    (lay lay' : Layout) (hlay : lay ≠ .remote) (hc : ∀ c, lay = .chunked c → 0 < c) (hlay' : lay' ≠ .remote)
    (hc' : ∀ c, lay' = .chunked c → 0 < c) (pos' : List (Fin 3 → ℚ)) (vals' : List β)
    (hl : load (RoundedMask.spatials (nearest 53 (-1074) ρ) f calls) lay pos k = .ok (pos'.map some))
    (hl' : load (RoundedMask.spatials (nearest 53 (-1074) ρ) f calls) lay' vals k = .ok (vals'.map some))
    (part : (Fin 3 → ℚ) × β → Scatter.Part F) (hmax : F) (hw : ∀ x ∈ pos, ∀ v ∈ vals, (part (x, v)).h ≤ hmax) (Q : Scatter.Part F → Prop)
    (hQ : ∀ x ∈ pos, ∀ v ∈ vals, ¬ InRegions ρ f calls x → Q (part (x, v))) (draw : List (Scatter.Part F) → γ)
    (hdraw : ∀ (keep : Scatter.Part F → Bool) (ps : List (Scatter.Part F)), (∀ p ∈ ps, keep p = false → p.h ≤ hmax ∧ Q p) →
      draw (ps.filter keep) = draw ps) :
    draw ((pos'.zip vals').map part) = draw ((pos.zip vals).map part) := by
  have hcut := c140_periodic ρ hρ f hf hb hL calls k pos vals hpos hvals hbox hcells lay lay' hlay hc hlay' hc' pos' vals' hl hl' (fun x => decide (InRegions ρ f calls x)) fun x _ h => by
    have h' : InRegions ρ f calls x := by simpa using h
    exact h'
  have hall : ∀ ys : List ((Fin 3 → ℚ) × β), (∀ y ∈ ys, y.1 ∈ pos ∧ y.2 ∈ vals) →
      ys.filter (fun y => decide (¬ Q (part y))) =
        (ys.filter (fun y => decide (InRegions ρ f calls y.1))).filter (fun y => decide (¬ Q (part y))) := by
    intro ys hys
    rw [List.filter_filter]
    refine List.filter_congr fun y hy => ?_
    by_cases hq : Q (part y)
    · simp [hq]
    · have : InRegions ρ f calls y.1 := by
        by_contra hn
        exact hq (hQ _ (hys y hy).1 _ (hys y hy).2 hn)
      simp [hq, this]
  have hmem : ∀ y ∈ pos.zip vals, y.1 ∈ pos ∧ y.2 ∈ vals := fun y hy => ⟨(List.of_mem_zip hy).1, (List.of_mem_zip hy).2⟩
  have hmem' : ∀ y ∈ pos'.zip vals', y.1 ∈ pos ∧ y.2 ∈ vals := fun y hy =>
    ⟨mem_of_loaded hf hpos hlay hc hl (List.of_mem_zip hy).1, mem_of_loaded hf hvals hlay' hc' hl' (List.of_mem_zip hy).2⟩
  have heq : ((pos'.zip vals').map part).filter (fun p => decide (¬ Q p)) = ((pos.zip vals).map part).filter (fun p => decide (¬ Q p)) := by
    rw [List.filter_map, List.filter_map]
    refine congrArg _ ?_
    exact (hall _ hmem').trans ((congrArg _ hcut).trans (hall _ hmem).symm)
  have hkeep : ∀ ys : List ((Fin 3 → ℚ) × β), (∀ y ∈ ys, y.1 ∈ pos ∧ y.2 ∈ vals) → ∀ p ∈ ys.map part, decide (¬ Q p) = false →
      p.h ≤ hmax ∧ Q p := by
    intro ys hys p hp hq
    rw [List.mem_map] at hp
    obtain ⟨y, hy, rfl⟩ := hp
    exact ⟨hw _ (hys y hy).1 _ (hys y hy).2, by simpa using hq⟩
  have c1 := hdraw (fun p => decide (¬ Q p)) _ (hkeep _ hmem)
  have c2 := hdraw (fun p => decide (¬ Q p)) _ (hkeep _ hmem')
  rw [heq] at c2
  exact c2.symm.trans c1

/-- The ends of a region along one axis, shrunk by `δ`, are so far from the image that no kernel reaches it: for the copy `i`, this is said of the
ends moved back by `i` boxes. -/
def EndsThrough (A : Floating.Arith F) (res : Nat) (sh : List Int) (box : F) (reach : Int) (norm : ℚ → F) (δ L : ℚ) (ends : ℚ × ℚ) : Prop :=
  ∀ i ∈ sh, pixelOf A res box (norm (ends.1 + δ - i * L)) i + reach < 0 ∧
    (res : Int) ≤ pixelOf A res box (norm ((if ends.2 < ends.1 then ends.2 + L else ends.2) - δ - i * L)) i - reach

private theorem beyond_through {res : Nat} {sh : List Int} {box : F} {reach : Int} {norm : ℚ → F} (hn : ∀ x y, x ≤ y → norm x ≤ norm y)
    {δ L : ℚ} {ends : ℚ × ℚ} (h : EndsThrough A res sh box reach norm δ L ends) {x : ℚ} (hx : ¬ WellInside δ L ends.1 ends.2 x) :
    Beyond A res sh box reach (norm x) := by
  intro i hi
  have hx' : x ≤ ends.1 + δ - i * L ∨ (if ends.2 < ends.1 then ends.2 + L else ends.2) - δ - i * L ≤ x := by
    by_contra hc
    push Not at hc
    exact hx ⟨i, by linarith [hc.1], by linarith [hc.2]⟩
  rcases hx' with h' | h'
  · exact .inl ⟨_, hn _ _ h', (h i hi).1⟩
  · exact .inr ⟨_, hn _ _ h', (h i hi).2⟩

private theorem outside_all {m : Nat} {ρ : ℚ → ℤ} {f : File ℚ m} {calls : List (List (Option (List ℚ)))} {x : Fin 3 → ℚ}
    (h : ¬ InRegions ρ f calls x) (rows : List (Option (List ℚ))) (hrows : rows ∈ calls) (reg : Fin 3 → ℚ × ℚ) (hreg : RegionIs f.box rows reg)
    (hok : RoundedMask.regionOk (nearest 53 (-1074) ρ) f.box reg = true) :
    ¬ WellInside (f.box 0 / 2 ^ 49) (f.box 0) (reg 0).1 (reg 0).2 (x 0) ∨ ¬ WellInside (f.box 1 / 2 ^ 49) (f.box 1) (reg 1).1 (reg 1).2 (x 1) ∨
      ¬ WellInside (f.box 2 / 2 ^ 49) (f.box 2) (reg 2).1 (reg 2).2 (x 2) := by
  by_contra hn
  push Not at hn
  refine h ⟨rows, hrows, reg, hreg, hok, fun d => ?_⟩
  fin_cases d
  · exact hn.1
  · exact hn.2.1
  · exact hn.2.2

/-- C143. Fast and renormalised projections with periodic copies of data read with a mask, whose region may reach over the sides of the box, are
those of the whole file, to the last digit of each pixel. -/
theorem c143_projections (o : OrderedArith A) {β : Type} {m : Nat} (ρ : ℚ → ℤ) (hρ : ToNearest ρ) (f : File ℚ m) (hf : WF f) (hb : ∀ d, InFormat 53 (-1074) (f.box d))
    (hL : ∀ d, 2 ^ (-1000 : ℤ) ≤ f.box d) (calls : List (List (Option (List ℚ)))) (k : Fin m) (pos : List (Fin 3 → ℚ)) (vals : List β)
    (hpos : pos.length = f.rows k) (hvals : vals.length = f.rows k) (hbox : ∀ x ∈ pos, ∀ d, 0 ≤ x d ∧ x d ≤ f.box d)
    (hcells : ∀ (i : Nat) (x : Fin 3 → ℚ), pos[i]? = some x → ∃ c ∈ f.cells k, Holds c i ∧ ∀ d, c.lo d ≤ x d ∧ x d ≤ c.hi d)
    (lay lay' : Layout) (hlay : lay ≠ .remote) (hc : ∀ c, lay = .chunked c → 0 < c) (hlay' : lay' ≠ .remote)
    (hc' : ∀ c, lay' = .chunked c → 0 < c) (pos' : List (Fin 3 → ℚ)) (vals' : List β)
    (hl : load (RoundedMask.spatials (nearest 53 (-1074) ρ) f calls) lay pos k = .ok (pos'.map some))
    (hl' : load (RoundedMask.spatials (nearest 53 (-1074) ρ) f calls) lay' vals k = .ok (vals'.map some))
    (rows : List (Option (List ℚ))) (hrows : rows ∈ calls) (reg : Fin 3 → ℚ × ℚ) (hreg : RegionIs f.box rows reg)
    (hok : RoundedMask.regionOk (nearest 53 (-1074) ρ) f.box reg = true)
    (norm : Fin 3 → ℚ → F) (hnorm : ∀ d x y, x ≤ y → norm d x ≤ norm d y) (width mass : β → F) (hmax : F) (hw : ∀ v ∈ vals, width v ≤ hmax)
    (hsight : ∀ x ∈ pos, WellInside (f.box 2 / 2 ^ 49) (f.box 2) (reg 2).1 (reg 2).2 (x 2)) (res : Nat) (bx by_ : F)
    (hx : EndsThrough A res (Floating.shifts A bx) bx (reachOf A (A.single (A.ofInt res)) hmax) (norm 0) (f.box 0 / 2 ^ 49) (f.box 0) (reg 0))
    (hy : EndsThrough A res (Floating.shifts A by_) by_ (reachOf A (A.single (A.ofInt res)) hmax) (norm 1) (f.box 1 / 2 ^ 49) (f.box 1) (reg 1)) :
    let part : (Fin 3 → ℚ) × β → Scatter.Part F := fun y => ⟨norm 0 (y.1 0), norm 1 (y.1 1), norm 2 (y.1 2), mass y.2, width y.2⟩
    Floating.fast A res bx by_ ((pos'.zip vals').map part) = Floating.fast A res bx by_ ((pos.zip vals).map part) ∧
    Floating.renormalised A res bx by_ ((pos'.zip vals').map part) = Floating.renormalised A res bx by_ ((pos.zip vals).map part) := by
  intro part
  have key := fun draw : List (Scatter.Part F) → Except Err (Int × Int → F) => c143_masked ρ hρ f hf hb hL calls k pos vals hpos hvals hbox hcells lay lay' hlay hc hlay' hc' pos' vals' hl hl'
    part hmax (fun _ _ v hv => hw v hv) (NoPart2 A res bx by_ (reachOf A (A.single (A.ofInt res)) hmax)) (fun x hxp v hv hn => by
      rcases outside_all hn rows hrows reg hreg hok with h | h | h
      · exact .inl (beyond_through (hnorm 0) hx h)
      · exact .inr (beyond_through (hnorm 1) hy h)
      · exact absurd (hsight x hxp) h) draw
  exact ⟨key _ fun keep ps h => (c141_projections o res bx by_ hmax keep ps h).1,
    key _ fun keep ps h => (c141_projections o res bx by_ hmax keep ps h).2⟩

/-- C143. The same for the reference and the subsampled projections. -/
theorem c143_reference (o : OrderedArith A) {β : Type} {m : Nat} (ρ : ℚ → ℤ) (hρ : ToNearest ρ) (f : File ℚ m) (hf : WF f) (hb : ∀ d, InFormat 53 (-1074) (f.box d))
    (hL : ∀ d, 2 ^ (-1000 : ℤ) ≤ f.box d) (calls : List (List (Option (List ℚ)))) (k : Fin m) (pos : List (Fin 3 → ℚ)) (vals : List β)
    (hpos : pos.length = f.rows k) (hvals : vals.length = f.rows k) (hbox : ∀ x ∈ pos, ∀ d, 0 ≤ x d ∧ x d ≤ f.box d)
    (hcells : ∀ (i : Nat) (x : Fin 3 → ℚ), pos[i]? = some x → ∃ c ∈ f.cells k, Holds c i ∧ ∀ d, c.lo d ≤ x d ∧ x d ≤ c.hi d)
    (lay lay' : Layout) (hlay : lay ≠ .remote) (hc : ∀ c, lay = .chunked c → 0 < c) (hlay' : lay' ≠ .remote)
    (hc' : ∀ c, lay' = .chunked c → 0 < c) (pos' : List (Fin 3 → ℚ)) (vals' : List β)
    (hl : load (RoundedMask.spatials (nearest 53 (-1074) ρ) f calls) lay pos k = .ok (pos'.map some))
    (hl' : load (RoundedMask.spatials (nearest 53 (-1074) ρ) f calls) lay' vals k = .ok (vals'.map some))
    (rows : List (Option (List ℚ))) (hrows : rows ∈ calls) (reg : Fin 3 → ℚ × ℚ) (hreg : RegionIs f.box rows reg)
    (hok : RoundedMask.regionOk (nearest 53 (-1074) ρ) f.box reg = true)
    (norm : Fin 3 → ℚ → F) (hnorm : ∀ d x y, x ≤ y → norm d x ≤ norm d y) (width mass : β → F) (hmax : F) (hw : ∀ v ∈ vals, width v ≤ hmax)
    (hsight : ∀ x ∈ pos, WellInside (f.box 2 / 2 ^ 49) (f.box 2) (reg 2).1 (reg 2).2 (x 2)) (res : Nat) (bx by_ : F)
    (hx : EndsThrough A res (Floating.shifts A bx) bx (reachOf A (A.ofInt res) hmax) (norm 0) (f.box 0 / 2 ^ 49) (f.box 0) (reg 0))
    (hy : EndsThrough A res (Floating.shifts A by_) by_ (reachOf A (A.ofInt res) hmax) (norm 1) (f.box 1 / 2 ^ 49) (f.box 1) (reg 1)) :
    let part : (Fin 3 → ℚ) × β → Scatter.Part F := fun y => ⟨norm 0 (y.1 0), norm 1 (y.1 1), norm 2 (y.1 2), mass y.2, width y.2⟩
    Floating.reference A res bx by_ ((pos'.zip vals').map part) = Floating.reference A res bx by_ ((pos.zip vals).map part) ∧
    ∀ E D : Nat, Floating.subsampled A E D res bx by_ ((pos'.zip vals').map part) = Floating.subsampled A E D res bx by_ ((pos.zip vals).map part) := by
  intro part
  have key := fun draw : List (Scatter.Part F) → Except Err (Int × Int → F) => c143_masked ρ hρ f hf hb hL calls k pos vals hpos hvals hbox hcells lay lay' hlay hc hlay' hc' pos' vals' hl hl'
    part hmax (fun _ _ v hv => hw v hv) (NoPart2 A res bx by_ (reachOf A (A.ofInt res) hmax)) (fun x hxp v hv hn => by
      rcases outside_all hn rows hrows reg hreg hok with h | h | h
      · exact .inl (beyond_through (hnorm 0) hx h)
      · exact .inr (beyond_through (hnorm 1) hy h)
      · exact absurd (hsight x hxp) h) draw
  exact ⟨key _ fun keep ps h => (c141_reference o res bx by_ hmax keep ps h).1,
    fun E D => key _ fun keep ps h => (c141_reference o res bx by_ hmax keep ps h).2 E D⟩

/-- C143. The same for slices. -/
theorem c143_slice (o : OrderedArith A) {β : Type} {m : Nat} (ρ : ℚ → ℤ) (hρ : ToNearest ρ) (f : File ℚ m) (hf : WF f) (hb : ∀ d, InFormat 53 (-1074) (f.box d))
    (hL : ∀ d, 2 ^ (-1000 : ℤ) ≤ f.box d) (calls : List (List (Option (List ℚ)))) (k : Fin m) (pos : List (Fin 3 → ℚ)) (vals : List β)
    (hpos : pos.length = f.rows k) (hvals : vals.length = f.rows k) (hbox : ∀ x ∈ pos, ∀ d, 0 ≤ x d ∧ x d ≤ f.box d)
    (hcells : ∀ (i : Nat) (x : Fin 3 → ℚ), pos[i]? = some x → ∃ c ∈ f.cells k, Holds c i ∧ ∀ d, c.lo d ≤ x d ∧ x d ≤ c.hi d)
    (lay lay' : Layout) (hlay : lay ≠ .remote) (hc : ∀ c, lay = .chunked c → 0 < c) (hlay' : lay' ≠ .remote)
    (hc' : ∀ c, lay' = .chunked c → 0 < c) (pos' : List (Fin 3 → ℚ)) (vals' : List β)
    (hl : load (RoundedMask.spatials (nearest 53 (-1074) ρ) f calls) lay pos k = .ok (pos'.map some))
    (hl' : load (RoundedMask.spatials (nearest 53 (-1074) ρ) f calls) lay' vals k = .ok (vals'.map some))
    (rows : List (Option (List ℚ))) (hrows : rows ∈ calls) (reg : Fin 3 → ℚ × ℚ) (hreg : RegionIs f.box rows reg)
    (hok : RoundedMask.regionOk (nearest 53 (-1074) ρ) f.box reg = true)
    (norm : Fin 3 → ℚ → F) (hnorm : ∀ d x y, x ≤ y → norm d x ≤ norm d y) (width mass : β → F) (hmax : F) (hw : ∀ v ∈ vals, width v ≤ hmax)
    (hsight : ∀ x ∈ pos, WellInside (f.box 2 / 2 ^ 49) (f.box 2) (reg 2).1 (reg 2).2 (x 2)) (zs : F) (xres yres : Nat) (bx by_ bz : F)
    (hx : EndsThrough A (max xres yres) (Floating.shifts A bx) bx (reachOf A (A.single (A.ofInt (max xres yres : Nat))) hmax) (norm 0) (f.box 0 / 2 ^ 49) (f.box 0) (reg 0))
    (hy : EndsThrough A (max xres yres) (Floating.shifts A by_) by_ (reachOf A (A.single (A.ofInt (max xres yres : Nat))) hmax) (norm 1) (f.box 1 / 2 ^ 49) (f.box 1) (reg 1)) :
    let part : (Fin 3 → ℚ) × β → Scatter.Part F := fun y => ⟨norm 0 (y.1 0), norm 1 (y.1 1), norm 2 (y.1 2), mass y.2, width y.2⟩
    Floating.slice A zs xres yres bx by_ bz ((pos'.zip vals').map part) = Floating.slice A zs xres yres bx by_ bz ((pos.zip vals).map part) := by
  intro part
  have key := fun draw : List (Scatter.Part F) → Except Err (Int × Int → F) => c143_masked ρ hρ f hf hb hL calls k pos vals hpos hvals hbox hcells lay lay' hlay hc hlay' hc' pos' vals' hl hl'
    part hmax (fun _ _ v hv => hw v hv) (NoPart2 A (max xres yres) bx by_ (reachOf A (A.single (A.ofInt (max xres yres : Nat))) hmax)) (fun x hxp v hv hn => by
      rcases outside_all hn rows hrows reg hreg hok with h | h | h
      · exact .inl (beyond_through (hnorm 0) hx h)
      · exact .inr (beyond_through (hnorm 1) hy h)
      · exact absurd (hsight x hxp) h) draw
  exact key _ fun keep ps h => c141_slice o zs xres yres bx by_ bz hmax keep ps h

/-- C143. The same for voxel renders. -/
theorem c143_volume (o : OrderedArith A) {β : Type} {m : Nat} (ρ : ℚ → ℤ) (hρ : ToNearest ρ) (f : File ℚ m) (hf : WF f) (hb : ∀ d, InFormat 53 (-1074) (f.box d))
    (hL : ∀ d, 2 ^ (-1000 : ℤ) ≤ f.box d) (calls : List (List (Option (List ℚ)))) (k : Fin m) (pos : List (Fin 3 → ℚ)) (vals : List β)
    (hpos : pos.length = f.rows k) (hvals : vals.length = f.rows k) (hbox : ∀ x ∈ pos, ∀ d, 0 ≤ x d ∧ x d ≤ f.box d)
    (hcells : ∀ (i : Nat) (x : Fin 3 → ℚ), pos[i]? = some x → ∃ c ∈ f.cells k, Holds c i ∧ ∀ d, c.lo d ≤ x d ∧ x d ≤ c.hi d)
    (lay lay' : Layout) (hlay : lay ≠ .remote) (hc : ∀ c, lay = .chunked c → 0 < c) (hlay' : lay' ≠ .remote)
    (hc' : ∀ c, lay' = .chunked c → 0 < c) (pos' : List (Fin 3 → ℚ)) (vals' : List β)
    (hl : load (RoundedMask.spatials (nearest 53 (-1074) ρ) f calls) lay pos k = .ok (pos'.map some))
    (hl' : load (RoundedMask.spatials (nearest 53 (-1074) ρ) f calls) lay' vals k = .ok (vals'.map some))
    (rows : List (Option (List ℚ))) (hrows : rows ∈ calls) (reg : Fin 3 → ℚ × ℚ) (hreg : RegionIs f.box rows reg)
    (hok : RoundedMask.regionOk (nearest 53 (-1074) ρ) f.box reg = true)
    (norm : Fin 3 → ℚ → F) (hnorm : ∀ d x y, x ≤ y → norm d x ≤ norm d y) (width mass : β → F) (hmax : F) (hw : ∀ v ∈ vals, width v ≤ hmax)
    (res : Nat) (bx by_ bz : F)
    (hx : EndsThrough A res (Floating.shifts A bx) bx (reachOf A (A.single (A.ofInt res)) hmax) (norm 0) (f.box 0 / 2 ^ 49) (f.box 0) (reg 0))
    (hy : EndsThrough A res (Floating.shifts A by_) by_ (reachOf A (A.single (A.ofInt res)) hmax) (norm 1) (f.box 1 / 2 ^ 49) (f.box 1) (reg 1))
    (hz : EndsThrough A res (Floating.shifts A bz) bz (reachOf A (A.single (A.ofInt res)) hmax) (norm 2) (f.box 2 / 2 ^ 49) (f.box 2) (reg 2)) :
    let part : (Fin 3 → ℚ) × β → Scatter.Part F := fun y => ⟨norm 0 (y.1 0), norm 1 (y.1 1), norm 2 (y.1 2), mass y.2, width y.2⟩
    Floating.volume A res bx by_ bz ((pos'.zip vals').map part) = Floating.volume A res bx by_ bz ((pos.zip vals).map part) := by
  intro part
  exact c143_masked ρ hρ f hf hb hL calls k pos vals hpos hvals hbox hcells lay lay' hlay hc hlay' hc' pos' vals' hl hl'
    part hmax (fun _ _ v hv => hw v hv) (NoPart3 A (Floating.shifts A) res res bx by_ bz hmax) (fun x hxp v hv hn => by
      rcases outside_all hn rows hrows reg hreg hok with h | h | h
      · exact .inl (beyond_through (hnorm 0) hx h)
      · exact .inr (.inl (beyond_through (hnorm 1) hy h))
      · exact .inr (.inr (beyond_through (hnorm 2) hz h))) _ fun keep ps h => c141_volume o res bx by_ bz hmax keep ps h

private def edgeReg : Fin 3 → ℚ × ℚ := fun d => if d = 0 then (7 / 2, 9 / 2) else (3 / 2, 5 / 2)

private theorem copies_of {P : Int → Prop} (h : P (-1) ∧ P 0 ∧ P 1) : ∀ i ∈ Floating.shifts doubles 16, P i := by
  intro i hi
  have hs : Floating.shifts doubles 16 = [-1, 0, 1] := by decide +kernel
  rw [hs] at hi
  simp only [List.mem_cons, List.not_mem_nil, or_false] at hi
  rcases hi with rfl | rfl | rfl
  · exact h.1
  · exact h.2.1
  · exact h.2.2

/-- The region from 7/2 to 9/2 in a box of length 4: four of six particles are read, and the image from 31/8 to 33/8, with periodic copies, is that of
all six. -/
example :
    Floating.fast doubles 2 16 16 (([1 / 4, 3 / 4, 13 / 4, 15 / 4].zip ([10, 20, 50, 60] : List ℚ)).map fun y => ⟨(y.1 - 31 / 8) * 4, (2 - 15 / 8) * 4, 2, y.2, 1 / 8⟩) =
      Floating.fast doubles 2 16 16
        ((cutPos.zip ([10, 20, 30, 40, 50, 60] : List ℚ)).map fun y => ⟨(y.1 0 - 31 / 8) * 4, (y.1 1 - 15 / 8) * 4, y.1 2, y.2, 1 / 8⟩) := by
  refine Eq.trans ?_ (c143_projections c141_doubles (β := ℚ) toEven c138_toEven exFile exFile_wf
    (fun d => ⟨1, 2, by norm_num, by norm_num, by norm_num [exFile]⟩) (fun d => by
      have : (2 : ℚ) ^ (-1000 : ℤ) ≤ 4 := (zpow_le_zpow_right₀ (by norm_num) (by norm_num : (-1000 : ℤ) ≤ 2)).trans (by norm_num)
      exact this)
    [[some [7 / 2, 9 / 2], some [3 / 2, 5 / 2], some [3 / 2, 5 / 2]]] 0 cutPos [10, 20, 30, 40, 50, 60] rfl rfl (by decide +kernel)
    cutPos_cells .contiguous .contiguous (by simp) (by simp) (by simp) (by simp)
    (([1 / 4, 3 / 4, 13 / 4, 15 / 4] : List ℚ).map fun x d => if d = 0 then x else 2) [10, 20, 50, 60] ?_ ?_
    [some [7 / 2, 9 / 2], some [3 / 2, 5 / 2], some [3 / 2, 5 / 2]] (by simp) edgeReg ?_ (by decide +kernel)
    (fun d x => if d = 0 then (x - 31 / 8) * 4 else if d = 1 then (x - 15 / 8) * 4 else x) ?_ (fun _ => 1 / 8) id (1 / 8) (fun _ _ => le_refl _) ?_ 2 16 16
    (copies_of ?_) (copies_of ?_)).1
  · refine congrArg (Floating.fast doubles 2 16 16) ?_
    decide +kernel
  · decide +kernel
  · decide +kernel
  · refine ⟨rfl, fun d => Or.inr ?_⟩
    fin_cases d <;> rfl
  · intro d x y h
    split
    · linarith
    · split <;> linarith
  · intro x hx
    have h2 : x 2 = 2 := by
      simp only [cutPos, List.mem_map] at hx
      obtain ⟨q, -, rfl⟩ := hx
      rfl
    have e : edgeReg 2 = (3 / 2, 5 / 2) := rfl
    refine ⟨0, ?_, ?_⟩
    · rw [h2, e]
      norm_num [exFile]
    · rw [h2, e]
      norm_num [exFile]
  · decide +kernel
  · decide +kernel

end Verif.Props
