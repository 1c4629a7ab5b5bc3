import Verif.Model.ImageFrame
import Verif.Props.Cosmo
import Verif.Model.Frame
import Verif.Spec.ImageFrame
import Mathlib.Tactic.FieldSimp
import Mathlib.Tactic.Ring

/-!
# C72: images do not depend on frames and units
-/

namespace Verif.Props
open Verif Verif.Cosmo

private theorem inFrame_ok {a k : ℝ} {x : Arr} (h : Conv a k x) (c : Bool) :
    ∃ y, x.inFrame c = .ok y ∧ Conv a k y ∧ y.comoving = some c ∧ y.phys = x.phys := by
  cases c
  · exact convertToPhysical_ok h
  · exact convertToComoving_ok h

private theorem copyIn_ok {a k : ℝ} {x : Arr} (h : Conv a k x) (c : Bool) :
    ∃ y, x.copyIn c = .ok y ∧ Conv a k y ∧ y.comoving = some c ∧ y.phys = x.phys := by
  cases c
  · simpa only [Arr.copyIn, Bool.false_eq_true, if_false, toPhysical_eq h] using convertToPhysical_ok h
  · simpa only [Arr.copyIn, if_true, toComoving_eq h] using convertToComoving_ok h

/-- Numbers without dimension are the same in both frames. -/
private theorem val_zero {a : ℝ} {x : Arr} (h : Conv a 0 x) : x.val = x.phys := by
  rcases Conv.framed_cases h with hc | hc
  · simp [phys_true h hc]
  · rw [phys_false hc]

private theorem divide_frame {x y z : Arr} {c : Bool} (hx : x.comoving = some c) (hy : y.comoving = some c)
    (h : ufunc .divide (num2 (· / ·)) [.cosmo x, .cosmo y] = .ok z) : z.comoving = some c := by
  unfold ufunc at h
  have hp : ∃ p, prepare true [.cosmo x, .cosmo y] [] = .ok p ∧ p.comoving = some c := by
    unfold prepare
    cases c <;> simp [flags, hx, hy]
  obtain ⟨p, hp, hpc⟩ := hp
  simp only [hp] at h
  split at h
  · cases h
  · split at h
    · cases h
    · rw [← Except.ok.inj h]
      exact hpc

/-- C72: positions and sizes in units of the image are numbers without dimension, the projected field scales as `a^k` and the
norm as `a^n`. For a backend that is homogeneous in the field, the image is in the frame of the field, scales as `a^(k-n)`, and
its physical values are what the backend makes of the physical values of the field, divided by the physical value of the
norm: the frames of the arguments do not matter. The histogram does not use the sizes, whatever they are. -/
theorem c72_frames {backend : List ℝ → List ℝ → List ℝ → List (List ℝ) → List ℝ → Except Err (List ℝ)} {a k l n : ℝ}
    {x y h m norm : Arr} {others : List Arr} (hx : Conv a 0 x) (hy : Conv a 0 y) (hh : Conv a l h)
    (hl : l = 0 ∨ ∀ x y h h' o m, backend x y h o m = backend x y h' o m) (ho : ∀ o ∈ others, Conv a 0 o)
    (hm : Conv a k m) (hn : Conv a n norm)
    (hom : ∀ x y h o m t, 0 < t → backend x y h o (m.map (fun v => v * t)) =
      (backend x y h o m).map (fun l => l.map (fun v => v * t))) :
    (restore backend x y h others m norm).map Arr.phys =
      (backend x.phys y.phys h.phys (others.map Arr.phys) m.phys).bind (fun v => num2 (· / ·) [v, norm.phys]) ∧
    ∀ z, restore backend x y h others m norm = .ok z → Conv a (k - n) z ∧ z.comoving = m.comoving := by
  obtain ⟨c, hc⟩ := Option.ne_none_iff_exists'.1 hm.framed
  obtain ⟨x', ex, hx', -, px⟩ := inFrame_ok hx c
  obtain ⟨y', ey, hy', -, py⟩ := inFrame_ok hy c
  obtain ⟨h', eh, hh', -, ph⟩ := inFrame_ok hh c
  obtain ⟨n', en, hn', cn, pn⟩ := copyIn_ok hn c
  have hov : others.map Arr.val = others.map Arr.phys := List.map_congr_left fun o h => val_zero (ho o h)
  have hb : backend x'.val y'.val h'.val (others.map Arr.val) m.val =
      backend x.phys y.phys h.phys (others.map Arr.phys) m.val := by
    rw [val_zero hx', px, val_zero hy', py, hov]
    rcases hl with rfl | hl
    · rw [val_zero hh', ph]
    · exact hl _ _ _ _ _ _
  have hr : restore backend x y h others m norm =
      (backend x.phys y.phys h.phys (others.map Arr.phys) m.val).bind (fun v =>
        ufunc .divide (num2 (· / ·)) [.cosmo ⟨v, m.comoving, m.cf, m.vt⟩, .cosmo n']) := by
    unfold restore
    simp only [hc]
    simp only [ex, ey, eh, en, bind, Except.bind, hb]
  have hconv : ∀ v, Conv a k ⟨v, m.comoving, m.cf, m.vt⟩ := fun v => ⟨hm.pos, hm.cf, hm.vt, hm.framed⟩
  have hdiv := fun v => c24_divide (o := .cosmo ⟨v, m.comoving, m.cf, m.vt⟩) (p := .cosmo n') hm.pos (hconv v) hn' (.inl ⟨_, rfl⟩)
  have hak : 0 < a ^ k := Real.rpow_pos_of_pos hm.pos k
  refine ⟨?_, fun z hz => ?_⟩
  · rw [hr]
    have hmp : backend x.phys y.phys h.phys (others.map Arr.phys) m.phys =
        (backend x.phys y.phys h.phys (others.map Arr.phys) m.val).map
          (fun v => Arr.phys ⟨v, m.comoving, m.cf, m.vt⟩) := by
      cases c
      · rw [phys_false hc]
        have : (fun v => Arr.phys ⟨v, m.comoving, m.cf, m.vt⟩) = id := by
          funext v
          simp [Arr.phys, hc]
        rw [this]
        cases backend x.phys y.phys h.phys (others.map Arr.phys) m.val <;> rfl
      · rw [phys_true hm hc, hom _ _ _ _ _ _ hak]
        congr 1
        funext v
        simp [Arr.phys, hc, hm.cf]
    rw [hmp]
    cases e : backend x.phys y.phys h.phys (others.map Arr.phys) m.val with
    | error q => rfl
    | ok v =>
      simp only [Except.bind, Except.map]
      have := (hdiv v).1
      simp only [Opd.phys, pn] at this
      rw [← this]
      rfl
  · rw [hr] at hz
    cases e : backend x.phys y.phys h.phys (others.map Arr.phys) m.val with
    | error q => rw [e] at hz; cases hz
    | ok v =>
      rw [e] at hz
      simp only [Except.bind] at hz
      refine ⟨(hdiv v).2 z hz, ?_⟩
      rw [hc]
      exact divide_frame (x := ⟨v, m.comoving, m.cf, m.vt⟩) hc cn hz

/-- C72. A field in an unknown frame: nothing is converted or divided, and the image is in an unknown frame, too. -/
theorem c72_unknown (backend : List ℝ → List ℝ → List ℝ → List (List ℝ) → List ℝ → Except Err (List ℝ)) (x y h m norm : Arr)
    (others : List Arr) (hm : m.comoving = none) :
    restore backend x y h others m norm =
      (backend x.val y.val h.val (others.map Arr.val) m.val).map (fun v => ⟨v, none, m.cf, m.vt⟩) := by
  unfold restore
  rw [hm]
  cases backend x.val y.val h.val (others.map Arr.val) m.val with
  | error e => rfl
  | ok v =>
    have hv : num2 (fun a b : ℝ => a / b) [v, [1]] = .ok v := by
      rcases v with _ | ⟨a, _ | ⟨b, l⟩⟩ <;> simp [num2, bcast2]
    have hp : handle (registry .divide) [m.cf, none] [.cosmo ⟨v, none, m.cf, m.vt⟩, .plain [1]] = .ok m.cf := by
      cases hcf : m.cf <;> simp [handle, registry, powerCF, mul2]
    simp only [bind, Except.bind, ufunc, prepare, flags, Except.map]
    simp [hp, hv, Opd.cf, Opd.vt, Opd.vals]

/-- A field per volume in the comoving frame, a norm and positions in the physical frame, and a backend that adds up. -/
example : Conv (1 / 2) (-3) ⟨[10, 30], some true, some ⟨some (-3), some (1 / 2)⟩, true⟩ ∧
    Conv (1 / 2) 2 ⟨[4], some false, some ⟨some 2, some (1 / 2)⟩, true⟩ ∧
    Conv (1 / 2) 0 ⟨[0.25, 0.75], some false, some ⟨some 0, some (1 / 2)⟩, true⟩ ∧
    ∀ (x y h : List ℝ) (o : List (List ℝ)) (m : List ℝ) (t : ℝ), 0 < t →
      (fun _ _ _ _ m => Except.ok [m.sum] : List ℝ → List ℝ → List ℝ → List (List ℝ) → List ℝ → Except Err (List ℝ)) x y h o
        (m.map (fun v => v * t)) =
      ((fun _ _ _ _ m => Except.ok [m.sum] : List ℝ → List ℝ → List ℝ → List (List ℝ) → List ℝ → Except Err (List ℝ)) x y h o
        m).map (fun l => l.map (fun v => v * t)) := by
  refine ⟨⟨by norm_num, rfl, rfl, by simp⟩, ⟨by norm_num, rfl, rfl, by simp⟩, ⟨by norm_num, rfl, rfl, by simp⟩, ?_⟩
  intro x y h o m t _
  simp [Except.map, List.sum_map_mul_right]

set_option linter.unusedSectionVars false
section
open Verif.Frame Verif.Scatter Verif.ImageFrame
variable {K : Type} [Field K] [LinearOrder K] [IsStrictOrderedRing K] [FloorRing K]

private theorem pmod_scale {s : K} (hs : 0 < s) (x y : K) : pmod (s * x) (s * y) = s * pmod x y := by
  unfold pmod
  rw [mul_div_mul_left _ _ hs.ne']
  ring

private def Info.scale (s : K) (i : Info K) : Info K :=
  { i with xMin := s * i.xMin, yMin := s * i.yMin, zMin := s * i.zMin, zMax := s * i.zMax, xRange := s * i.xRange,
           yRange := s * i.yRange, zRange := s * i.zRange, maxRange := s * i.maxRange }

private theorem infoOf_scale {s : K} (hs : 0 < s) (box : K × K × K) (x0 x1 y0 y1 z0 z1 : K) (b periodic : Bool) :
    infoOf (s * box.1, s * box.2.1, s * box.2.2) (s * x0) (s * x1) (s * y0) (s * y1) (s * z0) (s * z1) b false periodic =
      (infoOf box x0 x1 y0 y1 z0 z1 b false periodic).map (Info.scale s) := by
  have hm : max (s * x1 - s * x0) (s * y1 - s * y0) = s * max (x1 - x0) (y1 - y0) := by
    rw [← mul_sub, ← mul_sub, mul_max_of_nonneg _ _ hs.le]
  simp only [infoOf, hm, Bool.false_and, Bool.false_eq_true, if_false, Except.map, Info.scale,
    mul_div_mul_left _ _ hs.ne', mul_sub]

private theorem regionInfo_scale {s : K} (hs : 0 < s) (box : K × K × K) (region : Option (List K)) (periodic : Bool) :
    regionInfo (s * box.1, s * box.2.1, s * box.2.2) (region.map (fun l => l.map (fun v => s * v))) false periodic =
      (regionInfo box region false periodic).map (Info.scale s) := by
  have h0 : ∀ x0 x1 y0 y1, infoOf (s * box.1, s * box.2.1, s * box.2.2) (s * x0) (s * x1) (s * y0) (s * y1) 0 (s * box.2.2)
      false false periodic = (infoOf box x0 x1 y0 y1 0 box.2.2 false false periodic).map (Info.scale s) := by
    intro x0 x1 y0 y1
    rw [← infoOf_scale hs, mul_zero]
  rcases region with _ | l
  · have := h0 0 box.1 0 box.2.1
    simp only [mul_zero] at this
    exact this
  · match l with
    | [] => rfl
    | [_] => rfl
    | [_, _] => rfl
    | [_, _, _] => rfl
    | [x0, x1, y0, y1] => exact h0 _ _ _ _
    | [x0, x1, y0, y1, _] => exact h0 _ _ _ _
    | [x0, x1, y0, y1, z0, z1] => exact infoOf_scale hs _ _ _ _ _ _ _ _ _
    | x0 :: x1 :: y0 :: y1 :: _ :: _ :: _ :: _ => exact h0 _ _ _ _

private theorem wrapped_scale {s : K} (hs : 0 < s) (box : K × K × K) (periodic : Bool) (p : Scatter.Part K × Bool) :
    (wrapped (s * box.1, s * box.2.1, s * box.2.2) periodic (rescale s p).1, (rescale s p).2) =
      rescale s (wrapped box periodic p.1, p.2) := by
  cases periodic
  · rfl
  · simp only [wrapped, rescale, if_true, pmod_scale hs]

private theorem inDepth_scale {s : K} (hs : 0 < s) (L : K) (i : Info K) (periodic : Bool) (z : K) :
    inDepth (s * L) (Info.scale s i) periodic (s * z) = inDepth L i periodic z := by
  simp only [inDepth, Info.scale, pmod_scale hs, mul_le_mul_iff_right₀ hs, ge_iff_le]

private theorem select_scale {s : K} (hs : 0 < s) (L : K) (i : Info K) (periodic : Bool) (ps : List (Scatter.Part K × Bool)) :
    select (s * L) (Info.scale s i) periodic (ps.map (rescale s)) =
      (select L i periodic ps).map (fun l => l.map (fun p => (rescale s (p, true)).1)) := by
  have hd : ∀ p : Scatter.Part K × Bool, inDepth (s * L) (Info.scale s i) periodic (rescale s p).1.z =
      inDepth L i periodic p.1.z := fun p => inDepth_scale hs _ _ _ _
  unfold select
  have hz : (Info.scale s i).includesZ = i.includesZ := rfl
  have hr : ((Info.scale s i).zRange > s * L) ↔ (i.zRange > L) := by
    simp only [Info.scale, gt_iff_lt, mul_lt_mul_iff_right₀ hs]
  rw [hz]
  cases i.includesZ
  · simp only [Bool.false_eq_true, if_false, Except.map, List.filter_map, List.map_map]
    rfl
  · simp only [if_true, decide_eq_decide.2 hr]
    split
    · rfl
    · simp only [Except.map, List.filter_map, List.map_map, Function.comp_def, hd]
      rfl

private theorem normed_scale {s : K} (hs : 0 < s) (i : Info K) (periodic : Bool) (p : Scatter.Part K) (b : Bool) :
    normed (Info.scale s i) periodic (rescale s (p, b)).1 = { normed i periodic p with z := s * p.z } := by
  simp only [normed, Info.scale, rescale, ← mul_sub, mul_div_mul_left _ _ hs.ne']

private theorem trimmed_scale {s : K} (hs : 0 < s) (res : Nat) (x R : K) : trimmed res (s * x) (s * R) = trimmed res x R := by
  simp only [trimmed, mul_div_mul_left _ _ hs.ne']

private theorem except_map_map {α β γ : Type} (f : α → β) (g : β → γ) (e : Except Err α) :
    (e.map f).map g = e.map (fun x => g (f x)) := by
  cases e <;> rfl

/-- Giving the box, the region and the particles in another unit of length changes only the unit of the image, which is
one over an area: the sizes and the pixels of the projection are the same, for every backend that ignores the depth. -/
theorem c72_project {scatter : Nat → K → K → List (Scatter.Part K) → Except Err (Int × Int → K)} (hf : Flat scatter)
    {s : K} (hs : 0 < s) (box : K × K × K) (region : Option (List K)) (periodic framed : Bool) (res : Nat)
    (ps : List (Scatter.Part K × Bool)) :
    project scatter (boxTimes s box) (regionTimes s region) periodic framed res (ps.map (rescale s)) =
      (project scatter box region periodic framed res ps).map fun g : Grid K =>
        { g with img := fun q => g.img q / if framed then s ^ 2 else 1 } := by
  have hw : (ps.map (rescale s)).map (fun p => (wrapped (boxTimes s box) periodic p.1, p.2)) =
      (ps.map fun p => (wrapped box periodic p.1, p.2)).map (rescale s) := by
    rw [List.map_map, List.map_map]
    exact List.map_congr_left fun p _ => wrapped_scale hs box periodic p
  have hr := regionInfo_scale hs box region periodic
  unfold project
  rw [hw]
  change (regionInfo (s * box.1, s * box.2.1, s * box.2.2) (region.map (fun l => l.map (fun v => s * v))) false periodic).bind _ = _
  rw [hr]
  cases e : regionInfo box region false periodic with
  | error q => rfl
  | ok info =>
    simp only [Except.map, Except.bind, bind, boxTimes]
    rw [select_scale hs]
    cases e' : select box.2.2 info periodic (ps.map fun p => (wrapped box periodic p.1, p.2)) with
    | error q => rfl
    | ok sel =>
      simp only [Except.map, List.map_map, Function.comp_def, normed_scale hs]
      have hz := hf res info.boxX info.boxY (fun p => s * p.z) (sel.map (normed info periodic))
      rw [List.map_map] at hz
      have hz' : (sel.map ((fun p : Scatter.Part K => { p with z := s * p.z }) ∘ normed info periodic)) =
          sel.map fun p => { normed info periodic p with z := s * p.z } := rfl
      rw [hz'] at hz
      have hb : (Info.scale s info).boxX = info.boxX ∧ (Info.scale s info).boxY = info.boxY := ⟨rfl, rfl⟩
      rw [hb.1, hb.2, hz]
      cases e'' : scatter res info.boxX info.boxY (sel.map (normed info periodic)) with
      | error q => rfl
      | ok img =>
        simp only [Info.scale, pure, Except.pure, trimmed_scale hs, Except.ok.injEq, Grid.mk.injEq, true_and]
        funext q
        cases framed
        · simp
        · simp only [if_true]
          rw [div_div]
          congr 1
          ring

private theorem normedSlice_scale {s : K} (hs : 0 < s) (i : Info K) (periodic : Bool) (p : Scatter.Part K) (b : Bool) :
    normedSlice (Info.scale s i) periodic (rescale s (p, b)).1 = normedSlice i periodic p := by
  simp only [normedSlice, normed_scale hs]
  simp only [Info.scale, rescale, mul_div_mul_left _ _ hs.ne', normed]

private theorem chosen_scale {s : K} (hs : 0 < s) (box : K × K × K) (periodic : Bool) (ps : List (Scatter.Part K × Bool)) :
    (((ps.map (rescale s)).filter fun p => p.2).map Prod.fst).map (wrapped (boxTimes s box) periodic) =
      (((ps.filter fun p => p.2).map Prod.fst).map (wrapped box periodic)).map (fun p => (rescale s (p, true)).1) := by
  rw [List.filter_map]
  have h1 : ((fun p : Scatter.Part K × Bool => p.2) ∘ rescale s) = fun p => p.2 := rfl
  rw [h1]
  simp only [List.map_map]
  refine List.map_congr_left fun p _ => ?_
  have := congrArg Prod.fst (wrapped_scale hs box periodic p)
  exact this

/-- The same for a slice, with the height of the slice in the other unit as well; its image is per volume. -/
theorem c72_slice (scatter : K → Nat → Nat → K → K → K → List (Scatter.Part K) → Except Err (Int × Int → K))
    {s : K} (hs : 0 < s) (box : K × K × K) (region : Option (List K)) (zs : K) (periodic framed : Bool) (res : Nat)
    (ps : List (Scatter.Part K × Bool)) :
    sliceGrid scatter (boxTimes s box) (regionTimes s region) (s * zs) periodic framed res (ps.map (rescale s)) =
      (sliceGrid scatter box region zs periodic framed res ps).map fun g : Grid K =>
        { g with img := fun q => g.img q / if framed then s ^ 3 else 1 } := by
  have hr := regionInfo_scale hs box region periodic
  unfold sliceGrid
  rw [chosen_scale hs]
  change (regionInfo (s * box.1, s * box.2.1, s * box.2.2) (region.map (fun l => l.map (fun v => s * v))) false periodic).bind _ = _
  rw [hr]
  cases e : regionInfo box region false periodic with
  | error q => rfl
  | ok info =>
    have hn : ∀ ps : List (Scatter.Part K), (ps.map fun p => (rescale s (p, true)).1).map (normedSlice (Info.scale s info) periodic) =
        ps.map (normedSlice info periodic) := by
      intro ps
      rw [List.map_map]
      exact List.map_congr_left fun p _ => normedSlice_scale hs info periodic p true
    simp only [Except.map, Except.bind, bind, hn]
    simp only [Info.scale, trimmed_scale hs, mul_div_mul_left _ _ hs.ne']
    generalize hE : scatter _ _ _ _ _ _ _ = E
    cases E with
    | error q => rfl
    | ok img =>
      simp only [pure, Except.pure, Except.ok.injEq, Grid.mk.injEq, true_and]
      funext q
      cases framed
      · simp
      · simp only [if_true]
        rw [div_div]
        congr 1
        ring

private theorem cubic_info {box : K × K × K} {region : Option (List K)} {periodic : Bool} {i : Info K}
    (h : regionInfo box region true periodic = .ok i) : regionInfo box region false periodic = .ok i := by
  have key : ∀ (x0 x1 y0 y1 z0 z1 : K) (b : Bool), infoOf box x0 x1 y0 y1 z0 z1 b true periodic = .ok i →
      infoOf box x0 x1 y0 y1 z0 z1 b false periodic = .ok i := by
    intro x0 x1 y0 y1 z0 z1 b h
    unfold infoOf at h ⊢
    simp only [Bool.false_and, Bool.false_eq_true, if_false]
    dsimp only at h
    split at h
    · cases h
    · exact h
  rcases region with _ | l
  · exact key _ _ _ _ _ _ _ h
  · match l with
    | [] => exact h
    | [_] => exact h
    | [_, _] => exact h
    | [_, _, _] => exact h
    | [x0, x1, y0, y1] => exact key _ _ _ _ _ _ _ h
    | [x0, x1, y0, y1, _] => exact key _ _ _ _ _ _ _ h
    | [x0, x1, y0, y1, z0, z1] => exact key _ _ _ _ _ _ _ h
    | x0 :: x1 :: y0 :: y1 :: _ :: _ :: _ :: _ => exact key _ _ _ _ _ _ _ h

private theorem normedVolume_scale {s : K} (hs : 0 < s) (i : Info K) (periodic : Bool) (p : Scatter.Part K) (b : Bool) :
    normedVolume (Info.scale s i) periodic (rescale s (p, b)).1 = normedVolume i periodic p := by
  simp only [normedVolume, Info.scale, rescale, ← mul_sub, mul_div_mul_left _ _ hs.ne']

/-- The same for a render whose region is accepted as cubic in both units. -/
theorem c72_render (scatter : Nat → K → K → K → List (Scatter.Part K) → Except Err (Int × Int × Int → K))
    {s : K} (hs : 0 < s) (box : K × K × K) (region : Option (List K)) (periodic framed : Bool) (res : Nat)
    (ps : List (Scatter.Part K × Bool)) (g g' : Int × Int × Int → K)
    (h : renderGrid scatter box region periodic framed res ps = .ok g)
    (h' : renderGrid scatter (boxTimes s box) (regionTimes s region) periodic framed res (ps.map (rescale s)) = .ok g') :
    ∀ q, g' q = g q / if framed then s ^ 3 else 1 := by
  have hr := regionInfo_scale hs box region periodic
  unfold renderGrid at h h'
  rw [chosen_scale hs] at h'
  cases e : regionInfo box region true periodic with
  | error q => rw [e] at h; cases h
  | ok info =>
    cases e' : regionInfo (boxTimes s box) (regionTimes s region) true periodic with
    | error q => rw [e'] at h'; cases h'
    | ok info' =>
      have hi : info' = Info.scale s info := by
        have h1 := cubic_info e'
        have h2 := cubic_info e
        change regionInfo (s * box.1, s * box.2.1, s * box.2.2) (region.map (fun l => l.map (fun v => s * v))) false periodic = _ at h1
        rw [hr, h2] at h1
        exact (Except.ok.inj h1).symm
      subst hi
      rw [e] at h
      rw [e'] at h'
      have hn : ∀ ps : List (Scatter.Part K), (ps.map fun p => (rescale s (p, true)).1).map (normedVolume (Info.scale s info) periodic) =
          ps.map (normedVolume info periodic) := by
        intro ps
        rw [List.map_map]
        exact List.map_congr_left fun p _ => normedVolume_scale hs info periodic p true
      simp only [bind, Except.bind, hn] at h h'
      simp only [Info.scale] at h'
      revert h h'
      generalize scatter _ _ _ _ _ = E
      cases E with
      | error q => intro h; cases h
      | ok img =>
        intro h h' q
        have e1 := Except.ok.inj h
        have e2 := Except.ok.inj h'
        rw [← e1, ← e2]
        cases framed
        · simp
        · simp only [if_true]
          rw [div_div]
          congr 1
          ring

/-- The projections that add up the copies of every particle ignore the depth. -/
private theorem over_flat (dep : Nat → Scatter.Part K → List ((Int × Int) × K))
    (hd : ∀ (res : Nat) (p : Scatter.Part K) (z : K), dep res { p with z := z } = dep res p) :
    Flat fun res bx by_ ps => paint (inside2 res res) (over (dep res) bx by_ ps) := by
  intro res bx by_ f ps
  dsimp only
  congr 1
  unfold over
  rw [List.flatMap_map]
  congr 1
  funext p
  unfold copies2
  simp only [List.flatMap_assoc, List.flatMap_map]
  congr 1
  funext i
  congr 1
  funext j
  exact hd res { p with x := p.x + i * bx, y := p.y + j * by_ } (f p)

/-- The histogram, the fast and the renormalised backend ignore the depth. -/
theorem c72_flat (W : K → K → K) (g : K) : Flat (histogram (K := K)) ∧ Flat (fast W g) ∧ Flat (renormalised W g) :=
  ⟨over_flat (fun res => histogramDeps res) fun _ _ _ => rfl, over_flat (fun res => fastDeps W g res) fun _ _ _ => rfl,
    over_flat (fun res => renormalisedDeps W g res) fun _ _ _ => rfl⟩

end

/-- A projection of two particles in a region of the box, in megaparsec and in kiloparsec. -/
example : (Frame.project Scatter.histogram (10, 10, 10) (some [0, 4, 0, 4]) true true 2
      [(⟨1, 1, 5, 3, 1⟩, true), (⟨3, 13, 5, 2, 1⟩, true)]).map (fun g => (g.nx, g.img (0, 0), g.img (1, 1))) =
        .ok (2, (3 / 4 : ℚ), 2 / 4) ∧
    (Frame.project Scatter.histogram (ImageFrame.boxTimes 1000 (10, 10, 10)) (ImageFrame.regionTimes 1000 (some [0, 4, 0, 4]))
      true true 2 ([(⟨1, 1, 5, 3, 1⟩, true), (⟨3, 13, 5, 2, 1⟩, true)].map (ImageFrame.rescale 1000))).map
        (fun g => (g.nx, g.img (0, 0), g.img (1, 1))) = .ok (2, (3 / 4000000 : ℚ), 2 / 4000000) := by
  constructor <;> decide +kernel

/-- Whether a region is cubic is decided with a fixed tolerance: a flat region is accepted in megaparsec when it is small
enough and refused in kiloparsec. -/
theorem c72_cubic_fails : ∃ (s : ℚ) (region : List ℚ), 0 < s ∧
    (Frame.renderGrid (K := ℚ) (fun _ _ _ _ _ => .ok fun _ => 0) (10, 10, 10) (some region) true true 2 []).isOk = true ∧
    (Frame.renderGrid (K := ℚ) (fun _ _ _ _ _ => .ok fun _ => 0) (ImageFrame.boxTimes s (10, 10, 10))
      (ImageFrame.regionTimes s (some region)) true true 2 ([].map (ImageFrame.rescale s))).map (fun g => g (0, 0, 0)) =
      .error .attribute := by
  refine ⟨1000, [0, 1 / 10 ^ 8, 0, 2 / 10 ^ 8, 0, 1 / 10 ^ 8], by norm_num, ?_, ?_⟩
  · decide +kernel
  · decide +kernel

end Verif.Props
