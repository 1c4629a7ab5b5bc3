import Verif.Spec.ImageLaws
import Verif.Props.ImageFrame
import Verif.Props.ImageLinear
import Verif.Props.FrameSlice

/-!
# C111: laws that relate images

The front ends of the projection, the slice and the render with any backend: data and region moved together, particles moved by
whole boxes, axes exchanged, particles in another order, and the image of two sets of particles.
-/

set_option linter.unusedSectionVars false

namespace Verif.Props
open Verif Verif.Spec Verif.Scatter Verif.Frame

variable {K : Type} [Field K] [LinearOrder K] [IsStrictOrderedRing K] [FloorRing K]

/-! ## Remainders -/

private theorem pmod_turns (a b : K) (n : ℤ) : pmod (a + (n : K) * b) b = pmod a b := by
  unfold pmod
  rcases eq_or_ne b 0 with rfl | hb
  · simp
  · rw [add_div, mul_div_cancel_right₀ _ hb, Int.floor_add_intCast]
    push_cast
    ring

private theorem pmod_turn (x t b : K) (n : ℤ) : ∃ k : ℤ, pmod (x + t + (n : K) * b) b = pmod x b + t + (k : K) * b := by
  rw [pmod_eq, pmod_eq]
  exact ⟨-⌊(x + t + (n : K) * b) / b⌋ + n + ⌊x / b⌋, by push_cast; ring⟩

private theorem pmod_shift (t b : K) {x y : K} (n : ℤ) (h : y = x + t + (n : K) * b) (c R : K) :
    pmod ((pmod y b - (c + t)) / R) (b / R) = pmod ((pmod x b - c) / R) (b / R) := by
  obtain ⟨k, hk⟩ := pmod_turn x t b n
  rw [h, hk, ← pmod_turns ((pmod x b - c) / R) (b / R) k]
  congr 1
  ring

/-! ## Regions -/

private structure Same (t : K × K × K) (i j : Info K) : Prop where
  x : j.xMin = i.xMin + t.1
  y : j.yMin = i.yMin + t.2.1
  xr : j.xRange = i.xRange
  yr : j.yRange = i.yRange
  zr : j.zRange = i.zRange
  R : j.maxRange = i.maxRange
  bx : j.boxX = i.boxX
  by_ : j.boxY = i.boxY
  bz : j.boxZ = i.boxZ
  inc : j.includesZ = i.includesZ
  z : i.includesZ = true → j.zMin = i.zMin + t.2.2 ∧ j.zMax = i.zMax + t.2.2

private theorem infoOf_moved (box t : K × K × K) (x0 x1 y0 y1 z0 z1 : K) (c p : Bool) :
    (∃ i j, infoOf box x0 x1 y0 y1 z0 z1 true c p = .ok i ∧
      infoOf box (x0 + t.1) (x1 + t.1) (y0 + t.2.1) (y1 + t.2.1) (z0 + t.2.2) (z1 + t.2.2) true c p = .ok j ∧ Same t i j) ∨
    ∃ e, infoOf box x0 x1 y0 y1 z0 z1 true c p = .error e ∧
      infoOf box (x0 + t.1) (x1 + t.1) (y0 + t.2.1) (y1 + t.2.1) (z0 + t.2.2) (z1 + t.2.2) true c p = .error e := by
  have e1 : x1 + t.1 - (x0 + t.1) = x1 - x0 := by ring
  have e2 : y1 + t.2.1 - (y0 + t.2.1) = y1 - y0 := by ring
  have e3 : z1 + t.2.2 - (z0 + t.2.2) = z1 - z0 := by ring
  unfold infoOf
  dsimp only
  rw [e1, e2, e3]
  split
  · exact .inr ⟨_, rfl, rfl⟩
  · exact .inl ⟨_, _, rfl, rfl, ⟨rfl, rfl, rfl, rfl, rfl, rfl, rfl, rfl, rfl, rfl, fun _ => ⟨rfl, rfl⟩⟩⟩

private theorem infoOf_moved' (box t : K × K × K) (x0 x1 y0 y1 z0 z1 : K) (c p : Bool) :
    (∃ i j, infoOf box x0 x1 y0 y1 z0 z1 false c p = .ok i ∧
      infoOf box (x0 + t.1) (x1 + t.1) (y0 + t.2.1) (y1 + t.2.1) z0 z1 false c p = .ok j ∧ Same t i j) ∨
    ∃ e, infoOf box x0 x1 y0 y1 z0 z1 false c p = .error e ∧
      infoOf box (x0 + t.1) (x1 + t.1) (y0 + t.2.1) (y1 + t.2.1) z0 z1 false c p = .error e := by
  have e1 : x1 + t.1 - (x0 + t.1) = x1 - x0 := by ring
  have e2 : y1 + t.2.1 - (y0 + t.2.1) = y1 - y0 := by ring
  unfold infoOf
  dsimp only
  rw [e1, e2]
  split
  · exact .inr ⟨_, rfl, rfl⟩
  · exact .inl ⟨_, _, rfl, rfl, ⟨rfl, rfl, rfl, rfl, rfl, rfl, rfl, rfl, rfl, rfl, fun h => nomatch h⟩⟩

private theorem info_moved (box t : K × K × K) (reg : List K) (c p : Bool) :
    (∃ i j, regionInfo box (some reg) c p = .ok i ∧ regionInfo box (some (moveLimits t reg)) c p = .ok j ∧ Same t i j) ∨
    ∃ e, regionInfo box (some reg) c p = .error e ∧ regionInfo box (some (moveLimits t reg)) c p = .error e := by
  rcases reg with _ | ⟨x0, _ | ⟨x1, _ | ⟨y0, _ | ⟨y1, _ | ⟨z0, _ | ⟨z1, _ | ⟨w, l⟩⟩⟩⟩⟩⟩⟩
  · exact .inr ⟨_, rfl, rfl⟩
  · exact .inr ⟨_, rfl, rfl⟩
  · exact .inr ⟨_, rfl, rfl⟩
  · exact .inr ⟨_, rfl, rfl⟩
  · exact infoOf_moved' box t x0 x1 y0 y1 0 box.2.2 c p
  · exact infoOf_moved' box t x0 x1 y0 y1 0 box.2.2 c p
  · exact infoOf_moved box t x0 x1 y0 y1 z0 z1 c p
  · exact infoOf_moved' box t x0 x1 y0 y1 0 box.2.2 c p

/-! ## Depth -/

/-- the depth selection of a periodic image in terms of differences -/
private theorem inDepth_iff {L : K} (hL : 0 < L) (i : Info K) (z : K) :
    inDepth L i true (pmod z L) = true ↔ pmod (i.zMax - i.zMin) L = 0 ∨ pmod (z - i.zMin) L ≤ pmod (i.zMax - i.zMin) L := by
  have hdiff : ∀ u v : K, pmod (u - v) L = if pmod v L ≤ pmod u L then pmod u L - pmod v L else pmod u L - pmod v L + L := by
    intro u v
    have hu := pmod_mem hL u
    have hv := pmod_mem hL v
    have key : ∀ w : K, 0 ≤ w → w < L → ∀ n : ℤ, u - v = w + (n : K) * L → pmod (u - v) L = w := by
      intro w h0 h1 n e
      rw [e, pmod_turns]
      unfold pmod
      rw [Int.floor_eq_zero_iff.2 ⟨div_nonneg h0 hL.le, (div_lt_one hL).2 h1⟩]
      simp
    have eu := pmod_eq u L
    have ev := pmod_eq v L
    split
    · refine key _ (by linarith) (by linarith) (⌊u / L⌋ - ⌊v / L⌋) ?_
      rw [eu, ev]; push_cast; ring
    · rename_i h
      rw [not_le] at h
      refine key _ (by linarith) (by linarith) (⌊u / L⌋ - ⌊v / L⌋ - 1) ?_
      rw [eu, ev]; push_cast; ring
  rw [hdiff, hdiff]
  unfold inDepth
  rw [if_pos rfl]
  have h1 := pmod_mem hL z
  have h2 := pmod_mem hL i.zMin
  have h3 := pmod_mem hL i.zMax
  generalize pmod z L = z at *
  generalize pmod i.zMin L = a at *
  generalize pmod i.zMax L = b at *
  rcases lt_trichotomy a b with h | rfl | h
  · rw [if_neg (not_le.2 h), if_pos h.le, Bool.and_eq_true, decide_eq_true_iff, decide_eq_true_iff]
    constructor
    · rintro ⟨h4, h5⟩
      right
      rw [if_pos h5]; linarith
    · rintro (h4 | h4)
      · linarith
      · split at h4
        · rename_i h5; exact ⟨by linarith, h5⟩
        · rename_i h5; linarith
  · rw [if_pos le_rfl, if_pos le_rfl, Bool.or_eq_true, decide_eq_true_iff, decide_eq_true_iff]
    simp [le_total]
  · rw [if_pos h.le, if_neg (not_le.2 h), Bool.or_eq_true, decide_eq_true_iff, decide_eq_true_iff]
    constructor
    · intro h4
      right
      split
      · linarith
      · rename_i h5
        rcases h4 with h4 | h4
        · linarith
        · exact absurd h4 h5
    · rintro (h4 | h4)
      · linarith
      · split at h4
        · rename_i h5; exact .inr h5
        · left; linarith

private theorem inDepth_moved {L : K} {periodic : Bool} (hL : periodic = true → 0 < L) {i j : Info K} {t z : K} (n : ℤ) (hn : periodic = false → n = 0)
    (h0 : j.zMin = i.zMin + t) (h1 : j.zMax = i.zMax + t) :
    inDepth L j periodic (if periodic then pmod (z + t + (n : K) * L) L else z + t + (n : K) * L) =
      inDepth L i periodic (if periodic then pmod z L else z) := by
  cases periodic with
  | false =>
    rw [hn rfl]
    simp only [inDepth, Bool.false_eq_true, if_false, h0, h1]
    congr 1 <;> rw [decide_eq_decide] <;> push_cast <;> constructor <;> intro h <;> linarith
  | true =>
    rw [Bool.eq_iff_iff]
    simp only [if_true]
    rw [inDepth_iff (hL rfl), inDepth_iff (hL rfl), h0, h1, show i.zMax + t - (i.zMin + t) = i.zMax - i.zMin by ring,
      show z + t + (n : K) * L - (i.zMin + t) = z - i.zMin + (n : K) * L by ring, pmod_turns]

/-! ## Moved data -/

private theorem wrapped_z (box : K × K × K) (periodic : Bool) (p : Scatter.Part K) :
    (wrapped box periodic p).z = if periodic then pmod p.z box.2.2 else p.z := by
  unfold wrapped; split <;> rfl

private theorem normed_moved {box t : K × K × K} {periodic : Bool} {i j : Info K} (hs : Same t i j)
    (hb : i.boxX = (if periodic then box.1 / i.maxRange else 0) ∧ i.boxY = if periodic then box.2.1 / i.maxRange else 0)
    {p q : Scatter.Part K × Bool} (h : Displaced box t periodic p q) :
    ({ normed j periodic (wrapped box periodic q.1) with z := 0 } : Scatter.Part K) = { normed i periodic (wrapped box periodic p.1) with z := 0 } := by
  obtain ⟨n, hn, rfl⟩ := h
  obtain ⟨b1, b2⟩ := hb
  cases periodic with
  | false =>
    simp only [normed, wrapped, Bool.false_eq_true, if_false, hs.x, hs.y, hs.R, hn rfl]
    congr 1 <;> push_cast <;> ring
  | true =>
    simp only [if_true] at b1 b2
    simp only [normed, wrapped, if_true, hs.x, hs.y, hs.R, hs.bx, hs.by_, b1, b2]
    rw [pmod_shift t.1 box.1 n.1 rfl, pmod_shift t.2.1 box.2.1 n.2.1 rfl]

private theorem boxes_of {box : K × K × K} {reg : Option (List K)} {c periodic : Bool} {i : Info K} (h : regionInfo box reg c periodic = .ok i) :
    i.boxX = (if periodic then box.1 / i.maxRange else 0) ∧ i.boxY = (if periodic then box.2.1 / i.maxRange else 0) ∧
      i.boxZ = if periodic then box.2.2 / i.maxRange else 0 := by
  have key : ∀ x0 x1 y0 y1 z0 z1 : K, ∀ z : Bool, infoOf box x0 x1 y0 y1 z0 z1 z c periodic = .ok i →
      i.boxX = (if periodic then box.1 / i.maxRange else 0) ∧ i.boxY = (if periodic then box.2.1 / i.maxRange else 0) ∧
        i.boxZ = if periodic then box.2.2 / i.maxRange else 0 := by
    intro x0 x1 y0 y1 z0 z1 z h
    unfold infoOf at h
    dsimp only at h
    split at h
    · cases h
    · cases h; exact ⟨rfl, rfl, rfl⟩
  unfold regionInfo at h
  split at h
  · exact key _ _ _ _ _ _ _ h
  · exact key _ _ _ _ _ _ _ h
  · exact key _ _ _ _ _ _ _ h
  · cases h

private theorem select_moved {box t : K × K × K} {periodic : Bool} (hL : periodic = true → 0 < box.2.2) {i j : Info K} (hs : Same t i j)
    (hb : i.boxX = (if periodic then box.1 / i.maxRange else 0) ∧ i.boxY = if periodic then box.2.1 / i.maxRange else 0)
    {ps qs : List (Scatter.Part K × Bool)} (h : List.Forall₂ (Displaced box t periodic) ps qs) :
    (∃ e, select box.2.2 i periodic (ps.map fun p => (wrapped box periodic p.1, p.2)) = .error e ∧
      select box.2.2 j periodic (qs.map fun p => (wrapped box periodic p.1, p.2)) = .error e) ∨
    ∃ a b, select box.2.2 i periodic (ps.map fun p => (wrapped box periodic p.1, p.2)) = .ok a ∧
      select box.2.2 j periodic (qs.map fun p => (wrapped box periodic p.1, p.2)) = .ok b ∧
      (b.map (normed j periodic)).map (fun p => { p with z := 0 }) = (a.map (normed i periodic)).map (fun p => { p with z := 0 }) := by
  have main : ∀ u v : Scatter.Part K × Bool → Bool, (∀ p q, Displaced box t periodic p q →
      v (wrapped box periodic q.1, q.2) = u (wrapped box periodic p.1, p.2)) →
      ((((qs.map fun p => (wrapped box periodic p.1, p.2)).filter v).map Prod.fst).map (normed j periodic)).map (fun p => ({ p with z := 0 } : Scatter.Part K)) =
      ((((ps.map fun p => (wrapped box periodic p.1, p.2)).filter u).map Prod.fst).map (normed i periodic)).map (fun p => { p with z := 0 }) := by
    intro u v huv
    induction h with
    | nil => rfl
    | cons h _ ih =>
      simp only [List.map_cons, List.filter_cons]
      rw [huv _ _ h]
      split
      · simp only [List.map_cons]
        rw [normed_moved hs hb h]
        congr 1
      · exact ih
  unfold select
  rw [hs.inc, hs.zr]
  by_cases hz : i.includesZ = true
  · rw [if_pos hz, if_pos hz]
    split
    · exact .inl ⟨_, rfl, rfl⟩
    · refine .inr ⟨_, _, rfl, rfl, main _ _ ?_⟩
      rintro p q ⟨n, hn, rfl⟩
      dsimp only
      congr 1
      rw [wrapped_z, wrapped_z]
      exact inDepth_moved hL n.2.2 (fun h => by rw [hn h]) (hs.z hz).1 (hs.z hz).2
  · rw [if_neg hz, if_neg hz]
    refine .inr ⟨_, _, rfl, rfl, main _ _ ?_⟩
    rintro p q ⟨n, hn, rfl⟩
    rfl

/-- C111. A projection of particles and a region that are moved together is the same image, with every backend that does not look at
the depth. In a periodic box every particle may also be moved by whole boxes. -/
theorem c111_project {scatter : Nat → K → K → List (Scatter.Part K) → Except Err (Int × Int → K)} (hf : ImageFrame.Flat scatter) (box t : K × K × K)
    (reg : List K) (periodic framed : Bool) (hL : periodic = true → 0 < box.2.2) (res : Nat) (ps qs : List (Scatter.Part K × Bool))
    (h : List.Forall₂ (Displaced box t periodic) ps qs) :
    project scatter box (some (moveLimits t reg)) periodic framed res qs = project scatter box (some reg) periodic framed res ps := by
  unfold project
  rcases info_moved box t reg false periodic with ⟨i, j, hi, hj, hs⟩ | ⟨e, hi, hj⟩
  · rw [hi, hj]
    obtain ⟨b1, b2, -⟩ := boxes_of hi
    change (select box.2.2 j periodic _).bind _ = (select box.2.2 i periodic _).bind _
    rcases select_moved hL hs ⟨b1, b2⟩ h with ⟨e, ha, hb⟩ | ⟨a, b, ha, hb, hab⟩
    · rw [ha, hb]; rfl
    · rw [ha, hb]
      change (scatter res j.boxX j.boxY _).bind _ = (scatter res i.boxX i.boxY _).bind _
      have e : scatter res j.boxX j.boxY (b.map (normed j periodic)) = scatter res i.boxX i.boxY (a.map (normed i periodic)) := by
        rw [← hf res j.boxX j.boxY (fun _ => 0) (b.map (normed j periodic)), ← hf res i.boxX i.boxY (fun _ => 0) (a.map (normed i periodic)), hab,
          hs.bx, hs.by_]
      rw [e, hs.xr, hs.yr, hs.R]
  · rw [hi, hj]; rfl

private theorem kept_moved {α : Type} {box t : K × K × K} {periodic : Bool} {f f' : Scatter.Part K → α} {ps qs : List (Scatter.Part K × Bool)}
    (h : List.Forall₂ (Displaced box t periodic) ps qs)
    (hff : ∀ p q : Scatter.Part K × Bool, Displaced box t periodic p q → f' (wrapped box periodic q.1) = f (wrapped box periodic p.1)) :
    (((qs.filter fun p => p.2).map Prod.fst).map (wrapped box periodic)).map f' =
      (((ps.filter fun p => p.2).map Prod.fst).map (wrapped box periodic)).map f := by
  induction h with
  | nil => rfl
  | @cons p q l m h _ ih =>
    have e : q.2 = p.2 := by obtain ⟨n, _, rfl⟩ := h; rfl
    simp only [List.filter_cons, e]
    split
    · simp only [List.map_cons]
      rw [hff p q h, ih]
    · exact ih

/-- C111. The same for slices and any backend: particles and region are moved together along the axes of the image. In a periodic box
every particle, and the height of the slice, may be moved by whole boxes. -/
theorem c111_slice (scatter : K → Nat → Nat → K → K → K → List (Scatter.Part K) → Except Err (Int × Int → K)) (box t : K × K × K) (ht : t.2.2 = 0)
    (reg : List K) (periodic framed : Bool) (zs : K) (k : ℤ) (hk : periodic = false → k = 0) (res : Nat) (ps qs : List (Scatter.Part K × Bool))
    (h : List.Forall₂ (Displaced box t periodic) ps qs) :
    sliceGrid scatter box (some (moveLimits t reg)) (zs + (k : K) * box.2.2) periodic framed res qs =
      sliceGrid scatter box (some reg) zs periodic framed res ps := by
  unfold sliceGrid
  rcases info_moved box t reg false periodic with ⟨i, j, hi, hj, hs⟩ | ⟨e, hi, hj⟩
  · rw [hi, hj]
    obtain ⟨b1, b2, b3⟩ := boxes_of hi
    have e1 := kept_moved (f := normedSlice i periodic) (f' := normedSlice j periodic) h (fun p q hd => by
      have e := normed_moved hs ⟨b1, b2⟩ hd
      simp only [Scatter.Part.mk.injEq] at e
      obtain ⟨n, hn, rfl⟩ := hd
      unfold normedSlice
      simp only [Scatter.Part.mk.injEq]
      refine ⟨e.1, e.2.1, ?_, e.2.2.2.1, e.2.2.2.2⟩
      rw [hs.R, hs.bz, wrapped_z, wrapped_z]
      cases periodic with
      | false => simp [hn rfl, ht]
      | true => simp only [if_true, ht, add_zero]; rw [pmod_turns])
    have e2 : (if periodic then pmod ((zs + (k : K) * box.2.2) / j.maxRange) j.boxZ else (zs + (k : K) * box.2.2) / j.maxRange) =
        if periodic then pmod (zs / i.maxRange) i.boxZ else zs / i.maxRange := by
      rw [hs.R, hs.bz, b3]
      cases periodic with
      | false => simp [hk rfl]
      | true =>
        simp only [if_true]
        rw [add_div, mul_div_assoc, pmod_turns]
    change (scatter _ _ _ j.boxX j.boxY j.boxZ _).bind _ = (scatter _ _ _ i.boxX i.boxY i.boxZ _).bind _
    rw [e1, e2, hs.bx, hs.by_, hs.bz, hs.xr, hs.yr, hs.R]
  · rw [hi, hj]; rfl

/-- C111. A slice and its particles that are moved together in depth: the SPH slice is the same, periodic or not. -/
theorem c111_slice_depth {W : K → K → K} (hW : Compact W) (hsc : Scales 3 W) {g : K} {res : Nat} (hr : 0 < res)
    (Lx Ly Lz : K) (periodic : Bool) (hL : periodic = true → 0 < Lx ∧ 0 < Ly ∧ 0 < Lz) {x0 x1 y0 y1 : K} (hx : x0 < x1)
    (hy : y0 < y1) (zs t : K) (ps : List (Scatter.Part K × Bool))
    (hp : ∀ p ∈ ps, 0 < g * p.1.h ∧ (periodic = true → g * p.1.h ≤ Lx ∧ g * p.1.h ≤ Ly ∧ g * p.1.h ≤ Lz)) :
    ∃ a b, sliceGrid (slice W g) (Lx, Ly, Lz) (some [x0, x1, y0, y1]) zs periodic true res ps = .ok a ∧
      sliceGrid (slice W g) (Lx, Ly, Lz) (some [x0, x1, y0, y1]) (zs + t) periodic true res
        (ps.map fun p => ({ p.1 with z := p.1.z + t }, p.2)) = .ok b ∧
      (∀ i : Int, OnImage a.nx i ↔ OnImage b.nx i) ∧ (∀ i : Int, OnImage a.ny i ↔ OnImage b.ny i) ∧
      ∀ q, OnImage a.nx q.1 → OnImage a.ny q.2 → b.img q = a.img q := by
  obtain ⟨a, ha, a1, a2, a3⟩ := c53_slice_partial hW hsc hr Lx Ly Lz periodic hL hx hy none zs ps hp
  obtain ⟨b, hb, b1, b2, b3⟩ := c53_slice_partial hW hsc hr Lx Ly Lz periodic hL hx hy none (zs + t)
    (ps.map fun p => ({ p.1 with z := p.1.z + t }, p.2)) (fun p hm => by
      obtain ⟨q, hq, rfl⟩ := List.mem_map.1 hm
      exact hp q hq)
  refine ⟨a, b, ha, hb, fun i => by rw [a1, b1], fun i => by rw [a2, b2], fun q h1 h2 => ?_⟩
  rw [a3 q h1 h2, b3 q (by rw [b1, ← a1]; exact h1) (by rw [b2, ← a2]; exact h2), List.map_map]
  congr 1
  apply List.map_congr_left
  intro p _
  simp only [Function.comp_def]
  split
  · unfold tile3
    congr 1
    funext k
    split
    · unfold sliceAt
      rw [show p.1.z + t + (k.2.2 : K) * period periodic Lz - (zs + t) = p.1.z + (k.2.2 : K) * period periodic Lz - zs by ring]
    · rfl
  · rfl

/-- C111. The same for renders of a region and any backend; a periodic render needs a cube, not only nearly one. -/
theorem c111_render (scatter : Nat → K → K → K → List (Scatter.Part K) → Except Err (Int × Int × Int → K)) (box t : K × K × K)
    (x0 x1 y0 y1 z0 z1 : K) (periodic framed : Bool) (hc : periodic = true → y1 - y0 = x1 - x0 ∧ z1 - z0 = x1 - x0) (res : Nat)
    (ps qs : List (Scatter.Part K × Bool)) (h : List.Forall₂ (Displaced box t periodic) ps qs) :
    renderGrid scatter box (some (moveLimits t [x0, x1, y0, y1, z0, z1])) periodic framed res qs =
      renderGrid scatter box (some [x0, x1, y0, y1, z0, z1]) periodic framed res ps := by
  unfold renderGrid
  rcases info_moved box t [x0, x1, y0, y1, z0, z1] true periodic with ⟨i, j, hi, hj, hs⟩ | ⟨e, hi, hj⟩
  · rw [hi, hj]
    obtain ⟨b1, b2, b3⟩ := boxes_of hi
    have hr : i.includesZ = true ∧ (periodic = true → i.xRange = i.maxRange ∧ i.yRange = i.maxRange ∧ i.zRange = i.maxRange) := by
      unfold regionInfo infoOf at hi
      dsimp only at hi
      split at hi
      · cases hi
      · cases hi
        refine ⟨rfl, fun hp => ?_⟩
        obtain ⟨c1, c2⟩ := hc hp
        dsimp only
        rw [c1, c2, max_self]
        exact ⟨rfl, rfl, rfl⟩
    have hz := hs.z hr.1
    have e1 := kept_moved (f := normedVolume i periodic) (f' := normedVolume j periodic) h (fun p q hd => by
      obtain ⟨n, hn, rfl⟩ := hd
      cases periodic with
      | false =>
        simp only [normedVolume, wrapped, Bool.false_eq_true, if_false, hs.x, hs.y, hz.1, hs.xr, hs.yr, hs.zr, hn rfl]
        congr 1 <;> push_cast <;> ring
      | true =>
        obtain ⟨r1, r2, r3⟩ := hr.2 rfl
        simp only [if_true] at b1 b2 b3
        simp only [normedVolume, wrapped, if_true, hs.x, hs.y, hz.1, hs.xr, hs.yr, hs.zr, hs.bx, hs.by_, hs.bz, b1, b2, b3, r1, r2, r3]
        rw [pmod_shift t.1 box.1 n.1 rfl, pmod_shift t.2.1 box.2.1 n.2.1 rfl, pmod_shift t.2.2 box.2.2 n.2.2 rfl])
    change (scatter _ j.boxX j.boxY j.boxZ _).bind _ = (scatter _ i.boxX i.boxY i.boxZ _).bind _
    rw [e1, hs.bx, hs.by_, hs.bz, hs.xr, hs.yr, hs.zr]
  · rw [hi, hj]; rfl

/-! ## Axes exchanged -/

theorem sum_comm_map {α β : Type} (f : α → β → K) (l : List α) (m : List β) :
    (l.map fun a => (m.map fun b => f a b).sum).sum = (m.map fun b => (l.map fun a => f a b).sum).sum := by
  induction l with
  | nil => simp
  | cons a l ih =>
    simp only [List.map_cons, List.sum_cons, ih]
    rw [← List.sum_map_add]

private theorem over_turns {dep : Nat → Scatter.Part K → List ((Int × Int) × K)}
    (hin : ∀ res p d, d ∈ dep res p → inside2 res res d.1 = true)
    (hd : ∀ (res : Nat) (p : Scatter.Part K) (q : Int × Int), wsum q (dep res (turned p)) = wsum (q.2, q.1) (dep res p)) :
    Turns fun res bx by_ ps => paint (inside2 res res) (over (dep res) bx by_ ps) := by
  intro res bx by_ ps
  dsimp only
  rw [paint_ok _ _ (over_inside (hin res) by_ bx _), paint_ok _ _ (over_inside (hin res) bx by_ _)]
  change Except.ok _ = Except.ok _
  congr 1
  funext q
  change _ = wsum (q.2, q.1) (over (dep res) bx by_ ps)
  rw [wsum_over, wsum_over, List.map_map]
  congr 1
  apply List.map_congr_left
  intro p _
  simp only [Function.comp_def]
  rw [sum_comm_map]
  congr 1
  apply List.map_congr_left
  intro i _
  congr 1
  apply List.map_congr_left
  intro j _
  rw [← hd]
  rfl

theorem irange_nodup (a b : Int) : (irange a b).Nodup := by
  unfold irange
  refine List.Nodup.map (fun x y h => ?_) List.nodup_range
  simpa using h

private theorem own_turns (res : Nat) (p : Scatter.Part K) (q : Int × Int) :
    wsum q (ownCell2 res (turned p)) = wsum (q.2, q.1) (ownCell2 res p) := by
  unfold ownCell2 turned
  dsimp only
  rw [Bool.and_comm]
  split
  · obtain ⟨a, b⟩ := q
    simp only [wsum_cons, wsum_nil, Prod.mk.injEq]
    simp only [and_comm]
  · rfl

theorem over2_turns (xs ys : List Int) (hx : xs.Nodup) (hy : ys.Nodup) (w w' : Int → Int → K) (hw : ∀ i j, w' j i = w i j) (q : Int × Int) :
    wsum q (over2 ys xs w') = wsum (q.2, q.1) (over2 xs ys w) := by
  rw [wsum_over2 _ _ hy hx, wsum_over2 _ _ hx hy, hw]
  simp only [and_comm]

private theorem renorm_inside (W : K → K → K) (g : K) (res : Nat) (p : Scatter.Part K) (d : (Int × Int) × K)
    (h : d ∈ renormalisedDeps W g res p) : inside2 res res d.1 = true := by
  unfold renormalisedDeps at h
  dsimp only at h
  split at h
  · simp at h
  · split at h
    · exact ownCell2_inside res p d h
    · have := mem_over2 h
      rw [mem_span, mem_span] at this
      rw [inside2_iff]; exact ⟨this.1.1, this.2.1⟩

/-- C111. The histogram, the fast and the renormalised backend draw the transposed image when the axes are exchanged. -/
theorem c111_turns (W : K → K → K) (g : K) : Turns (histogram (K := K)) ∧ Turns (fast W g) ∧ Turns (renormalised W g) := by
  refine ⟨over_turns (fun res p d h => ownCell2_inside res p d h) fun res p q => own_turns res p q,
    over_turns (fun res p d h => fastDeps_inside W g res p d h) fun res p q => ?_,
    over_turns (fun res p d h => renorm_inside W g res p d h) fun res p q => ?_⟩
  · unfold fastDeps
    dsimp only
    rw [show (turned p).x = p.y from rfl, show (turned p).y = p.x from rfl, show (turned p).h = p.h from rfl, show (turned p).m = p.m from rfl, Bool.or_comm]
    split
    · rfl
    split
    · exact own_turns res p q
    · exact over2_turns _ _ (irange_nodup _ _) (irange_nodup _ _) _ _ (fun i j => by rw [add_comm]) q
  · unfold renormalisedDeps
    dsimp only
    rw [show (turned p).x = p.y from rfl, show (turned p).y = p.x from rfl, show (turned p).h = p.h from rfl, show (turned p).m = p.m from rfl, Bool.or_comm]
    split
    · rfl
    split
    · exact own_turns res p q
    · refine over2_turns _ _ (irange_nodup _ _) (irange_nodup _ _) _ _ (fun i j => ?_) q
      have e : ∀ cs, kernelSum W (g * p.h) res cs (turned p) = kernelSum W (g * p.h) res cs p := by
        intro cs
        unfold kernelSum
        simp only [List.flatMap, List.sum_flatten, List.map_map, Function.comp_def]
        rw [sum_comm_map]
        simp only [turned, add_comm]
      rw [e, add_comm]

theorem info_turned (box : K × K × K) (reg : Option (List K)) (periodic : Bool) :
    (∃ e, regionInfo box reg false periodic = .error e ∧ regionInfo (turnBox box) (reg.map turnLimits) false periodic = .error e) ∨
    ∃ i, regionInfo box reg false periodic = .ok i ∧ regionInfo (turnBox box) (reg.map turnLimits) false periodic =
      .ok { i with xMin := i.yMin, yMin := i.xMin, xRange := i.yRange, yRange := i.xRange, boxX := i.boxY, boxY := i.boxX } := by
  have key : ∀ x0 x1 y0 y1 z0 z1 : K, ∀ z : Bool, ∃ i, infoOf box x0 x1 y0 y1 z0 z1 z false periodic = .ok i ∧
      infoOf (turnBox box) y0 y1 x0 x1 z0 z1 z false periodic =
        .ok { i with xMin := i.yMin, yMin := i.xMin, xRange := i.yRange, yRange := i.xRange, boxX := i.boxY, boxY := i.boxX } := by
    intro x0 x1 y0 y1 z0 z1 z
    unfold infoOf
    refine ⟨_, rfl, ?_⟩
    simp only [Bool.false_and, Bool.false_eq_true, if_false, turnBox, max_comm (y1 - y0)]
  rcases reg with _ | reg
  · exact .inr (key _ _ _ _ _ _ _)
  rcases reg with _ | ⟨x0, _ | ⟨x1, _ | ⟨y0, _ | ⟨y1, _ | ⟨z0, _ | ⟨z1, _ | ⟨w, l⟩⟩⟩⟩⟩⟩⟩
  · exact .inl ⟨_, rfl, rfl⟩
  · exact .inl ⟨_, rfl, rfl⟩
  · exact .inl ⟨_, rfl, rfl⟩
  · exact .inl ⟨_, rfl, rfl⟩
  · exact .inr (key _ _ _ _ _ _ _)
  · exact .inr (key _ _ _ _ _ _ _)
  · exact .inr (key _ _ _ _ _ _ _)
  · exact .inr (key _ _ _ _ _ _ _)

/-- C111. A projection with the axes exchanged is the transposed image. -/
theorem c111_transposed {scatter : Nat → K → K → List (Scatter.Part K) → Except Err (Int × Int → K)} (ht : Turns scatter) (box : K × K × K)
    (reg : Option (List K)) (periodic framed : Bool) (res : Nat) (ps : List (Scatter.Part K × Bool)) :
    project scatter (turnBox box) (reg.map turnLimits) periodic framed res (ps.map fun p => (turned p.1, p.2)) =
      (project scatter box reg periodic framed res ps).map fun out =>
        (⟨out.ny, out.nx, fun q => out.img (q.2, q.1)⟩ : Grid K) := by
  unfold project
  rcases info_turned box reg periodic with ⟨e, h1, h2⟩ | ⟨i, h1, h2⟩
  · rw [h1, h2]; rfl
  · rw [h1, h2]
    have e : (ps.map fun p => (turned p.1, p.2)).map (fun p => (wrapped (turnBox box) periodic p.1, p.2)) =
        (ps.map fun p => (wrapped box periodic p.1, p.2)).map fun p => (turned p.1, p.2) := by
      rw [List.map_map, List.map_map]
      apply List.map_congr_left
      intro p _
      unfold wrapped turned turnBox
      cases periodic <;> rfl
    have e2 : ∀ (f : Scatter.Part K × Bool → Bool) (l : List (Scatter.Part K × Bool)), (∀ p : Scatter.Part K × Bool, f (turned p.1, p.2) = f p) →
        ((l.map fun p => (turned p.1, p.2)).filter f).map Prod.fst = ((l.filter f).map Prod.fst).map turned := by
      intro f l hf
      induction l with
      | nil => rfl
      | cons p l ih =>
        simp only [List.map_cons, List.filter_cons, hf]
        split
        · simp only [List.map_cons]; rw [ih]
        · exact ih
    set j : Info K := { i with xMin := i.yMin, yMin := i.xMin, xRange := i.yRange, yRange := i.xRange, boxX := i.boxY, boxY := i.boxX } with hj
    have e3 : ∀ l : List (Scatter.Part K × Bool), select (turnBox box).2.2 j periodic (l.map fun p => (turned p.1, p.2)) =
        (select box.2.2 i periodic l).map fun a => a.map turned := by
      intro l
      unfold select
      rw [show j.includesZ = i.includesZ from rfl, show j.zRange = i.zRange from rfl, show (turnBox box).2.2 = box.2.2 from rfl]
      split
      · split
        · rfl
        · exact congrArg Except.ok (e2 _ l fun p => rfl)
      · exact congrArg Except.ok (e2 _ l fun p => rfl)
    change (select (turnBox box).2.2 j periodic _).bind _ = ((select box.2.2 i periodic _).bind _).map _
    rw [e, e3]
    cases select box.2.2 i periodic (ps.map fun p => (wrapped box periodic p.1, p.2)) with
    | error e => rfl
    | ok a =>
      change (scatter res j.boxX j.boxY ((a.map turned).map (normed j periodic))).bind _ = ((scatter res i.boxX i.boxY (a.map (normed i periodic))).bind _).map _
      have e4 : (a.map turned).map (normed j periodic) = (a.map (normed i periodic)).map turned := by
        rw [List.map_map, List.map_map]
        apply List.map_congr_left
        intro p _
        rfl
      rw [e4, show j.boxX = i.boxY from rfl, show j.boxY = i.boxX from rfl, ht]
      cases scatter res i.boxX i.boxY (a.map (normed i periodic)) with
      | error e => rfl
      | ok img =>
        change Except.ok _ = Except.ok _
        rw [show j.xRange = i.yRange from rfl, show j.yRange = i.xRange from rfl, mul_comm i.yRange]

/-! ## Sets of particles -/

private theorem select_append (Lz : K) (i : Info K) (periodic : Bool) (l m : List (Scatter.Part K × Bool)) :
    (∃ e, ∀ n, select Lz i periodic n = .error e) ∨
    ∃ a b, select Lz i periodic l = .ok a ∧ select Lz i periodic m = .ok b ∧ select Lz i periodic (l ++ m) = .ok (a ++ b) := by
  unfold select
  split
  · split
    · exact .inl ⟨_, fun _ => rfl⟩
    · exact .inr ⟨_, _, rfl, rfl, by rw [List.filter_append, List.map_append]⟩
  · exact .inr ⟨_, _, rfl, rfl, by rw [List.filter_append, List.map_append]⟩

/-- C111. The projection of two sets of particles is the sum of their projections, pixel by pixel, with every additive backend (C39). -/
theorem c111_sum {scatter : Nat → K → K → List (Scatter.Part K) → Except Err (Int × Int → K)} (ha : ∀ res bx by_, Additive (scatter res bx by_))
    (box : K × K × K) (reg : Option (List K)) (periodic framed : Bool) (res : Nat) (ps qs : List (Scatter.Part K × Bool)) (a b : Grid K)
    (hp : project scatter box reg periodic framed res ps = .ok a) (hq : project scatter box reg periodic framed res qs = .ok b) :
    project scatter box reg periodic framed res (ps ++ qs) = .ok { a with img := fun q => a.img q + b.img q } := by
  unfold project at *
  cases hi : regionInfo box reg false periodic with
  | error e => rw [hi] at hp; cases hp
  | ok i =>
    rw [hi] at hp hq
    change (select _ _ _ _).bind _ = _ at hp hq
    change (select _ _ _ _).bind _ = _
    rw [List.map_append]
    rcases select_append box.2.2 i periodic (ps.map fun p => (wrapped box periodic p.1, p.2)) (qs.map fun p => (wrapped box periodic p.1, p.2)) with
      ⟨e, h⟩ | ⟨u, v, hu, hv, huv⟩
    · rw [h] at hp; cases hp
    · rw [hu] at hp
      rw [hv] at hq
      rw [huv]
      change (scatter _ _ _ _).bind _ = _ at hp hq
      change (scatter _ _ _ _).bind _ = _
      obtain ⟨x, y, hx, hy, hxy⟩ := ha res i.boxX i.boxY (u.map (normed i periodic)) (v.map (normed i periodic))
      rw [hx] at hp
      rw [hy] at hq
      rw [List.map_append, hxy]
      cases hp
      cases hq
      change Except.ok _ = Except.ok _
      simp only [add_div]

theorem additive_perm {α ι : Type} {f : List α → Except Err (ι → K)} (ha : Additive f) {l m : List α} (h : l.Perm m) : f l = f m := by
  have app : ∀ {u v u' v' : List α}, f u = f u' → f v = f v' → f (u ++ v) = f (u' ++ v') := by
    intro u v u' v' h1 h2
    obtain ⟨a, b, h3, h4, h5⟩ := ha u v
    obtain ⟨a', b', h3', h4', h5'⟩ := ha u' v'
    rw [h5, h5']
    rw [h3, h3'] at h1
    rw [h4, h4'] at h2
    cases h1; cases h2; rfl
  have swap : ∀ u v : List α, f (u ++ v) = f (v ++ u) := by
    intro u v
    obtain ⟨a, b, h3, h4, h5⟩ := ha u v
    obtain ⟨a', b', h3', h4', h5'⟩ := ha v u
    rw [h5, h5']
    rw [h3] at h4'
    rw [h4] at h3'
    cases h3'; cases h4'
    simp only [add_comm]
  induction h with
  | nil => rfl
  | cons x _ ih => exact app (u := [x]) (u' := [x]) rfl ih
  | swap x y l =>
    have := app (v := l) (v' := l) (swap [y] [x]) rfl
    exact this
  | trans _ _ h1 h2 => exact h1.trans h2

/-- C111. A projection does not depend on the order of the particles. -/
theorem c111_order {scatter : Nat → K → K → List (Scatter.Part K) → Except Err (Int × Int → K)} (ha : ∀ res bx by_, Additive (scatter res bx by_))
    (box : K × K × K) (reg : Option (List K)) (periodic framed : Bool) (res : Nat) {ps qs : List (Scatter.Part K × Bool)} (h : ps.Perm qs) :
    project scatter box reg periodic framed res ps = project scatter box reg periodic framed res qs := by
  unfold project
  cases hi : regionInfo box reg false periodic with
  | error e => rfl
  | ok i =>
    change (select _ _ _ _).bind _ = (select _ _ _ _).bind _
    unfold select
    have h' := h.map fun p => (wrapped box periodic p.1, p.2)
    split
    · split
      · rfl
      · change (scatter _ _ _ _).bind _ = (scatter _ _ _ _).bind _
        rw [additive_perm (ha res i.boxX i.boxY) (((h'.filter _).map _).map _)]
    · change (scatter _ _ _ _).bind _ = (scatter _ _ _ _).bind _
      rw [additive_perm (ha res i.boxX i.boxY) (((h'.filter _).map _).map _)]

/-- C111. Particles that the mask leaves out play no part. -/
theorem c111_masked (scatter : Nat → K → K → List (Scatter.Part K) → Except Err (Int × Int → K)) (box : K × K × K) (reg : Option (List K))
    (periodic framed : Bool) (res : Nat) (ps : List (Scatter.Part K × Bool)) :
    project scatter box reg periodic framed res ps = project scatter box reg periodic framed res (ps.filter fun p => p.2) := by
  unfold project
  cases hi : regionInfo box reg false periodic with
  | error e => rfl
  | ok i =>
    have e : ∀ f : Scatter.Part K × Bool → Bool, (∀ p, f p = true → p.2 = true) →
        ((ps.map fun p => (wrapped box periodic p.1, p.2)).filter f) =
          ((ps.filter fun p => p.2).map fun p => (wrapped box periodic p.1, p.2)).filter f := by
      intro f hf
      induction ps with
      | nil => rfl
      | cons p l ih =>
        rw [List.filter_cons (p := fun p : Scatter.Part K × Bool => p.2)]
        by_cases hp : p.2 = true
        · rw [if_pos hp]
          simp only [List.map_cons, List.filter_cons]
          rw [ih]
        · rw [if_neg hp, ← ih]
          simp only [List.map_cons, List.filter_cons]
          rw [if_neg]
          intro h
          exact hp (hf (wrapped box periodic p.1, p.2) h)
    change (select _ _ _ _).bind _ = (select _ _ _ _).bind _
    congr 1
    unfold select
    split
    · split
      · rfl
      · rw [e _ fun p h => by rw [Bool.and_eq_true] at h; exact h.1]
    · rw [e _ fun p h => h]

/-! ## Examples -/

private def exParts : List (Scatter.Part ℚ × Bool) :=
  [(⟨1 / 2, 1 / 2, 9, 1, 1 / 4⟩, true), (⟨9, 5 / 2, 1 / 2, 3, 1 / 4⟩, true), (⟨3, 1, 5, 2, 1⟩, true), (⟨1, 1, 1, 7, 1⟩, false)]

/-- the particles moved by `(3, 7, 4)`, two of them by whole boxes of length ten -/
private def exMoved : List (Scatter.Part ℚ × Bool) :=
  [(⟨7 / 2, -5 / 2, 13, 1, 1 / 4⟩, true), (⟨2, 19 / 2, 9 / 2, 3, 1 / 4⟩, true), (⟨6, 8, 9, 2, 1⟩, true), (⟨4, 8, 5, 7, 1⟩, false)]

private theorem exMoved_ok : List.Forall₂ (Displaced (10, 10, 10) (3, 7, 4) true) exParts exMoved := by
  refine .cons ⟨(0, -1, 0), nofun, ?_⟩ (.cons ⟨(-1, 0, 0), nofun, ?_⟩ (.cons ⟨(0, 0, 0), nofun, ?_⟩ (.cons ⟨(0, 0, 0), nofun, ?_⟩ .nil))) <;>
    norm_num

/-- a region through two faces of the box with a depth through a third one, and the same data elsewhere -/
example : project histogram (10, 10, 10) (some (moveLimits (3, 7, 4) [-2, 2, 0, 4, 8, 11])) true true 4 exMoved =
    project histogram (10, 10, 10) (some [-2, 2, 0, 4, 8, 11]) true true 4 exParts :=
  c111_project (c72_flat (fun _ _ => 0) 1).1 _ _ _ _ _ (fun _ => by norm_num) _ _ _ exMoved_ok

example : renderGrid (volume (fun _ _ => 1) 1) (10, 10, 10) (some (moveLimits (3, 7, 4) [-2, 2, 0, 4, 8, 12])) true true 4 exMoved =
    renderGrid (volume (fun _ _ => 1) 1) (10, 10, 10) (some [-2, 2, 0, 4, 8, 12]) true true 4 exParts :=
  c111_render _ _ _ _ _ _ _ _ _ _ _ (fun _ => by norm_num) _ _ _ exMoved_ok

/-- what is in these images: both particles of the depth range, in their pixels -/
example : (project histogram (10, 10, 10) (some [-2, 2, 0, 4, 8, 11]) true true 4 exParts).map (fun g => (g.nx, g.ny, g.img (2, 0), g.img (1, 2), g.img (0, 0))) =
      .ok (4, 4, 1, 3, 0) ∧
    (project histogram (10, 10, 10) (some (moveLimits (3, 7, 4) [-2, 2, 0, 4, 8, 11])) true true 4 exMoved).map
      (fun g => (g.nx, g.ny, g.img (2, 0), g.img (1, 2), g.img (0, 0))) = .ok (4, 4, 1, 3, 0) := by
  decide +kernel

/-- the transposed image of a region that is not a square -/
example : (project histogram (turnBox (10, 10, 10)) (some (turnLimits [-2, 2, 0, 3])) true false 4 (exParts.map fun p => (turned p.1, p.2))).map
      (fun g => (g.nx, g.ny, g.img (0, 2), g.img (2, 1), g.img (1, 2))) = .ok (3, 4, 16, 48, 0) ∧
    (project histogram (10, 10, 10) (some [-2, 2, 0, 3]) true false 4 exParts).map
      (fun g => (g.nx, g.ny, g.img (2, 0), g.img (1, 2), g.img (2, 1))) = .ok (4, 3, 16, 48, 0) := by
  decide +kernel

/-- the hypotheses of the laws about sets of particles hold for the backends of C39 -/
example (W : ℚ → ℚ → ℚ) (g : ℚ) {ps qs : List (Scatter.Part ℚ × Bool)} (h : ps.Perm qs) :
    project (fast W g) (10, 10, 10) (some [-2, 2, 0, 4, 8, 11]) true true 4 ps = project (fast W g) (10, 10, 10) (some [-2, 2, 0, 4, 8, 11]) true true 4 qs :=
  c111_order (fun res bx by_ => (c39_projection W g res bx by_).2.1.1) _ _ _ _ _ h

end Verif.Props
