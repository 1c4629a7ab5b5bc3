import Verif.Model.Nearest
import Verif.Props.Frame
import Mathlib.Tactic.LinearCombination
import Mathlib.Tactic.FieldSimp
import Mathlib.Tactic.Tauto

/-!
# C60: every pixel of a nearest-neighbour slice has the value of a nearest particle
-/

namespace Verif.Props
open Verif Verif.Spec Verif.Scatter Verif.Frame Verif.Nearest

set_option linter.unusedSectionVars false

section
variable {K : Type} [Field K] [LinearOrder K] [IsStrictOrderedRing K] [FloorRing K]

/-- What `cKDTree.query` is documented to return: the index of a nearest particle, any one if there are several. -/
def IsTree (query : K × K × K → List (K × K × K) → K × K × K → Nat) : Prop :=
  ∀ box data pt, data ≠ [] → ∃ p, data[query box data pt]? = some p ∧ ∀ q ∈ data, distance2 box p pt ≤ distance2 box q pt

/-- `q` is a copy of `p` in a box of the given periods (zero: not periodic). -/
def CopyIn (Lx Ly Lz : K) (p : Part K) (q : K × K × K) : Prop :=
  ∃ i j k : Int, IsCopy Lx i ∧ IsCopy Ly j ∧ IsCopy Lz k ∧ q = (p.x + i * Lx, p.y + j * Ly, p.z + k * Lz)

/-- Square of the distance between two places. -/
def separation2 (p q : K × K × K) : K := (p.1 - q.1) ^ 2 + (p.2.1 - q.2.1) ^ 2 + (p.2.2 - q.2.2) ^ 2

/-- One of the copies of `p` is at least as near to `c` as all copies of all of `ps`. -/
def NearestOf (Lx Ly Lz : K) (ps : List (Part K)) (c : K × K × K) (p : Part K) : Prop :=
  p ∈ ps ∧ ∃ p', CopyIn Lx Ly Lz p p' ∧ ∀ q ∈ ps, ∀ q', CopyIn Lx Ly Lz q q' → separation2 p' c ≤ separation2 q' c

private theorem gap_attained {b a c : K} (ha : Wrapped b a) : ∃ k : Int, IsCopy b k ∧ gap b a c = |a + k * b - c| := by
  unfold gap
  by_cases hb : b = 0
  · exact ⟨0, fun _ => rfl, by simp [hb]⟩
  · obtain ⟨h0, h1⟩ := ha hb
    have hpos : 0 < b := lt_of_le_of_lt h0 h1
    obtain ⟨m0, m1⟩ := pmod_mem hpos c
    rw [if_neg hb]
    have e := pmod_eq c b
    set n : Int := -⌊c / b⌋
    rcases le_total |a - pmod c b| (b - |a - pmod c b|) with h | h
    · rw [min_eq_left h]
      refine ⟨-n, fun h => absurd h hb, ?_⟩
      rw [e]; push_cast; congr 1; ring
    · rw [min_eq_right h]
      rcases le_total 0 (a - pmod c b) with hs | hs
      · rw [abs_of_nonneg hs]
        refine ⟨-n - 1, fun h => absurd h hb, ?_⟩
        have : a + ((-n - 1 : Int) : K) * b - c = a - pmod c b - b := by rw [e]; push_cast; ring
        rw [this, abs_of_nonpos (by linarith)]; ring
      · rw [abs_of_nonpos hs]
        refine ⟨-n + 1, fun h => absurd h hb, ?_⟩
        have : a + ((-n + 1 : Int) : K) * b - c = a - pmod c b + b := by rw [e]; push_cast; ring
        rw [this, abs_of_nonneg (by linarith)]; ring

private theorem gap_least {b a c : K} (ha : Wrapped b a) (hb0 : 0 ≤ b) (k : Int) (hk : IsCopy b k) :
    0 ≤ gap b a c ∧ gap b a c ≤ |a + k * b - c| := by
  unfold gap
  by_cases hb : b = 0
  · rw [if_pos hb, hk hb]; simp
  · obtain ⟨h0, h1⟩ := ha hb
    have hpos : 0 < b := lt_of_le_of_ne hb0 (Ne.symm hb)
    obtain ⟨m0, m1⟩ := pmod_mem hpos c
    rw [if_neg hb]
    have e := pmod_eq c b
    set n : Int := -⌊c / b⌋
    have habs : |a - pmod c b| < b := abs_lt.2 ⟨by linarith, by linarith⟩
    refine ⟨le_min (abs_nonneg _) (by linarith), ?_⟩
    have ee : a + (k : K) * b - c = (a - pmod c b) + ((k + n : Int) : K) * b := by rw [e]; push_cast; ring
    rw [ee]
    set d := a - pmod c b
    obtain ⟨hd1, hd2⟩ := abs_lt.1 habs
    rcases lt_trichotomy (k + n) 0 with h | h | h
    · have : ((k + n : Int) : K) ≤ -1 := by exact_mod_cast (by omega : k + n ≤ -1)
      have h2 : ((k + n : Int) : K) * b ≤ -b := by nlinarith
      refine (min_le_right _ _).trans ?_
      have : -(d + ((k + n : Int) : K) * b) ≤ |d + ((k + n : Int) : K) * b| := neg_le_abs _
      have := le_abs_self d
      linarith
    · rw [h]; simp
    · have : (1 : K) ≤ ((k + n : Int) : K) := by exact_mod_cast h
      have h2 : b ≤ ((k + n : Int) : K) * b := by nlinarith
      refine (min_le_right _ _).trans ?_
      have : d + ((k + n : Int) : K) * b ≤ |d + ((k + n : Int) : K) * b| := le_abs_self _
      have := neg_le_abs d
      linarith

private theorem wrapped_pmod {b : K} (hb : 0 ≤ b) (x : K) :
    Wrapped b (if b = 0 then x else pmod x b) ∧ ∃ k : Int, IsCopy b k ∧ (if b = 0 then x else pmod x b) = x + k * b := by
  by_cases h : b = 0
  · exact ⟨fun h' => absurd h h', 0, fun _ => rfl, by simp [h]⟩
  · rw [if_neg h]
    exact ⟨fun _ => pmod_mem (lt_of_le_of_ne hb (Ne.symm h)) x, -⌊x / b⌋, fun h' => absurd h' h, pmod_eq x b⟩

private theorem isCopy_add {b : K} {i j : Int} (hi : IsCopy b i) (hj : IsCopy b j) : IsCopy b (i + j) := fun h => by
  rw [hi h, hj h]; rfl

private theorem isCopy_neg {b : K} {i : Int} (hi : IsCopy b i) : IsCopy b (-i) := fun h => by rw [hi h]; rfl

/-- The position of a particle in the tree. -/
private def inTree (bx by_ bz : K) (p : Part K) : K × K × K :=
  (if bx = 0 then p.x else pmod p.x bx, if by_ = 0 then p.y else pmod p.y by_, if bz = 0 then p.z else pmod p.z bz)

private theorem distance_spec {bx by_ bz : K} (h1 : 0 ≤ bx) (h2 : 0 ≤ by_) (h3 : 0 ≤ bz) (p : Part K) (c : K × K × K) :
    (∃ p', CopyIn bx by_ bz p p' ∧ separation2 p' c = distance2 (bx, by_, bz) (inTree bx by_ bz p) c) ∧
      ∀ p', CopyIn bx by_ bz p p' → distance2 (bx, by_, bz) (inTree bx by_ bz p) c ≤ separation2 p' c := by
  obtain ⟨wx, i, hi, ei⟩ := wrapped_pmod h1 p.x
  obtain ⟨wy, j, hj, ej⟩ := wrapped_pmod h2 p.y
  obtain ⟨wz, k, hk, ek⟩ := wrapped_pmod h3 p.z
  constructor
  · obtain ⟨i', hi', gi⟩ := gap_attained (c := c.1) wx
    obtain ⟨j', hj', gj⟩ := gap_attained (c := c.2.1) wy
    obtain ⟨k', hk', gk⟩ := gap_attained (c := c.2.2) wz
    refine ⟨(p.x + (i + i' : Int) * bx, p.y + (j + j' : Int) * by_, p.z + (k + k' : Int) * bz),
      ⟨_, _, _, isCopy_add hi hi', isCopy_add hj hj', isCopy_add hk hk', rfl⟩, ?_⟩
    simp only [separation2, distance2, inTree]
    rw [gi, gj, gk, abs_mul_abs_self, abs_mul_abs_self, abs_mul_abs_self, ei, ej, ek]
    push_cast; ring
  · rintro _ ⟨i', j', k', hi', hj', hk', rfl⟩
    have gi := gap_least (c := c.1) wx h1 (i' - i) (isCopy_add hi' (isCopy_neg hi))
    have gj := gap_least (c := c.2.1) wy h2 (j' - j) (isCopy_add hj' (isCopy_neg hj))
    have gk := gap_least (c := c.2.2) wz h3 (k' - k) (isCopy_add hk' (isCopy_neg hk))
    simp only [separation2, distance2, inTree]
    have sq : ∀ {g d : K}, 0 ≤ g ∧ g ≤ |d| → g * g ≤ d ^ 2 := by
      intro g d ⟨ha, hb⟩
      rw [← sq_abs d, sq]; exact mul_le_mul hb hb ha (abs_nonneg d)
    refine add_le_add (add_le_add ?_ ?_) ?_
    · have := sq gi
      have e : (if bx = 0 then p.x else pmod p.x bx) + ((i' - i : Int) : K) * bx - c.1 = p.x + i' * bx - c.1 := by
        rw [ei]; push_cast; ring
      rwa [e] at this
    · have := sq gj
      have e : (if by_ = 0 then p.y else pmod p.y by_) + ((j' - j : Int) : K) * by_ - c.2.1 = p.y + j' * by_ - c.2.1 := by
        rw [ej]; push_cast; ring
      rwa [e] at this
    · have := sq gk
      have e : (if bz = 0 then p.z else pmod p.z bz) + ((k' - k : Int) : K) * bz - c.2.2 = p.z + k' * bz - c.2.2 := by
        rw [ek]; push_cast; ring
      rwa [e] at this

/-- C60 for the backend: every pixel has the value of a particle nearest to its centre, counting all periodic copies. -/
theorem c60_backend {query : K × K × K → List (K × K × K) → K × K × K → Nat} (hq : IsTree query) (zs : K) (xres yres : Nat)
    {bx by_ bz : K} (h1 : 0 ≤ bx) (h2 : 0 ≤ by_) (h3 : 0 ≤ bz) (ps : List (Part K)) (hps : ps ≠ []) :
    ∃ img, Nearest.slice query zs xres yres bx by_ bz ps = .ok img ∧ ∀ i j, OnImage xres i → OnImage yres j →
      ∃ p, NearestOf bx by_ bz ps (centre (max xres yres) i, centre (max xres yres) j, zs) p ∧ img (i, j) = p.m / p.h ^ 3 := by
  refine ⟨_, by unfold Nearest.slice; rw [if_neg (by tauto)], ?_⟩
  intro i j hi hj
  have hc : ∀ i : Int, ((i : K) + 1 / 2) / ((max xres yres : Nat) : K) = centre (max xres yres) i := by
    intro i; unfold centre
    rcases eq_or_ne ((max xres yres : Nat) : K) 0 with h | h
    · rw [h]; simp
    · field_simp
  have hin : inside2 xres yres (i, j) = true := by
    simp only [inside2, Bool.and_eq_true, decide_eq_true_eq]
    exact ⟨⟨⟨hi.1, hi.2⟩, hj.1⟩, hj.2⟩
  simp only [hin, if_true, hc]
  set c : K × K × K := (centre (max xres yres) i, centre (max xres yres) j, zs)
  have hne : treeData bx by_ bz ps ≠ [] := by simpa [treeData] using hps
  obtain ⟨t, ht, hmin⟩ := hq (bx, by_, bz) (treeData bx by_ bz ps) c hne
  set n := query (bx, by_, bz) (treeData bx by_ bz ps) c
  have ht' : (ps[n]?).map (inTree bx by_ bz) = some t := by
    rw [← ht]; simp only [treeData, List.getElem?_map]; rfl
  obtain ⟨p, hp, rfl⟩ := Option.map_eq_some_iff.1 ht'
  refine ⟨p, ⟨List.mem_of_getElem? hp, ?_⟩, ?_⟩
  · obtain ⟨⟨p', hc', e'⟩, _⟩ := distance_spec h1 h2 h3 p c
    refine ⟨p', hc', fun q hq q' hq' => ?_⟩
    rw [e']
    exact (hmin _ (List.mem_map_of_mem hq)).trans ((distance_spec h1 h2 h3 q c).2 q' hq')
  · rw [List.getD_eq_getElem?_getD, List.getElem?_map, hp]; rfl

private theorem copyIn_place {Lx Ly Lz R x0 y0 : K} {p p' : Part K} {i j l : Int} (hi : IsCopy Lx i)
    (hj : IsCopy Ly j) (hl : IsCopy Lz l) (ex : p'.x = (p.x - x0) / R + i * (Lx / R)) (ey : p'.y = (p.y - y0) / R + j * (Ly / R))
    (ez : p'.z = p.z / R + l * (Lz / R)) (hR : R ≠ 0) (q : K × K × K) :
    CopyIn (Lx / R) (Ly / R) (Lz / R) p' ((q.1 - x0) / R, (q.2.1 - y0) / R, q.2.2 / R) ↔ CopyIn Lx Ly Lz p q := by
  constructor
  · rintro ⟨a, b, c, ha, hb, hc, e⟩
    simp only [Prod.mk.injEq, ex, ey, ez] at e
    obtain ⟨e1, e2, e3⟩ := e
    refine ⟨i + a, j + b, l + c, isCopy_add hi ((isCopy_scale hR a).1 ha), isCopy_add hj ((isCopy_scale hR b).1 hb),
      isCopy_add hl ((isCopy_scale hR c).1 hc), ?_⟩
    field_simp at e1 e2 e3
    ext
    · simp only; push_cast; linear_combination e1
    · simp only; push_cast; linear_combination e2
    · simp only; push_cast; linear_combination e3
  · rintro ⟨a, b, c, ha, hb, hc, rfl⟩
    refine ⟨a - i, b - j, c - l, (isCopy_scale hR _).2 (isCopy_add ha (isCopy_neg hi)),
      (isCopy_scale hR _).2 (isCopy_add hb (isCopy_neg hj)), (isCopy_scale hR _).2 (isCopy_add hc (isCopy_neg hl)), ?_⟩
    simp only [Prod.mk.injEq, ex, ey, ez]
    push_cast
    refine ⟨?_, ?_, ?_⟩ <;> field_simp <;> ring

private theorem trimmed_full {res : Nat} {r s : K} (h : 0 < max r s) :
    max (trimmed res r (max r s)) (trimmed res s (max r s)) = res := by
  have self : ∀ {R : K}, 0 < R → trimmed res R R = res := by
    intro R hR
    unfold trimmed
    rw [div_self hR.ne', mul_one, Int.ceil_natCast, Int.toNat_natCast]
  have le : ∀ {t R : K}, 0 < R → t ≤ R → trimmed res t R ≤ res := by
    intro t R hR ht
    unfold trimmed
    rw [Int.toNat_le, Int.ceil_le]
    have : t / R ≤ 1 := (div_le_one hR).2 ht
    push_cast
    calc (res : K) * (t / R) ≤ (res : K) * 1 := mul_le_mul_of_nonneg_left this (Nat.cast_nonneg _)
      _ = res := mul_one _
  rcases le_total r s with hrs | hrs
  · rw [max_eq_right hrs] at h ⊢
    rw [self h, max_eq_right (le h hrs)]
  · rw [max_eq_left hrs] at h ⊢
    rw [self h, max_eq_left (le h hrs)]

/-- C60, end to end: for every region, box, height and mask, each pixel of the slice has the value `m / h ^ 3` of a selected
particle with a copy at least as near to the position of the centre of the pixel in the box as all copies of all selected
particles. -/
theorem c60_slice {query : K × K × K → List (K × K × K) → K × K × K → Nat} (hq : IsTree query) {res : Nat} (hr : 0 < res)
    (Lx Ly Lz : K) (periodic : Bool) (hL : periodic = true → 0 < Lx ∧ 0 < Ly ∧ 0 < Lz) {x0 x1 y0 y1 : K} (hx : x0 < x1)
    (_hy : y0 < y1) (depth : Option (K × K)) (zs : K) (ps : List (Part K × Bool)) (hps : ∃ p ∈ ps, p.2 = true) :
    ∃ out, sliceGrid (Nearest.slice query) (Lx, Ly, Lz) (some (limits x0 x1 y0 y1 depth)) zs periodic true res ps = .ok out ∧
      (∀ i : Int, OnImage out.nx i ↔ 0 ≤ i ∧ x0 + i * (max (x1 - x0) (y1 - y0) / res) < x1) ∧
      (∀ j : Int, OnImage out.ny j ↔ 0 ≤ j ∧ y0 + j * (max (x1 - x0) (y1 - y0) / res) < y1) ∧
      ∀ i j, OnImage out.nx i → OnImage out.ny j → ∃ p,
        NearestOf (period periodic Lx) (period periodic Ly) (period periodic Lz) ((ps.filter fun p => p.2).map Prod.fst)
          (x0 + (i + 1 / 2) * (max (x1 - x0) (y1 - y0) / res), y0 + (j + 1 / 2) * (max (x1 - x0) (y1 - y0) / res), zs) p ∧
        out.img (i, j) = p.m / p.h ^ 3 := by
  obtain ⟨info, h0, i1, i2, i3, i4, i5, i6, i7, i8, i9, i10⟩ := regionInfo_limits (Lx, Ly, Lz) x0 x1 y0 y1 depth periodic
  set R := max (x1 - x0) (y1 - y0) with hRdef
  have hR : 0 < R := lt_max_of_lt_left (by linarith)
  have hmax : max (trimmed res info.xRange info.maxRange) (trimmed res info.yRange info.maxRange) = res := by
    rw [i3, i4, i5]; exact trimmed_full hR
  set sel := (ps.filter fun p => p.2).map Prod.fst with hsel
  set f : Part K → Part K := fun p => normedSlice info periodic (wrapped (Lx, Ly, Lz) periodic p) with hf
  have hb : ∀ {L B : K}, B = period periodic (L / R) → B = period periodic L / R := by
    intro L B h; rw [h]; unfold period; split <;> simp
  have hbx : info.boxX = period periodic Lx / R := hb i8
  have hby : info.boxY = period periodic Ly / R := hb i9
  have hbz : info.boxZ = period periodic Lz / R := hb i10
  have hb0x : 0 ≤ info.boxX := by rw [hbx]; exact div_nonneg (period_pos fun h => (hL h).1) hR.le
  have hb0y : 0 ≤ info.boxY := by rw [hby]; exact div_nonneg (period_pos fun h => (hL h).2.1) hR.le
  have hb0z : 0 ≤ info.boxZ := by rw [hbz]; exact div_nonneg (period_pos fun h => (hL h).2.2) hR.le
  obtain ⟨n, hn, en⟩ : ∃ n : Int, IsCopy (period periodic Lz) n ∧
      (if periodic then pmod (zs / info.maxRange) info.boxZ else zs / info.maxRange) = zs / R + n * (period periodic Lz / R) := by
    rw [i5, i10]
    cases periodic with
    | false => exact ⟨0, fun _ => rfl, by simp⟩
    | true =>
      refine ⟨-⌊zs / R / (Lz / R)⌋, fun h => absurd h (hL rfl).2.2.ne', ?_⟩
      simp only [if_true, period]; exact pmod_eq _ _
  set zs' := (if periodic then pmod (zs / info.maxRange) info.boxZ else zs / info.maxRange) with hzs'
  have hcopy : ∀ (p : Part K) (q : K × K × K), CopyIn info.boxX info.boxY info.boxZ (f p)
      ((q.1 - x0) / R, (q.2.1 - y0) / R, q.2.2 / R) ↔
      CopyIn (period periodic Lx) (period periodic Ly) (period periodic Lz) p q := by
    intro p q
    obtain ⟨i, hi, ei, _⟩ := place (periodic := periodic) (L := Lx) (R := R) p.x x0
    obtain ⟨j, hj, ej, _⟩ := place (periodic := periodic) (L := Ly) (R := R) p.y y0
    obtain ⟨l, hl, el, _⟩ := place (periodic := periodic) (L := Lz) (R := R) p.z 0
    rw [hbx, hby, hbz]
    refine copyIn_place (R := R) (x0 := x0) (y0 := y0) hi hj hl ?_ ?_ ?_ hR.ne' q
    · rw [← ei, hf]; unfold normedSlice normed wrapped; cases periodic <;> simp [i1, i5, i8, period]
    · rw [← ej, hf]; unfold normedSlice normed wrapped; cases periodic <;> simp [i2, i5, i9, period]
    · simp only [sub_zero] at el
      rw [← el, hf]; unfold normedSlice wrapped; cases periodic <;> simp [i5, i10, period]
  have hne : sel.map f ≠ [] := by
    obtain ⟨p, hp, h⟩ := hps
    rw [hsel]
    intro h'
    have : p ∈ ps.filter fun p => p.2 := List.mem_filter.2 ⟨hp, h⟩
    simp only [List.map_eq_nil_iff] at h'
    rw [h'] at this; cases this
  obtain ⟨img, himg, hpix⟩ := c60_backend hq zs' (trimmed res info.xRange info.maxRange) (trimmed res info.yRange info.maxRange)
    hb0x hb0y hb0z (sel.map f) hne
  refine ⟨⟨trimmed res info.xRange info.maxRange, trimmed res info.yRange info.maxRange,
    fun q => img q / info.maxRange ^ 3⟩, ?_, ?_⟩
  · unfold sliceGrid
    simp only [h0, bind, Except.bind]
    rw [show ((((ps.filter fun p => p.2).map Prod.fst).map (wrapped (Lx, Ly, Lz) periodic)).map (normedSlice info periodic)) =
      sel.map f by rw [List.map_map]; rfl]
    rw [himg]
    rfl
  · refine ⟨?_, ?_, ?_⟩
    · intro i
      rw [i3, i5]
      constructor
      · intro h; exact ⟨h.1, (trimmed_iff hr hR i h.1).1 h.2⟩
      · intro h; exact ⟨h.1, (trimmed_iff hr hR i h.1).2 h.2⟩
    · intro j
      rw [i4, i5]
      constructor
      · intro h; exact ⟨h.1, (trimmed_iff hr hR j h.1).1 h.2⟩
      · intro h; exact ⟨h.1, (trimmed_iff hr hR j h.1).2 h.2⟩
    · intro i j hi hj
      obtain ⟨_, ⟨hp, p', hp', hall⟩, hv⟩ := hpix i j hi hj
      obtain ⟨p, hps', rfl⟩ := List.mem_map.1 hp
      rw [hmax] at hall
      refine ⟨p, ⟨hps', ?_⟩, ?_⟩
      · -- back to the box; the height is wrapped as well
        set c : K × K × K := (x0 + (i + 1 / 2) * (R / res), y0 + (j + 1 / 2) * (R / res), zs)
        have hr' : (res : K) ≠ 0 := by exact_mod_cast hr.ne'
        have back : ∀ q : K × K × K, separation2 ((q.1 - x0) / R, (q.2.1 - y0) / R, (q.2.2 + n * period periodic Lz) / R)
            (centre res i, centre res j, zs') = separation2 q c / R ^ 2 := by
          intro q
          rw [en]
          simp only [separation2, c, centre]
          field_simp
          ring
        have shift : ∀ (p : Part K) (q : K × K × K),
            CopyIn (period periodic Lx) (period periodic Ly) (period periodic Lz) p q ↔
            CopyIn (period periodic Lx) (period periodic Ly) (period periodic Lz) p
              (q.1, q.2.1, q.2.2 + n * period periodic Lz) := by
          intro p q
          constructor
          · rintro ⟨a, b, d, ha, hb, hd, rfl⟩
            exact ⟨a, b, d + n, ha, hb, isCopy_add hd hn, by simp only [Prod.mk.injEq, true_and]; push_cast; ring⟩
          · rintro ⟨a, b, d, ha, hb, hd, e⟩
            simp only [Prod.mk.injEq] at e
            refine ⟨a, b, d - n, ha, hb, isCopy_add hd (isCopy_neg hn), ?_⟩
            ext
            · exact e.1
            · exact e.2.1
            · simp only; push_cast; linear_combination e.2.2
        refine ⟨(p'.1 * R + x0, p'.2.1 * R + y0, p'.2.2 * R - n * period periodic Lz), ?_, ?_⟩
        · rw [shift, ← hcopy]
          convert hp' using 1
          ext <;> simp only <;> field_simp <;> ring
        · intro q hq q' hq'
          rw [shift, ← hcopy] at hq'
          have := hall (f q) (List.mem_map_of_mem hq) _ hq'
          simp only at this
          rw [back] at this
          have e : p' = ((p'.1 * R + x0 - x0) / R, (p'.2.1 * R + y0 - y0) / R,
              (p'.2.2 * R - n * period periodic Lz + n * period periodic Lz) / R) := by
            ext <;> simp only <;> field_simp <;> ring
          rw [e] at this
          rw [back (p'.1 * R + x0, p'.2.1 * R + y0, p'.2.2 * R - n * period periodic Lz)] at this
          rwa [div_le_div_iff_of_pos_right (by positivity)] at this
      · have e1 : (f p).m = p.m := by
          rw [hf]; unfold normedSlice normed wrapped; cases periodic <;> rfl
        have e2 : (f p).h = p.h / R := by
          rw [hf]; unfold normedSlice normed wrapped; cases periodic <;> simp [i5]
        simp only [hv, e1, e2, i5]
        rcases eq_or_ne p.h 0 with h | h
        · simp [h]
        · field_simp

/-- Without selected particles there is an error instead of an image. -/
theorem c60_empty_fails (query : K × K × K → List (K × K × K) → K × K × K → Nat) (xres yres : Nat) (h : 0 < xres * yres)
    (zs bx by_ bz : K) : Nearest.slice query zs xres yres bx by_ bz [] = .error .index := by
  unfold Nearest.slice
  rw [if_pos ⟨h.ne', rfl⟩]

/-- The index of the first smallest entry. -/
private def least (f : K × K × K → K) : List (K × K × K) → Nat
  | [] => 0
  | a :: l => if ∀ b ∈ l, f a ≤ f b then 0 else least f l + 1

private theorem least_spec (f : K × K × K → K) (l : List (K × K × K)) (h : l ≠ []) :
    ∃ p, l[least f l]? = some p ∧ ∀ q ∈ l, f p ≤ f q := by
  induction l with
  | nil => exact absurd rfl h
  | cons a l ih =>
    unfold least
    by_cases hc : ∀ b ∈ l, f a ≤ f b
    · rw [if_pos hc]
      refine ⟨a, rfl, ?_⟩
      intro q hq
      rcases List.mem_cons.1 hq with rfl | hq
      · exact le_rfl
      · exact hc q hq
    · rw [if_neg hc]
      have hl : l ≠ [] := by rintro rfl; simp at hc
      obtain ⟨p, hp, hmin⟩ := ih hl
      refine ⟨p, by simpa using hp, ?_⟩
      intro q hq
      rcases List.mem_cons.1 hq with rfl | hq
      · push Not at hc
        obtain ⟨b, hb, hlt⟩ := hc
        exact (hmin b hb).trans hlt.le
      · exact hmin q hq

/-- There are trees. -/
theorem c60_tree_exists : ∃ query : K × K × K → List (K × K × K) → K × K × K → Nat, IsTree query :=
  ⟨fun box data pt => least (fun p => distance2 box p pt) data, fun _ data _ h => least_spec _ data h⟩

end

/-- Two particles near opposite sides of the box: the centre of the first pixel is nearest to the second particle, through the
border. -/
example : (sliceGrid (Nearest.slice fun box data pt => least (fun p => distance2 box p pt) data) ((10, 10, 10) : ℚ × ℚ × ℚ)
    (some (limits 0 10 0 10 none)) 5 true true 5 [(⟨4, 1, 5, 1, 1⟩, true), (⟨9, 1, 5, 2, 1⟩, true)]).toOption.map
      (fun g => (g.img (0, 0), g.img (1, 0))) = some (2, 1) := by decide +kernel

end Verif.Props
