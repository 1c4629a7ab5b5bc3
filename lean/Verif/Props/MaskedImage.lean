import Verif.Model.MaskedImage
import Verif.Spec.MaskedImage
import Verif.Props.Spatial
import Verif.Props.FrameSlice
import Mathlib.Tactic.IntervalCases

/-!
# C81: the image of a region made from masked data is the image made from all data
-/

set_option linter.unusedSectionVars false

namespace Verif.Props
open Verif Verif.Spec Verif.Accel Verif.Mask Verif.Frame Verif.MaskedImage

/-! ## Rows -/

theorem zipWith_rows {α β γ : Type} (f : α → β → γ) (a : List α) (b : List β) (rows : List Int)
    (ha : ∀ i ∈ rows, 0 ≤ i ∧ i < a.length) (hb : ∀ i ∈ rows, 0 ≤ i ∧ i < b.length) :
    List.zipWith f (rows.filterMap (valueAt a)) (rows.filterMap (valueAt b)) = rows.filterMap (valueAt (List.zipWith f a b)) := by
  induction rows with
  | nil => rfl
  | cons i rows ih =>
    obtain ⟨h0, h1⟩ := ha i (by simp)
    obtain ⟨-, h2⟩ := hb i (by simp)
    have l1 : i.toNat < a.length := by omega
    have l2 : i.toNat < b.length := by omega
    have e1 : valueAt a i = some a[i.toNat] := by
      unfold valueAt
      rw [if_neg (by omega), List.getElem?_eq_getElem l1]
    have e2 : valueAt b i = some b[i.toNat] := by
      unfold valueAt
      rw [if_neg (by omega), List.getElem?_eq_getElem l2]
    have e3 : valueAt (List.zipWith f a b) i = some (f a[i.toNat] b[i.toNat]) := by
      unfold valueAt
      rw [if_neg (by omega), List.getElem?_zipWith, List.getElem?_eq_getElem l1, List.getElem?_eq_getElem l2]
    rw [List.filterMap_cons_some e1, List.filterMap_cons_some e2, List.filterMap_cons_some e3, List.zipWith_cons_cons,
      ih (fun j hj => ha j (by simp [hj])) (fun j hj => hb j (by simp [hj]))]

private theorem sum_rows {α K : Type} [Field K] (ds : List α) (F : α → K) (rows : List Int) (hn : rows.Nodup)
    (hb : ∀ i ∈ rows, 0 ≤ i ∧ i < ds.length) (h0 : ∀ (i : Nat) (v : α), ds[i]? = some v → F v ≠ 0 → (i : Int) ∈ rows) :
    ((rows.filterMap (valueAt ds)).map F).sum = (ds.map F).sum := by
  classical
  let G : Int → K := fun i => ((valueAt ds i).map F).getD 0
  have e1 : ∀ l : List Int, ((l.filterMap (valueAt ds)).map F).sum = (l.map G).sum := by
    intro l
    induction l with
    | nil => rfl
    | cons i l ih =>
      rw [List.map_cons, List.sum_cons, ← ih]
      cases h : valueAt ds i with
      | none =>
        rw [List.filterMap_cons_none h]
        have : G i = 0 := by simp only [G, h, Option.map_none, Option.getD_none]
        rw [this, zero_add]
      | some v =>
        rw [List.filterMap_cons_some h, List.map_cons, List.sum_cons]
        have : G i = F v := by simp only [G, h, Option.map_some, Option.getD_some]
        rw [this]
  have e2 : ((List.range ds.length).map (fun n : Nat => (n : Int))).filterMap (valueAt ds) = ds := by
    rw [List.filterMap_map]
    have : (valueAt ds ∘ fun n : Nat => (n : Int)) = fun n : Nat => ds[n]? := by
      funext n
      simp only [Function.comp, valueAt, Int.toNat_natCast]
      rw [if_neg (by omega)]
    rw [this]
    clear this e1 h0 hb G
    induction ds using List.reverseRecOn with
    | nil => rfl
    | append_singleton l a ih =>
      rw [List.length_append, List.length_singleton, List.range_succ, List.filterMap_append]
      have h1 : (List.range l.length).filterMap (fun n => (l ++ [a])[n]?) = (List.range l.length).filterMap (fun n => l[n]?) := by
        apply List.filterMap_congr
        intro n hn
        rw [List.mem_range] at hn
        rw [List.getElem?_append_left hn]
      rw [h1, ih]
      simp
  have hall : ((List.range ds.length).map (fun n : Nat => (n : Int))).Nodup :=
    List.nodup_range.map (fun a b h => by exact_mod_cast h)
  rw [e1]
  conv_rhs => rw [← e2]
  rw [e1, ← List.sum_toFinset _ hn, ← List.sum_toFinset _ hall]
  apply Finset.sum_subset
  · intro i hi
    rw [List.mem_toFinset] at hi ⊢
    obtain ⟨h1, h2⟩ := hb i hi
    rw [List.mem_map]
    exact ⟨i.toNat, List.mem_range.2 (by omega), by omega⟩
  · intro i hi hni
    rw [List.mem_toFinset] at hi hni
    rw [List.mem_map] at hi
    obtain ⟨n, hn', rfl⟩ := hi
    rw [List.mem_range] at hn'
    by_contra hne
    apply hni
    have hv : valueAt ds (n : Int) = some ds[n] := by
      unfold valueAt
      rw [if_neg (by omega), Int.toNat_natCast, List.getElem?_eq_getElem hn']
    refine h0 n ds[n] (List.getElem?_eq_getElem hn') ?_
    intro hz
    apply hne
    simp only [G, hv, Option.map_some, Option.getD_some, hz]

variable {K : Type} [Field K] [LinearOrder K] [IsStrictOrderedRing K] [FloorRing K] {m : Nat}

private theorem assemble_length (F : Fields K) (n : Nat) (h1 : F.xs.length = n) (h2 : F.ms.length = n) (h3 : F.hs.length = n)
    (h4 : F.flags.length = n) : (assemble F).length = n := by
  unfold assemble
  rw [List.length_zipWith, List.length_zipWith, List.length_zipWith]
  omega

/-- C81: the particle `i` of an image has the place, the mass, the kernel and the flag of row `i` of its dataset. -/
theorem c81_particles (F : Fields K) (i : Nat) (p : Scatter.Part K × Bool) :
    (assemble F)[i]? = some p ↔ F.xs[i]? = some (p.1.x, p.1.y, p.1.z) ∧ F.ms[i]? = some p.1.m ∧ F.hs[i]? = some p.1.h ∧
      F.flags[i]? = some p.2 := by
  unfold assemble
  rw [List.getElem?_zipWith, List.getElem?_zipWith, List.getElem?_zipWith]
  obtain ⟨⟨x, y, z, m, h⟩, b⟩ := p
  cases F.xs[i]? with
  | none => simp
  | some q =>
    obtain ⟨q1, q2, q3⟩ := q
    cases F.ms[i]? with
    | none => simp
    | some m' =>
      cases F.hs[i]? with
      | none => simp
      | some h' =>
        cases F.flags[i]? with
        | none => simp
        | some b' =>
          simp only [Option.some.injEq, Prod.mk.injEq, Scatter.Part.mk.injEq]
          tauto

private theorem loaded (f : File K m) (hf : WF f) (ops : List (Op K)) (hi : ∀ op ∈ ops, IndicesOk f op) (k : Fin m)
    (h1 : (run f ops).constrained ≠ some .indices) (h2 : (run f ops).constrained ≠ some .index) (F : Fields K)
    (hF : F.xs.length = f.rows k ∧ F.ms.length = f.rows k ∧ F.hs.length = f.rows k ∧ F.flags.length = f.rows k)
    (lay : Fin 4 → Layout) (hlay : ∀ n, lay n ≠ .remote ∧ ∀ c, lay n = .chunked c → 0 < c) :
    ∃ (rows : List Int) (G : Fields K), loadFields (run f ops) lay F k = .ok G ∧ rows.Nodup ∧
      (∀ i, i ∈ rows ↔ Selects (run f ops) k i) ∧ (∀ i ∈ rows, 0 ≤ i ∧ i < (assemble F).length) ∧
      assemble G = rows.filterMap (valueAt (assemble F)) := by
  have key : ∀ {α : Type} (ds : List α) (hds : ds.length = f.rows k) (n : Fin 4),
      ∃ rows : List Int, load (run f ops) (lay n) ds k = .ok (Spec.select ds rows) ∧
      (∀ i, i ∈ rows ↔ Selects (run f ops) k i) ∧ (∀ i ∈ rows, 0 ≤ i ∧ i < ds.length) ∧ rows.Pairwise (· < ·) := by
    intro α ds hds n
    obtain ⟨rows, a, -, b, -, c, d⟩ := c07_masked_read f hf ops hi k ds hds (lay n) (hlay n).1 (hlay n).2
    exact ⟨rows, a, b, c, d h1 h2⟩
  obtain ⟨rows, a0, b0, c0, d0⟩ := key F.xs hF.1 0
  obtain ⟨rows1, a1, b1, c1, d1⟩ := key F.ms hF.2.1 1
  obtain ⟨rows2, a2, b2, c2, d2⟩ := key F.hs hF.2.2.1 2
  obtain ⟨rows3, a3, b3, c3, d3⟩ := key F.flags hF.2.2.2 3
  have uniq : ∀ l : List Int, (∀ i, i ∈ l ↔ Selects (run f ops) k i) → l.Pairwise (· < ·) → l = rows := by
    intro l hl hs
    have n1 : l.Nodup := hs.imp fun h => h.ne
    have n2 : rows.Nodup := d0.imp fun h => h.ne
    have hp : l.Perm rows := (List.perm_ext_iff_of_nodup n1 n2).2 fun i => by rw [hl, b0]
    exact hp.eq_of_pairwise (fun a b _ _ h h' => absurd h (not_lt.2 h'.le)) hs d0
  have e1 := uniq rows1 b1 d1
  have e2 := uniq rows2 b2 d2
  have e3 := uniq rows3 b3 d3
  subst e1
  subst e2
  subst e3
  have hsel : ∀ {α : Type} (ds : List α), (Spec.select ds rows3).filterMap id = rows3.filterMap (valueAt ds) := by
    intro α ds
    unfold Spec.select
    rw [List.filterMap_map]
    rfl
  have hl := assemble_length F (f.rows k) hF.1 hF.2.1 hF.2.2.1 hF.2.2.2
  have hb : ∀ i ∈ rows3, 0 ≤ i ∧ i < (f.rows k : Int) := by
    intro i hi
    have := c0 i hi
    rw [hF.1] at this
    exact this
  refine ⟨rows3, ⟨rows3.filterMap (valueAt F.xs), rows3.filterMap (valueAt F.ms), rows3.filterMap (valueAt F.hs),
    rows3.filterMap (valueAt F.flags)⟩, ?_, d0.imp fun h => h.ne, b0, ?_, ?_⟩
  · unfold loadFields
    rw [a0, a1, a2, a3]
    simp only [bind, Except.bind, pure, Except.pure, hsel]
  · rw [hl]
    exact hb
  · unfold assemble
    dsimp only
    rw [zipWith_rows _ F.hs F.flags, zipWith_rows _ F.ms, zipWith_rows _ F.xs]
    all_goals
      intro i hi
      have := hb i hi
      simp only [List.length_zipWith, hF.1, hF.2.1, hF.2.2.1, hF.2.2.2]
      omega

/-! ## Positions -/

private theorem meets_whole {L lower upper lo hi x : K} (hL : 0 < L) (hw : L ≤ wrapUpper L lower upper - lower) (hlt : lo < hi)
    (hx : lo ≤ x ∧ x ≤ hi) : MeetsAxis L lower upper lo hi := by
  right
  have h1 := Int.floor_le ((x - lower) / L)
  have h2 := Int.lt_floor_add_one ((x - lower) / L)
  rw [le_div_iff₀ hL] at h1
  rw [div_lt_iff₀ hL] at h2
  set n := ⌊(x - lower) / L⌋ with hn
  by_cases hstrict : lower < hi + ((-n : ℤ) : K) * L
  · refine ⟨-n, hstrict, ?_⟩
    push_cast
    nlinarith [hx.1]
  · refine ⟨-n + 1, ?_, ?_⟩
    · push_cast
      nlinarith [hx.2]
    · push_cast at hstrict ⊢
      nlinarith [hx.1, hx.2]

private theorem meets_inside {L lower upper lo hi x : K} (hx : lo ≤ x ∧ x ≤ hi) (h : InsideAxis L lower upper x) :
    MeetsAxis L lower upper lo hi := by
  obtain ⟨j, h1, h2⟩ := h
  exact Or.inr ⟨j, by linarith [hx.2], by linarith [hx.1]⟩

/-- A copy of a particle that is seen from the interval is in the region of the mask. -/
private theorem meets_covered {L lower upper lo hi x a b H X : K} (hL : 0 < L) (hlt : lo < hi) (hx : lo ≤ x ∧ x ≤ hi)
    (hc : Covers L lower upper a b H) (hX : ∃ j : ℤ, X = x + j * L) (h1 : a ≤ X ∨ a - H < X) (h2 : X ≤ b ∨ X < b + H) :
    MeetsAxis L lower upper lo hi := by
  rcases hc with (hw | hw) | ⟨s, ⟨c1, c2⟩, c3, c4⟩
  · exact meets_whole hL hw hlt hx
  · exact Or.inl hw
  · obtain ⟨j, rfl⟩ := hX
    refine meets_inside hx ⟨j + s, ?_, ?_⟩
    · push_cast
      rcases h1 with h1 | h1 <;> nlinarith
    · push_cast
      rcases h2 with h2 | h2 <;> nlinarith

private theorem copy_exists {periodic : Bool} {L x : K} {k : Int} (hk : IsCopy (period periodic L) k) :
    ∃ j : ℤ, x + k * period periodic L = x + j * L := by
  unfold period IsCopy at *
  cases periodic with
  | true => exact ⟨k, rfl⟩
  | false => exact ⟨0, by simp⟩

private theorem sq_lt {H u v : K} (hH : 0 < H) (h0 : 0 ≤ v) (h : u ^ 2 + v < H * H) : -H < u ∧ u < H := by
  have : u ^ 2 < H ^ 2 := by nlinarith
  exact abs_lt.1 (abs_lt_of_sq_lt_sq this hH.le)

private theorem cell_near {a R e X : K} {res : Nat} {i : Int} (hpix : 0 < R / (res : K)) (hi : 0 ≤ i)
    (he : a + (i + 1) * (R / res) ≤ e) (h : InCell a R res i X) : a ≤ X ∧ X ≤ e := by
  unfold InCell at h
  have : (0 : K) ≤ i := by exact_mod_cast hi
  constructor
  · nlinarith [h.1]
  · linarith [h.2]

private theorem centre_near {a R e X H : K} {res : Nat} {i : Int} (hpix : 0 < R / (res : K)) (hi : 0 ≤ i)
    (he : a + (i + 1) * (R / res) ≤ e) (h : -H < cellCentre a R res i - X ∧ cellCentre a R res i - X < H) :
    a - H < X ∧ X < e + H := by
  unfold cellCentre at h
  have : (0 : K) ≤ i := by exact_mod_cast hi
  constructor
  · nlinarith [h.2]
  · nlinarith [h.1]

private theorem surface_near {W : K → K → K} (hW : Compact W) {a b R ex ey mm H X Y : K} {res : Nat} {q : Int × Int}
    (hR : 0 < R) (hr : 0 < res) (hH : 0 ≤ H) (h1 : 0 ≤ q.1) (h2 : 0 ≤ q.2) (e1 : a + (q.1 + 1) * (R / res) ≤ ex)
    (e2 : b + (q.2 + 1) * (R / res) ≤ ey) (hne : surfaceAt W a b R res mm H q X Y ≠ 0) :
    ((a ≤ X ∨ a - H < X) ∧ (X ≤ ex ∨ X < ex + H)) ∧ ((b ≤ Y ∨ b - H < Y) ∧ (Y ≤ ey ∨ Y < ey + H)) := by
  have hres : (0 : K) < res := by exact_mod_cast hr
  have hpix : 0 < R / (res : K) := by positivity
  unfold surfaceAt at hne
  by_cases hs : H * res < R
  · rw [if_pos hs] at hne
    by_cases hin : InCell a R res q.1 X ∧ InCell b R res q.2 Y
    · have n1 := cell_near hpix h1 e1 hin.1
      have n2 := cell_near hpix h2 e2 hin.2
      exact ⟨⟨Or.inl n1.1, Or.inl n1.2⟩, Or.inl n2.1, Or.inl n2.2⟩
    · rw [if_neg hin] at hne
      exact absurd rfl hne
  · rw [if_neg hs] at hne
    have hH0 : 0 < H := by
      rcases hH.lt_or_eq with h | h
      · exact h
      · exfalso
        apply hs
        rw [← h, zero_mul]
        exact hR
    have hlt : (cellCentre a R res q.1 - X) ^ 2 + (cellCentre b R res q.2 - Y) ^ 2 < H * H := by
      by_contra hge
      rw [hW _ _ hH0 (not_lt.1 hge), mul_zero] at hne
      exact hne rfl
    have n1 := centre_near hpix h1 e1 (sq_lt hH0 (sq_nonneg _) hlt)
    have n2 := centre_near hpix h2 e2 (sq_lt hH0 (sq_nonneg (cellCentre a R res q.1 - X)) (by linarith))
    exact ⟨⟨Or.inr n1.1, Or.inr n1.2⟩, Or.inr n2.1, Or.inr n2.2⟩

private theorem finsum_ne {ι : Type} {F : ι → K} (h : ∑ᶠ i, F i ≠ 0) : ∃ i, F i ≠ 0 := by
  by_contra hn
  apply h
  apply finsum_eq_zero_of_forall_eq_zero
  intro i
  by_contra hi
  exact hn ⟨i, hi⟩

private theorem same_size {a b : Nat} (h : ∀ i : Int, OnImage a i ↔ OnImage b i) : a = b := by
  have ha := h a
  have hb := h b
  unfold OnImage at ha hb
  omega

theorem sub_of_rows {F G : Fields K} {rows : List Int} (e : assemble G = rows.filterMap (valueAt (assemble F))) :
    ∀ p ∈ assemble G, p ∈ assemble F := by
  intro p hp
  rw [e, List.mem_filterMap] at hp
  obtain ⟨i, -, hv⟩ := hp
  unfold valueAt at hv
  split_ifs at hv
  exact List.mem_of_getElem? hv

/-! ## Selection -/

private theorem selects_spatial (f : File K m) (hf : WF f) (rows : List (Option (List K))) (reg : Fin 3 → K × K)
    (hr : RegionIs f.box rows reg) (hw : InWindow f.box reg) (union : Bool) (k : Fin m) (i : Int) (c : Cell K)
    (hc : c ∈ f.cells k) (hh : Holds c i) (hm : Meets f.box reg c) : Selects (run f [.spatial rows union]) k i := by
  rw [c09_history_as_built f hf _ (by simp [IndicesOk])]
  unfold builtRun
  simp only [List.foldl_cons, List.foldl_nil, builtStep]
  have hacc : Accepts f (absInit f) (.spatial rows union) := ⟨⟨reg, hr, hw⟩, Or.inl rfl⟩
  rw [if_pos hacc]
  have hne := hf.nonneg k c hc
  have hb : (absInit f).sel k i := by
    unfold Holds at hh
    show 0 ≤ i ∧ i < f.rows k
    omega
  exact ⟨Or.inl ⟨reg, hr, c, hc, hh, hm⟩, fun _ => hb⟩

private theorem spatial_kind (f : File K m) (hf : WF f) (rows : List (Option (List K))) (union : Bool) :
    (run f [.spatial rows union]).constrained ≠ some .indices ∧ (run f [.spatial rows union]).constrained ≠ some .index := by
  have h := (inv_run f hf [.spatial rows union] (by simp [IndicesOk])).last
  rw [h]
  unfold builtRun
  simp only [List.foldl_cons, List.foldl_nil, builtStep]
  split_ifs with hacc
  · constructor <;> simp [builtApply]
  · constructor <;> simp [absRefuse, absInit]

/-- What the mask of a region keeps: a particle that is seen from the three intervals. -/
private theorem keeps (f : File K m) (hf : WF f) (rows : List (Option (List K))) (reg : Fin 3 → K × K)
    (hr : RegionIs f.box rows reg) (hw : InWindow f.box reg) (union : Bool) (k : Fin m)
    (hwide : ∀ c ∈ f.cells k, ∀ d, c.lo d < c.hi d) (i : Nat) (pos : Fin 3 → K)
    (hcell : ∃ c ∈ f.cells k, Holds c i ∧ ∀ d, c.lo d ≤ pos d ∧ pos d ≤ c.hi d) (a b H X : Fin 3 → K)
    (hc : ∀ d, Covers (f.box d) (reg d).1 (reg d).2 (a d) (b d) (H d))
    (hX : ∀ d, WholeAxis (f.box d) (reg d).1 (reg d).2 ∨
      ((∃ j : ℤ, X d = pos d + j * f.box d) ∧ (a d ≤ X d ∨ a d - H d < X d) ∧ (X d ≤ b d ∨ X d < b d + H d))) :
    Selects (run f [.spatial rows union]) k i := by
  obtain ⟨c, hck, hh, hin⟩ := hcell
  refine selects_spatial f hf rows reg hr hw union k i c hck hh fun d => ?_
  rcases hX d with hwh | ⟨h1, h2, h3⟩
  · rcases hwh with hwh | hwh
    · exact meets_whole (hf.box_pos d) hwh (hwide c hck d) (hin d)
    · exact Or.inl hwh
  · exact meets_covered (hf.box_pos d) (hwide c hck d) (hin d) (hc d) h1 h2 h3

/-! ## C81 -/

/-- **C81**, for every history of mask calls. If the mask keeps every particle that gives something to a pixel, the projection
of the masked data is the projection of all data. -/
theorem c81_history {W : K → K → K} (hW : Compact W) (hsc : Scales 2 W) {g : K} {res : Nat} (hr : 0 < res) (f : File K m)
    (hf : WF f) (ops : List (Op K)) (hi : ∀ op ∈ ops, IndicesOk f op) (k : Fin m)
    (h1 : (run f ops).constrained ≠ some .indices) (h2 : (run f ops).constrained ≠ some .index) (F : Fields K)
    (hF : F.xs.length = f.rows k ∧ F.ms.length = f.rows k ∧ F.hs.length = f.rows k ∧ F.flags.length = f.rows k)
    (lay : Fin 4 → Layout) (hlay : ∀ n, lay n ≠ .remote ∧ ∀ c, lay n = .chunked c → 0 < c) (periodic : Bool)
    {x0 x1 y0 y1 : K} (hx : x0 < x1) (hy : y0 < y1) (depth : Option (K × K)) (hd : DepthFits periodic (f.box 2) depth)
    (hp : ∀ p ∈ assemble F, 0 ≤ g * p.1.h ∧ (periodic = true → g * p.1.h ≤ f.box 0 ∧ g * p.1.h ≤ f.box 1))
    (hkeep : ∀ (i : Nat) (p : Scatter.Part K × Bool), (assemble F)[i]? = some p → p.2 = true →
      DepthOk (period periodic (f.box 2)) depth p.1.z →
      (∃ (q : Int × Int) (kx ky : Int), (0 ≤ q.1 ∧ x0 + q.1 * (max (x1 - x0) (y1 - y0) / res) < x1) ∧
        (0 ≤ q.2 ∧ y0 + q.2 * (max (x1 - x0) (y1 - y0) / res) < y1) ∧ IsCopy (period periodic (f.box 0)) kx ∧
        IsCopy (period periodic (f.box 1)) ky ∧
        surfaceAt W x0 y0 (max (x1 - x0) (y1 - y0)) res p.1.m (g * p.1.h) q (p.1.x + kx * period periodic (f.box 0))
          (p.1.y + ky * period periodic (f.box 1)) ≠ 0) → Selects (run f ops) k i) :
    ∃ out out', project (Scatter.fast W g) (boxOf f) (some (limits x0 x1 y0 y1 depth)) periodic true res (assemble F) = .ok out ∧
      projectMasked (Scatter.fast W g) f ops lay F k (some (limits x0 x1 y0 y1 depth)) periodic res = .ok out' ∧
      out'.nx = out.nx ∧ out'.ny = out.ny ∧ ∀ q, OnImage out.nx q.1 → OnImage out.ny q.2 → out'.img q = out.img q := by
  classical
  obtain ⟨rows, G, e1, e2, e3, e4, e5⟩ := loaded f hf ops hi k h1 h2 F hF lay hlay
  have hL : periodic = true → 0 < f.box 0 ∧ 0 < f.box 1 ∧ 0 < f.box 2 := fun _ => ⟨hf.box_pos 0, hf.box_pos 1, hf.box_pos 2⟩
  have hsub : ∀ p ∈ assemble G, p ∈ assemble F := by
    intro p hp
    rw [e5, List.mem_filterMap] at hp
    obtain ⟨i, -, hv⟩ := hp
    unfold valueAt at hv
    split_ifs at hv
    exact List.mem_of_getElem? hv
  obtain ⟨out, o1, o2, o3, o4⟩ := c53_projection_partial hW hsc hr (f.box 0) (f.box 1) (f.box 2) periodic hL hx hy depth hd
    (assemble F) hp
  obtain ⟨out', p1, p2, p3, p4⟩ := c53_projection_partial hW hsc hr (f.box 0) (f.box 1) (f.box 2) periodic hL hx hy depth hd
    (assemble G) (fun p h => hp p (hsub p h))
  have same : ∀ {a b : Nat}, (∀ i : Int, OnImage a i ↔ OnImage b i) → a = b := by
    intro a b h
    have ha := h a
    have hb := h b
    unfold OnImage at ha hb
    omega
  have hnx : out'.nx = out.nx := same fun i => by rw [p2, o2]
  have hny : out'.ny = out.ny := same fun i => by rw [p3, o3]
  refine ⟨out, out', o1, ?_, hnx, hny, ?_⟩
  · unfold projectMasked
    rw [e1]
    exact p1
  · intro q hq1 hq2
    rw [o4 q hq1 hq2, p4 q (by rw [hnx]; exact hq1) (by rw [hny]; exact hq2), e5]
    congr 1
    apply sum_rows _ _ rows e2 e4
    intro i p hpi hne
    rw [e3]
    by_cases hcond : p.2 = true ∧ DepthOk (period periodic (f.box 2)) depth p.1.z
    · rw [if_pos hcond] at hne
      unfold tile2 at hne
      obtain ⟨kk, hkk⟩ := finsum_ne hne
      by_cases hcp : IsCopy (period periodic (f.box 0)) kk.1 ∧ IsCopy (period periodic (f.box 1)) kk.2
      · rw [if_pos hcp] at hkk
        exact hkeep i p hpi hcond.1 hcond.2 ⟨q, kk.1, kk.2, (o2 q.1).1 hq1, (o3 q.2).1 hq2, hcp.1, hcp.2, hkk⟩
      · rw [if_neg hcp] at hkk
        exact absurd rfl hkk
    · rw [if_neg hcond] at hne
      exact absurd rfl hne

/-- **C81** for projections. The region of the mask contains the region of the image, up to whole boxes, widened by the
radius of every kernel and, at the upper ends, by one pixel: then the image made from the masked data is the image made from
all data. -/
theorem c81_projection {W : K → K → K} (hW : Compact W) (hsc : Scales 2 W) {g : K} {res : Nat} (hr : 0 < res) (f : File K m)
    (hf : WF f) (rows : List (Option (List K))) (reg : Fin 3 → K × K) (hreg : RegionIs f.box rows reg)
    (hw : InWindow f.box reg) (union : Bool) (k : Fin m) (hwide : ∀ c ∈ f.cells k, ∀ d, c.lo d < c.hi d) (F : Fields K)
    (hF : F.xs.length = f.rows k ∧ F.ms.length = f.rows k ∧ F.hs.length = f.rows k ∧ F.flags.length = f.rows k)
    (hcell : ∀ (i : Nat) p, (assemble F)[i]? = some p → ∃ c ∈ f.cells k, Holds c i ∧ ∀ d, c.lo d ≤ place3 p.1 d ∧ place3 p.1 d ≤ c.hi d)
    (lay : Fin 4 → Layout) (hlay : ∀ n, lay n ≠ .remote ∧ ∀ c, lay n = .chunked c → 0 < c) (periodic : Bool)
    {x0 x1 y0 y1 : K} (hx : x0 < x1) (hy : y0 < y1) (depth : Option (K × K)) (hd : DepthFits periodic (f.box 2) depth)
    (hp : ∀ p ∈ assemble F, 0 ≤ g * p.1.h ∧ (periodic = true → g * p.1.h ≤ f.box 0 ∧ g * p.1.h ≤ f.box 1))
    (hcx : ∀ p ∈ assemble F, Covers (f.box 0) (reg 0).1 (reg 0).2 x0 (x1 + max (x1 - x0) (y1 - y0) / res) (g * p.1.h))
    (hcy : ∀ p ∈ assemble F, Covers (f.box 1) (reg 1).1 (reg 1).2 y0 (y1 + max (x1 - x0) (y1 - y0) / res) (g * p.1.h))
    (hcz : CoversDepth (f.box 2) (reg 2).1 (reg 2).2 depth) :
    ∃ out out', project (Scatter.fast W g) (boxOf f) (some (limits x0 x1 y0 y1 depth)) periodic true res (assemble F) = .ok out ∧
      projectMasked (Scatter.fast W g) f [.spatial rows union] lay F k (some (limits x0 x1 y0 y1 depth)) periodic res = .ok out' ∧
      out'.nx = out.nx ∧ out'.ny = out.ny ∧ ∀ q, OnImage out.nx q.1 → OnImage out.ny q.2 → out'.img q = out.img q := by
  obtain ⟨k1, k2⟩ := spatial_kind f hf rows union
  refine c81_history hW hsc hr f hf _ (by simp [IndicesOk]) k k1 k2 F hF lay hlay periodic hx hy depth hd hp ?_
  rintro i p hpi - hdep ⟨q, kx, ky, ⟨q1, q2⟩, ⟨q3, q4⟩, hkx, hky, hne⟩
  have hmem : p ∈ assemble F := List.mem_of_getElem? hpi
  have hR : 0 < max (x1 - x0) (y1 - y0) := lt_max_of_lt_left (by linarith)
  obtain ⟨nx, ny⟩ := surface_near hW (ex := x1 + max (x1 - x0) (y1 - y0) / res) (ey := y1 + max (x1 - x0) (y1 - y0) / res) hR hr
    (hp p hmem).1 q1 q3 (by linarith) (by linarith) hne
  -- the depth
  have hz : WholeAxis (f.box 2) (reg 2).1 (reg 2).2 ∨ ∃ (a b Z : K) (j : ℤ), Covers (f.box 2) (reg 2).1 (reg 2).2 a b 0 ∧
      Z = p.1.z + j * f.box 2 ∧ a ≤ Z ∧ Z ≤ b := by
    cases depth with
    | none => exact Or.inl hcz
    | some r =>
      obtain ⟨kz, hkz, hz1, hz2⟩ := hdep r rfl
      obtain ⟨j, hj⟩ := copy_exists (periodic := periodic) (L := f.box 2) (x := p.1.z) hkz
      exact Or.inr ⟨r.1, r.2, _, j, hcz, hj, hz1, hz2⟩
  obtain ⟨a, b, Z, hcov, hzz⟩ : ∃ a b Z : K, Covers (f.box 2) (reg 2).1 (reg 2).2 a b 0 ∧
      (WholeAxis (f.box 2) (reg 2).1 (reg 2).2 ∨ ((∃ j : ℤ, Z = p.1.z + j * f.box 2) ∧ a ≤ Z ∧ Z ≤ b)) := by
    rcases hz with hz | ⟨a, b, Z, j, h1, h2, h3, h4⟩
    · exact ⟨0, 0, 0, Or.inl hz, Or.inl hz⟩
    · exact ⟨a, b, Z, h1, Or.inr ⟨⟨j, h2⟩, h3, h4⟩⟩
  refine keeps f hf rows reg hreg hw union k hwide i (place3 p.1) (hcell i p hpi)
    (fun d => if d = 0 then x0 else if d = 1 then y0 else a)
    (fun d => if d = 0 then x1 + max (x1 - x0) (y1 - y0) / res else if d = 1 then y1 + max (x1 - x0) (y1 - y0) / res else b)
    (fun d => if d = 2 then 0 else g * p.1.h)
    (fun d => if d = 0 then p.1.x + kx * period periodic (f.box 0) else if d = 1 then p.1.y + ky * period periodic (f.box 1) else Z)
    ?_ ?_
  · intro d
    fin_cases d
    · exact hcx p hmem
    · exact hcy p hmem
    · exact hcov
  · intro d
    fin_cases d
    · exact Or.inr ⟨copy_exists hkx, nx.1, nx.2⟩
    · exact Or.inr ⟨copy_exists hky, ny.1, ny.2⟩
    · rcases hzz with h | ⟨h1, h2, h3⟩
      · exact Or.inl h
      · exact Or.inr ⟨h1, Or.inl h2, Or.inl h3⟩

private theorem ball_near {W : K → K → K} (hW : Compact W) {H u v w : K} (hH : 0 < H) (hne : W (u ^ 2 + v ^ 2 + w ^ 2) H ≠ 0) :
    (-H < u ∧ u < H) ∧ (-H < v ∧ v < H) ∧ (-H < w ∧ w < H) := by
  have hlt : u ^ 2 + v ^ 2 + w ^ 2 < H * H := by
    by_contra hge
    exact hne (hW _ _ hH (not_lt.1 hge))
  have hu := sq_nonneg u
  have hv := sq_nonneg v
  have hw := sq_nonneg w
  refine ⟨sq_lt hH (add_nonneg hv hw) (by linarith), sq_lt hH (add_nonneg hu hw) (by linarith),
    sq_lt hH (add_nonneg hu hv) (by linarith)⟩

/-- **C81** for slices: the region of the mask contains the region of the slice and its height, widened by the radius of every
kernel. -/
theorem c81_slice {W : K → K → K} (hW : Compact W) (hsc : Scales 3 W) {g : K} {res : Nat} (hr : 0 < res) (f : File K m)
    (hf : WF f) (rows : List (Option (List K))) (reg : Fin 3 → K × K) (hreg : RegionIs f.box rows reg)
    (hw : InWindow f.box reg) (union : Bool) (k : Fin m) (hwide : ∀ c ∈ f.cells k, ∀ d, c.lo d < c.hi d) (F : Fields K)
    (hF : F.xs.length = f.rows k ∧ F.ms.length = f.rows k ∧ F.hs.length = f.rows k ∧ F.flags.length = f.rows k)
    (hcell : ∀ (i : Nat) p, (assemble F)[i]? = some p → ∃ c ∈ f.cells k, Holds c i ∧ ∀ d, c.lo d ≤ place3 p.1 d ∧ place3 p.1 d ≤ c.hi d)
    (lay : Fin 4 → Layout) (hlay : ∀ n, lay n ≠ .remote ∧ ∀ c, lay n = .chunked c → 0 < c) (periodic : Bool)
    {x0 x1 y0 y1 : K} (hx : x0 < x1) (hy : y0 < y1) (depth : Option (K × K)) (zs : K)
    (hp : ∀ p ∈ assemble F, 0 < g * p.1.h ∧
      (periodic = true → g * p.1.h ≤ f.box 0 ∧ g * p.1.h ≤ f.box 1 ∧ g * p.1.h ≤ f.box 2))
    (hcx : ∀ p ∈ assemble F, Covers (f.box 0) (reg 0).1 (reg 0).2 x0 (x1 + max (x1 - x0) (y1 - y0) / res) (g * p.1.h))
    (hcy : ∀ p ∈ assemble F, Covers (f.box 1) (reg 1).1 (reg 1).2 y0 (y1 + max (x1 - x0) (y1 - y0) / res) (g * p.1.h))
    (hcz : ∀ p ∈ assemble F, Covers (f.box 2) (reg 2).1 (reg 2).2 zs zs (g * p.1.h)) :
    ∃ out out', sliceGrid (Scatter.slice W g) (boxOf f) (some (limits x0 x1 y0 y1 depth)) zs periodic true res (assemble F) = .ok out ∧
      sliceMasked (Scatter.slice W g) f [.spatial rows union] lay F k (some (limits x0 x1 y0 y1 depth)) zs periodic res = .ok out' ∧
      out'.nx = out.nx ∧ out'.ny = out.ny ∧ ∀ q, OnImage out.nx q.1 → OnImage out.ny q.2 → out'.img q = out.img q := by
  classical
  obtain ⟨k1, k2⟩ := spatial_kind f hf rows union
  obtain ⟨rws, G, e1, e2, e3, e4, e5⟩ := loaded f hf [.spatial rows union] (by simp [IndicesOk]) k k1 k2 F hF lay hlay
  have hL : periodic = true → 0 < f.box 0 ∧ 0 < f.box 1 ∧ 0 < f.box 2 := fun _ => ⟨hf.box_pos 0, hf.box_pos 1, hf.box_pos 2⟩
  have hsub := sub_of_rows e5
  obtain ⟨out, o1, o2, o3, o4⟩ := c53_slice_partial hW hsc hr (f.box 0) (f.box 1) (f.box 2) periodic hL hx hy depth zs
    (assemble F) hp
  obtain ⟨out', p1, p2, p3, p4⟩ := c53_slice_partial hW hsc hr (f.box 0) (f.box 1) (f.box 2) periodic hL hx hy depth zs
    (assemble G) (fun p h => hp p (hsub p h))
  have hnx : out'.nx = out.nx := same_size fun i => by rw [p2, o2]
  have hny : out'.ny = out.ny := same_size fun i => by rw [p3, o3]
  refine ⟨out, out', o1, ?_, hnx, hny, ?_⟩
  · unfold sliceMasked
    rw [e1]
    exact p1
  · intro q hq1 hq2
    rw [o4 q hq1 hq2, p4 q (by rw [hnx]; exact hq1) (by rw [hny]; exact hq2), e5]
    apply sum_rows _ _ rws e2 e4
    intro i p hpi hne
    rw [e3]
    have hmem : p ∈ assemble F := List.mem_of_getElem? hpi
    by_cases hcond : p.2 = true
    · rw [if_pos hcond] at hne
      unfold tile3 at hne
      obtain ⟨⟨kx, ky, kz⟩, hkk⟩ := finsum_ne hne
      by_cases hcp : IsCopy (period periodic (f.box 0)) kx ∧ IsCopy (period periodic (f.box 1)) ky ∧
          IsCopy (period periodic (f.box 2)) kz
      · rw [if_pos hcp] at hkk
        dsimp only at hkk
        unfold sliceAt at hkk
        split_ifs at hkk with hin
        · have hR : 0 < max (x1 - x0) (y1 - y0) := lt_max_of_lt_left (by linarith)
          have hpix : 0 < max (x1 - x0) (y1 - y0) / (res : K) := div_pos hR (by exact_mod_cast hr)
          obtain ⟨b1, b2, b3⟩ := ball_near hW (hp p hmem).1 (right_ne_zero_of_mul hkk)
          have q1 := (o2 q.1).1 hq1
          have q2 := (o3 q.2).1 hq2
          have n1 := centre_near (e := x1 + max (x1 - x0) (y1 - y0) / res) hpix q1.1 (by linarith [q1.2]) b1
          have n2 := centre_near (e := y1 + max (x1 - x0) (y1 - y0) / res) hpix q2.1 (by linarith [q2.2]) b2
          refine keeps f hf rows reg hreg hw union k hwide i (place3 p.1) (hcell i p hpi)
            (fun d => if d = 0 then x0 else if d = 1 then y0 else zs)
            (fun d => if d = 0 then x1 + max (x1 - x0) (y1 - y0) / res else if d = 1 then y1 + max (x1 - x0) (y1 - y0) / res else zs)
            (fun _ => g * p.1.h)
            (fun d => if d = 0 then p.1.x + kx * period periodic (f.box 0) else if d = 1 then
              p.1.y + ky * period periodic (f.box 1) else p.1.z + kz * period periodic (f.box 2)) ?_ ?_
          · intro d
            fin_cases d
            · exact hcx p hmem
            · exact hcy p hmem
            · exact hcz p hmem
          · intro d
            fin_cases d
            · exact Or.inr ⟨copy_exists hcp.1, Or.inr n1.1, Or.inr n1.2⟩
            · exact Or.inr ⟨copy_exists hcp.2.1, Or.inr n2.1, Or.inr n2.2⟩
            · refine Or.inr ⟨copy_exists hcp.2.2, Or.inr ?_, Or.inr ?_⟩
              · show zs - g * p.1.h < p.1.z + kz * period periodic (f.box 2)
                linarith [b3.1]
              · show p.1.z + kz * period periodic (f.box 2) < zs + g * p.1.h
                linarith [b3.2]
        · exact absurd rfl hkk
      · rw [if_neg hcp] at hkk
        exact absurd rfl hkk
    · rw [if_neg hcond] at hne
      exact absurd rfl hne

/-- **C81** for volume renders: the region of the mask contains the cube, widened by the radius of every kernel. -/
theorem c81_render {W : K → K → K} (hW : Compact W) (hsc : Scales 3 W) {g : K} {res : Nat} (hr : 0 < res) (f : File K m)
    (hf : WF f) (rows : List (Option (List K))) (reg : Fin 3 → K × K) (hreg : RegionIs f.box rows reg)
    (hw : InWindow f.box reg) (union : Bool) (k : Fin m) (hwide : ∀ c ∈ f.cells k, ∀ d, c.lo d < c.hi d) (F : Fields K)
    (hF : F.xs.length = f.rows k ∧ F.ms.length = f.rows k ∧ F.hs.length = f.rows k ∧ F.flags.length = f.rows k)
    (hcell : ∀ (i : Nat) p, (assemble F)[i]? = some p → ∃ c ∈ f.cells k, Holds c i ∧ ∀ d, c.lo d ≤ place3 p.1 d ∧ place3 p.1 d ≤ c.hi d)
    (lay : Fin 4 → Layout) (hlay : ∀ n, lay n ≠ .remote ∧ ∀ c, lay n = .chunked c → 0 < c) (periodic : Bool)
    (x0 y0 z0 : K) {R : K} (hR : 0 < R)
    (hp : ∀ p ∈ assemble F, 0 ≤ g * p.1.h ∧
      (periodic = true → g * p.1.h ≤ f.box 0 ∧ g * p.1.h ≤ f.box 1 ∧ g * p.1.h ≤ f.box 2))
    (hcx : ∀ p ∈ assemble F, Covers (f.box 0) (reg 0).1 (reg 0).2 x0 (x0 + R) (g * p.1.h))
    (hcy : ∀ p ∈ assemble F, Covers (f.box 1) (reg 1).1 (reg 1).2 y0 (y0 + R) (g * p.1.h))
    (hcz : ∀ p ∈ assemble F, Covers (f.box 2) (reg 2).1 (reg 2).2 z0 (z0 + R) (g * p.1.h)) :
    ∃ out out', renderGrid (Scatter.volume W g) (boxOf f) (some [x0, x0 + R, y0, y0 + R, z0, z0 + R]) periodic true res (assemble F) = .ok out ∧
      renderMasked (Scatter.volume W g) f [.spatial rows union] lay F k (some [x0, x0 + R, y0, y0 + R, z0, z0 + R]) periodic res = .ok out' ∧
      ∀ q, OnImage res q.1 → OnImage res q.2.1 → OnImage res q.2.2 → out' q = out q := by
  classical
  obtain ⟨k1, k2⟩ := spatial_kind f hf rows union
  obtain ⟨rws, G, e1, e2, e3, e4, e5⟩ := loaded f hf [.spatial rows union] (by simp [IndicesOk]) k k1 k2 F hF lay hlay
  have hL : periodic = true → 0 < f.box 0 ∧ 0 < f.box 1 ∧ 0 < f.box 2 := fun _ => ⟨hf.box_pos 0, hf.box_pos 1, hf.box_pos 2⟩
  have hsub := sub_of_rows e5
  obtain ⟨out, o1, o4⟩ := c53_render_partial hW hsc hr (f.box 0) (f.box 1) (f.box 2) periodic hL x0 y0 z0 hR (assemble F) hp
  obtain ⟨out', p1, p4⟩ := c53_render_partial hW hsc hr (f.box 0) (f.box 1) (f.box 2) periodic hL x0 y0 z0 hR (assemble G)
    (fun p h => hp p (hsub p h))
  refine ⟨out, out', o1, ?_, ?_⟩
  · unfold renderMasked
    rw [e1]
    exact p1
  · intro q hq1 hq2 hq3
    rw [o4 q hq1 hq2 hq3, p4 q hq1 hq2 hq3, e5]
    apply sum_rows _ _ rws e2 e4
    intro i p hpi hne
    rw [e3]
    have hmem : p ∈ assemble F := List.mem_of_getElem? hpi
    by_cases hcond : p.2 = true
    · rw [if_pos hcond] at hne
      unfold tile3 at hne
      obtain ⟨⟨kx, ky, kz⟩, hkk⟩ := finsum_ne hne
      by_cases hcp : IsCopy (period periodic (f.box 0)) kx ∧ IsCopy (period periodic (f.box 1)) ky ∧
          IsCopy (period periodic (f.box 2)) kz
      · rw [if_pos hcp] at hkk
        dsimp only at hkk
        have hres : (0 : K) < res := by exact_mod_cast hr
        have hpix : 0 < R / (res : K) := div_pos hR hres
        have edge : ∀ (a : K) (j : Int), OnImage res j → a + (j + 1) * (R / res) ≤ a + R := by
          intro a j hj
          have h : ((j : K) + 1) ≤ res := by exact_mod_cast hj.2
          have : ((j : K) + 1) * (R / res) ≤ res * (R / res) := mul_le_mul_of_nonneg_right h hpix.le
          rw [mul_div_cancel₀ _ hres.ne'] at this
          linarith
        have near : (((x0 ≤ p.1.x + kx * period periodic (f.box 0) ∨ x0 - g * p.1.h < p.1.x + kx * period periodic (f.box 0)) ∧
            (p.1.x + kx * period periodic (f.box 0) ≤ x0 + R ∨ p.1.x + kx * period periodic (f.box 0) < x0 + R + g * p.1.h)) ∧
            ((y0 ≤ p.1.y + ky * period periodic (f.box 1) ∨ y0 - g * p.1.h < p.1.y + ky * period periodic (f.box 1)) ∧
            (p.1.y + ky * period periodic (f.box 1) ≤ y0 + R ∨ p.1.y + ky * period periodic (f.box 1) < y0 + R + g * p.1.h))) ∧
            ((z0 ≤ p.1.z + kz * period periodic (f.box 2) ∨ z0 - g * p.1.h < p.1.z + kz * period periodic (f.box 2)) ∧
            (p.1.z + kz * period periodic (f.box 2) ≤ z0 + R ∨ p.1.z + kz * period periodic (f.box 2) < z0 + R + g * p.1.h)) := by
          unfold densityAt at hkk
          split_ifs at hkk with hs hin hin
          · have n1 := cell_near hpix hq1.1 (edge x0 _ hq1) hin.1
            have n2 := cell_near hpix hq2.1 (edge y0 _ hq2) hin.2.1
            have n3 := cell_near hpix hq3.1 (edge z0 _ hq3) hin.2.2
            exact ⟨⟨⟨Or.inl n1.1, Or.inl n1.2⟩, Or.inl n2.1, Or.inl n2.2⟩, Or.inl n3.1, Or.inl n3.2⟩
          · exact absurd rfl hkk
          · have hH : 0 < g * p.1.h := by
              have : 0 < R / (res : K) / 2 := by linarith
              linarith [not_lt.1 hs]
            obtain ⟨b1, b2, b3⟩ := ball_near hW hH (right_ne_zero_of_mul hkk)
            have n1 := centre_near hpix hq1.1 (edge x0 _ hq1) b1
            have n2 := centre_near hpix hq2.1 (edge y0 _ hq2) b2
            have n3 := centre_near hpix hq3.1 (edge z0 _ hq3) b3
            exact ⟨⟨⟨Or.inr n1.1, Or.inr n1.2⟩, Or.inr n2.1, Or.inr n2.2⟩, Or.inr n3.1, Or.inr n3.2⟩
          · exact absurd rfl hkk
        refine keeps f hf rows reg hreg hw union k hwide i (place3 p.1) (hcell i p hpi)
          (fun d => if d = 0 then x0 else if d = 1 then y0 else z0)
          (fun d => if d = 0 then x0 + R else if d = 1 then y0 + R else z0 + R) (fun _ => g * p.1.h)
          (fun d => if d = 0 then p.1.x + kx * period periodic (f.box 0) else if d = 1 then
            p.1.y + ky * period periodic (f.box 1) else p.1.z + kz * period periodic (f.box 2)) ?_ ?_
        · intro d
          fin_cases d
          · exact hcx p hmem
          · exact hcy p hmem
          · exact hcz p hmem
        · intro d
          fin_cases d
          · exact Or.inr ⟨copy_exists hcp.1, near.1.1.1, near.1.1.2⟩
          · exact Or.inr ⟨copy_exists hcp.2.1, near.1.2.1, near.1.2.2⟩
          · exact Or.inr ⟨copy_exists hcp.2.2, near.2.1, near.2.2⟩
      · rw [if_neg hcp] at hkk
        exact absurd rfl hkk
    · rw [if_neg hcond] at hne
      exact absurd rfl hne

/-! ### Examples -/

/-- A kernel that can be computed. -/
def flatKernel (r2 H : ℚ) : ℚ := if r2 < H * H then 1 / (H * H) else 0

/-- Six particles in the cells of the example file. -/
def exImage : Fields ℚ where
  xs := [(1 / 2, 1 / 2, 1), (1 / 4, 3 / 4, 2), (11 / 10, 1 / 2, 1), (5 / 2, 1 / 2, 3), (7 / 2, 1 / 2, 1), (39 / 10, 1, 1)]
  ms := [1, 2, 4, 8, 16, 32]
  hs := [1 / 2, 1 / 2, 1 / 2, 1 / 2, 1 / 2, 1 / 2]
  flags := [true, true, true, true, true, true]

example : (assemble exImage)[3]? = some (⟨5 / 2, 1 / 2, 3, 8, 1 / 2⟩, true) :=
  (c81_particles exImage 3 _).2 ⟨rfl, rfl, rfl, rfl⟩

/-- C81 fails for a mask of just the region of the image, as in the documentation
(`docs/source/visualisation/projection.rst` 302-357): the particle at 11/10 lies outside the region from 0 to 1, in a cell
that the mask leaves out, and its kernel, of radius 1/2, reaches into the region. It is in the image of all data and not in the
image of the masked data. -/
theorem c81_unpadded_fails :
    (project (Scatter.fast flatKernel 1) (boxOf exFile) (some [0, 1, 0, 1]) true true 4 (assemble exImage)).map
      (fun out => (out.nx, out.ny, out.img (3, 2))) = .ok (4, 4, 20) ∧
    (projectMasked (Scatter.fast flatKernel 1) exFile [.spatial [some [0, 1], some [0, 1], none] false] (fun _ => .contiguous) exImage 0
      (some [0, 1, 0, 1]) true 4).map (fun out => (out.nx, out.ny, out.img (3, 2))) = .ok (4, 4, 4) := by
  constructor <;> decide +kernel

theorem flatKernel_compact : Compact flatKernel := by
  intro r2 H _ h
  unfold flatKernel
  rw [if_neg (not_lt.2 h)]

theorem flatKernel_scales : Scales 2 flatKernel := by
  intro c r2 H hc
  unfold flatKernel
  have h2 : (0 : ℚ) < c ^ 2 := by positivity
  have e : c * H * (c * H) = c ^ 2 * (H * H) := by ring
  rw [e]
  by_cases h : r2 < H * H
  · rw [if_pos h, if_pos (mul_lt_mul_of_pos_left h h2), div_div, mul_comm (H * H)]
  · rw [if_neg h, if_neg (fun h' => h (lt_of_mul_lt_mul_left h' h2.le)), zero_div]

/-- The same image with a mask that is wider by the kernels and a pixel: the hypotheses of `c81_projection` hold, the mask still
leaves out a cell. -/
example : ∃ out out', project (Scatter.fast flatKernel 1) (boxOf exFile) (some (limits 0 1 0 1 none)) true true 4 (assemble exImage) = .ok out ∧
    projectMasked (Scatter.fast flatKernel 1) exFile [.spatial [some [-1, 2], some [-1, 2], none] false] (fun _ => .chunked 2) exImage 0
      (some (limits 0 1 0 1 none)) true 4 = .ok out' ∧
    out'.nx = out.nx ∧ out'.ny = out.ny ∧ ∀ q, OnImage out.nx q.1 → OnImage out.ny q.2 → out'.img q = out.img q := by
  have hF : assemble exImage = [(⟨1 / 2, 1 / 2, 1, 1, 1 / 2⟩, true), (⟨1 / 4, 3 / 4, 2, 2, 1 / 2⟩, true),
    (⟨11 / 10, 1 / 2, 1, 4, 1 / 2⟩, true), (⟨5 / 2, 1 / 2, 3, 8, 1 / 2⟩, true), (⟨7 / 2, 1 / 2, 1, 16, 1 / 2⟩, true),
    (⟨39 / 10, 1, 1, 32, 1 / 2⟩, true)] := rfl
  have hh : ∀ p ∈ assemble exImage, p.1.h = 1 / 2 := by
    rw [hF]
    simp
  refine c81_projection flatKernel_compact flatKernel_scales (by norm_num) exFile exFile_wf [some [-1, 2], some [-1, 2], none]
    (fun d => if d = 2 then (0, 4) else (-1, 2)) ⟨rfl, ?_⟩ ?_ false 0 ?_ exImage ⟨rfl, rfl, rfl, rfl⟩ ?_ _ ?_ true (by norm_num) (by norm_num) none
    ?_ ?_ ?_ ?_ ?_
  · intro d
    fin_cases d <;> simp [exFile]
  · intro d
    fin_cases d <;> refine ⟨⟨?_, ?_⟩, ?_, ?_⟩ <;> decide +kernel
  · intro c hc d
    simp [exFile, exCell] at hc
    rcases hc with rfl | rfl | rfl | rfl <;> fin_cases d <;> norm_num
  · intro i p hp
    rw [hF] at hp
    have hi : i < 6 := (List.getElem?_eq_some_iff.1 hp).1
    have hc : ∀ c, c ∈ [exCell 0 2 0, exCell 2 1 1, exCell 3 1 2, exCell 4 2 3] → c ∈ exFile.cells 0 := fun c h => h
    interval_cases i <;> obtain rfl := Option.some.inj hp
    · exact ⟨exCell 0 2 0, hc _ (by simp), by simp [Holds, exCell], fun d => by fin_cases d <;> norm_num [exCell, place3]⟩
    · exact ⟨exCell 0 2 0, hc _ (by simp), by simp [Holds, exCell], fun d => by fin_cases d <;> norm_num [exCell, place3]⟩
    · exact ⟨exCell 2 1 1, hc _ (by simp), by simp [Holds, exCell], fun d => by fin_cases d <;> norm_num [exCell, place3]⟩
    · exact ⟨exCell 3 1 2, hc _ (by simp), by simp [Holds, exCell], fun d => by fin_cases d <;> norm_num [exCell, place3]⟩
    · exact ⟨exCell 4 2 3, hc _ (by simp), by simp [Holds, exCell], fun d => by fin_cases d <;> norm_num [exCell, place3]⟩
    · exact ⟨exCell 4 2 3, hc _ (by simp), by simp [Holds, exCell], fun d => by fin_cases d <;> norm_num [exCell, place3]⟩
  · intro n
    exact ⟨by simp, fun c h => by cases h; norm_num⟩
  · intro r hr
    cases hr
  · intro p hp
    rw [hh p hp]
    norm_num [exFile]
  · intro p hp
    rw [hh p hp]
    refine Or.inr ⟨0, ?_⟩
    unfold wrapUpper
    decide +kernel
  · intro p hp
    rw [hh p hp]
    refine Or.inr ⟨0, ?_⟩
    unfold wrapUpper
    decide +kernel
  · exact Or.inl (by norm_num [wrapUpper, exFile])

end Verif.Props
