import Verif.Spec.VolumeVis
import Mathlib.Tactic.Linarith
import Mathlib.Tactic.FieldSimp
import Mathlib.Tactic.Ring
import Mathlib.Tactic.Positivity

/-!
# C77: the colouring of a volume render
-/

namespace Verif.Props
open Verif Verif.VolumeVis Verif.VolumeVis.Spec

private theorem sqrt_pos : 0 < Real.sqrt (2 * Real.pi) := Real.sqrt_pos.2 (by have := Real.pi_pos; linarith)

private theorem addVoxel_ok {c w : ℝ} (hw : w ≠ 0) (out v : ℝ) : addVoxel c w out v = .ok (out + density c w v) := by
  have h := sqrt_pos.ne'
  simp only [addVoxel, if_neg hw, density]
  congr 2
  rw [mul_one_div]
  congr 2
  field_simp
  ring

private theorem sumLine_ok (r : Cube) {c w : ℝ} (hw : w ≠ 0) (i j : Nat) : sumLine r c w i j = .ok (sight r c w i j) := by
  unfold sumLine sight
  induction r.n2 with
  | zero => rfl
  | succ n ih =>
    rw [List.range_succ, List.foldlM_append, ih, Finset.sum_range_succ]
    simp only [List.foldlM_cons, List.foldlM_nil]
    show (addVoxel c w _ _ >>= fun s => pure s) = _
    rw [addVoxel_ok hw]
    rfl

private theorem write_ok {g : Grid} {a b : Nat} (ha : a < g.n0) (hb : b < g.n1) (v : ℝ) :
    g.write a b v = .ok { g with val := fun x y => if x = a ∧ y = b then v else g.val x y } := if_pos ⟨ha, hb⟩

private theorem row_ok (r : Cube) {c w : ℝ} (hw : w ≠ 0) (i : Nat) (g : Grid) (m : Nat) (hm : m ≤ g.n0) (hi : i < g.n1) :
    (List.range m).foldlM (voxelStep r c w i) g =
      .ok { g with val := fun x y => if x < m ∧ y = i then sight r c w i x else g.val x y } := by
  induction m with
  | zero => simp; rfl
  | succ m ih =>
    rw [List.range_succ, List.foldlM_append, ih (by omega)]
    simp only [List.foldlM_cons, List.foldlM_nil]
    show (voxelStep r c w i _ _ >>= fun s => pure s) = _
    unfold voxelStep
    rw [sumLine_ok r hw]
    simp only [Except.bind]
    rw [write_ok (by exact hm) (by exact hi)]
    show Except.ok _ = Except.ok _
    congr 1
    simp only [Grid.mk.injEq, true_and]
    funext x y
    by_cases hy : y = i
    · by_cases hx : x = m
      · simp [hx, hy]
      · by_cases h : x < m
        · simp [hx, hy, h, Nat.lt_succ_of_lt h]
        · have : ¬ x < m + 1 := by omega
          simp [hx, hy, h, this]
    · simp [hy]

/-- The output of `render_voxels_to_array` for a grid of square cross section. -/
private theorem render_ok (r : Cube) {c w : ℝ} (hw : w ≠ 0) (hsq : r.n0 = r.n1) :
    renderVoxels r c w = .ok ⟨r.n0, r.n1, fun x y => if x < r.n1 ∧ y < r.n0 then sight r c w y x else 0⟩ := by
  have key : ∀ m ≤ r.n1, (List.range m).foldlM (voxelRow r c w) ⟨r.n0, r.n1, fun _ _ => 0⟩ =
      .ok ⟨r.n0, r.n1, fun x y => if x < r.n1 ∧ y < m then sight r c w y x else 0⟩ := by
    intro m hm
    induction m with
    | zero => simp; rfl
    | succ m ih =>
      rw [List.range_succ, List.foldlM_append, ih (by omega)]
      simp only [List.foldlM_cons, List.foldlM_nil]
      show (voxelRow r c w _ _ >>= fun s => pure s) = _
      unfold voxelRow
      rw [row_ok r hw m _ r.n1 (by simp [hsq]) (by simpa using hm)]
      show Except.ok _ = Except.ok _
      congr 1
      simp only [Grid.mk.injEq, true_and]
      funext x y
      by_cases hx : x < r.n1
      · by_cases hy : y = m
        · simp [hx, hy]
        · by_cases h : y < m
          · simp [hx, hy, h, Nat.lt_succ_of_lt h]
          · have : ¬ y < m + 1 := by omega
            simp [hx, hy, h, this]
      · simp [hx]
  unfold renderVoxels
  exact key r.n0 hsq.le

/-- C77: for a grid of square cross section, element `[j, i]` of the array is the sum of the normal densities along the line of sight
through `[i, j]`. -/
theorem c77_sight (r : Cube) {c w : ℝ} (hw : w ≠ 0) (hsq : r.n0 = r.n1) :
    ∃ g, renderVoxels r c w = .ok g ∧ g.n0 = r.n1 ∧ g.n1 = r.n0 ∧
      ∀ i < r.n0, ∀ j < r.n1, g.val j i = ∑ k ∈ Finset.range r.n2, density c w (r.val i j k) := by
  refine ⟨_, render_ok r hw hsq, hsq, hsq.symm, fun i hi j hj => ?_⟩
  simp [hi, hj, sight]

private theorem foldl_min (l : List ℝ) (v : ℝ) :
    l.foldl min v ∈ v :: l ∧ ∀ x ∈ v :: l, l.foldl min v ≤ x := by
  induction l generalizing v with
  | nil => simp
  | cons a l ih =>
    obtain ⟨h1, h2⟩ := ih (min v a)
    simp only [List.foldl_cons]
    refine ⟨?_, ?_⟩
    · rcases List.mem_cons.1 h1 with h | h
      · rcases min_choice v a with h' | h' <;> rw [h, h'] <;> simp
      · simp [h]
    · intro x hx
      have h3 := h2 (min v a) (by simp)
      rcases List.mem_cons.1 hx with rfl | hx
      · exact h3.trans (min_le_left _ _)
      · rcases List.mem_cons.1 hx with rfl | hx
        · exact h3.trans (min_le_right _ _)
        · exact h2 x (by simp [hx])

private theorem foldl_max (l : List ℝ) (v : ℝ) :
    l.foldl max v ∈ v :: l ∧ ∀ x ∈ v :: l, x ≤ l.foldl max v := by
  induction l generalizing v with
  | nil => simp
  | cons a l ih =>
    obtain ⟨h1, h2⟩ := ih (max v a)
    simp only [List.foldl_cons]
    refine ⟨?_, ?_⟩
    · rcases List.mem_cons.1 h1 with h | h
      · rcases max_choice v a with h' | h' <;> rw [h, h'] <;> simp
      · simp [h]
    · intro x hx
      have h3 := h2 (max v a) (by simp)
      rcases List.mem_cons.1 hx with rfl | hx
      · exact (le_max_left _ _).trans h3
      · rcases List.mem_cons.1 hx with rfl | hx
        · exact (le_max_right _ _).trans h3
        · exact h2 x (by simp [hx])

private theorem mem_values (g : Grid) (x : ℝ) : x ∈ g.values ↔ ∃ a < g.n0, ∃ b < g.n1, g.val a b = x := by
  simp [Grid.values]

/-- A fresh `Normalize` object. -/
private theorem call_fresh (g : Grid) (h0 : 0 < g.n0) (h1 : 0 < g.n1) :
    ∃ lo hi g', (⟨none, none⟩ : Norm).call g = .ok (⟨some lo, some hi⟩, g') ∧ g'.n0 = g.n0 ∧ g'.n1 = g.n1 ∧
      (∃ a < g.n0, ∃ b < g.n1, g.val a b = lo) ∧ (∃ a < g.n0, ∃ b < g.n1, g.val a b = hi) ∧
      ∀ a < g.n0, ∀ b < g.n1, lo ≤ g.val a b ∧ g.val a b ≤ hi ∧ (lo = hi → g'.val a b = 0) ∧
        g'.val a b * (hi - lo) = g.val a b - lo := by
  have hv : ∀ x, x ∈ g.values ↔ _ := mem_values g
  unfold Norm.call
  cases e : g.values with
  | nil =>
    have := (hv (g.val 0 0)).2 ⟨0, h0, 0, h1, rfl⟩
    rw [e] at this
    cases this
  | cons v rest =>
    rw [e] at hv
    obtain ⟨m1, m2⟩ := foldl_min rest v
    obtain ⟨x1, x2⟩ := foldl_max rest v
    have hle := m2 _ x1
    simp only [Norm.autoscale, Option.getD_none]
    generalize rest.foldl min v = lo at *
    generalize rest.foldl max v = hi at *
    by_cases he : lo = hi
    · refine ⟨lo, hi, { g with val := fun _ _ => 0 }, ?_, rfl, rfl, (hv _).1 m1, (hv _).1 x1, ?_⟩
      · simp [stretch, he, Except.map]
      · intro a ha b hb
        have hm := (hv (g.val a b)).2 ⟨a, ha, b, hb, rfl⟩
        have h3 := m2 _ hm
        have h4 := x2 _ hm
        refine ⟨h3, h4, fun _ => rfl, ?_⟩
        simp only [zero_mul]
        linarith
    · refine ⟨lo, hi, { g with val := fun a b => (g.val a b - lo) / (hi - lo) }, ?_, rfl, rfl, (hv _).1 m1, (hv _).1 x1, ?_⟩
      · simp [stretch, he, not_lt.2 hle, Except.map]
      · intro a ha b hb
        have hm := (hv (g.val a b)).2 ⟨a, ha, b, hb, rfl⟩
        refine ⟨m2 _ hm, x2 _ hm, fun h => absurd h he, ?_⟩
        have : hi - lo ≠ 0 := sub_ne_zero.2 (Ne.symm he)
        exact div_mul_cancel₀ _ this

private theorem imagesEach_ok (r : Cube) (P : ℝ → ℝ → Norm × Grid → Prop) (n : Norm) :
    ∀ (cs ws : List ℝ), cs.length ≤ ws.length →
      (∀ m (hm : m < cs.length) (hm' : m < ws.length), ∃ q, imageOf r n cs[m] ws[m] = .ok q ∧ P cs[m] ws[m] q) →
      ∃ ns gs, imagesEach r (List.replicate cs.length n) cs ws = .ok (ns, gs) ∧ ns.length = cs.length ∧ gs.length = cs.length ∧
        ∀ m (hm : m < cs.length) (hm' : m < ws.length) (h1 : m < ns.length) (h2 : m < gs.length), P cs[m] ws[m] (ns[m], gs[m]) := by
  intro cs
  induction cs with
  | nil => intro ws _ _; exact ⟨[], [], rfl, rfl, rfl, fun m hm => absurd hm (Nat.not_lt_zero m)⟩
  | cons c cs ih =>
    intro ws hl h
    cases ws with
    | nil => simp at hl
    | cons w ws =>
      obtain ⟨q, hq, hP⟩ := h 0 (by simp) (by simp)
      obtain ⟨ns, gs, e, l1, l2, hr⟩ := ih ws (by simpa using hl)
        (fun m hm hm' => h (m + 1) (by simpa using hm) (by simpa using hm'))
      refine ⟨q.1 :: ns, q.2 :: gs, ?_, by simp [l1], by simp [l2], ?_⟩
      · simp only [List.length_cons, List.replicate_succ, imagesEach]
        simp only [List.getElem_cons_zero] at hq
        rw [hq]
        simp only [Except.bind]
        rw [e]
        rfl
      · intro m hm hm' h1 h2
        cases m with
        | zero => exact hP
        | succ m => exact hr m (by simpa using hm) (by simpa using hm') (by simpa using h1) (by simpa using h2)

private theorem imagesShared_ok (r : Cube) (P : ℝ → ℝ → Grid → Prop) (n : Norm) :
    ∀ (cs ws : List ℝ), cs.length ≤ ws.length →
      (∀ m (hm : m < cs.length) (hm' : m < ws.length), ∃ g, imageOf r n cs[m] ws[m] = .ok (n, g) ∧ P cs[m] ws[m] g) →
      ∃ gs, imagesShared r n cs ws = .ok (n, gs) ∧ gs.length = cs.length ∧
        ∀ m (hm : m < cs.length) (hm' : m < ws.length) (h2 : m < gs.length), P cs[m] ws[m] gs[m] := by
  intro cs
  induction cs with
  | nil => intro ws _ _; exact ⟨[], rfl, rfl, fun m hm => absurd hm (Nat.not_lt_zero m)⟩
  | cons c cs ih =>
    intro ws hl h
    cases ws with
    | nil => simp at hl
    | cons w ws =>
      obtain ⟨g, hq, hP⟩ := h 0 (by simp) (by simp)
      obtain ⟨gs, e, l2, hr⟩ := ih ws (by simpa using hl)
        (fun m hm hm' => h (m + 1) (by simpa using hm) (by simpa using hm'))
      refine ⟨g :: gs, ?_, by simp [l2], ?_⟩
      · simp only [List.getElem_cons_zero] at hq
        simp only [imagesShared]
        rw [hq]
        simp only [Except.bind]
        rw [e]
        rfl
      · intro m hm hm' h2
        cases m with
        | zero => exact hP
        | succ m => exact hr m (by simpa using hm) (by simpa using hm') (by simpa using h2)

private theorem resolve_spec {widths : Widths} {n : Nat} (h : ∀ m < n, ∃ w, widthAt widths m = some w ∧ w ≠ 0) :
    n ≤ (widths.resolve n).length ∧ ∀ m (hm : m < n) (hm' : m < (widths.resolve n).length),
      widthAt widths m = some (widths.resolve n)[m] ∧ (widths.resolve n)[m] ≠ 0 := by
  cases widths with
  | one w =>
    refine ⟨by simp [Widths.resolve], fun m hm hm' => ?_⟩
    obtain ⟨w', e, hw⟩ := h m hm
    simp only [widthAt, Option.some.injEq] at e
    subst e
    simp [Widths.resolve, widthAt, hw]
  | list ws =>
    have hl : n ≤ ws.length := by
      by_contra hc
      obtain ⟨w, e, _⟩ := h ws.length (by omega)
      simp [widthAt] at e
    refine ⟨hl, fun m hm hm' => ?_⟩
    obtain ⟨w, e, hw⟩ := h m hm
    simp only [Widths.resolve] at hm' ⊢
    simp only [widthAt] at e ⊢
    rw [List.getElem?_eq_getElem hm'] at e ⊢
    simp only [Option.some.injEq] at e
    exact ⟨rfl, by rw [e]; exact hw⟩

/-- The pictures, for objects that treat every image in the way `P`. -/
private theorem picture {r : Cube} {centers : List ℝ} {cmap : ℝ → Color} {gs : List Grid} (l2 : gs.length = centers.length)
    (m : Nat) (hm : m < (List.zipWith paint (colors cmap centers.length) gs).length) :
    ∃ h2 : m < gs.length, (List.zipWith paint (colors cmap centers.length) gs)[m] = paint (cmap (node centers.length m)) gs[m] := by
  have h2 : m < gs.length := by
    simp only [List.length_zipWith] at hm
    omega
  refine ⟨h2, ?_⟩
  rw [List.getElem_zipWith]
  simp [colors]

/-- C77: without normalisations, picture `m` is the line-of-sight sum of rendering function `m`, stretched to [0, 1], in colour `m` of
the colour map, with pixel `[i, j]` for the line of sight `[i, j]`. -/
theorem c77_all (r : Cube) (centers : List ℝ) (widths : Widths) (cmap : ℝ → Color) (hsq : r.n0 = r.n1) (hn : 0 < r.n0)
    (hw : ∀ m < centers.length, ∃ w, widthAt widths m = some w ∧ w ≠ 0) :
    ∃ l ns, visualise r centers widths cmap .all .absent = .ok (.all l, ns) ∧ l.length = centers.length ∧
      ns.length = centers.length ∧
      ∀ m (hm : m < l.length) (hm' : m < centers.length), l[m].n0 = r.n0 ∧ l[m].n1 = r.n1 ∧
        ∃ w g, widthAt widths m = some w ∧ Stretched r.n0 (sight r centers[m] w) g ∧
          ∀ i < r.n0, ∀ j < r.n1, ∀ c, l[m].val i j c = cmap ((m : ℝ) / ((centers.length : ℝ) - 1)) c * g i j := by
  obtain ⟨hl, hres⟩ := resolve_spec hw
  obtain ⟨ns, gs, e, l1, l2, hP⟩ := imagesEach_ok r
    (fun c w q => q.2.n0 = r.n0 ∧ q.2.n1 = r.n1 ∧ Stretched r.n0 (sight r c w) (fun i j => q.2.val j i)) ⟨none, none⟩
    centers (widths.resolve centers.length) hl (by
      intro m hm hm'
      obtain ⟨-, hw0⟩ := hres m hm hm'
      obtain ⟨lo, hi, g', e, s0, s1, ⟨a, ha, b, hb, hlo⟩, ⟨a', ha', b', hb', hhi⟩, hall⟩ :=
        call_fresh (⟨r.n0, r.n1, fun x y => if x < r.n1 ∧ y < r.n0 then sight r centers[m] (widths.resolve centers.length)[m] y x else 0⟩)
          hn (by show 0 < r.n1; omega)
      dsimp only at *
      refine ⟨(⟨some lo, some hi⟩, g'), ?_, s0, s1, lo, hi, ⟨b, by omega, a, by omega, ?_⟩, ⟨b', by omega, a', by omega, ?_⟩, ?_⟩
      · unfold imageOf
        rw [render_ok r hw0 hsq]
        exact e
      · rw [← hlo, if_pos ⟨by omega, by omega⟩]
      · rw [← hhi, if_pos ⟨by omega, by omega⟩]
      · intro x hx y hy
        have := hall y hy x (by omega)
        rw [if_pos ⟨by omega, by omega⟩] at this
        exact this)
  refine ⟨List.zipWith paint (colors cmap centers.length) gs, ns, ?_, ?_, l1, ?_⟩
  · unfold visualise images
    rw [e]
    rfl
  · simp [colors, l2]
  · intro m hm hm'
    obtain ⟨h2, ep⟩ := picture (r := r) l2 m hm
    obtain ⟨s0, s1, hs⟩ := hP m hm' (by omega) (by omega) h2
    obtain ⟨hwid, -⟩ := hres m hm' (by omega)
    rw [ep]
    refine ⟨?_, ?_, _, _, hwid, hs, fun i _ j _ c => rfl⟩
    · exact s1.trans hsq.symm
    · exact s0.trans hsq

/-- C77: with one normalisation whose limits are set, all rendering functions are stretched by these limits. -/
theorem c77_limits (r : Cube) (centers : List ℝ) (widths : Widths) (cmap : ℝ → Color) (hsq : r.n0 = r.n1) (hn : 0 < r.n0)
    {lo hi : ℝ} (hlt : lo < hi) (hw : ∀ m < centers.length, ∃ w, widthAt widths m = some w ∧ w ≠ 0) :
    ∃ l ns, visualise r centers widths cmap .all (.one ⟨some lo, some hi⟩) = .ok (.all l, ns) ∧ l.length = centers.length ∧
      ns = List.replicate centers.length ⟨some lo, some hi⟩ ∧
      ∀ m (hm : m < l.length) (hm' : m < centers.length), l[m].n0 = r.n0 ∧ l[m].n1 = r.n1 ∧
        ∃ w, widthAt widths m = some w ∧ ∀ i < r.n0, ∀ j < r.n1, ∀ c, l[m].val i j c =
          cmap ((m : ℝ) / ((centers.length : ℝ) - 1)) c * ((sight r centers[m] w i j - lo) / (hi - lo)) := by
  obtain ⟨hl, hres⟩ := resolve_spec hw
  obtain ⟨gs, e, l2, hP⟩ := imagesShared_ok r
    (fun c w g => g.n0 = r.n0 ∧ g.n1 = r.n1 ∧ ∀ i < r.n0, ∀ j < r.n1, g.val j i = (sight r c w i j - lo) / (hi - lo))
    ⟨some lo, some hi⟩ centers (widths.resolve centers.length) hl (by
      intro m hm hm'
      obtain ⟨-, hw0⟩ := hres m hm hm'
      unfold imageOf
      rw [render_ok r hw0 hsq]
      generalize hg : (⟨r.n0, r.n1, fun x y => if x < r.n1 ∧ y < r.n0 then sight r centers[m] (widths.resolve centers.length)[m] y x else 0⟩ : Grid) = g
      have hg0 : g.n0 = r.n0 := by rw [← hg]
      have hg1 : g.n1 = r.n1 := by rw [← hg]
      refine ⟨{ g with val := fun a b => (g.val a b - lo) / (hi - lo) }, ?_, hg0, hg1, ?_⟩
      · show Norm.call _ g = _
        unfold Norm.call
        cases ev : g.values with
        | nil =>
          have := (mem_values g (g.val 0 0)).2 ⟨0, by omega, 0, by omega, rfl⟩
          rw [ev] at this
          cases this
        | cons v rest => simp [Norm.autoscale, stretch, hlt.ne, not_lt.2 hlt.le, Except.map]
      · intro i hi' j hj
        dsimp only
        rw [← hg]
        simp [hi', hj])
  refine ⟨List.zipWith paint (colors cmap centers.length) gs, _, ?_, ?_, rfl, ?_⟩
  · unfold visualise images
    dsimp only
    rw [e]
    rfl
  · simp [colors, l2]
  · intro m hm hm'
    obtain ⟨h2, ep⟩ := picture (r := r) l2 m hm
    obtain ⟨s0, s1, hs⟩ := hP m hm' (by omega) h2
    obtain ⟨hwid, -⟩ := hres m hm' (by omega)
    rw [ep]
    refine ⟨s1.trans hsq.symm, s0.trans hsq, _, hwid, fun i hi' j hj c => ?_⟩
    show _ * (gs[m]).val j i = _
    rw [hs i hi' j hj]
    rfl

private theorem visualise_all {r : Cube} {centers : List ℝ} {widths : Widths} {cmap : ℝ → Color} {norm : NormArg} {l : List Picture}
    {ns : List Norm} (h : visualise r centers widths cmap .all norm = .ok (.all l, ns)) (kind : Kind) :
    visualise r centers widths cmap kind norm = (combine kind l).map fun p => (p, ns) := by
  unfold visualise at h ⊢
  cases e : images r centers (widths.resolve centers.length) norm with
  | error x => rw [e] at h; cases h
  | ok q =>
    rw [e] at h
    simp only [Except.bind, combine, Except.map, Except.ok.injEq, Prod.mk.injEq, Result.all.injEq] at h
    obtain ⟨h1, h2⟩ := h
    simp only [Except.bind]
    rw [h1, h2]

private theorem fold_max (l : List Picture) (p : Picture) :
    (l.foldl (pixelwise max) p).n0 = p.n0 ∧ (l.foldl (pixelwise max) p).n1 = p.n1 ∧
    ∀ i j c, (∃ q ∈ p :: l, (l.foldl (pixelwise max) p).val i j c = q.val i j c) ∧
      ∀ q ∈ p :: l, q.val i j c ≤ (l.foldl (pixelwise max) p).val i j c := by
  induction l generalizing p with
  | nil => simp
  | cons a l ih =>
    obtain ⟨h0, h1, h⟩ := ih (pixelwise max p a)
    simp only [List.foldl_cons]
    refine ⟨h0, h1, fun i j c => ?_⟩
    obtain ⟨⟨q, hq, e⟩, h3⟩ := h i j c
    refine ⟨?_, ?_⟩
    · rcases List.mem_cons.1 hq with rfl | hq
      · rcases max_choice (p.val i j c) (a.val i j c) with h' | h'
        · exact ⟨p, by simp, by rw [e]; exact h'⟩
        · exact ⟨a, by simp, by rw [e]; exact h'⟩
      · exact ⟨q, by simp [hq], e⟩
    · intro q hq
      have h4 := h3 (pixelwise max p a) (by simp)
      rcases List.mem_cons.1 hq with rfl | hq
      · exact (le_max_left _ _).trans h4
      · rcases List.mem_cons.1 hq with rfl | hq
        · exact (le_max_right _ _).trans h4
        · exact h3 q (by simp [hq])

private theorem fold_add (l : List Picture) (p : Picture) :
    (l.foldl (pixelwise (· + ·)) p).n0 = p.n0 ∧ (l.foldl (pixelwise (· + ·)) p).n1 = p.n1 ∧
    ∀ i j c, (l.foldl (pixelwise (· + ·)) p).val i j c = ((p :: l).map fun q => q.val i j c).sum := by
  induction l generalizing p with
  | nil => simp
  | cons a l ih =>
    obtain ⟨h0, h1, h⟩ := ih (pixelwise (· + ·) p a)
    simp only [List.foldl_cons]
    refine ⟨h0, h1, fun i j c => ?_⟩
    rw [h]
    simp [pixelwise, add_assoc]

/-- C77: `lighten` gives, in every channel of every pixel, the greatest of the values of the pictures that `all` gives. -/
theorem c77_lighten {r : Cube} {centers : List ℝ} {widths : Widths} {cmap : ℝ → Color} {norm : NormArg} {l : List Picture}
    {ns : List Norm} (h : visualise r centers widths cmap .all norm = .ok (.all l, ns)) (hl : l ≠ []) :
    ∃ p, visualise r centers widths cmap .lighten norm = .ok (.one p, ns) ∧ (∃ q ∈ l, p.n0 = q.n0 ∧ p.n1 = q.n1) ∧
      ∀ i j c, IsGreatest {x | ∃ q ∈ l, q.val i j c = x} (p.val i j c) := by
  cases l with
  | nil => exact absurd rfl hl
  | cons a l =>
    obtain ⟨h0, h1, hf⟩ := fold_max l a
    refine ⟨_, by rw [visualise_all h]; rfl, ⟨a, by simp, h0, h1⟩, fun i j c => ?_⟩
    obtain ⟨⟨q, hq, e⟩, h3⟩ := hf i j c
    refine ⟨⟨q, hq, e.symm⟩, ?_⟩
    rintro x ⟨q', hq', rfl⟩
    exact h3 q' hq'

/-- C77: `add` gives the sum of the pictures that `all` gives. -/
theorem c77_add {r : Cube} {centers : List ℝ} {widths : Widths} {cmap : ℝ → Color} {norm : NormArg} {l : List Picture}
    {ns : List Norm} (h : visualise r centers widths cmap .all norm = .ok (.all l, ns)) (hl : l ≠ []) :
    ∃ p, visualise r centers widths cmap .add norm = .ok (.one p, ns) ∧ (∃ q ∈ l, p.n0 = q.n0 ∧ p.n1 = q.n1) ∧
      ∀ i j c, p.val i j c = (l.map fun q => q.val i j c).sum := by
  cases l with
  | nil => exact absurd rfl hl
  | cons a l =>
    obtain ⟨h0, h1, hf⟩ := fold_add l a
    exact ⟨_, by rw [visualise_all h]; rfl, ⟨a, by simp, h0, h1⟩, hf⟩

private theorem stretched_range {n : Nat} {f g : Nat → Nat → ℝ} (h : Stretched n f g) {i j : Nat} (hi : i < n) (hj : j < n) :
    0 ≤ g i j ∧ g i j ≤ 1 := by
  obtain ⟨lo, hi', -, -, h⟩ := h
  obtain ⟨h1, h2, h3, h4⟩ := h i hi j hj
  rcases eq_or_lt_of_le (h1.trans h2) with e | e
  · rw [h3 e]; constructor <;> norm_num
  · have e' : 0 < hi' - lo := by linarith
    constructor
    · by_contra hc
      have := mul_neg_of_neg_of_pos (not_le.1 hc) e'
      linarith
    · by_contra hc
      have := mul_lt_mul_of_pos_right (not_le.1 hc) e'
      linarith

/-- C77: without normalisations, and for colours in [0, 1], the pictures of `all` and `lighten` have values in [0, 1]. -/
theorem c77_range (r : Cube) (centers : List ℝ) (widths : Widths) (cmap : ℝ → Color) (hsq : r.n0 = r.n1) (hn : 0 < r.n0)
    (hw : ∀ m < centers.length, ∃ w, widthAt widths m = some w ∧ w ≠ 0) (hc : centers ≠ [])
    (hcol : ∀ t c, 0 ≤ cmap t c ∧ cmap t c ≤ 1) :
    ∃ l p ns, visualise r centers widths cmap .all .absent = .ok (.all l, ns) ∧
      visualise r centers widths cmap .lighten .absent = .ok (.one p, ns) ∧ p.n0 = r.n0 ∧ p.n1 = r.n1 ∧
      ∀ q ∈ p :: l, ∀ i < r.n0, ∀ j < r.n1, ∀ c, 0 ≤ q.val i j c ∧ q.val i j c ≤ 1 := by
  obtain ⟨l, ns, e, hl, -, hall⟩ := c77_all r centers widths cmap hsq hn hw
  have hne : l ≠ [] := by
    intro h
    subst h
    exact hc (List.length_eq_zero_iff.1 hl.symm)
  obtain ⟨p, ep, ⟨q, hq, s0, s1⟩, hg⟩ := c77_lighten e hne
  have base : ∀ q ∈ l, q.n0 = r.n0 ∧ q.n1 = r.n1 ∧ ∀ i < r.n0, ∀ j < r.n1, ∀ c, 0 ≤ q.val i j c ∧ q.val i j c ≤ 1 := by
    intro q hq
    obtain ⟨m, hm, rfl⟩ := List.getElem_of_mem hq
    obtain ⟨t0, t1, w, g, -, hs, hv⟩ := hall m hm (by omega)
    refine ⟨t0, t1, fun i hi j hj c => ?_⟩
    rw [hv i hi j hj]
    obtain ⟨g0, g1⟩ := stretched_range (j := j) hs hi (by omega)
    obtain ⟨c0, c1⟩ := hcol ((m : ℝ) / ((centers.length : ℝ) - 1)) c
    exact ⟨mul_nonneg c0 g0, mul_le_one₀ c1 g0 g1⟩
  refine ⟨l, p, ns, e, ep, s0.trans (base q hq).1, s1.trans (base q hq).2.1, fun q' hq' i hi j hj c => ?_⟩
  rcases List.mem_cons.1 hq' with rfl | h
  · obtain ⟨q'', hq'', e'⟩ := (hg i j c).1
    rw [← e']
    exact (base q'' hq'').2.2 i hi j hj c
  · exact (base q' h).2.2 i hi j hj c

private theorem foldlM_rel {α σ τ : Type} {R : σ → τ → Prop} {f : σ → α → Except Err σ} {g : τ → α → Except Err τ}
    {l : List α} (h : ∀ a ∈ l, ∀ s t, R s t → (∃ s' t', f s a = .ok s' ∧ g t a = .ok t' ∧ R s' t') ∨
      ∃ e, f s a = .error e ∧ g t a = .error e) :
    ∀ s t, R s t → (∃ s' t', l.foldlM f s = .ok s' ∧ l.foldlM g t = .ok t' ∧ R s' t') ∨
      ∃ e, l.foldlM f s = .error e ∧ l.foldlM g t = .error e := by
  induction l with
  | nil => intro s t hR; exact Or.inl ⟨s, t, rfl, rfl, hR⟩
  | cons a l ih =>
    intro s t hR
    simp only [List.foldlM_cons]
    rcases h a (by simp) s t hR with ⟨s', t', e1, e2, hR'⟩ | ⟨e, e1, e2⟩
    · rw [e1, e2]
      exact ih (fun b hb => h b (by simp [hb])) s' t' hR'
    · rw [e1, e2]
      exact Or.inr ⟨e, rfl, rfl⟩

/-- Two renders whose sums along the lines of sight differ by a factor `s`. -/
private theorem render_rel {r r' : Cube} {c c' w w' s : ℝ} (h0 : r'.n0 = r.n0) (h1 : r'.n1 = r.n1)
    (h : ∀ i < r.n0, ∀ j < r.n1, (∃ x, sumLine r c w i j = .ok (s * x) ∧ sumLine r' c' w' i j = .ok x) ∨
      ∃ e, sumLine r c w i j = .error e ∧ sumLine r' c' w' i j = .error e) :
    (∃ g, renderVoxels r c w = .ok { g with val := fun a b => s * g.val a b } ∧ renderVoxels r' c' w' = .ok g) ∨
      ∃ e, renderVoxels r c w = .error e ∧ renderVoxels r' c' w' = .error e := by
  let R : Grid → Grid → Prop := fun g g' => g = { g' with val := fun a b => s * g'.val a b }
  have hstep : ∀ i ∈ List.range r.n0, ∀ g g', R g g' →
      (∃ s' t', voxelRow r c w g i = .ok s' ∧ voxelRow r' c' w' g' i = .ok t' ∧ R s' t') ∨
        ∃ e, voxelRow r c w g i = .error e ∧ voxelRow r' c' w' g' i = .error e := by
    intro i hi g g' hR
    unfold voxelRow
    rw [h1]
    refine foldlM_rel (fun j hj g g' hR => ?_) g g' hR
    unfold voxelStep
    rcases h i (List.mem_range.1 hi) j (List.mem_range.1 hj) with ⟨x, e1, e2⟩ | ⟨e, e1, e2⟩
    · rw [e1, e2]
      simp only [Except.bind]
      by_cases hb : j < g'.n0 ∧ i < g'.n1
      · refine Or.inl ⟨_, _, ?_, write_ok hb.1 hb.2 x, rfl⟩
        have hR' : g = { g' with val := fun a b => s * g'.val a b } := hR
        rw [hR']
        refine (if_pos hb).trans ?_
        congr 1
        simp only [Grid.mk.injEq, true_and]
        funext a b
        exact (mul_ite _ _ _ _).symm
      · refine Or.inr ⟨.index, ?_, if_neg hb⟩
        have hR' : g = { g' with val := fun a b => s * g'.val a b } := hR
        rw [hR']
        exact if_neg hb
    · rw [e1, e2]
      exact Or.inr ⟨e, rfl, rfl⟩
  unfold renderVoxels
  rw [h0, h1]
  rcases foldlM_rel hstep ⟨r.n0, r.n1, fun _ _ => 0⟩ ⟨r.n0, r.n1, fun _ _ => 0⟩
    (by show (_ : Grid) = _; simp) with ⟨s', t', e1, e2, hR⟩ | h
  · exact Or.inl ⟨t', by rw [e1]; congr 1, e2⟩
  · exact Or.inr h

private theorem sumLine_zero (r : Cube) (c : ℝ) (i j : Nat) :
    sumLine r c 0 i j = if r.n2 = 0 then .ok 0 else .error .runtime := by
  unfold sumLine
  cases r.n2 with
  | zero => rfl
  | succ n =>
    rw [List.range_succ_eq_map, List.foldlM_cons]
    simp [addVoxel]
    rfl

private theorem density_affine {c w v s t : ℝ} (hs : 0 < s) (hw : w ≠ 0) :
    density c w v = s * density (s * c + t) (s * w) (s * v + t) := by
  have h := sqrt_pos.ne'
  unfold density
  have e : (s * v + t - (s * c + t)) / (s * w) = (v - c) / w := by
    field_simp
    ring
  rw [e]
  field_simp

private theorem min_scale {s : ℝ} (hs : 0 < s) (l : List ℝ) (v : ℝ) :
    (l.map fun x => s * x).foldl min (s * v) = s * l.foldl min v := by
  induction l generalizing v with
  | nil => rfl
  | cons a l ih =>
    simp only [List.map_cons, List.foldl_cons]
    rw [← mul_min_of_nonneg _ _ hs.le, ih]

private theorem max_scale {s : ℝ} (hs : 0 < s) (l : List ℝ) (v : ℝ) :
    (l.map fun x => s * x).foldl max (s * v) = s * l.foldl max v := by
  induction l generalizing v with
  | nil => rfl
  | cons a l ih =>
    simp only [List.map_cons, List.foldl_cons]
    rw [← mul_max_of_nonneg _ _ hs.le, ih]

private theorem values_scale (g : Grid) (s : ℝ) :
    ({ g with val := fun a b => s * g.val a b } : Grid).values = g.values.map fun x => s * x := by
  simp [Grid.values, List.map_flatMap, Function.comp_def]

private theorem stretch_scale {s lo hi : ℝ} (hs : 0 < s) (g : Grid) :
    stretch (s * lo) (s * hi) { g with val := fun a b => s * g.val a b } = stretch lo hi g := by
  unfold stretch
  have e1 : (s * lo = s * hi) ↔ lo = hi := mul_right_inj' hs.ne'
  have e2 : (s * hi < s * lo) ↔ hi < lo := mul_lt_mul_iff_of_pos_left hs
  by_cases h1 : lo = hi
  · rw [if_pos h1, if_pos (e1.2 h1)]
  · rw [if_neg h1, if_neg (fun h => h1 (e1.1 h))]
    by_cases h2 : hi < lo
    · rw [if_pos h2, if_pos (e2.2 h2)]
    · rw [if_neg h2, if_neg (fun h => h2 (e2.1 h))]
      congr 1
      simp only [Grid.mk.injEq, true_and]
      funext a b
      rw [← mul_sub, ← mul_sub, mul_div_mul_left _ _ hs.ne']

private theorem call_scale {s : ℝ} (hs : 0 < s) (g : Grid) :
    ((⟨none, none⟩ : Norm).call { g with val := fun a b => s * g.val a b }).map Prod.snd = ((⟨none, none⟩ : Norm).call g).map Prod.snd ∨
      g.values = [] := by
  unfold Norm.call
  rw [values_scale]
  cases e : g.values with
  | nil => exact Or.inr rfl
  | cons v rest =>
    left
    simp only [List.map_cons, Norm.autoscale, Option.getD_none, min_scale hs, max_scale hs, stretch_scale hs]
    cases stretch _ _ g <;> rfl

private theorem imageOf_affine {r r' : Cube} {c w s t : ℝ} (hs : 0 < s) (hsq : r.n0 = r.n1) (hn : 0 < r.n0) (hw : w ≠ 0)
    (hr : r' = { r with val := fun i j k => s * r.val i j k + t }) :
    ∃ n n' g, imageOf r ⟨none, none⟩ c w = .ok (n, g) ∧ imageOf r' ⟨none, none⟩ (s * c + t) (s * w) = .ok (n', g) := by
  subst hr
  unfold imageOf
  rw [render_ok r hw hsq, render_ok { r with val := fun i j k => s * r.val i j k + t } (mul_ne_zero hs.ne' hw) hsq]
  dsimp only [Except.bind]
  have hsight : ∀ i j, sight r c w i j =
      s * sight { r with val := fun i j k => s * r.val i j k + t } (s * c + t) (s * w) i j := by
    intro i j
    unfold sight
    rw [Finset.mul_sum]
    exact Finset.sum_congr rfl fun k _ => density_affine hs hw
  generalize hg : (⟨r.n0, r.n1, fun x y => if x < r.n1 ∧ y < r.n0 then
    sight { r with val := fun i j k => s * r.val i j k + t } (s * c + t) (s * w) y x else 0⟩ : Grid) = g
  have e : (⟨r.n0, r.n1, fun x y => if x < r.n1 ∧ y < r.n0 then sight r c w y x else 0⟩ : Grid) =
      { g with val := fun a b => s * g.val a b } := by
    rw [← hg]
    simp only [Grid.mk.injEq, true_and]
    funext x y
    rw [hsight]
    simp
  have h0 : g.n0 = r.n0 := by rw [← hg]
  have h1 : g.n1 = r.n1 := by rw [← hg]
  rw [e]
  obtain ⟨lo, hi, g', ec, -⟩ := call_fresh g (by omega) (by omega)
  rcases call_scale hs g with h | h
  · rw [ec] at h
    cases e' : (⟨none, none⟩ : Norm).call { g with val := fun a b => s * g.val a b } with
    | error x => rw [e'] at h; cases h
    | ok q =>
      rw [e'] at h
      have h' : q.2 = g' := by simpa [Except.map] using h
      exact ⟨q.1, _, q.2, rfl, by rw [ec, h']⟩
  · have := (mem_values g (g.val 0 0)).2 ⟨0, by omega, 0, by omega, rfl⟩
    rw [h] at this
    cases this

private theorem imagesEach_affine {r r' : Cube} {s t : ℝ} (hs : 0 < s) (hsq : r.n0 = r.n1) (hn : 0 < r.n0)
    (hr : r' = { r with val := fun i j k => s * r.val i j k + t }) :
    ∀ (cs ws : List ℝ), (∀ w ∈ ws, w ≠ 0) → ∃ ns ns' gs, imagesEach r (List.replicate cs.length ⟨none, none⟩) cs ws = .ok (ns, gs) ∧
      imagesEach r' (List.replicate cs.length ⟨none, none⟩) (cs.map fun c => s * c + t) (ws.map fun w => s * w) = .ok (ns', gs) := by
  intro cs
  induction cs with
  | nil => intro ws _; exact ⟨[], [], [], rfl, rfl⟩
  | cons c cs ih =>
    intro ws hw
    cases ws with
    | nil => exact ⟨_, _, [], rfl, rfl⟩
    | cons w ws =>
      obtain ⟨n, n', g, e1, e2⟩ := imageOf_affine (c := c) hs hsq hn (hw w (by simp)) hr
      obtain ⟨ns, ns', gs, e3, e4⟩ := ih ws (fun x hx => hw x (by simp [hx]))
      refine ⟨n :: ns, n' :: ns', g :: gs, ?_, ?_⟩
      · simp only [List.length_cons, List.replicate_succ, imagesEach]
        rw [e1]
        simp only [Except.bind]
        rw [e3]
        rfl
      · simp only [List.length_cons, List.replicate_succ, List.map_cons, imagesEach]
        rw [e2]
        simp only [Except.bind]
        rw [e4]
        rfl

/-- C77: without normalisations the pictures do not depend on the scale and the origin of the rendered quantity. -/
theorem c77_scale (r : Cube) (centers ws : List ℝ) (cmap : ℝ → Color) (kind : Kind) {s t : ℝ} (hs : 0 < s) (hsq : r.n0 = r.n1)
    (hn : 0 < r.n0) (hw : ∀ w ∈ ws, w ≠ 0) :
    (visualise { r with val := fun i j k => s * r.val i j k + t } (centers.map fun c => s * c + t) (.list (ws.map fun w => s * w))
      cmap kind .absent).map Prod.fst = (visualise r centers (.list ws) cmap kind .absent).map Prod.fst := by
  obtain ⟨ns, ns', gs, e1, e2⟩ := imagesEach_affine hs hsq hn (t := t) rfl centers ws hw
  unfold visualise images
  simp only [Widths.resolve, List.length_map]
  rw [e1, e2]
  simp only [Except.bind]
  cases combine kind (List.zipWith paint (colors cmap centers.length) gs) <;> rfl

private theorem images_congr {r r' : Cube} (h : imageOf r = imageOf r') (cs ws : List ℝ) (norm : NormArg) :
    images r cs ws norm = images r' cs ws norm := by
  have h1 : ∀ ns cs ws, imagesEach r ns cs ws = imagesEach r' ns cs ws := by
    intro ns
    induction ns with
    | nil => intro cs ws; cases cs <;> cases ws <;> rfl
    | cons n ns ih =>
      intro cs ws
      cases cs with
      | nil => rfl
      | cons c cs =>
        cases ws with
        | nil => rfl
        | cons w ws => simp only [imagesEach]; rw [h]; simp only [ih]
  have h2 : ∀ cs n ws, imagesShared r n cs ws = imagesShared r' n cs ws := by
    intro cs
    induction cs with
    | nil => intro n ws; cases ws <;> rfl
    | cons c cs ih =>
      intro n ws
      cases ws with
      | nil => rfl
      | cons w ws => simp only [imagesShared]; rw [h]; simp only [ih]
  unfold images
  cases norm with
  | absent => exact h1 _ _ _
  | list ns => exact h1 _ _ _
  | one n => dsimp only; rw [h2]

/-- C77: the order of the voxels along the lines of sight does not matter. -/
theorem c77_depth (r r' : Cube) (centers : List ℝ) (widths : Widths) (cmap : ℝ → Color) (kind : Kind) (norm : NormArg)
    (h0 : r'.n0 = r.n0) (h1 : r'.n1 = r.n1) (h2 : r'.n2 = r.n2)
    (hp : ∀ i < r.n0, ∀ j < r.n1, ((List.range r.n2).map (r'.val i j)).Perm ((List.range r.n2).map (r.val i j))) :
    visualise r' centers widths cmap kind norm = visualise r centers widths cmap kind norm := by
  have hline : ∀ c w, ∀ i < r.n0, ∀ j < r.n1, sumLine r' c w i j = sumLine r c w i j := by
    intro c w i hi j hj
    by_cases hw : w = 0
    · subst hw
      rw [sumLine_zero, sumLine_zero, h2]
    · rw [sumLine_ok r hw, sumLine_ok r' hw]
      congr 1
      unfold sight
      rw [h2]
      have key : ∀ f : Nat → ℝ, ∑ k ∈ Finset.range r.n2, density c w (f k) =
          (((List.range r.n2).map f).map (density c w)).sum := by
        intro f
        rw [List.map_map]
        rfl
      rw [key, key]
      exact ((hp i hi j hj).map _).sum_eq
  have himg : imageOf r' = imageOf r := by
    funext n c w
    unfold imageOf
    have : renderVoxels r' c w = renderVoxels r c w := by
      rcases render_rel (r := r) (r' := r') (c := c) (c' := c) (w := w) (w' := w) (s := 1) h0 h1 (by
        intro i hi j hj
        rw [hline c w i hi j hj]
        cases sumLine r c w i j with
        | ok x => exact Or.inl ⟨x, by rw [one_mul], rfl⟩
        | error e => exact Or.inr ⟨e, rfl, rfl⟩) with ⟨g, e1, e2⟩ | ⟨e, e1, e2⟩
      · rw [e1, e2]
        simp
      · rw [e1, e2]
    rw [this]
  unfold visualise
  rw [images_congr himg]

private theorem step_shape {r : Cube} {c w : ℝ} {i j : Nat} {g g' : Grid} (h : voxelStep r c w i g j = .ok g') :
    g'.n0 = g.n0 ∧ g'.n1 = g.n1 ∧ j < g.n0 ∧ i < g.n1 := by
  unfold voxelStep at h
  cases e : sumLine r c w i j with
  | error x => rw [e] at h; cases h
  | ok v =>
    rw [e] at h
    simp only [Except.bind, Grid.write] at h
    by_cases hb : j < g.n0 ∧ i < g.n1
    · rw [if_pos hb] at h
      injection h with h
      subst h
      exact ⟨rfl, rfl, hb⟩
    · rw [if_neg hb] at h
      cases h

private theorem row_shape {r : Cube} {c w : ℝ} {i m : Nat} {g g' : Grid}
    (h : (List.range m).foldlM (voxelStep r c w i) g = .ok g') :
    g'.n0 = g.n0 ∧ g'.n1 = g.n1 ∧ (0 < m → m ≤ g.n0 ∧ i < g.n1) := by
  induction m generalizing g' with
  | zero => cases h; exact ⟨rfl, rfl, fun h => absurd h (Nat.lt_irrefl 0)⟩
  | succ m ih =>
    rw [List.range_succ, List.foldlM_append] at h
    cases e : (List.range m).foldlM (voxelStep r c w i) g with
    | error x => rw [e] at h; cases h
    | ok k =>
      rw [e] at h
      obtain ⟨a, b, _⟩ := ih e
      simp only [List.foldlM_cons, List.foldlM_nil] at h
      cases e' : voxelStep r c w i k m with
      | error x =>
        change (voxelStep r c w i k m >>= fun s => pure s) = _ at h
        rw [e'] at h
        cases h
      | ok k' =>
        change (voxelStep r c w i k m >>= fun s => pure s) = _ at h
        rw [e'] at h
        cases h
        obtain ⟨p, q, u, v⟩ := step_shape e'
        exact ⟨p.trans a, q.trans b, fun _ => ⟨by omega, by omega⟩⟩

/-- C77: a grid that is not square across the line of sight is written out of bounds. -/
theorem c77_nonsquare_fails (r : Cube) (c w : ℝ) (h0 : 0 < r.n0) (h1 : 0 < r.n1) (hne : r.n0 ≠ r.n1) (g : Grid) :
    renderVoxels r c w ≠ .ok g := by
  have key : ∀ m g', (List.range m).foldlM (voxelRow r c w) ⟨r.n0, r.n1, fun _ _ => 0⟩ = .ok g' →
      g'.n0 = r.n0 ∧ g'.n1 = r.n1 ∧ (0 < m → r.n1 ≤ r.n0 ∧ m ≤ r.n1) := by
    intro m
    induction m with
    | zero => intro g' h; cases h; exact ⟨rfl, rfl, fun h => absurd h (Nat.lt_irrefl 0)⟩
    | succ m ih =>
      intro g' h
      rw [List.range_succ, List.foldlM_append] at h
      cases e : (List.range m).foldlM (voxelRow r c w) ⟨r.n0, r.n1, fun _ _ => 0⟩ with
      | error x => rw [e] at h; cases h
      | ok k =>
        rw [e] at h
        obtain ⟨a, b, _⟩ := ih k e
        simp only [List.foldlM_cons, List.foldlM_nil] at h
        change (voxelRow r c w k m >>= fun s => pure s) = _ at h
        cases e' : voxelRow r c w k m with
        | error x => rw [e'] at h; cases h
        | ok k' =>
          rw [e'] at h
          cases h
          obtain ⟨p, q, u⟩ := row_shape e'
          obtain ⟨u1, u2⟩ := u h1
          exact ⟨p.trans a, q.trans b, fun _ => ⟨by omega, by omega⟩⟩
  intro h
  obtain ⟨-, -, k⟩ := key _ _ h
  have := k h0
  omega

/-- A grid of one voxel along each line of sight. -/
private def flat (n : Nat) (f : Nat → Nat → ℝ) : Cube := ⟨n, n, 1, fun i j _ => f i j⟩

private theorem density_lt {c w v : ℝ} (hw : 0 < w) (h : v ≠ c) : density c w v < density c w c := by
  unfold density
  have hp : 0 < w * Real.sqrt (2 * Real.pi) := mul_pos hw sqrt_pos
  apply div_lt_div_of_pos_right _ hp
  apply Real.exp_lt_exp.2
  have : (v - c) / w ≠ 0 := div_ne_zero (sub_ne_zero.2 h) hw.ne'
  have := pow_pos (abs_pos.2 this) 2
  rw [sq_abs] at this
  simp only [sub_self, zero_div]
  linarith

private theorem density_pos {c w v : ℝ} (hw : 0 < w) : 0 < density c w v :=
  div_pos (Real.exp_pos _) (mul_pos hw sqrt_pos)

/-- C77: the array of `render_voxels_to_array` by itself has the axes exchanged: `[i, j]` is not the line of sight `[i, j]`. -/
theorem c77_transposed_fails : ∃ (r : Cube) (g : Grid), r.n0 = 2 ∧ r.n1 = 2 ∧ renderVoxels r 0 1 = .ok g ∧
    g.val 0 1 ≠ ∑ k ∈ Finset.range r.n2, density 0 1 (r.val 0 1 k) := by
  refine ⟨flat 2 fun i _ => i, _, rfl, rfl, render_ok _ one_ne_zero rfl, ?_⟩
  simp only [flat, sight, Finset.sum_range_one]
  have := density_lt (c := 0) (w := 1) (v := 1) one_pos one_ne_zero
  simp
  exact this.ne

/-- C77: when there are fewer widths than centres, rendering functions are left out without an error. -/
theorem c77_short_fails (r : Cube) (c c' w : ℝ) (cmap : ℝ → Color) (hw : w ≠ 0) (hsq : r.n0 = r.n1) (hn : 0 < r.n0) :
    ∃ p ns, visualise r [c, c'] (.list [w]) cmap .all .absent = .ok (.all [p], ns) ∧ ns.length = 2 := by
  obtain ⟨lo, hi, g', e, -⟩ := call_fresh
    (⟨r.n0, r.n1, fun x y => if x < r.n1 ∧ y < r.n0 then sight r c w y x else 0⟩) hn (by show 0 < r.n1; omega)
  refine ⟨paint (cmap (node 2 0)) g', [⟨some lo, some hi⟩, ⟨none, none⟩], ?_, rfl⟩
  unfold visualise images
  simp only [Widths.resolve, List.length_cons, List.length_nil, List.replicate_succ, imagesEach, imageOf]
  rw [render_ok r hw hsq]
  simp only [Except.bind]
  rw [e]
  rfl

/-- C77: one `Normalize` object without limits takes its limits from the first rendering function; values of the others can then be
above 1. -/
theorem c77_shared_fails : ∃ (r : Cube) (l : List Picture) (ns : List Norm),
    visualise r [0, 0] (.list [1, 1 / 2]) (fun _ _ => 1) .all (.one ⟨none, none⟩) = .ok (.all l, ns) ∧
      ∃ p, l[1]? = some p ∧ 1 < p.val 0 0 0 := by
  have hsum : ∀ c w i j, sight (flat 2 fun i _ => i) c w i j = density c w i := by
    intro c w i j
    simp [sight, flat]
  have hA := density_lt (c := 0) (w := 1) (v := 1) one_pos one_ne_zero
  have hB : density 0 (1 / 2) 0 = 2 * density 0 1 0 := by
    have h := sqrt_pos.ne'
    unfold density
    simp
    ring
  have h0 : 0 < density 0 1 0 := density_pos one_pos
  generalize hx : density 0 1 0 = A at *
  generalize hy : density 0 1 1 = B at *
  have e1 := render_ok (c := 0) (w := 1) (flat 2 fun i _ => i) one_ne_zero rfl
  have e2 := render_ok (c := 0) (w := 1 / 2) (flat 2 fun i _ => i) (by norm_num) rfl
  simp only [hsum] at e1 e2
  have c1 : (⟨none, none⟩ : Norm).call ⟨2, 2, fun x y => if x < 2 ∧ y < 2 then density 0 1 y else 0⟩ = .ok (⟨some B, some A⟩,
      ⟨2, 2, fun x y => ((if x < 2 ∧ y < 2 then density 0 1 y else 0) - B) / (A - B)⟩) := by
    have ev : Grid.values ⟨2, 2, fun x y => if x < 2 ∧ y < 2 then density 0 1 y else 0⟩ = [A, B, A, B] := by
      simp [Grid.values, List.range_succ, hx, hy]
    unfold Norm.call
    rw [ev]
    simp [Norm.autoscale, min_eq_right hA.le, min_eq_left hA.le, max_eq_left hA.le, stretch, hA.ne, not_lt.2 hA.le, Except.map]
  have c2 : (⟨some B, some A⟩ : Norm).call ⟨2, 2, fun x y => if x < 2 ∧ y < 2 then density 0 (1 / 2) y else 0⟩ = .ok (⟨some B, some A⟩,
      ⟨2, 2, fun x y => ((if x < 2 ∧ y < 2 then density 0 (1 / 2) y else 0) - B) / (A - B)⟩) := by
    unfold Norm.call
    have ev : Grid.values ⟨2, 2, fun x y => if x < 2 ∧ y < 2 then density 0 (1 / 2) y else 0⟩ =
        density 0 (1 / 2) 0 :: [density 0 (1 / 2) 1, density 0 (1 / 2) 0, density 0 (1 / 2) 1] := by
      simp [Grid.values, List.range_succ]
    rw [ev]
    simp [Norm.autoscale, stretch, hA.ne, not_lt.2 hA.le, Except.map]
  generalize hg1 : (⟨2, 2, fun x y => ((if x < 2 ∧ y < 2 then density 0 1 y else 0) - B) / (A - B)⟩ : Grid) = g1 at c1
  generalize hg2 : (⟨2, 2, fun x y => ((if x < 2 ∧ y < 2 then density 0 (1 / 2) y else 0) - B) / (A - B)⟩ : Grid) = g2 at c2
  have i1 : imageOf (flat 2 fun i _ => i) ⟨none, none⟩ 0 1 = .ok (⟨some B, some A⟩, g1) := by
    unfold imageOf
    rw [e1]
    exact c1
  have i2 : imageOf (flat 2 fun i _ => i) ⟨some B, some A⟩ 0 (1 / 2) = .ok (⟨some B, some A⟩, g2) := by
    unfold imageOf
    rw [e2]
    exact c2
  refine ⟨flat 2 fun i _ => i, [paint (fun _ => 1) g1, paint (fun _ => 1) g2],
    [⟨some B, some A⟩, ⟨some B, some A⟩], ?_, _, rfl, ?_⟩
  · unfold visualise images
    simp only [Widths.resolve, imagesShared]
    rw [i1]
    simp only [Except.bind]
    rw [i2]
    rfl
  · have : 0 < A - B := by linarith
    simp only [paint, ← hg2]
    simp only [Nat.ofNat_pos, and_self, if_true, Nat.cast_zero, hB, one_mul]
    rw [lt_div_iff₀ this]
    linarith

/-- C77: an unknown `return_type` gives `None`, without an error. -/
theorem c77_other_fails {r : Cube} {centers : List ℝ} {widths : Widths} {cmap : ℝ → Color} {norm : NormArg} {l : List Picture}
    {ns : List Norm} (h : visualise r centers widths cmap .all norm = .ok (.all l, ns)) :
    visualise r centers widths cmap .other norm = .ok (.nothing, ns) := by
  rw [visualise_all h]
  rfl

/-- C77: without rendering functions the sum is the number zero and the maximum is refused. -/
theorem c77_empty (r : Cube) (widths : Widths) (cmap : ℝ → Color) :
    visualise r [] widths cmap .all .absent = .ok (.all [], []) ∧ visualise r [] widths cmap .add .absent = .ok (.zero, []) ∧
      visualise r [] widths cmap .lighten .absent = .error .value := by
  have h : visualise r [] widths cmap .all .absent = .ok (.all [], []) := by
    cases widths <;> rfl
  refine ⟨h, ?_, ?_⟩ <;> rw [visualise_all h] <;> rfl

/-- A grid that `c77_all` speaks about. -/
example : ∃ (r : Cube) (centers : List ℝ) (widths : Widths), r.n0 = r.n1 ∧ 0 < r.n0 ∧ 1 < r.n2 ∧ 1 < centers.length ∧
    (∀ m < centers.length, ∃ w, widthAt widths m = some w ∧ w ≠ 0) ∧ sight r 0 1 0 1 ≠ sight r 0 1 0 0 :=
  ⟨⟨2, 2, 2, fun _ j _ => j⟩, [0, 1], .one 1, rfl, by norm_num, by norm_num, by norm_num,
    fun m _ => ⟨1, rfl, one_ne_zero⟩, by
      have := density_lt (c := 0) (w := 1) (v := 1) one_pos one_ne_zero
      simp [sight, Finset.sum_range_succ]
      linarith⟩

/-- Two grids that `c77_depth` speaks about: the second is seen from the other side. -/
example : ∃ r r' : Cube, r'.n0 = r.n0 ∧ r'.n1 = r.n1 ∧ r'.n2 = r.n2 ∧ r'.val ≠ r.val ∧
    ∀ i < r.n0, ∀ j < r.n1, ((List.range r.n2).map (r'.val i j)).Perm ((List.range r.n2).map (r.val i j)) := by
  refine ⟨⟨1, 1, 2, fun _ _ k => k⟩, ⟨1, 1, 2, fun _ _ k => 1 - k⟩, rfl, rfl, rfl, ?_, ?_⟩
  · intro h
    have := congrFun (congrFun (congrFun h 0) 0) 0
    norm_num at this
  · intro i _ j _
    simp only [List.range_succ, List.range_zero, List.nil_append, List.map_append, List.map_cons, List.map_nil, List.cons_append]
    norm_num
    exact List.Perm.swap _ _ _

end Verif.Props
