import Verif.Spec.Weighted
import Verif.Props.Subsampled
import Verif.Props.ImageParts
import Verif.Model.Kernel
import Mathlib.Analysis.Real.Sqrt

/-!
# C123: images of weighted fields are means
-/

namespace Verif.Props
open Verif Verif.Scatter Verif.Frame Verif.Spec

variable {K : Type} [Field K] [LinearOrder K] [IsStrictOrderedRing K] [FloorRing K]

/-! ## Backends -/

omit [FloorRing K] in
private theorem write_nonneg {ι : Type} [DecidableEq ι] {inside : ι → Bool} (ds : List (ι × K)) (hd : ∀ d ∈ ds, 0 ≤ d.2) (img out : ι → K)
    (h : ds.foldlM (write inside) img = .ok out) (hi : ∀ q, 0 ≤ img q) : ∀ q, 0 ≤ out q := by
  induction ds generalizing img with
  | nil => cases h; exact hi
  | cons d ds ih =>
    rw [List.foldlM_cons] at h
    unfold write at h
    by_cases hin : inside d.1 = true
    · rw [if_pos hin] at h
      refine ih (fun e he => hd e (List.mem_cons_of_mem _ he)) _ h fun q => ?_
      split
      · exact add_nonneg (hi q) (hd d (List.mem_cons_self ..))
      · exact hi q
    · rw [if_neg hin] at h; cases h

omit [FloorRing K] in
private theorem paint_nonneg {ι : Type} [DecidableEq ι] {inside : ι → Bool} {ds : List (ι × K)} (hd : ∀ d ∈ ds, 0 ≤ d.2) {out : ι → K}
    (h : paint inside ds = .ok out) : ∀ q, 0 ≤ out q :=
  write_nonneg ds hd _ out h fun _ => le_rfl

private theorem dist_nonneg1 (res : Nat) (x : K) (i : Int) : 0 ≤ dist2 res x i := mul_self_nonneg _

private theorem dist_nonneg2 (res : Nat) (x y : K) (i j : Int) : 0 ≤ dist2 res x i + dist2 res y j :=
  add_nonneg (dist_nonneg1 ..) (dist_nonneg1 ..)

/-- The statements of one particle are not negative. -/
private def Gives {ι : Type} (g : K) (D : Scatter.Part K → List (ι × K)) : Prop := ∀ p, 0 ≤ p.m → 0 ≤ g * p.h → ∀ d ∈ D p, 0 ≤ d.2

private theorem over2_gives {xs ys : List Int} {w : Int → Int → K} (hw : ∀ i j, 0 ≤ w i j) : ∀ d ∈ over2 xs ys w, 0 ≤ d.2 := by
  intro d hd
  simp only [over2, List.mem_flatMap, List.mem_map] at hd
  obtain ⟨i, -, j, -, rfl⟩ := hd
  exact hw i j

private theorem over3_gives {xs ys zs : List Int} {w : Int → Int → Int → K} (hw : ∀ i j k, 0 ≤ w i j k) : ∀ d ∈ over3 xs ys zs w, 0 ≤ d.2 := by
  intro d hd
  simp only [over3, List.mem_flatMap, List.mem_map] at hd
  obtain ⟨i, -, j, -, k, -, rfl⟩ := hd
  exact hw i j k

private theorem own_gives (g : K) (res : Nat) : Gives g (ownCell2 res) := by
  intro p hp hh d hd
  unfold ownCell2 at hd
  split at hd
  · rw [List.mem_singleton] at hd
    subst hd
    positivity
  · cases hd

private theorem fast_gives {W : K → K → K} (hW : NonNegative W) (g : K) (res : Nat) : Gives g (fastDeps W g res) := by
  intro p hp hh d hd
  unfold fastDeps at hd
  dsimp only at hd
  split at hd
  · cases hd
  split at hd
  · exact own_gives g res p hp hh d hd
  · exact over2_gives (fun i j => mul_nonneg hp (hW _ _ (dist_nonneg2 _ _ _ _ _) hh)) d hd

private theorem sum_gives {α : Type} (l : List α) (f : α → List K) (h : ∀ a ∈ l, ∀ x ∈ f a, 0 ≤ x) : 0 ≤ (l.flatMap f).sum := by
  refine List.sum_nonneg fun x hx => ?_
  obtain ⟨a, ha, hx⟩ := List.mem_flatMap.1 hx
  exact h a ha x hx

private theorem renormalised_gives {W : K → K → K} (hW : NonNegative W) (g : K) (res : Nat) : Gives g (renormalisedDeps W g res) := by
  intro p hp hh d hd
  unfold renormalisedDeps at hd
  dsimp only at hd
  split at hd
  · cases hd
  split at hd
  · exact own_gives g res p hp hh d hd
  · refine over2_gives (fun i j => mul_nonneg hp (mul_nonneg (div_nonneg (by positivity) ?_) (hW _ _ (dist_nonneg2 ..) hh))) d hd
    unfold kernelSum
    refine sum_gives _ _ fun a _ x hx => ?_
    obtain ⟨b, -, rfl⟩ := List.mem_map.1 hx
    exact hW _ _ (dist_nonneg2 ..) hh

private theorem row_gives {W : K → K → K} (hW : NonNegative W) (g : K) (res : Nat) (l : List (Scatter.Part K)) (hl : ∀ p ∈ l, 0 ≤ p.m ∧ 0 ≤ g * p.h) :
    ∀ d ∈ referenceRow W g res l, 0 ≤ d.2 := by
  induction l with
  | nil => intro d hd; cases hd
  | cons p l ih =>
    have ih := ih fun p hp => hl p (List.mem_cons_of_mem _ hp)
    intro d hd
    unfold referenceRow at hd
    dsimp only at hd
    split at hd
    · exact ih d hd
    split at hd
    · cases hd
    · rcases List.mem_append.1 hd with hd | hd
      · exact over2_gives (fun i j => mul_nonneg (hl p (List.mem_cons_self ..)).1 (hW _ _ (dist_nonneg2 ..) (hl p (List.mem_cons_self ..)).2)) d hd
      · exact ih d hd

private theorem subsampled_gives {W : K → K → K} (hW : NonNegative W) (E D : Nat) (g : K) (res : Nat) : Gives g (subsampledDeps W E D g res) := by
  intro p hp hh d hd
  unfold subsampledDeps at hd
  dsimp only at hd
  split at hd
  · cases hd
  split at hd
  · split at hd
    · rw [List.mem_singleton] at hd
      subst hd
      positivity
    · unfold ditherDeps at hd
      obtain ⟨a, -, hd⟩ := List.mem_flatMap.1 hd
      obtain ⟨b, -, hd⟩ := List.mem_flatMap.1 hd
      split at hd
      · rw [List.mem_singleton] at hd
        subst hd
        refine mul_nonneg hp (mul_nonneg (hW _ _ (add_nonneg (mul_self_nonneg _) (mul_self_nonneg _)) (Nat.cast_nonneg D)) (div_nonneg (by positivity) ?_))
        unfold ditherSum
        refine sum_gives _ _ fun a _ x hx => ?_
        obtain ⟨b, -, rfl⟩ := List.mem_map.1 hx
        exact hW _ _ (add_nonneg (mul_self_nonneg _) (mul_self_nonneg _)) (Nat.cast_nonneg D)
      · cases hd
  · refine over2_gives (fun i j => mul_nonneg (mul_nonneg hp ?_) (mul_self_nonneg _)) d hd
    unfold kernelEval
    refine sum_gives _ _ fun a _ x hx => ?_
    obtain ⟨b, -, rfl⟩ := List.mem_map.1 hx
    exact hW _ _ (add_nonneg (mul_self_nonneg _) (mul_self_nonneg _)) hh

private theorem slice_gives {W : K → K → K} (hW : NonNegative W) (g zs : K) (res : Nat) : Gives g (sliceDeps W g zs res) := by
  intro p hp hh d hd
  unfold sliceDeps at hd
  dsimp only at hd
  split at hd
  · cases hd
  · exact over2_gives (fun i j => mul_nonneg hp (hW _ _ (add_nonneg (dist_nonneg2 ..) (mul_self_nonneg _)) hh)) d hd

private theorem volume_gives {W : K → K → K} (hW : NonNegative W) (g : K) (res : Nat) : Gives g (volumeDeps W g res) := by
  intro p hp hh d hd
  unfold volumeDeps at hd
  dsimp only at hd
  split at hd
  · cases hd
  split at hd
  · split at hd
    · rw [List.mem_singleton] at hd
      subst hd
      positivity
    · cases hd
  · exact over3_gives (fun i j k => mul_nonneg hp (hW _ _ (add_nonneg (dist_nonneg2 ..) (dist_nonneg1 ..)) hh)) d hd

private theorem over_gives {D : Scatter.Part K → List ((Int × Int) × K)} {g : K} (hD : Gives g D) (bx by_ : K) {ps : List (Scatter.Part K)} (hp : ∀ p ∈ ps, 0 ≤ p.m ∧ 0 ≤ g * p.h) :
    ∀ d ∈ over D bx by_ ps, 0 ≤ d.2 := by
  intro d hd
  simp only [over, copies2, List.mem_flatMap, List.mem_map] at hd
  obtain ⟨p, h1, c, ⟨i, -, j, -, rfl⟩, h3⟩ := hd
  exact hD _ (by exact (hp p h1).1) (by exact (hp p h1).2) d h3

private theorem copies_gives {ι : Type} {D : Scatter.Part K → List (ι × K)} {g : K} (hD : Gives g D) (bx by_ bz : K) {ps : List (Scatter.Part K)} (hp : ∀ p ∈ ps, 0 ≤ p.m ∧ 0 ≤ g * p.h) :
    ∀ d ∈ ps.flatMap (fun p => (copies3 shifts bx by_ bz p).flatMap D), 0 ≤ d.2 := by
  intro d hd
  simp only [copies3, List.mem_flatMap, List.mem_map] at hd
  obtain ⟨p, h1, c, ⟨i, -, j, -, k, -, rfl⟩, h3⟩ := hd
  exact hD _ (by exact (hp p h1).1) (by exact (hp p h1).2) d h3

/-- C123. With a kernel that is not negative no backend draws anything negative. -/
theorem c123_backends {W : K → K → K} (hW : NonNegative W) (g : K) :
    (∀ res bx by_, Positive g (histogram (K := K) res bx by_) ∧ Positive g (fast W g res bx by_) ∧ Positive g (renormalised W g res bx by_) ∧
      Positive g (reference W g res bx by_) ∧ ∀ E D, Positive g (subsampled W E D g res bx by_)) ∧
    (∀ zs xres yres bx by_ bz, Positive g (slice W g zs xres yres bx by_ bz)) ∧
    ∀ res bx by_ bz, Positive g (volume W g res bx by_ bz) := by
  refine ⟨fun res bx by_ => ⟨fun ps img hp h => paint_nonneg (over_gives (own_gives g res) bx by_ hp) h,
    fun ps img hp h => paint_nonneg (over_gives (fast_gives hW g res) bx by_ hp) h,
    fun ps img hp h => paint_nonneg (over_gives (renormalised_gives hW g res) bx by_ hp) h,
    fun ps img hp h => paint_nonneg ?_ h,
    fun E D ps img hp h => paint_nonneg (over_gives (subsampled_gives hW E D g res) bx by_ hp) h⟩,
    fun zs xres yres bx by_ bz ps img hp h => ?_,
    fun res bx by_ bz ps img hp h => paint_nonneg (copies_gives (volume_gives hW g res) bx by_ bz hp) h⟩
  · intro d hd
    simp only [List.mem_flatMap] at hd
    obtain ⟨p, h1, i, -, h3⟩ := hd
    refine row_gives hW g res _ (fun c hc => ?_) d h3
    obtain ⟨j, -, rfl⟩ := List.mem_map.1 hc
    exact hp p h1
  · unfold slice at h
    cases e : paint (inside2 (max xres yres) (max xres yres))
      (ps.flatMap fun p => (copies3 shifts bx by_ bz p).flatMap (sliceDeps W g zs (max xres yres))) with
    | error e' => rw [e] at h; cases h
    | ok out =>
      rw [e] at h
      cases h
      intro q
      dsimp only
      split
      · exact paint_nonneg (copies_gives (slice_gives hW g zs _) bx by_ bz hp) e q
      · exact le_rfl

/-! ## Front ends

The weights do not change which particles are drawn or where. -/

private theorem filter_drawn {α : Type} (pos : α → Scatter.Part K) (mask : α → Bool) (l : List α) (f : Scatter.Part K → Scatter.Part K) (s : Scatter.Part K × Bool → Bool)
    (hs : ∀ (p : Scatter.Part K) (m : K) (b : Bool), s ({ p with m := m }, b) = s (p, b)) (hf : ∀ (p : Scatter.Part K) (m : K), f { p with m := m } = { f p with m := m })
    (u : α → K) :
    (((drawn pos mask u l).map fun p => (f p.1, p.2)).filter s).map Prod.fst =
      (l.filter fun a => s (f (pos a), mask a)).map fun a => { f (pos a) with m := u a } := by
  unfold drawn
  induction l with
  | nil => rfl
  | cons a l ih =>
    have e := hf (pos a) (u a)
    have e2 : s (f { pos a with m := u a }, mask a) = s (f (pos a), mask a) := by rw [e]; exact hs _ _ _
    simp only [List.map_cons, List.filter_cons, e2]
    split
    · simp only [List.map_cons]
      rw [← ih, e]
    · exact ih

omit [IsStrictOrderedRing K] in
private theorem wrapped_weight (box : K × K × K) (periodic : Bool) (p : Scatter.Part K) (m : K) :
    wrapped box periodic { p with m := m } = { wrapped box periodic p with m := m } := by
  unfold wrapped; split <;> rfl

omit [FloorRing K] in
private theorem info_positive {box : K × K × K} {reg : Option (List K)} (ho : LimitsInOrder box reg) {cubic periodic : Bool} {i : Info K}
    (h : regionInfo box reg cubic periodic = .ok i) : 0 < i.xRange ∧ 0 < i.yRange ∧ 0 < i.zRange ∧ 0 < i.maxRange := by
  have key : ∀ x0 x1 y0 y1 z0 z1 : K, ∀ z : Bool, x0 < x1 → y0 < y1 → z0 < z1 → infoOf box x0 x1 y0 y1 z0 z1 z cubic periodic = .ok i →
      0 < i.xRange ∧ 0 < i.yRange ∧ 0 < i.zRange ∧ 0 < i.maxRange := by
    intro x0 x1 y0 y1 z0 z1 z h1 h2 h3 h
    unfold infoOf at h
    dsimp only at h
    split at h
    · cases h
    · cases h
      exact ⟨sub_pos.2 h1, sub_pos.2 h2, sub_pos.2 h3, lt_max_of_lt_left (sub_pos.2 h1)⟩
  rcases reg with _ | reg
  · exact key _ _ _ _ _ _ _ ho.1 ho.2.1 ho.2.2 h
  rcases reg with _ | ⟨x0, _ | ⟨x1, _ | ⟨y0, _ | ⟨y1, _ | ⟨z0, _ | ⟨z1, _ | ⟨w, l⟩⟩⟩⟩⟩⟩⟩
  · cases h
  · cases h
  · cases h
  · cases h
  · exact key _ _ _ _ _ _ _ ho.1 ho.2.1 ho.2.2 h
  · exact key _ _ _ _ _ _ _ ho.1 ho.2.1 ho.2.2 h
  · exact key _ _ _ _ _ _ _ ho.1 ho.2.1 ho.2.2 h
  · exact key _ _ _ _ _ _ _ ho.1 ho.2.1 ho.2.2 h

omit [FloorRing K] in
private theorem width_nonneg {g h h' R : K} (hh : 0 ≤ g * h) (hR : 0 ≤ R) (e : h' = h / R) : 0 ≤ g * h' := by
  rw [e, ← mul_div_assoc]
  exact div_nonneg hh hR

/-- What a front end does with the weights: it gives them to the backend and divides by a number. -/
private structure Front (α : Type) (K ι : Type) where
  chosen : List α
  place : α → Scatter.Part K
  norm : K

private theorem project_front {α : Type} (scatter : Nat → K → K → List (Scatter.Part K) → Except Err (Int × Int → K)) (box : K × K × K)
    (reg : Option (List K)) (periodic framed : Bool) (res : Nat) (pos : α → Scatter.Part K) (mask : α → Bool) (l : List α) :
    (∃ e, ∀ u, project scatter box reg periodic framed res (drawn pos mask u l) = .error e) ∨
    ∃ (f : Front α K (Int × Int)) (bx by_ : K) (nx ny : Nat), (∀ a ∈ f.chosen, a ∈ l ∧ mask a = true) ∧ (LimitsInOrder box reg → 0 < f.norm ∧ ∀ g a, 0 ≤ g * (pos a).h → 0 ≤ g * (f.place a).h) ∧
      ∀ u, project scatter box reg periodic framed res (drawn pos mask u l) =
        (scatter res bx by_ (f.chosen.map fun a => { f.place a with m := u a })).map fun img => ⟨nx, ny, fun q => img q / f.norm⟩ := by
  unfold project
  cases hi : regionInfo box reg false periodic with
  | error e => exact .inl ⟨e, fun u => rfl⟩
  | ok i =>
    have main : ∀ s : Scatter.Part K × Bool → Bool, (∀ (p : Scatter.Part K) (m : K) (b : Bool), s ({ p with m := m }, b) = s (p, b)) → (∀ p, s p = true → p.2 = true) →
        (∀ u, select box.2.2 i periodic ((drawn pos mask u l).map fun p => (wrapped box periodic p.1, p.2)) =
          .ok ((((drawn pos mask u l).map fun p => (wrapped box periodic p.1, p.2)).filter s).map Prod.fst)) →
        ∃ (f : Front α K (Int × Int)) (bx by_ : K) (nx ny : Nat), (∀ a ∈ f.chosen, a ∈ l ∧ mask a = true) ∧ (LimitsInOrder box reg → 0 < f.norm ∧ ∀ g a, 0 ≤ g * (pos a).h → 0 ≤ g * (f.place a).h) ∧
          ∀ u, (select box.2.2 i periodic ((drawn pos mask u l).map fun p => (wrapped box periodic p.1, p.2))).bind (fun sel =>
            (scatter res i.boxX i.boxY (sel.map (normed i periodic))).bind fun img => .ok
              (⟨trimmed res i.xRange i.maxRange, trimmed res i.yRange i.maxRange, fun q => img q / (if framed then i.xRange * i.yRange else 1)⟩ : Frame.Grid K)) =
            (scatter res bx by_ (f.chosen.map fun a => { f.place a with m := u a })).map fun img => ⟨nx, ny, fun q => img q / f.norm⟩ := by
      intro s hs hm hsel
      refine ⟨⟨l.filter fun a => s (wrapped box periodic (pos a), mask a), fun a => normed i periodic (wrapped box periodic (pos a)),
        if framed then i.xRange * i.yRange else 1⟩, i.boxX, i.boxY, trimmed res i.xRange i.maxRange, trimmed res i.yRange i.maxRange, ?_, ?_, ?_⟩
      · intro a ha
        rw [List.mem_filter] at ha
        exact ⟨ha.1, hm _ ha.2⟩
      · intro ho
        obtain ⟨h1, h2, -, h4⟩ := info_positive ho hi
        dsimp only
        refine ⟨?_, fun g a h => width_nonneg h h4.le (by unfold normed wrapped; split <;> rfl)⟩
        split
        · positivity
        · exact one_pos
      · intro u
        rw [hsel, filter_drawn pos mask l (wrapped box periodic) s hs (fun p m => wrapped_weight box periodic p m)]
        dsimp only
        change (scatter res i.boxX i.boxY (List.map _ (List.map _ _))).bind _ = _
        rw [List.map_map]
        change (scatter res i.boxX i.boxY (List.map (fun a => { normed i periodic (wrapped box periodic (pos a)) with m := u a }) _)).bind _ = _
        generalize scatter res i.boxX i.boxY _ = r
        cases r <;> rfl
    by_cases hz : i.includesZ = true
    · by_cases hp : (periodic && decide (i.zRange > box.2.2)) = true
      · refine .inl ⟨.value, fun u => ?_⟩
        change (select _ _ _ _).bind _ = _
        unfold select
        rw [if_pos hz, if_pos hp]
        rfl
      · refine .inr (main (fun p => p.2 && inDepth box.2.2 i periodic p.1.z) (fun p m b => rfl) (fun p h => by rw [Bool.and_eq_true] at h; exact h.1) fun u => ?_)
        unfold select
        rw [if_pos hz, if_neg hp]
    · refine .inr (main (fun p => p.2) (fun p m b => rfl) (fun p h => h) fun u => ?_)
      unfold select
      rw [if_neg hz]

private theorem slice_front {α : Type} (scatter : K → Nat → Nat → K → K → K → List (Scatter.Part K) → Except Err (Int × Int → K)) (box : K × K × K)
    (reg : Option (List K)) (zs : K) (periodic framed : Bool) (res : Nat) (pos : α → Scatter.Part K) (mask : α → Bool) (l : List α) :
    (∃ e, ∀ u, sliceGrid scatter box reg zs periodic framed res (drawn pos mask u l) = .error e) ∨
    ∃ (f : Front α K (Int × Int)) (z bx by_ bz : K) (nx ny : Nat), (∀ a ∈ f.chosen, a ∈ l ∧ mask a = true) ∧ (LimitsInOrder box reg → 0 < f.norm ∧ ∀ g a, 0 ≤ g * (pos a).h → 0 ≤ g * (f.place a).h) ∧
      ∀ u, sliceGrid scatter box reg zs periodic framed res (drawn pos mask u l) =
        (scatter z nx ny bx by_ bz (f.chosen.map fun a => { f.place a with m := u a })).map fun img => ⟨nx, ny, fun q => img q / f.norm⟩ := by
  unfold sliceGrid
  cases hi : regionInfo box reg false periodic with
  | error e => exact .inl ⟨e, fun u => rfl⟩
  | ok i =>
    refine .inr ⟨⟨l.filter mask, fun a => normedSlice i periodic (wrapped box periodic (pos a)), if framed then i.maxRange ^ 3 else 1⟩,
      if periodic then pmod (zs / i.maxRange) i.boxZ else zs / i.maxRange, i.boxX, i.boxY, i.boxZ, trimmed res i.xRange i.maxRange,
      trimmed res i.yRange i.maxRange, fun a ha => List.mem_filter.1 ha, ?_, fun u => ?_⟩
    · intro ho
      obtain ⟨-, -, -, h4⟩ := info_positive ho hi
      dsimp only
      refine ⟨?_, fun g a h => width_nonneg h h4.le (by unfold normedSlice normed wrapped; split <;> rfl)⟩
      split
      · positivity
      · exact one_pos
    · have e := filter_drawn pos mask l id (fun p => p.2) (fun p m b => rfl) (fun p m => rfl) u
      have e' : ((drawn pos mask u l).filter fun p => p.2).map Prod.fst = (l.filter mask).map fun a => { pos a with m := u a } := by
        simpa using e
      change (scatter _ _ _ _ _ _ _).bind _ = _
      rw [e', List.map_map, List.map_map]
      have e2 : (l.filter mask).map ((normedSlice i periodic ∘ wrapped box periodic) ∘ fun a => ({ pos a with m := u a } : Scatter.Part K)) =
          (l.filter mask).map fun a => { normedSlice i periodic (wrapped box periodic (pos a)) with m := u a } := by
        refine List.map_congr_left fun a _ => ?_
        simp only [Function.comp_apply]
        rw [wrapped_weight]
        rfl
      rw [e2]
      generalize scatter _ _ _ _ _ _ _ = r
      cases r <;> rfl

private theorem render_front {α : Type} (scatter : Nat → K → K → K → List (Scatter.Part K) → Except Err (Int × Int × Int → K)) (box : K × K × K)
    (reg : Option (List K)) (periodic framed : Bool) (res : Nat) (pos : α → Scatter.Part K) (mask : α → Bool) (l : List α) :
    (∃ e, ∀ u, renderGrid scatter box reg periodic framed res (drawn pos mask u l) = .error e) ∨
    ∃ (f : Front α K (Int × Int × Int)) (bx by_ bz : K), (∀ a ∈ f.chosen, a ∈ l ∧ mask a = true) ∧ (LimitsInOrder box reg → 0 < f.norm ∧ ∀ g a, 0 ≤ g * (pos a).h → 0 ≤ g * (f.place a).h) ∧
      ∀ u, renderGrid scatter box reg periodic framed res (drawn pos mask u l) =
        (scatter res bx by_ bz (f.chosen.map fun a => { f.place a with m := u a })).map fun img => fun q => img q / f.norm := by
  unfold renderGrid
  cases hi : regionInfo box reg true periodic with
  | error e => exact .inl ⟨e, fun u => rfl⟩
  | ok i =>
    refine .inr ⟨⟨l.filter mask, fun a => normedVolume i periodic (wrapped box periodic (pos a)), if framed then i.xRange * i.yRange * i.zRange else 1⟩,
      i.boxX, i.boxY, i.boxZ, fun a ha => List.mem_filter.1 ha, ?_, fun u => ?_⟩
    · intro ho
      obtain ⟨h1, h2, h3, -⟩ := info_positive ho hi
      dsimp only
      refine ⟨?_, fun g a h => width_nonneg h h1.le (by unfold normedVolume wrapped; split <;> rfl)⟩
      split
      · positivity
      · exact one_pos
    · have e := filter_drawn pos mask l id (fun p => p.2) (fun p m b => rfl) (fun p m => rfl) u
      have e' : ((drawn pos mask u l).filter fun p => p.2).map Prod.fst = (l.filter mask).map fun a => { pos a with m := u a } := by
        simpa using e
      change (scatter _ _ _ _ _).bind _ = _
      rw [e', List.map_map, List.map_map]
      have e2 : (l.filter mask).map ((normedVolume i periodic ∘ wrapped box periodic) ∘ fun a => ({ pos a with m := u a } : Scatter.Part K)) =
          (l.filter mask).map fun a => { normedVolume i periodic (wrapped box periodic (pos a)) with m := u a } := by
        refine List.map_congr_left fun a _ => ?_
        simp only [Function.comp_apply]
        rw [wrapped_weight]
        rfl
      rw [e2]
      generalize scatter _ _ _ _ _ = r
      cases r <;> rfl

/-- A backend that is linear in the weights, for weights given as functions. -/
private theorem linear_at {α ι : Type} {scatter : List (Scatter.Part K) → Except Err (ι → K)} (hl : LinearInMass scatter) (sel : List α) (place : α → Scatter.Part K)
    (u v : α → K) (c d : K) : ∃ a b, scatter (sel.map fun x => { place x with m := u x }) = .ok a ∧
      scatter (sel.map fun x => { place x with m := v x }) = .ok b ∧
      scatter (sel.map fun x => { place x with m := c * u x + d * v x }) = .ok fun q => c * a q + d * b q := by
  have h := hl c d (sel.map fun x => ({ place x with m := u x }, v x))
  simpa only [List.map_map, Function.comp_def] using h

private theorem between_at {α ι : Type} {scatter : List (Scatter.Part K) → Except Err (ι → K)} (hl : LinearInMass scatter) {g : K} (hp : Positive g scatter)
    (sel : List α) (place : α → Scatter.Part K) (w T : α → K) {lo hi n : K} (hn : 0 < n) (hw : ∀ x ∈ sel, 0 ≤ g * (place x).h ∧ 0 ≤ w x ∧ lo ≤ T x ∧ T x ≤ hi) :
    ∃ a b, scatter (sel.map fun x => { place x with m := w x }) = .ok a ∧ scatter (sel.map fun x => { place x with m := w x * T x }) = .ok b ∧
      MeanBetween lo hi (fun q => b q / n) (fun q => a q / n) := by
  obtain ⟨a, b, h1, h2, h3⟩ := linear_at hl sel place w (fun x => w x * T x) (-lo) 1
  obtain ⟨a', b', h1', h2', h4⟩ := linear_at hl sel place w (fun x => w x * T x) hi (-1)
  rw [h1] at h1'
  rw [h2] at h2'
  cases h1'
  cases h2'
  have pos : ∀ (m : α → K) (img : ι → K), (∀ x ∈ sel, 0 ≤ m x) → scatter (sel.map fun x => { place x with m := m x }) = .ok img → ∀ q, 0 ≤ img q := by
    intro m img hm h q
    refine hp _ img (fun p hp => ?_) h q
    obtain ⟨x, hx, rfl⟩ := List.mem_map.1 hp
    exact ⟨hm x hx, (hw x hx).1⟩
  refine ⟨a, b, h1, h2, fun q => ?_⟩
  have e0 := pos _ _ (fun x hx => (hw x hx).2.1) h1 q
  have e1 := pos _ _ (fun x hx => by have := (hw x hx).2; nlinarith) h3 q
  have e2 := pos _ _ (fun x hx => by have := (hw x hx).2; nlinarith) h4 q
  have f1 : lo * (a q / n) ≤ b q / n := by
    rw [← mul_div_assoc]
    exact div_le_div_of_nonneg_right (by linarith) hn.le
  have f2 : b q / n ≤ hi * (a q / n) := by
    rw [← mul_div_assoc]
    exact div_le_div_of_nonneg_right (by linarith) hn.le
  have f0 : 0 ≤ a q / n := div_nonneg e0 hn.le
  refine ⟨f0, f1, f2, fun hne => ?_⟩
  have hpos := lt_of_le_of_ne f0 (Ne.symm hne)
  exact ⟨(le_div_iff₀ hpos).2 f1, (div_le_iff₀ hpos).2 f2⟩

/-- C123, projections. The image of a field weighted by another one, divided by the image of the weights, is nowhere outside the
range of the field among the particles that are not masked; both calls succeed or both are refused. -/
theorem c123_project {α : Type} {scatter : Nat → K → K → List (Scatter.Part K) → Except Err (Int × Int → K)}
    (hl : ∀ res bx by_, LinearInMass (scatter res bx by_)) {g : K} (hp : ∀ res bx by_, Positive g (scatter res bx by_)) {box : K × K × K}
    {reg : Option (List K)} (ho : LimitsInOrder box reg) (periodic framed : Bool) (res : Nat) (pos : α → Scatter.Part K) (mask : α → Bool) (l : List α)
    (w T : α → K) {lo hi : K} (hw : ∀ a ∈ l, mask a = true → 0 ≤ g * (pos a).h ∧ 0 ≤ w a ∧ lo ≤ T a ∧ T a ≤ hi) :
    (∃ e, project scatter box reg periodic framed res (drawn pos mask w l) = .error e ∧
      project scatter box reg periodic framed res (drawn pos mask (fun a => w a * T a) l) = .error e) ∨
    ∃ den num, project scatter box reg periodic framed res (drawn pos mask w l) = .ok den ∧
      project scatter box reg periodic framed res (drawn pos mask (fun a => w a * T a) l) = .ok num ∧
      num.nx = den.nx ∧ num.ny = den.ny ∧ MeanBetween lo hi num.img den.img := by
  rcases project_front scatter box reg periodic framed res pos mask l with ⟨e, h⟩ | ⟨f, bx, by_, nx, ny, h1, h2, h3⟩
  · exact .inl ⟨e, h _, h _⟩
  · obtain ⟨a, b, ha, hb, hab⟩ := between_at (hl res bx by_) (hp res bx by_) f.chosen f.place w T (h2 ho).1
      fun x hx => have h := hw x (h1 x hx).1 (h1 x hx).2; ⟨(h2 ho).2 g x h.1, h.2⟩
    refine .inr ⟨⟨nx, ny, fun q => a q / f.norm⟩, ⟨nx, ny, fun q => b q / f.norm⟩, ?_, ?_, rfl, rfl, hab⟩
    · rw [h3, ha]; rfl
    · rw [h3, hb]; rfl

/-- C123, slices. -/
theorem c123_slice {α : Type} {W : K → K → K} (hW : NonNegative W) (g : K) {box : K × K × K} {reg : Option (List K)} (ho : LimitsInOrder box reg)
    (zs : K) (periodic framed : Bool) (res : Nat) (pos : α → Scatter.Part K) (mask : α → Bool) (l : List α)
    (w T : α → K) {lo hi : K} (hw : ∀ a ∈ l, mask a = true → 0 ≤ g * (pos a).h ∧ 0 ≤ w a ∧ lo ≤ T a ∧ T a ≤ hi) :
    (∃ e, sliceGrid (slice W g) box reg zs periodic framed res (drawn pos mask w l) = .error e ∧
      sliceGrid (slice W g) box reg zs periodic framed res (drawn pos mask (fun a => w a * T a) l) = .error e) ∨
    ∃ den num, sliceGrid (slice W g) box reg zs periodic framed res (drawn pos mask w l) = .ok den ∧
      sliceGrid (slice W g) box reg zs periodic framed res (drawn pos mask (fun a => w a * T a) l) = .ok num ∧
      num.nx = den.nx ∧ num.ny = den.ny ∧ MeanBetween lo hi num.img den.img := by
  rcases slice_front (slice W g) box reg zs periodic framed res pos mask l with ⟨e, h⟩ | ⟨f, z, bx, by_, bz, nx, ny, h1, h2, h3⟩
  · exact .inl ⟨e, h _, h _⟩
  · obtain ⟨a, b, ha, hb, hab⟩ := between_at (c39_slice W g z nx ny bx by_ bz).2 ((c123_backends hW g).2.1 z nx ny bx by_ bz) f.chosen f.place w T (h2 ho).1
      fun x hx => have h := hw x (h1 x hx).1 (h1 x hx).2; ⟨(h2 ho).2 g x h.1, h.2⟩
    refine .inr ⟨⟨nx, ny, fun q => a q / f.norm⟩, ⟨nx, ny, fun q => b q / f.norm⟩, ?_, ?_, rfl, rfl, hab⟩
    · rw [h3, ha]; rfl
    · rw [h3, hb]; rfl

/-- C123, renders. -/
theorem c123_render {α : Type} {W : K → K → K} (hW : NonNegative W) (g : K) {box : K × K × K} {reg : Option (List K)} (ho : LimitsInOrder box reg)
    (periodic framed : Bool) (res : Nat) (pos : α → Scatter.Part K) (mask : α → Bool) (l : List α)
    (w T : α → K) {lo hi : K} (hw : ∀ a ∈ l, mask a = true → 0 ≤ g * (pos a).h ∧ 0 ≤ w a ∧ lo ≤ T a ∧ T a ≤ hi) :
    (∃ e, renderGrid (volume W g) box reg periodic framed res (drawn pos mask w l) = .error e ∧
      renderGrid (volume W g) box reg periodic framed res (drawn pos mask (fun a => w a * T a) l) = .error e) ∨
    ∃ den num, renderGrid (volume W g) box reg periodic framed res (drawn pos mask w l) = .ok den ∧
      renderGrid (volume W g) box reg periodic framed res (drawn pos mask (fun a => w a * T a) l) = .ok num ∧ MeanBetween lo hi num den := by
  rcases render_front (volume W g) box reg periodic framed res pos mask l with ⟨e, h⟩ | ⟨f, bx, by_, bz, h1, h2, h3⟩
  · exact .inl ⟨e, h _, h _⟩
  · obtain ⟨a, b, ha, hb, hab⟩ := between_at (c39_volume W g res 1 bx by_ bz).1.2 ((c123_backends hW g).2.2 res bx by_ bz) f.chosen f.place w T (h2 ho).1
      fun x hx => have h := hw x (h1 x hx).1 (h1 x hx).2; ⟨(h2 ho).2 g x h.1, h.2⟩
    refine .inr ⟨fun q => a q / f.norm, fun q => b q / f.norm, ?_, ?_, hab⟩
    · rw [h3, ha]; rfl
    · rw [h3, hb]; rfl

/-- C123. The image of a sum of multiples of two fields is the sum of the multiples of their images, for projections with any
backend that is linear, slices and renders, in every region. -/
theorem c123_linear {α : Type} {scatter : Nat → K → K → List (Scatter.Part K) → Except Err (Int × Int → K)}
    (hl : ∀ res bx by_, LinearInMass (scatter res bx by_)) (W : K → K → K) (g : K) (box : K × K × K) (reg : Option (List K)) (zs : K)
    (periodic framed : Bool) (res : Nat) (pos : α → Scatter.Part K) (mask : α → Bool) (l : List α) (u v : α → K) (c d : K) :
    (∀ a, project scatter box reg periodic framed res (drawn pos mask u l) = .ok a →
      ∃ b, project scatter box reg periodic framed res (drawn pos mask v l) = .ok b ∧ b.nx = a.nx ∧ b.ny = a.ny ∧
        project scatter box reg periodic framed res (drawn pos mask (fun x => c * u x + d * v x) l) =
          .ok { a with img := fun q => c * a.img q + d * b.img q }) ∧
    (∀ a, sliceGrid (slice W g) box reg zs periodic framed res (drawn pos mask u l) = .ok a →
      ∃ b, sliceGrid (slice W g) box reg zs periodic framed res (drawn pos mask v l) = .ok b ∧ b.nx = a.nx ∧ b.ny = a.ny ∧
        sliceGrid (slice W g) box reg zs periodic framed res (drawn pos mask (fun x => c * u x + d * v x) l) =
          .ok { a with img := fun q => c * a.img q + d * b.img q }) ∧
    ∀ a, renderGrid (volume W g) box reg periodic framed res (drawn pos mask u l) = .ok a →
      ∃ b, renderGrid (volume W g) box reg periodic framed res (drawn pos mask v l) = .ok b ∧
        renderGrid (volume W g) box reg periodic framed res (drawn pos mask (fun x => c * u x + d * v x) l) =
          .ok fun q => c * a q + d * b q := by
  have lin : ∀ x y n : K, (c * x + d * y) / n = c * (x / n) + d * (y / n) := fun x y n => by ring
  refine ⟨fun a h => ?_, fun a h => ?_, fun a h => ?_⟩
  · rcases project_front scatter box reg periodic framed res pos mask l with ⟨e, h'⟩ | ⟨f, bx, by_, nx, ny, -, -, h3⟩
    · rw [h'] at h; cases h
    · obtain ⟨x, y, hx, hy, hxy⟩ := linear_at (hl res bx by_) f.chosen f.place u v c d
      rw [h3, hx] at h
      cases h
      refine ⟨⟨nx, ny, fun q => y q / f.norm⟩, by rw [h3, hy]; rfl, rfl, rfl, ?_⟩
      rw [h3, hxy]
      change Except.ok _ = Except.ok _
      simp only [lin]
  · rcases slice_front (slice W g) box reg zs periodic framed res pos mask l with ⟨e, h'⟩ | ⟨f, z, bx, by_, bz, nx, ny, -, -, h3⟩
    · rw [h'] at h; cases h
    · obtain ⟨x, y, hx, hy, hxy⟩ := linear_at (c39_slice W g z nx ny bx by_ bz).2 f.chosen f.place u v c d
      rw [h3, hx] at h
      cases h
      refine ⟨⟨nx, ny, fun q => y q / f.norm⟩, by rw [h3, hy]; rfl, rfl, rfl, ?_⟩
      rw [h3, hxy]
      change Except.ok _ = Except.ok _
      simp only [lin]
  · rcases render_front (volume W g) box reg periodic framed res pos mask l with ⟨e, h'⟩ | ⟨f, bx, by_, bz, -, -, h3⟩
    · rw [h'] at h; cases h
    · obtain ⟨x, y, hx, hy, hxy⟩ := linear_at (c39_volume W g res 1 bx by_ bz).1.2 f.chosen f.place u v c d
      rw [h3, hx] at h
      cases h
      refine ⟨fun q => y q / f.norm, by rw [h3, hy]; rfl, ?_⟩
      rw [h3, hxy]
      change Except.ok _ = Except.ok _
      simp only [lin]

/-- C123. The kernels of the code are not negative: of projections and of slices and renders, as functions of the square of the
distance. -/
theorem c123_kernels : NonNegative (fun r2 H : ℝ => Kernel.projection (Real.sqrt r2) H) ∧ NonNegative (fun r2 H : ℝ => Kernel.volume (Real.sqrt r2) H) := by
  have h2 : (0 : ℝ) ≤ Kernel.constant2 := by unfold Kernel.constant2; norm_num
  have h3 : (0 : ℝ) ≤ Kernel.constant3 := by unfold Kernel.constant3; norm_num
  constructor
  · intro r2 H _ hH
    dsimp only
    unfold Kernel.projection
    dsimp only
    split
    · exact mul_nonneg (le_max_right _ _) (by positivity)
    · exact le_rfl
  · intro r2 H _ hH
    dsimp only
    unfold Kernel.volume
    dsimp only
    split
    · exact mul_nonneg (le_max_right _ _) (by positivity)
    · exact le_rfl

/-! ## Examples -/

private def gas : List (Scatter.Part ℚ × ℚ × Bool) :=
  [(⟨1, 9, 5, 2, 3⟩, 100, true), (⟨-1, 4, 12, 1, 1⟩, 7, false), (⟨3, 3, 2, 1 / 2, 2⟩, 300, true), (⟨2, 2, 2, 0, 2⟩, 150, true)]

private theorem gas_ok : ∀ a ∈ gas, a.2.2 = true → 0 ≤ 3 / 2 * a.1.h ∧ 0 ≤ a.1.m ∧ 100 ≤ a.2.1 ∧ a.2.1 ≤ 300 := by decide +kernel

private theorem bell_nonneg : NonNegative (bell 3) := by
  intro r2 H hr hH
  unfold bell
  split
  · rename_i h
    have h0 : 0 < H * H := lt_of_le_of_lt hr h
    exact div_nonneg (sub_nonneg.2 ((div_le_one h0).2 h.le)) (by positivity)
  · exact le_rfl

/-- The temperature weighted by mass, with a masked particle outside the range. -/
example : (∃ e, project (fast (bell 3) (3 / 2)) (10, 10, 10) (some [0, 10, 0, 5]) true true 20 (drawn (·.1) (·.2.2) (fun a => a.1.m) gas) = .error e ∧
      project (fast (bell 3) (3 / 2)) (10, 10, 10) (some [0, 10, 0, 5]) true true 20 (drawn (·.1) (·.2.2) (fun a => a.1.m * a.2.1) gas) = .error e) ∨
    ∃ den num, project (fast (bell 3) (3 / 2)) (10, 10, 10) (some [0, 10, 0, 5]) true true 20 (drawn (·.1) (·.2.2) (fun a => a.1.m) gas) = .ok den ∧
      project (fast (bell 3) (3 / 2)) (10, 10, 10) (some [0, 10, 0, 5]) true true 20 (drawn (·.1) (·.2.2) (fun a => a.1.m * a.2.1) gas) = .ok num ∧
      num.nx = den.nx ∧ num.ny = den.ny ∧ MeanBetween 100 300 num.img den.img :=
  c123_project (fun res bx by_ => (c39_projection (bell 3) (3 / 2) res bx by_).2.1.2) (fun res bx by_ => ((c123_backends bell_nonneg (3 / 2)).1 res bx by_).2.1)
    (box := (10, 10, 10)) (reg := some [0, 10, 0, 5]) ⟨by norm_num, by norm_num, by norm_num⟩ true true 20 _ _ gas _ _ gas_ok

/-- Here the calls succeed, and a pixel that two particles reach has a value between theirs. -/
example : ((project (fast (bell 3) (3 / 2)) (10, 10, 10) (some [0, 10, 0, 5]) true true 20 (drawn (·.1) (·.2.2) (fun a => a.1.m * a.2.1) gas)).toOption.bind fun n =>
    (project (fast (bell 3) (3 / 2)) (10, 10, 10) (some [0, 10, 0, 5]) true true 20 (drawn (·.1) (·.2.2) (fun a => a.1.m) gas)).toOption.map fun d =>
      decide (100 < n.img (4, 3) / d.img (4, 3) ∧ n.img (4, 3) / d.img (4, 3) < 300)) = some true := by
  decide +kernel

example := c123_slice bell_nonneg (3 / 2) (box := (10, 10, 10)) (reg := some [0, 10, 0, 5]) ⟨by norm_num, by norm_num, by norm_num⟩ 3 true true 20
  (·.1) (·.2.2) gas (fun a => a.1.m) (fun a => a.2.1) gas_ok

example := c123_render bell_nonneg (3 / 2) (box := (10, 10, 10)) (reg := some [0, 8, 0, 8, -1, 7]) ⟨by norm_num, by norm_num, by norm_num⟩ true true 20
  (·.1) (·.2.2) gas (fun a => a.1.m) (fun a => a.2.1) gas_ok

private def signs : List (Scatter.Part ℚ × ℚ) := [(⟨1 / 2, 1 / 2, 1 / 2, 2, 1 / 10⟩, 300), (⟨1 / 4, 1 / 2, 1 / 2, -1, 1 / 10⟩, 100)]

/-- C123, what is not true for weights of both signs: the quotient leaves the range of the field. -/
theorem c123_signs_fails : ∃ (l : List (Scatter.Part ℚ × ℚ)) (den num : Frame.Grid ℚ),
    (∀ a ∈ l, 100 ≤ a.2 ∧ a.2 ≤ 300) ∧
    project histogram (1, 1, 1) none false true 1 (drawn (·.1) (fun _ => true) (fun a => a.1.m) l) = .ok den ∧
    project histogram (1, 1, 1) none false true 1 (drawn (·.1) (fun _ => true) (fun a => a.1.m * a.2) l) = .ok num ∧
    den.img (0, 0) = 1 ∧ num.img (0, 0) = 500 := by
  have got : ∀ e : Except Err (Frame.Grid ℚ), e.toOption.isSome = true → ∃ out, e = .ok out ∧ ∀ q, out.img q = (e.toOption.map (fun f => f.img q)).getD 0 := by
    intro e h
    cases e with
    | error e => cases h
    | ok out => exact ⟨out, rfl, fun q => rfl⟩
  obtain ⟨den, h1, h2⟩ := got (project histogram (1, 1, 1) none false true 1 (drawn (·.1) (fun _ => true) (fun a => a.1.m) signs)) (by decide +kernel)
  obtain ⟨num, h3, h4⟩ := got (project histogram (1, 1, 1) none false true 1 (drawn (·.1) (fun _ => true) (fun a => a.1.m * a.2) signs)) (by decide +kernel)
  refine ⟨signs, den, num, by decide +kernel, h1, h3, ?_, ?_⟩
  · rw [h2]; decide +kernel
  · rw [h4]; decide +kernel

end Verif.Props
