import Verif.Spec.FloatingGrowth
import Verif.Props.FloatingImages
import Mathlib.Data.List.Forall2

/-!
# C142: images of masses are not negative and grow with the masses to the last digit (`swiftsimio/visualisation`)
-/

namespace Verif.Props
open Verif Verif.Spec Verif.Scatter

variable {F : Type} [LinearOrder F] {A : Floating.Arith F} {ι : Type}

/-- Two statements `image[index] += weight` for the same pixel, the second with a weight at least as large. -/
private def Grown (d d' : ι × F) : Prop := d.1 = d'.1 ∧ d.2 ≤ d'.2

private theorem write_ok [DecidableEq ι] {inside : ι → Bool} {i0 : ι → F} {d : ι × F} {ds : List (ι × F)} {img : ι → F}
    (h : (d :: ds).foldlM (Floating.write A inside) i0 = .ok img) :
    ds.foldlM (Floating.write A inside) (fun q => if q = d.1 then A.acc (i0 q) d.2 else i0 q) = .ok img := by
  rw [List.foldlM_cons] at h
  unfold Floating.write at h ⊢
  by_cases hd : inside d.1 = true
  · rw [if_pos hd] at h
    exact h
  · rw [if_neg hd] at h
    exact absurd h (by simp [bind, Except.bind])

private theorem paint_sub (o : PositiveArith A) [DecidableEq ι] {inside : ι → Bool} {ds ds' : List (ι × F)} (hs : ds.Sublist ds') :
    ∀ {i0 i0' img img' : ι → F}, (∀ d ∈ ds', A.zero ≤ d.2) → (∀ q, i0 q ≤ i0' q) → ds.foldlM (Floating.write A inside) i0 = .ok img →
      ds'.foldlM (Floating.write A inside) i0' = .ok img' → ∀ q, img q ≤ img' q := by
  induction hs with
  | slnil =>
    intro i0 i0' img img' _ h0 h h'
    have e : i0 = img := Except.ok.inj h
    have e' : i0' = img' := Except.ok.inj h'
    exact e ▸ e' ▸ h0
  | cons d _ ih =>
    intro i0 i0' img img' hn h0 h h'
    refine ih (fun e he => hn e (by simp [he])) (fun q => ?_) h (write_ok h')
    split
    · exact (h0 q).trans (o.acc_grows _ _ (hn d (by simp)))
    · exact h0 q
  | cons_cons d _ ih =>
    intro i0 i0' img img' hn h0 h h'
    refine ih (fun e he => hn e (by simp [he])) (fun q => ?_) (write_ok h) (write_ok h')
    split
    · exact o.acc_left _ _ _ (h0 q)
    · exact h0 q

private theorem paint_grown (o : PositiveArith A) [DecidableEq ι] {inside : ι → Bool} {ds ds' : List (ι × F)} (hs : List.Forall₂ Grown ds ds') :
    ∀ {i0 i0' img img' : ι → F}, (∀ q, i0 q ≤ i0' q) → ds.foldlM (Floating.write A inside) i0 = .ok img →
      ds'.foldlM (Floating.write A inside) i0' = .ok img' → ∀ q, img q ≤ img' q := by
  induction hs with
  | nil =>
    intro i0 i0' img img' h0 h h'
    have e : i0 = img := Except.ok.inj h
    have e' : i0' = img' := Except.ok.inj h'
    exact e ▸ e' ▸ h0
  | cons hd _ ih =>
    intro i0 i0' img img' h0 h h'
    refine ih (fun q => ?_) (write_ok h) (write_ok h')
    rw [hd.1]
    split
    · exact (o.acc_left _ _ _ (h0 q)).trans (o.acc_right _ _ _ hd.2)
    · exact h0 q

/-- The statements for one particle are not negative and grow with its mass. -/
private structure Sound (A : Floating.Arith F) (g : Scatter.Part F → List (ι × F)) : Prop where
  nonneg : ∀ p, A.zero ≤ p.m → ∀ d ∈ g p, A.zero ≤ d.2
  grown : ∀ p p', Heavier p p' → List.Forall₂ Grown (g p) (g p')

private theorem sublist_flatMap {α β : Type} (g : α → List β) {l l' : List α} (h : l.Sublist l') : (l.flatMap g).Sublist (l'.flatMap g) := by
  induction h with
  | slnil => exact List.Sublist.refl _
  | cons a _ ih => exact ih.trans (List.sublist_append_right _ _)
  | cons_cons a _ ih => exact (List.Sublist.refl _).append ih

private theorem growing (o : PositiveArith A) [DecidableEq ι] {inside : ι → Bool} {g : Scatter.Part F → List (ι × F)} (hg : Sound A g) :
    Growing A.zero fun ps => Floating.paint A inside (ps.flatMap g) where
  nonneg ps img hm h := by
    refine paint_sub o (List.nil_sublist (ps.flatMap g)) (fun d hd => ?_) (fun _ => le_refl _) (img := fun _ => A.zero) rfl h
    obtain ⟨p, hp, hd⟩ := List.mem_flatMap.1 hd
    exact hg.nonneg p (hm p hp) d hd
  more ps ps' img img' hs hm h h' := by
    refine paint_sub o (sublist_flatMap g hs) (fun d hd => ?_) (fun _ => le_refl _) h h'
    obtain ⟨p, hp, hd⟩ := List.mem_flatMap.1 hd
    exact hg.nonneg p (hm p hp) d hd
  heavier ps ps' img img' hs h h' := by
    refine paint_grown o ?_ (fun _ => le_refl _) h h'
    exact List.rel_flatMap hs fun p p' hp => hg.grown p p' hp

private theorem heavier_mass {p p' : Scatter.Part F} (h : Heavier p p') : ∃ m', p' = { p with m := m' } ∧ p.m ≤ m' := by
  obtain ⟨x, y, z, m, hh⟩ := p
  obtain ⟨x', y', z', m', hh'⟩ := p'
  obtain ⟨h1, h2, h3, h4, h5⟩ := h
  dsimp only at h1 h2 h3 h4 h5
  subst h1 h2 h3 h4
  exact ⟨m', rfl, h5⟩

private theorem heavier_of {p : Scatter.Part F} {m' : F} (h : p.m ≤ m') : Heavier p { p with m := m' } := ⟨rfl, rfl, rfl, rfl, h⟩

private theorem sound_of {g : Scatter.Part F → List (ι × F)} (h1 : ∀ p, A.zero ≤ p.m → ∀ d ∈ g p, A.zero ≤ d.2)
    (h2 : ∀ (p : Scatter.Part F) (m' : F), p.m ≤ m' → List.Forall₂ Grown (g p) (g { p with m := m' })) : Sound A g :=
  ⟨h1, fun p p' h => by
    obtain ⟨m', rfl, hm⟩ := heavier_mass h
    exact h2 p m' hm⟩

private theorem sound_copies2 {dep : Scatter.Part F → List (ι × F)} (h : Sound A dep) (bx by_ : F) :
    Sound A fun p => (Floating.copies2 A bx by_ p).flatMap dep := by
  refine sound_of (fun p hp d hd => ?_) fun p m' hm => ?_
  · simp only [Floating.copies2, List.mem_flatMap, List.mem_map] at hd
    obtain ⟨q, ⟨i, -, j, -, rfl⟩, hd⟩ := hd
    refine h.nonneg _ ?_ d hd
    exact hp
  · refine List.rel_flatMap (R := Heavier) ?_ fun q q' hq => h.grown q q' hq
    unfold Floating.copies2
    refine List.rel_flatMap (R := Eq) (List.forall₂_refl _) fun i i' hi => ?_
    subst hi
    refine List.rel_map (R := Eq) (fun j j' hj => ?_) (List.forall₂_refl _)
    subst hj
    exact ⟨rfl, rfl, rfl, rfl, hm⟩

private theorem sound_copies3 {dep : Scatter.Part F → List (ι × F)} (h : Sound A dep) (sh : F → List Int) (bx by_ bz : F) :
    Sound A fun p => (Floating.copies3 A sh bx by_ bz p).flatMap dep := by
  refine sound_of (fun p hp d hd => ?_) fun p m' hm => ?_
  · simp only [Floating.copies3, List.mem_flatMap, List.mem_map] at hd
    obtain ⟨q, ⟨i, -, j, -, k, -, rfl⟩, hd⟩ := hd
    refine h.nonneg _ ?_ d hd
    exact hp
  · refine List.rel_flatMap (R := Heavier) ?_ fun q q' hq => h.grown q q' hq
    unfold Floating.copies3
    refine List.rel_flatMap (R := Eq) (List.forall₂_refl _) fun i i' hi => ?_
    subst hi
    refine List.rel_flatMap (R := Eq) (List.forall₂_refl _) fun j j' hj => ?_
    subst hj
    refine List.rel_map (R := Eq) (fun k k' hk => ?_) (List.forall₂_refl _)
    subst hk
    exact ⟨rfl, rfl, rfl, rfl, hm⟩

private theorem over2_grown {xs ys : List Int} {w w' : Int → Int → F} (h : ∀ i j, w i j ≤ w' i j) :
    List.Forall₂ Grown (Floating.over2 xs ys w) (Floating.over2 xs ys w') := by
  unfold Floating.over2
  refine List.rel_flatMap (R := Eq) (List.forall₂_refl _) fun i i' hi => ?_
  subst hi
  refine List.rel_map (R := Eq) (fun j j' hj => ?_) (List.forall₂_refl _)
  subst hj
  exact ⟨rfl, h i j⟩

private theorem over2_nonneg {xs ys : List Int} {w : Int → Int → F} {z : F} (h : ∀ i j, z ≤ w i j) : ∀ d ∈ Floating.over2 xs ys w, z ≤ d.2 := by
  intro d hd
  simp only [Floating.over2, List.mem_flatMap, List.mem_map] at hd
  obtain ⟨i, -, j, -, rfl⟩ := hd
  exact h i j

private theorem over3_grown {xs ys zs : List Int} {w w' : Int → Int → Int → F} (h : ∀ i j k, w i j k ≤ w' i j k) :
    List.Forall₂ Grown (Floating.over3 xs ys zs w) (Floating.over3 xs ys zs w') := by
  unfold Floating.over3
  refine List.rel_flatMap (R := Eq) (List.forall₂_refl _) fun i i' hi => ?_
  subst hi
  refine List.rel_flatMap (R := Eq) (List.forall₂_refl _) fun j j' hj => ?_
  subst hj
  refine List.rel_map (R := Eq) (fun k k' hk => ?_) (List.forall₂_refl _)
  subst hk
  exact ⟨rfl, h i j k⟩

private theorem over3_nonneg {xs ys zs : List Int} {w : Int → Int → Int → F} {z : F} (h : ∀ i j k, z ≤ w i j k) :
    ∀ d ∈ Floating.over3 xs ys zs w, z ≤ d.2 := by
  intro d hd
  simp only [Floating.over3, List.mem_flatMap, List.mem_map] at hd
  obtain ⟨i, -, j, -, k, -, rfl⟩ := hd
  exact h i j k

private theorem one_grown {i : ι} {w w' : F} (h : w ≤ w') : List.Forall₂ Grown [(i, w)] [(i, w')] := .cons ⟨rfl, h⟩ .nil

private theorem one_nonneg {i : ι} {w z : F} (h : z ≤ w) : ∀ d ∈ [(i, w)], z ≤ d.2 := by
  intro d hd
  rw [List.mem_singleton] at hd
  exact hd ▸ h

private theorem none_nonneg {z : F} : ∀ d ∈ ([] : List (ι × F)), z ≤ d.2 := fun _ h => absurd h (by simp)

private theorem own_nonneg {res : Nat} {p : Scatter.Part F} {w z : F} (h : z ≤ w) : ∀ d ∈ Floating.ownCell2 A res p w, z ≤ d.2 := by
  unfold Floating.ownCell2
  split
  · exact one_nonneg h
  · exact none_nonneg

private theorem own_grown {res : Nat} {p : Scatter.Part F} {m' w w' : F} (h : w ≤ w') :
    List.Forall₂ Grown (Floating.ownCell2 A res p w) (Floating.ownCell2 A res { p with m := m' } w') := by
  unfold Floating.ownCell2
  dsimp only
  split
  · exact one_grown h
  · exact .nil

private theorem sq_nonneg (res : Nat) : (0 : Int) ≤ (res : Int) * res := by positivity

/-- C142. Histograms. -/
theorem c142_histogram (o : PositiveArith A) (res : Nat) (bx by_ : F) : Growing A.zero (Floating.histogram A res bx by_) := by
  have hw : A.zero ≤ A.mul (A.ofInt res) (A.ofInt res) := o.mul_nonneg _ _ (o.ofInt_nonneg _ (by omega)) (o.ofInt_nonneg _ (by omega))
  refine growing o (sound_copies2 (sound_of (fun p hp => ?_) fun p m' hm => ?_) bx by_)
  · exact own_nonneg (o.mul_nonneg _ _ hp hw)
  · exact own_grown (o.mul_left _ _ _ hm hw)

/-- C142. The fast projection. -/
theorem c142_fast (o : PositiveArith A) (res : Nat) (bx by_ : F) : Growing A.zero (Floating.fast A res bx by_) := by
  refine growing o (sound_copies2 (sound_of (fun p hp => ?_) fun p m' hm => ?_) bx by_)
  · unfold Floating.fastDeps
    dsimp only
    split
    · exact none_nonneg
    split
    · exact own_nonneg (o.mul_nonneg _ _ hp (o.ofInt_nonneg _ (sq_nonneg res)))
    · exact over2_nonneg fun i j => o.mul_nonneg _ _ hp (o.kernel_nonneg _ _)
  · unfold Floating.fastDeps
    dsimp only
    split
    · exact .nil
    split
    · exact own_grown (o.mul_left _ _ _ hm (o.ofInt_nonneg _ (sq_nonneg res)))
    · exact over2_grown fun i j => o.mul_left _ _ _ hm (o.kernel_nonneg _ _)

private theorem sum_nonneg (o : PositiveArith A) {l : List F} (h : ∀ x ∈ l, A.zero ≤ x) : ∀ {s : F}, A.zero ≤ s → A.zero ≤ l.foldl A.acc s := by
  induction l with
  | nil => exact fun h => h
  | cons x l ih => exact fun hs => ih (fun y hy => h y (by simp [hy])) (hs.trans (o.acc_grows _ _ (h x (by simp))))

/-- C142. The renormalised projection. -/
theorem c142_renormalised (o : PositiveArith A) (res : Nat) (bx by_ : F) : Growing A.zero (Floating.renormalised A res bx by_) := by
  have hk : ∀ H cs p i j, A.zero ≤ A.mul (A.div (A.ofInt ((res : Int) * res)) (Floating.kernelSum A H res cs p))
      (A.kernel (A.sqrt (A.add (Floating.dist32 A res p.x i) (Floating.dist32 A res p.y j))) H) := by
    intro H cs p i j
    refine o.mul_nonneg _ _ (o.div_nonneg _ _ (o.ofInt_nonneg _ (sq_nonneg res)) (sum_nonneg o (fun x hx => ?_) (le_refl _))) (o.kernel_nonneg _ _)
    simp only [List.mem_flatMap, List.mem_map] at hx
    obtain ⟨i, -, j, -, rfl⟩ := hx
    exact o.kernel_nonneg _ _
  refine growing o (sound_copies2 (sound_of (fun p hp => ?_) fun p m' hm => ?_) bx by_)
  · unfold Floating.renormalisedDeps
    dsimp only
    split
    · exact none_nonneg
    split
    · exact own_nonneg (o.mul_nonneg _ _ hp (o.ofInt_nonneg _ (sq_nonneg res)))
    · exact over2_nonneg fun i j => o.mul_nonneg _ _ hp (hk _ _ p i j)
  · unfold Floating.renormalisedDeps
    dsimp only
    split
    · exact .nil
    split
    · exact own_grown (o.mul_left _ _ _ hm (o.ofInt_nonneg _ (sq_nonneg res)))
    · exact over2_grown fun i j => o.mul_left _ _ _ hm (hk _ _ p i j)

private theorem row_nonneg (o : PositiveArith A) {res : Nat} : ∀ {l : List (Scatter.Part F)}, (∀ p ∈ l, A.zero ≤ p.m) →
    ∀ d ∈ Floating.referenceRow A res l, A.zero ≤ d.2
  | [], _ => none_nonneg
  | p :: l, h => by
    have ih := row_nonneg o (res := res) (l := l) fun q hq => h q (by simp [hq])
    unfold Floating.referenceRow
    dsimp only
    split
    · exact ih
    split
    · exact none_nonneg
    · intro d hd
      rcases List.mem_append.1 hd with hd | hd
      · exact over2_nonneg (fun i j => o.mul_nonneg _ _ (h p (by simp)) (o.kernel_nonneg _ _)) d hd
      · exact ih d hd

private theorem row_grown (o : PositiveArith A) {res : Nat} {l l' : List (Scatter.Part F)} (h : List.Forall₂ Heavier l l') :
    List.Forall₂ Grown (Floating.referenceRow A res l) (Floating.referenceRow A res l') := by
  induction h with
  | nil => exact .nil
  | cons hp _ ih =>
    obtain ⟨m', rfl, hm⟩ := heavier_mass hp
    unfold Floating.referenceRow
    dsimp only
    split
    · exact ih
    split
    · exact .nil
    · exact List.rel_append (over2_grown fun i j => o.mul_left _ _ _ hm (o.kernel_nonneg _ _)) ih

/-- C142. The reference projection. -/
theorem c142_reference (o : PositiveArith A) (res : Nat) (bx by_ : F) : Growing A.zero (Floating.reference A res bx by_) := by
  refine growing o (sound_of (fun p hp d hd => ?_) fun p m' hm => ?_)
  · obtain ⟨i, -, hd⟩ := List.mem_flatMap.1 hd
    refine row_nonneg o (fun q hq => ?_) d hd
    obtain ⟨j, -, rfl⟩ := List.mem_map.1 hq
    exact hp
  · refine List.rel_flatMap (R := Eq) (List.forall₂_refl _) fun i i' hi => ?_
    subst hi
    refine row_grown o (List.rel_map (R := Eq) (fun j j' hj => ?_) (List.forall₂_refl _))
    subst hj
    exact ⟨rfl, rfl, rfl, rfl, hm⟩

private theorem dither_nonneg (o : PositiveArith A) (D res : Nat) (a b : Int) : A.zero ≤ Floating.dithered A D res a b := by
  refine o.mul_nonneg _ _ (o.kernel_nonneg _ _) (o.div_nonneg _ _
    (o.mul_nonneg _ _ (o.ofInt_nonneg _ (by omega)) (o.ofInt_nonneg _ (by omega))) (sum_nonneg o (fun x hx => ?_) (le_refl _)))
  simp only [List.mem_flatMap, List.mem_map] at hx
  obtain ⟨i, -, j, -, rfl⟩ := hx
  exact o.kernel_nonneg _ _

private theorem eval_nonneg (o : PositiveArith A) (res : Nat) (S : Int) (H : F) (p : Scatter.Part F) (i j : Int) :
    A.zero ≤ Floating.kernelEval A res S H p i j := by
  refine sum_nonneg o (fun x hx => ?_) (le_refl _)
  simp only [List.mem_flatMap, List.mem_map] at hx
  obtain ⟨i, -, j, -, rfl⟩ := hx
  exact o.kernel_nonneg _ _

/-- C142. The subsampled projections. -/
theorem c142_subsampled (o : PositiveArith A) (E D res : Nat) (bx by_ : F) : Growing A.zero (Floating.subsampled A E D res bx by_) := by
  have hr : A.zero ≤ A.mul (A.ofInt res) (A.ofInt res) := o.mul_nonneg _ _ (o.ofInt_nonneg _ (by omega)) (o.ofInt_nonneg _ (by omega))
  have hinv : ∀ H, A.zero ≤ A.div (A.ofInt 1) (A.ofInt (Floating.subsampleFactor A E H res)) := fun H =>
    o.div_nonneg _ _ (o.ofInt_nonneg _ (by omega)) (o.ofInt_nonneg _ (by unfold Floating.subsampleFactor; omega))
  refine growing o (sound_copies2 (sound_of (fun p hp => ?_) fun p m' hm => ?_) bx by_)
  · unfold Floating.subsampledDeps
    dsimp only
    split
    · exact none_nonneg
    split
    · split
      · exact one_nonneg (o.mul_nonneg _ _ hp hr)
      · intro d hd
        simp only [Floating.ditherDeps, List.mem_flatMap] at hd
        obtain ⟨a, -, b, -, hd⟩ := hd
        split at hd
        · exact one_nonneg (o.mul_nonneg _ _ hp (dither_nonneg o D res a b)) d hd
        · exact none_nonneg d hd
    · exact over2_nonneg fun i j => o.mul_nonneg _ _ (o.mul_nonneg _ _ hp (eval_nonneg o _ _ _ _ _ _)) (o.mul_nonneg _ _ (hinv _) (hinv _))
  · unfold Floating.subsampledDeps
    dsimp only
    split
    · exact .nil
    split
    · split
      · exact one_grown (o.mul_left _ _ _ hm hr)
      · unfold Floating.ditherDeps
        refine List.rel_flatMap (R := Eq) (List.forall₂_refl _) fun a a' ha => ?_
        subst ha
        refine List.rel_flatMap (R := Eq) (List.forall₂_refl _) fun b b' hb => ?_
        subst hb
        dsimp only
        split
        · exact one_grown (o.mul_left _ _ _ hm (dither_nonneg o D res a b))
        · exact .nil
    · refine over2_grown fun i j => o.mul_left _ _ _ ?_ (o.mul_nonneg _ _ (hinv _) (hinv _))
      exact o.mul_left _ _ _ hm (eval_nonneg o _ _ _ p i j)

/-- C142. Slices. -/
theorem c142_slice (o : PositiveArith A) (zs : F) (xres yres : Nat) (bx by_ bz : F) :
    Growing A.zero (Floating.slice A zs xres yres bx by_ bz) := by
  have key := growing o (inside := inside2 (max xres yres) (max xres yres)) (sound_copies3 (A := A)
    (dep := Floating.sliceDeps A zs (max xres yres)) (sound_of (fun p hp => by
      unfold Floating.sliceDeps
      dsimp only
      split
      · exact none_nonneg
      · exact over2_nonneg fun i j => o.mul_nonneg _ _ hp (o.kernel_nonneg _ _)) fun p m' hm => by
      unfold Floating.sliceDeps
      dsimp only
      split
      · exact .nil
      · exact over2_grown fun i j => o.mul_left _ _ _ hm (o.kernel_nonneg _ _)) (Floating.shifts A) bx by_ bz)
  have hcut : ∀ ps img, Floating.slice A zs xres yres bx by_ bz ps = .ok img → ∃ img0,
      Floating.paint A (inside2 (max xres yres) (max xres yres))
        (ps.flatMap fun p => (Floating.copies3 A (Floating.shifts A) bx by_ bz p).flatMap (Floating.sliceDeps A zs (max xres yres))) = .ok img0 ∧
      img = fun q => if inside2 xres yres q then img0 q else A.zero := by
    intro ps img h
    unfold Floating.slice at h
    cases hp : Floating.paint A (inside2 (max xres yres) (max xres yres))
        (ps.flatMap fun p => (Floating.copies3 A (Floating.shifts A) bx by_ bz p).flatMap (Floating.sliceDeps A zs (max xres yres))) with
    | error e => rw [hp] at h; exact absurd h (by simp [bind, Except.bind])
    | ok img0 =>
      rw [hp] at h
      exact ⟨img0, rfl, (Except.ok.inj h).symm⟩
  refine ⟨fun ps img hm h q => ?_, fun ps ps' img img' hs hm h h' q => ?_, fun ps ps' img img' hs h h' q => ?_⟩
  · obtain ⟨i0, e, rfl⟩ := hcut _ _ h
    dsimp only
    split
    · exact key.nonneg ps i0 hm e q
    · exact le_refl _
  · obtain ⟨i0, e, rfl⟩ := hcut _ _ h
    obtain ⟨i0', e', rfl⟩ := hcut _ _ h'
    dsimp only
    split
    · exact key.more ps ps' i0 i0' hs hm e e' q
    · exact le_refl _
  · obtain ⟨i0, e, rfl⟩ := hcut _ _ h
    obtain ⟨i0', e', rfl⟩ := hcut _ _ h'
    dsimp only
    split
    · exact key.heavier ps ps' i0 i0' hs e e' q
    · exact le_refl _

private theorem sound_limited (o : PositiveArith A) (small : F → Bool) (res resz : Nat) : Sound A (Floating.limitedDeps A small res resz) := by
  have h32 : ∀ n : Nat, A.zero ≤ Floating.res32 A n := fun n => o.single_nonneg _ (o.ofInt_nonneg _ (by omega))
  have hw := o.mul_nonneg _ _ (o.mul_nonneg _ _ (h32 res) (h32 res)) (h32 resz)
  refine sound_of (fun p hp => ?_) fun p m' hm => ?_
  · unfold Floating.limitedDeps
    dsimp only
    split
    · exact none_nonneg
    split
    · split
      · exact one_nonneg (o.mul_nonneg _ _ hp hw)
      · exact none_nonneg
    · exact over3_nonneg fun i j k => o.mul_nonneg _ _ hp (o.kernel_nonneg _ _)
  · unfold Floating.limitedDeps
    dsimp only
    split
    · exact .nil
    split
    · split
      · exact one_grown (o.mul_left _ _ _ hm hw)
      · exact .nil
    · exact over3_grown fun i j k => o.mul_left _ _ _ hm (o.kernel_nonneg _ _)

/-- C142. Voxel renders. -/
theorem c142_volume (o : PositiveArith A) (res : Nat) (bx by_ bz : F) : Growing A.zero (Floating.volume A res bx by_ bz) :=
  growing o (sound_copies3 (sound_limited o _ res res) (Floating.shifts A) bx by_ bz)

/-- C142. Voxel renders with another number of layers. -/
theorem c142_limited (o : PositiveArith A) (res ratio : Nat) (bx by_ bz : F) : Growing A.zero (Floating.limited A res ratio bx by_ bz) :=
  growing o (sound_copies3 (sound_limited o _ res (res / ratio)) (Floating.shiftsLimited A) bx by_ bz)

/-- C142. Depositions on the grid of a power spectrum. -/
theorem c142_deposit (o : PositiveArith A) (res : Nat) (fold bx by_ bz : F) (hf : A.zero ≤ fold) :
    Growing A.zero (Floating.deposit A res fold bx by_ bz) := by
  have h32 : A.zero ≤ Floating.res32 A res := o.single_nonneg _ (o.ofInt_nonneg _ (by omega))
  have hw := o.mul_nonneg _ _ (o.mul_nonneg _ _ (o.mul_nonneg _ _ h32 h32) h32) (o.mul_nonneg _ _ (o.mul_nonneg _ _ hf hf) hf)
  have hs : Sound A fun p => [Floating.depositDeps A res fold bx by_ bz p] :=
    sound_of (fun p hp => one_nonneg (o.mul_nonneg _ _ hp hw)) fun p m' hm => one_grown (o.mul_left _ _ _ hm hw)
  have := growing o (inside := inside3 res res res) hs
  have e : ∀ ps : List (Scatter.Part F), ps.flatMap (fun p => [Floating.depositDeps A res fold bx by_ bz p]) =
      ps.map (Floating.depositDeps A res fold bx by_ bz) := fun ps => by
    induction ps with
    | nil => rfl
    | cons p ps ih => rw [List.flatMap_cons, ih]; rfl
  simp only [e] at this
  exact this

/-- C142. Numbers of a format with rounded operations meet the assumption, whatever the format and the rounding are, if rounding does not exchange
numbers and the kernel is not negative. -/
theorem c142_format (fl fl32 : ℚ → ℚ) (hfl : OrderKeeping fl) (h32 : ∀ x, 0 ≤ x → 0 ≤ fl32 x) (W : ℚ → ℚ → ℚ) (hW : ∀ r H, 0 ≤ W r H) (g : ℚ) :
    PositiveArith (formatArith fl hfl fl32 W g) := by
  have pos : ∀ x : ℚ, 0 ≤ x → fl 0 ≤ fl x := fun x h => hfl.mono _ _ h
  have zle : ∀ a : { x : ℚ // fl x = x }, (formatArith fl hfl fl32 W g).zero ≤ a → 0 ≤ a.1 := fun a h => by
    have h1 : fl 0 ≤ a.1 := h
    rwa [hfl.zero] at h1
  refine ⟨fun a b ha hb => pos _ (mul_nonneg (zle a ha) (zle b hb)), fun a b ha hb => pos _ (div_nonneg (zle a ha) (zle b hb)),
    fun a b c h hc => hfl.mono _ _ (mul_le_mul_of_nonneg_right h (zle c hc)), fun n hn => pos _ (by exact_mod_cast hn),
    fun a ha => pos _ (h32 _ (zle a ha)), fun r H => pos _ (hW _ _), fun a b c h => ?_,
    fun a b c h => ?_, fun a b hb => ?_⟩
  · have h' : a.1 ≤ b.1 := h
    exact hfl.mono _ _ (by linarith)
  · have h' : b.1 ≤ c.1 := h
    exact hfl.mono _ _ (by linarith)
  have h1 : fl a.1 ≤ fl (a.1 + b.1) := hfl.mono _ _ (by linarith [zle b hb])
  rw [a.2] at h1
  exact h1

/-- The numbers in double precision, with a flat kernel. -/
def floats : Floating.Arith { x : ℚ // nearest 53 (-1074) toEven x = x } :=
  formatArith (nearest 53 (-1074) toEven) (c140_nearest 53 (by norm_num) _ toEven c138_toEven) (nearest 24 (-149) toEven)
    (fun r H => if r < H * H then 1 else 0) 1

/-- C142. Double precision meets the assumption. -/
theorem c142_floats : PositiveArith floats :=
  c142_format _ _ _ (fun x h => by
      have := Nearest.nearest_mono (p := 24) (emin := -149) (by norm_num) c138_toEven h
      rwa [Nearest.nearest_zero c138_toEven] at this) _ (fun r H => by split <;> norm_num) _

private def num (x : ℚ) : { x : ℚ // nearest 53 (-1074) toEven x = x } := ⟨nearest 53 (-1074) toEven x, Nearest.nearest_twice (by norm_num) c138_toEven x⟩

/-- C142. With several threads a particle that is added can lower a pixel, because the sums are formed in another order. -/
theorem c142_threads_fails :
    ¬ Growing floats.zero (Floating.parallel floats (Floating.histogram floats 1 (num 0) (num 0)) 2 [0, 1]) := by
  intro h
  let p : ℚ → Scatter.Part { x : ℚ // nearest 53 (-1074) toEven x = x } := fun m => ⟨num (1 / 2), num (1 / 2), num 0, num m, num 0⟩
  have get : ∀ ps : List (Scatter.Part { x : ℚ // nearest 53 (-1074) toEven x = x }), ∀ v : ℚ,
      ((Floating.parallel floats (Floating.histogram floats 1 (num 0) (num 0)) 2 [0, 1] ps).toOption.map fun img => (img (0, 0)).1) = some v →
      ∃ img, Floating.parallel floats (Floating.histogram floats 1 (num 0) (num 0)) 2 [0, 1] ps = .ok img ∧ (img (0, 0)).1 = v := by
    intro ps v hv
    cases e : Floating.parallel floats (Floating.histogram floats 1 (num 0) (num 0)) 2 [0, 1] ps with
    | error _ => rw [e] at hv; exact absurd hv (by simp [Except.toOption])
    | ok img => rw [e] at hv; exact ⟨img, rfl, by simpa [Except.toOption] using hv⟩
  obtain ⟨img, e, hv⟩ := get [p (2 ^ 53), p 1, p 1] (2 ^ 53 + 2) (by decide +kernel)
  obtain ⟨img', e', hv'⟩ := get [p (2 ^ 53), p 1, p 1, p 0] (2 ^ 53) (by decide +kernel)
  have h0 : floats.zero ≤ num 0 ∧ floats.zero ≤ num 1 ∧ floats.zero ≤ num (2 ^ 53) := by decide +kernel
  have hle : (img (0, 0)).1 ≤ (img' (0, 0)).1 :=
    h.more [p (2 ^ 53), p 1, p 1] [p (2 ^ 53), p 1, p 1, p 0] img img' (List.sublist_append_left [p (2 ^ 53), p 1, p 1] [p 0]) (by
      intro q hq
      simp only [List.mem_cons, List.not_mem_nil, or_false] at hq
      rcases hq with rfl | rfl | rfl | rfl
      · exact h0.2.2
      · exact h0.2.1
      · exact h0.2.1
      · exact h0.1) e e' (0, 0)
  rw [hv, hv'] at hle
  norm_num at hle

private def at_ (x y m h : ℚ) : Scatter.Part { x : ℚ // nearest 53 (-1074) toEven x = x } := ⟨num x, num y, num 0, num m, num h⟩

/-- Three particles in a periodic image of three times three pixels; without the second one, and with a larger mass of the first one. -/
example : ∃ img img' img'',
    Floating.fast floats 3 (num 1) (num 1) [at_ (1 / 8) (1 / 2) 3 (1 / 4), at_ (7 / 8) (1 / 3) (1 / 10) (1 / 2)] = .ok img ∧
    Floating.fast floats 3 (num 1) (num 1) [at_ (1 / 8) (1 / 2) 3 (1 / 4), at_ (1 / 2) (1 / 2) (1 / 3) 1, at_ (7 / 8) (1 / 3) (1 / 10) (1 / 2)] = .ok img' ∧
    Floating.fast floats 3 (num 1) (num 1) [at_ (1 / 8) (1 / 2) 5 (1 / 4), at_ (7 / 8) (1 / 3) (1 / 10) (1 / 2)] = .ok img'' ∧
    (∀ q, floats.zero ≤ img q ∧ img q ≤ img' q ∧ img q ≤ img'' q) ∧ img (0, 1) < img' (0, 1) ∧ img (0, 1) < img'' (0, 1) := by
  have get : ∀ ps : List (Scatter.Part { x : ℚ // nearest 53 (-1074) toEven x = x }), (Floating.fast floats 3 (num 1) (num 1) ps).toOption.isSome = true →
      ∃ img, Floating.fast floats 3 (num 1) (num 1) ps = .ok img := by
    intro ps h
    cases e : Floating.fast floats 3 (num 1) (num 1) ps with
    | error _ => rw [e] at h; exact absurd h (by simp [Except.toOption])
    | ok img => exact ⟨img, rfl⟩
  obtain ⟨img, e⟩ := get [at_ (1 / 8) (1 / 2) 3 (1 / 4), at_ (7 / 8) (1 / 3) (1 / 10) (1 / 2)] (by decide +kernel)
  obtain ⟨img', e'⟩ := get [at_ (1 / 8) (1 / 2) 3 (1 / 4), at_ (1 / 2) (1 / 2) (1 / 3) 1, at_ (7 / 8) (1 / 3) (1 / 10) (1 / 2)] (by decide +kernel)
  obtain ⟨img'', e''⟩ := get [at_ (1 / 8) (1 / 2) 5 (1 / 4), at_ (7 / 8) (1 / 3) (1 / 10) (1 / 2)] (by decide +kernel)
  have g := c142_fast c142_floats 3 (num 1) (num 1)
  have hm : ∀ p ∈ [at_ (1 / 8) (1 / 2) 3 (1 / 4), at_ (1 / 2) (1 / 2) (1 / 3) 1, at_ (7 / 8) (1 / 3) (1 / 10) (1 / 2)], floats.zero ≤ p.m := by decide +kernel
  refine ⟨img, img', img'', e, e', e'', fun q => ⟨?_, ?_, ?_⟩, ?_, ?_⟩
  · exact g.nonneg _ img (fun p hp => hm p (by simp only [List.mem_cons, List.not_mem_nil, or_false] at hp ⊢; tauto)) e q
  · exact g.more _ _ img img' (.cons_cons _ (.cons _ (.cons_cons _ .slnil))) hm e e' q
  · refine g.heavier [at_ (1 / 8) (1 / 2) 3 (1 / 4), at_ (7 / 8) (1 / 3) (1 / 10) (1 / 2)] [at_ (1 / 8) (1 / 2) 5 (1 / 4), at_ (7 / 8) (1 / 3) (1 / 10) (1 / 2)] img img'' (.cons ⟨rfl, rfl, rfl, rfl, ?_⟩ (.cons ⟨rfl, rfl, rfl, rfl, le_refl _⟩ .nil)) e e'' q
    decide +kernel
  · have h1 : (Floating.fast floats 3 (num 1) (num 1) [at_ (1 / 8) (1 / 2) 3 (1 / 4), at_ (7 / 8) (1 / 3) (1 / 10) (1 / 2)]).toOption.elim 0 (fun i => (i (0, 1)).1) <
        (Floating.fast floats 3 (num 1) (num 1) [at_ (1 / 8) (1 / 2) 3 (1 / 4), at_ (1 / 2) (1 / 2) (1 / 3) 1,
          at_ (7 / 8) (1 / 3) (1 / 10) (1 / 2)]).toOption.elim 0 (fun i => (i (0, 1)).1) := by decide +kernel
    rw [e, e'] at h1
    exact h1
  · have h1 : (Floating.fast floats 3 (num 1) (num 1) [at_ (1 / 8) (1 / 2) 3 (1 / 4), at_ (7 / 8) (1 / 3) (1 / 10) (1 / 2)]).toOption.elim 0 (fun i => (i (0, 1)).1) <
        (Floating.fast floats 3 (num 1) (num 1) [at_ (1 / 8) (1 / 2) 5 (1 / 4), at_ (7 / 8) (1 / 3) (1 / 10) (1 / 2)]).toOption.elim 0 (fun i => (i (0, 1)).1) := by
      decide +kernel
    rw [e, e''] at h1
    exact h1

end Verif.Props
