import Verif.Props.RoundedBounds
import Verif.Props.FloatingGrowth

/-!
# C145: images after cuts with constrain_property in double precision (`swiftsimio/masks.py`, `swiftsimio/visualisation`)
-/

namespace Verif.Props
open Verif Verif.Mask Verif.Spec Verif.RoundedBounds

variable {K : Type} [Field K] [LinearOrder K] {F ι : Type} [LinearOrder F]

/-- All cuts of a list, one after the other. -/
def cutAll (flx flq : K → K) (cuts : List (Column K × RoundedBounds.Bound K × RoundedBounds.Bound K)) (current : List Bool) : List Bool :=
  cuts.foldl (fun now t => RoundedBounds.newMask flx flq t.1 t.2.1 t.2.2 now) current

private theorem compress_sub {α : Type} : ∀ {ms ms' : List Bool} {xs : List α}, (∀ i : Nat, ms[i]? = some true → ms'[i]? = some true) →
    (compress ms xs).Sublist (compress ms' xs)
  | [], ms', xs, _ => by simp [compress]
  | b :: ms, [], xs, h => by
    have hall : ∀ i : Nat, (b :: ms)[i]? ≠ some true := fun i hi => by simpa using h i hi
    have key : ∀ {l : List Bool} {ys : List α}, (∀ i : Nat, l[i]? ≠ some true) → compress l ys = [] := by
      intro l
      induction l with
      | nil => intro ys _; simp [compress]
      | cons c l ih =>
        intro ys hl
        cases ys with
        | nil => cases c <;> simp [compress]
        | cons y ys =>
          cases c with
          | true => exact absurd rfl (hl 0)
          | false =>
            have := ih (ys := ys) fun i hi => hl (i + 1) (by simpa using hi)
            simpa [compress] using this
    rw [key hall]
    exact List.nil_sublist _
  | b :: ms, b' :: ms', [], _ => by cases b <;> cases b' <;> simp [compress]
  | b :: ms, b' :: ms', x :: xs, h => by
    have ih : (compress ms xs).Sublist (compress ms' xs) := compress_sub fun i hi => by simpa using h (i + 1) (by simpa using hi)
    have h0 := h 0
    cases b <;> cases b'
    · simpa [compress] using ih
    · simpa [compress] using ih.trans (List.sublist_cons_self _ _)
    · simp at h0
    · simpa [compress] using ih

private theorem compress_mem {α : Type} {ms : List Bool} {xs : List α} {x : α} (h : x ∈ compress ms xs) : x ∈ xs := by
  induction ms generalizing xs with
  | nil => simp [compress] at h
  | cons b ms ih =>
    cases xs with
    | nil => cases b <;> simp [compress] at h
    | cons y xs =>
      cases b
      · exact List.mem_cons_of_mem _ (ih (by simpa [compress] using h))
      · rcases (by simpa [compress] using h : x = y ∨ x ∈ compress ms xs) with rfl | h'
        · exact List.mem_cons_self
        · exact List.mem_cons_of_mem _ (ih h')

/-- C145. No pixel of an image gets smaller if rows are added to the mask of the particles. -/
theorem c145_masks {zero : F} {draw : List (Scatter.Part F) → Except Err (ι → F)} (hd : Growing zero draw) (ms ms' : List Bool)
    (hm : ∀ i : Nat, ms[i]? = some true → ms'[i]? = some true) (ps : List (Scatter.Part F)) (hps : ∀ p ∈ ps, zero ≤ p.m) (img img' : ι → F)
    (h : draw (compress ms ps) = .ok img) (h' : draw (compress ms' ps) = .ok img') (q : ι) : img q ≤ img' q :=
  hd.more _ _ _ _ (compress_sub hm) (fun p hp => hps p (compress_mem hp)) h h' q

/-- C145. No pixel gets larger with a further cut, whatever is converted and rounded. -/
theorem c145_further (flx flq : K → K) {zero : F} {draw : List (Scatter.Part F) → Except Err (ι → F)} (hd : Growing zero draw)
    (cuts more : List (Column K × RoundedBounds.Bound K × RoundedBounds.Bound K)) (current : List Bool)
    (hl : ∀ t ∈ cuts ++ more, current.length = t.1.numbers.length) (ps : List (Scatter.Part F)) (hps : ∀ p ∈ ps, zero ≤ p.m) (img img' : ι → F)
    (h : draw (compress (cutAll flx flq (cuts ++ more) current) ps) = .ok img) (h' : draw (compress (cutAll flx flq cuts current) ps) = .ok img')
    (q : ι) : img q ≤ img' q := by
  refine c145_masks hd _ _ (fun i hi => ?_) ps hps img img' h h' q
  unfold cutAll at hi ⊢
  rw [c144_history flx flq _ _ hl] at hi
  rw [c144_history flx flq _ _ fun t ht => hl t (List.mem_append_left _ ht)]
  exact ⟨hi.1, fun t ht => hi.2 t (List.mem_append_left _ ht)⟩

/-- C145. No pixel gets smaller with wider bounds. -/
theorem c145_wider [IsStrictOrderedRing K] (flx flq : K → K) (hfl : ∀ x y, x ≤ y → flq x ≤ flq y) {zero : F}
    {draw : List (Scatter.Part F) → Except Err (ι → F)} (hd : Growing zero draw) (c : Column K) (lower lower' upper upper' : RoundedBounds.Bound K)
    (hlo : BelowBound lower' lower) (hup : BelowBound upper upper') (hp : PositiveBound lower') (hp' : PositiveBound upper) (current : List Bool)
    (hl : current.length = c.numbers.length) (ps : List (Scatter.Part F)) (hps : ∀ p ∈ ps, zero ≤ p.m) (img img' : ι → F)
    (h : draw (compress (RoundedBounds.newMask flx flq c lower upper current) ps) = .ok img)
    (h' : draw (compress (RoundedBounds.newMask flx flq c lower' upper' current) ps) = .ok img') (q : ι) : img q ≤ img' q :=
  c145_masks hd _ _ (fun i hi => c144_wider flx flq hfl c lower lower' upper upper' hlo hup hp hp' current hl i hi) ps hps img img' h h' q

/-- C145. The image after a list of cuts is the same in whatever order they are made and however often, to the last digit and also if it is not drawn
or is not one of masses. -/
theorem c145_order (flx flq : K → K) {β : Type} (draw : List (Scatter.Part F) → β)
    (cuts cuts' : List (Column K × RoundedBounds.Bound K × RoundedBounds.Bound K)) (hc : ∀ t, t ∈ cuts ↔ t ∈ cuts') (current : List Bool)
    (hl : ∀ t ∈ cuts, current.length = t.1.numbers.length) (ps : List (Scatter.Part F)) :
    draw (compress (cutAll flx flq cuts current) ps) = draw (compress (cutAll flx flq cuts' current) ps) := by
  unfold cutAll
  rw [c144_order flx flq cuts cuts' hc current hl]

/-- C145. Bins: each particle between the outer bounds is drawn in exactly one of two neighbouring bins, so the numbers of particles add up. -/
theorem c145_count [IsStrictOrderedRing K] (flx flq : K → K) (hfl : ∀ x y, x ≤ y → flq x ≤ flq y) (c : Column K) (b0 b1 b2 : RoundedBounds.Bound K)
    (h01 : BelowBound b0 b1) (h12 : BelowBound b1 b2) (hp : PositiveBound b0) (current : List Bool) (hl : current.length = c.numbers.length) {α : Type}
    (ps : List α) :
    (compress (RoundedBounds.newMask flx flq c b0 b2 current) ps).Perm
      (compress (RoundedBounds.newMask flx flq c b0 b1 current) ps ++ compress (RoundedBounds.newMask flx flq c b1 b2 current) ps) := by
  have key : ∀ (xs : List α) (m m1 m2 : List Bool), m1.length = m.length → m2.length = m.length →
      (∀ i : Nat, (m[i]? = some true ↔ m1[i]? = some true ∨ m2[i]? = some true) ∧ ¬ (m1[i]? = some true ∧ m2[i]? = some true)) →
      (compress m xs).Perm (compress m1 xs ++ compress m2 xs) := by
    intro xs
    induction xs with
    | nil => intro m m1 m2 _ _ _; cases m <;> cases m1 <;> cases m2 <;> simp [compress]
    | cons x xs ih =>
      intro m m1 m2 h1 h2 h
      match m, m1, m2, h1, h2 with
      | [], [], [], _, _ => simp [compress]
      | b :: m, b1 :: m1, b2 :: m2, h1, h2 =>
        have ht := ih m m1 m2 (by simpa using h1) (by simpa using h2) fun i => by simpa using h (i + 1)
        have h0 := h 0
        cases b <;> cases b1 <;> cases b2 <;> simp at h0
        · simpa [compress] using ht
        · simp only [compress]
          exact (List.Perm.cons x ht).trans List.perm_middle.symm
        · simp only [compress]
          exact List.Perm.cons x ht
  have len : ∀ (l u : RoundedBounds.Bound K), (RoundedBounds.newMask flx flq c l u current).length = current.length := fun l u => by
    unfold RoundedBounds.newMask
    exact maskedAssign_length _ _
  exact key ps _ _ _ (by rw [len, len]) (by rw [len, len]) fun i => c144_bins flx flq hfl c b0 b1 b2 h01 h12 hp current hl i

private def dbl (x : ℚ) : { x : ℚ // nearest 53 (-1074) toEven x = x } := ⟨nearest 53 (-1074) toEven x, Nearest.nearest_twice (by norm_num) c138_toEven x⟩

private def atCentre (m : ℚ) : Scatter.Part { x : ℚ // nearest 53 (-1074) toEven x = x } := ⟨dbl (1 / 2), dbl (1 / 2), dbl 0, dbl m, dbl 0⟩

private def pixel00 (ps : List (Scatter.Part { x : ℚ // nearest 53 (-1074) toEven x = x })) : Option ℚ :=
  (Floating.histogram floats 1 (dbl 0) (dbl 0) ps).toOption.map fun img => (img (0, 0)).1

/-- C145. The images of the bins need not add up to the image between the outer bounds: here the sum of the two images is larger by 2 in units of the
last digit of a large mass. -/
theorem c145_sum_fails :
    let fl := nearest 53 (-1074) toEven
    let c : Column ℚ := ⟨true, 1, [1, 2, 2]⟩
    let ps := [atCentre (2 ^ 53), atCentre 1, atCentre 1]
    let b : ℚ → RoundedBounds.Bound ℚ := fun v => ⟨v, true, 1, none⟩
    pixel00 (compress (RoundedBounds.newMask fl fl c (b 0) (b 2) [true, true, true]) ps) = some (2 ^ 53) ∧
      pixel00 (compress (RoundedBounds.newMask fl fl c (b 0) (b 1) [true, true, true]) ps) = some (2 ^ 53) ∧
      pixel00 (compress (RoundedBounds.newMask fl fl c (b 1) (b 2) [true, true, true]) ps) = some 2 ∧ fl (2 ^ 53 + 2) ≠ 2 ^ 53 := by
  decide +kernel

-- The hypotheses can be met: images in double precision after a physical cut on a comoving field, and after a wider cut.
example :
    let fl := nearest 53 (-1074) toEven
    let a : ℚ := 3152519739159347 / 4503599627370496
    let c : Column ℚ := ⟨true, a, [1, 2, 3]⟩
    let b : ℚ → RoundedBounds.Bound ℚ := fun v => ⟨v, false, a, none⟩
    let ps := [atCentre 5, atCentre (1 / 3), atCentre 7]
    Growing floats.zero (Floating.histogram floats 1 (dbl 0) (dbl 0)) ∧ BelowBound (b 0) (b 1) ∧ BelowBound (b 2) (b 3) ∧ PositiveBound (b 0) ∧
      PositiveBound (b 2) ∧ (∀ p ∈ ps, floats.zero ≤ p.m) ∧
      compress (RoundedBounds.newMask fl fl c (b 1) (b 2) [true, true, true]) ps = [atCentre (1 / 3)] ∧
      compress (RoundedBounds.newMask fl fl c (b 0) (b 3) [true, true, true]) ps = ps ∧
      pixel00 [atCentre (1 / 3)] = some (6004799503160661 / 18014398509481984) ∧
      (pixel00 ps).isSome := by
  refine ⟨c142_histogram c142_floats 1 _ _, ⟨rfl, rfl, rfl, by norm_num⟩, ⟨rfl, rfl, rfl, by norm_num⟩, ⟨by norm_num, fun s h => by simp at h⟩,
    ⟨by norm_num, fun s h => by simp at h⟩, ?_, ?_, ?_, by decide +kernel, by decide +kernel⟩
  · have h0 : floats.zero ≤ dbl 5 ∧ floats.zero ≤ dbl (1 / 3) ∧ floats.zero ≤ dbl 7 := by decide +kernel
    intro p hp
    simp only [List.mem_cons, List.not_mem_nil, or_false] at hp
    rcases hp with rfl | rfl | rfl
    · exact h0.1
    · exact h0.2.1
    · exact h0.2.2
  · have h : RoundedBounds.newMask (nearest 53 (-1074) toEven) (nearest 53 (-1074) toEven)
        (⟨true, 3152519739159347 / 4503599627370496, [1, 2, 3]⟩ : Column ℚ) ⟨1, false, 3152519739159347 / 4503599627370496, none⟩
        ⟨2, false, 3152519739159347 / 4503599627370496, none⟩ [true, true, true] = [false, true, false] := by decide +kernel
    dsimp only
    rw [h]
    rfl
  · have h : RoundedBounds.newMask (nearest 53 (-1074) toEven) (nearest 53 (-1074) toEven)
        (⟨true, 3152519739159347 / 4503599627370496, [1, 2, 3]⟩ : Column ℚ) ⟨0, false, 3152519739159347 / 4503599627370496, none⟩
        ⟨3, false, 3152519739159347 / 4503599627370496, none⟩ [true, true, true] = [true, true, true] := by decide +kernel
    dsimp only
    rw [h]
    rfl

end Verif.Props
