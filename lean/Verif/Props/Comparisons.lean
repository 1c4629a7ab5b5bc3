import Verif.Spec.Comparisons
import Verif.Lemmas.Cosmo

/-!
# C106: comparisons with bare numbers, lists and texts (`swiftsimio/_array_functions.py`)
-/

namespace Verif.Props
open Verif Verif.Spec Verif.Cosmo Verif.Comparisons

private theorem isZero_ok {x : Operand} {z : Bool} (h : x.isZero = .ok z) : (z = true ↔ AllZero x) ∧ ¬ IsSequence x := by
  rcases x with (v | a) | _ | v | _
  · simp only [Operand.isZero, Except.ok.injEq] at h
    subst h
    simp [AllZero, IsSequence, Opd.vals]
  · simp only [Operand.isZero, Except.ok.injEq] at h
    subst h
    simp [AllZero, IsSequence, Opd.vals]
  · simp only [Operand.isZero, Except.ok.injEq] at h
    subst h
    simp [AllZero, IsSequence]
  · simp [Operand.isZero] at h
  · simp [Operand.isZero] at h

private theorem factor_iff (x : Operand) : x.opd?.cf ≠ none ↔ HasFactor x := by
  rcases x with (v | a) | _ | v | _ <;> simp [Operand.opd?, Opd.cf, HasFactor]

/-- C106: what an accepted comparison says about its operands: neither is a list, a tuple or a text, and there is a warning exactly if one
of them has a factor, the other has none, and neither is zero everywhere. -/
theorem c106_warning {β : Type} (num : List (List ℝ) → Except Err β) (x y : Operand) (r : β) (w : Bool)
    (h : compared num x y = .ok (r, w)) :
    ¬ IsSequence x ∧ ¬ IsSequence y ∧
      (w = true ↔ (HasFactor x ∧ ¬ HasFactor y ∨ ¬ HasFactor x ∧ HasFactor y) ∧ ¬ AllZero x ∧ ¬ AllZero y) := by
  unfold compared at h
  split at h
  · simp at h
  split at h
  · simp at h
  rename_i p _ w' hw
  split at h
  · simp at h
  simp only [Except.ok.injEq, Prod.mk.injEq] at h
  obtain ⟨-, rfl⟩ := h
  unfold comparisonFactor at hw
  split at hw
  · simp at hw
  rename_i z hz
  split at hw
  · simp at hw
  rename_i t ht
  obtain ⟨z1, z2⟩ := isZero_ok hz
  obtain ⟨t1, t2⟩ := isZero_ok ht
  refine ⟨z2, t2, ?_⟩
  rw [← z1, ← t1, ← factor_iff, ← factor_iff]
  unfold warns at hw
  cases hc : x.opd?.cf <;> cases hd : y.opd?.cf <;> rw [hc, hd] at hw <;> dsimp only at hw
  · simp only [Except.ok.injEq] at hw; subst hw; simp
  · simp only [Except.ok.injEq] at hw; subst hw; cases z <;> cases t <;> simp
  · simp only [Except.ok.injEq] at hw; subst hw; cases z <;> cases t <;> simp
  · split at hw
    · simp only [Except.ok.injEq] at hw; subst hw; simp
    · simp at hw

/-- C106: between arrays and numbers the comparisons of this model are those of C25 and C26: the ufuncs, and the functions like `np.isin`. -/
theorem c106_refines {β : Type} (num : List (List ℝ) → Except Err (List β)) (f : List ℝ → List ℝ → β) (u : Ufunc)
    (hu : registry u = .comparison) (o p : Opd) :
    (compared num (.opd o) (.opd p)).map Prod.fst = ufuncBool u num [o, p] ∧
      (compared (fun l => match l with | [s, t] => .ok (f s t) | _ => .error .runtime) (.opd o) (.opd p)).map Prod.fst =
        wrapCompare f o p := by
  have hz : ∀ o : Opd, ∃ z, (Operand.opd o).isZero = .ok z := fun o => ⟨_, rfl⟩
  obtain ⟨z, ez⟩ := hz o
  obtain ⟨w, ew⟩ := hz p
  have hcf : comparisonFactor o.cf p.cf (.opd o) (.opd p) = warns o.cf p.cf (z || w) := by
    simp only [comparisonFactor, ez, ew]
  have hwarn : (∃ e, warns o.cf p.cf (z || w) = .error e ∧ without2 o.cf p.cf = .error e) ∨
      ∃ b, warns o.cf p.cf (z || w) = .ok b ∧ without2 o.cf p.cf = .ok none := by
    unfold warns without2
    cases o.cf <;> cases p.cf <;> simp
    split <;> simp_all
  constructor
  · unfold compared ufuncBool
    simp only [Operand.opd?, hcf]
    cases hp : prepare true [o, p] [] with
    | error e => rfl
    | ok q =>
      have hq : q.cfs = [o.cf, p.cf] := by rw [prepare_cfs hp]; rfl
      dsimp only
      rw [hq, hu]
      simp only [handle]
      rcases hwarn with ⟨e, h1, h2⟩ | ⟨b, h1, h2⟩
      · rw [h1, h2]; rfl
      · rw [h1, h2]
        dsimp only
        cases num (q.args.map Opd.vals) <;> rfl
  · unfold compared wrapCompare
    simp only [Operand.opd?, hcf]
    cases hp : prepare true [o, p] [] with
    | error e => rfl
    | ok q =>
      dsimp only
      rcases hwarn with ⟨e, h1, h2⟩ | ⟨b, h1, h2⟩
      · rw [h1, h2]; rfl
      · rw [h1, h2]
        dsimp only
        rcases q.args with _ | ⟨u, _ | ⟨v, _ | ⟨t, l⟩⟩⟩ <;> rfl

private theorem prepare_left (x : Arr) (v : List ℝ) : ∃ p, prepare true [.cosmo x, .plain v] [] = .ok p ∧ p.args = [.cosmo x, .plain v] ∧ p.cfs = [x.cf, none] := by
  obtain ⟨val, c, f, t⟩ := x
  rcases c with _ | _ | _ <;> simp [prepare, flags, Opd.cf]

private theorem prepare_right (x : Arr) (v : List ℝ) : ∃ p, prepare true [.plain v, .cosmo x] [] = .ok p ∧ p.args = [.plain v, .cosmo x] := by
  obtain ⟨val, c, f, t⟩ := x
  rcases c with _ | _ | _ <;> simp [prepare, flags, Opd.cf]

private theorem scaled_zero {v : List ℝ} {s : ℝ} (hs : 0 < s) : (v.map (· * s)).all (fun t => decide (t = 0)) = v.all (fun t => decide (t = 0)) := by
  induction v with
  | nil => rfl
  | cons a l ih => simp only [List.map_cons, List.all_cons, ih, mul_eq_zero, hs.ne', or_false]

private theorem scaled_self {v : List ℝ} {s : ℝ} (h : v.all (fun t => decide (t = 0)) = true) : v.map (· * s) = v := by
  simp only [List.all_eq_true, decide_eq_true_eq] at h
  refine (List.map_congr_left fun t ht => ?_).trans (List.map_id v)
  simp [h t ht]

private theorem zero_map {x : List ℝ} (h : x.all (fun t => decide (t = 0)) = true) : x.map (fun _ => (0 : ℝ)) = x := by
  simp only [List.all_eq_true, decide_eq_true_eq] at h
  refine (List.map_congr_left fun t ht => ?_).trans (List.map_id x)
  simp [h t ht]

private theorem bcast_right {r : ℝ → ℝ → Prop} (hr : SignOnly r) {x v : List ℝ} {s : ℝ} (hs : 0 < s)
    (h : x.all (fun t => decide (t = 0)) = true ∨ v.all (fun t => decide (t = 0)) = true) :
    num2 r [x, v.map (· * s)] = num2 r [x, v] := by
  rcases h with h | h
  · have h1 := bcast2_map (fun _ y => r 0 y) r (fun _ => 0) (· * s) id (fun _ y => propext (hr s y hs).1) x v
    have h2 := bcast2_map (fun _ y => r 0 y) r (fun _ => 0) id id (fun _ y => rfl) x v
    rw [zero_map h] at h1 h2
    rw [List.map_id] at h2
    exact h1.trans h2.symm
  · rw [scaled_self h]

private theorem bcast_left {r : ℝ → ℝ → Prop} (hr : SignOnly r) {x v : List ℝ} {s : ℝ} (hs : 0 < s)
    (h : v.all (fun t => decide (t = 0)) = true ∨ x.all (fun t => decide (t = 0)) = true) :
    num2 r [v.map (· * s), x] = num2 r [v, x] := by
  rcases h with h | h
  · rw [scaled_self h]
  · have h1 := bcast2_map (fun y _ => r y 0) r (· * s) (fun _ => 0) id (fun y _ => propext (hr s y hs).2) v x
    have h2 := bcast2_map (fun y _ => r y 0) r id (fun _ => 0) id (fun y _ => rfl) v x
    rw [zero_map h] at h1 h2
    rw [List.map_id] at h2
    exact h1.trans h2.symm

/-- C106: a comparison between an array with a factor and bare numbers that is made without a warning does not depend on the frame or the
scale that the bare numbers are meant in: the same numbers times any positive number give the same answer. -/
theorem c106_silent {r : ℝ → ℝ → Prop} (hr : SignOnly r) (x : Arr) (hx : x.cf ≠ none) (v : List ℝ) (s : ℝ) (hs : 0 < s) :
    (∀ q, compared (num2 r) (.opd (.cosmo x)) (.opd (.plain v)) = .ok (q, false) →
      compared (num2 r) (.opd (.cosmo x)) (.opd (.plain (v.map (· * s)))) = .ok (q, false)) ∧
    (∀ q, compared (num2 r) (.opd (.plain v)) (.opd (.cosmo x)) = .ok (q, false) →
      compared (num2 r) (.opd (.plain (v.map (· * s)))) (.opd (.cosmo x)) = .ok (q, false)) := by
  obtain ⟨g, hg⟩ := Option.ne_none_iff_exists'.1 hx
  have zs : ∀ u : List ℝ, (Operand.opd (.plain u)).isZero = .ok (u.all fun t => decide (t = 0)) := fun u => rfl
  have zx : (Operand.opd (.cosmo x)).isZero = .ok (x.val.all fun t => decide (t = 0)) := rfl
  constructor
  · intro q h
    obtain ⟨p, hp, ha, -⟩ := prepare_left x v
    obtain ⟨p', hp', ha', -⟩ := prepare_left x (v.map (· * s))
    simp only [compared, comparisonFactor, warns, Operand.opd?, Opd.cf, hp, hp', ha, ha', hg, zs, zx, scaled_zero hs, List.map_cons, List.map_nil,
      Opd.vals] at h ⊢
    have hz : x.val.all (fun t => decide (t = 0)) = true ∨ v.all (fun t => decide (t = 0)) = true := by
      rw [← Bool.or_eq_true]
      cases hn : num2 r [x.val, v] with
      | error e => rw [hn] at h; simp at h
      | ok w => rw [hn] at h; simp only [Except.ok.injEq, Prod.mk.injEq, Bool.not_eq_false'] at h; exact h.2
    rw [bcast_right hr hs hz]
    exact h
  · intro q h
    obtain ⟨p, hp, ha⟩ := prepare_right x v
    obtain ⟨p', hp', ha'⟩ := prepare_right x (v.map (· * s))
    simp only [compared, comparisonFactor, warns, Operand.opd?, Opd.cf, hp, hp', ha, ha', hg, zs, zx, scaled_zero hs, List.map_cons, List.map_nil,
      Opd.vals] at h ⊢
    have hz : v.all (fun t => decide (t = 0)) = true ∨ x.val.all (fun t => decide (t = 0)) = true := by
      rw [← Bool.or_eq_true]
      cases hn : num2 r [v, x.val] with
      | error e => rw [hn] at h; simp at h
      | ok w => rw [hn] at h; simp only [Except.ok.injEq, Prod.mk.injEq, Bool.not_eq_false'] at h; exact h.2
    rw [bcast_left hr hs hz]
    exact h

/-- C106, negation: an array can be added to a list of as many numbers and cannot be compared with it, by no comparison and
whatever the numbers are; `np.isin(identifiers, [1, 2])` and `x == "text"` raise AttributeError as well. -/
theorem c106_lists_fails {β : Type} (num : List (List ℝ) → Except Err β) (x : Arr) (v : List ℝ) :
    compared num (.opd (.cosmo x)) (.sequence v) = .error .attribute ∧
    compared num (.sequence v) (.opd (.cosmo x)) = .error .attribute ∧
    compared num (.opd (.cosmo x)) .text = .error .attribute ∧
    (x.val.length = v.length → ∃ z, ufunc .add (num2 (· + ·)) [.cosmo x, .plain v] = .ok z ∧ z.val = List.zipWith (· + ·) x.val v) := by
  obtain ⟨p, hp, ha, hc⟩ := prepare_left x v
  obtain ⟨p', hp', -, -⟩ := prepare_left x []
  obtain ⟨p'', hp'', -⟩ := prepare_right x v
  refine ⟨?_, ?_, ?_, ?_⟩
  · simp only [compared, Operand.opd?, hp, comparisonFactor, Operand.isZero]
  · simp only [compared, Operand.opd?, hp'', comparisonFactor, Operand.isZero]
  · simp only [compared, Operand.opd?, hp', comparisonFactor, Operand.isZero]
  · intro hl
    have hh : ∃ c, handle (registry .add) p.cfs [.cosmo x, .plain v] = .ok c := by
      rw [hc]
      cases hx : x.cf <;> simp [registry, handle, reduce1, preserve2, pure, Except.pure, List.foldlM, bind, Except.bind]
    obtain ⟨c, hh⟩ := hh
    refine ⟨⟨List.zipWith (· + ·) x.val v, p.comoving, c, p.vt⟩, ?_, rfl⟩
    simp only [ufunc, hp, hh, ha, List.map_cons, List.map_nil, Opd.vals, num2, bcast2, hl, if_true]

/-- C106: the six comparisons and the logical functions depend on signs only where one side is zero, so that `c106_silent` is about all
of them. -/
theorem c106_relations : SignOnly (· < ·) ∧ SignOnly (· ≤ ·) ∧ SignOnly (· > ·) ∧ SignOnly (· ≥ ·) ∧ SignOnly (· = ·) ∧ SignOnly (· ≠ ·) ∧
    SignOnly (fun u v => u ≠ 0 ∧ v ≠ 0) ∧ SignOnly (fun u v => u ≠ 0 ∨ v ≠ 0) ∧ SignOnly (fun u v => Xor' (u ≠ 0) (v ≠ 0)) := by
  have hneg : ∀ s v : ℝ, 0 < s → (v * s < 0 ↔ v < 0) := fun s v hs => by
    rw [← not_le, ← not_le, mul_nonneg_iff_of_pos_right hs]
  have hnp : ∀ s v : ℝ, 0 < s → (v * s ≤ 0 ↔ v ≤ 0) := fun s v hs => by
    rw [← not_lt, ← not_lt, mul_pos_iff_of_pos_right hs]
  refine ⟨fun s v hs => ⟨?_, ?_⟩, fun s v hs => ⟨?_, ?_⟩, fun s v hs => ⟨?_, ?_⟩, fun s v hs => ⟨?_, ?_⟩, fun s v hs => ⟨?_, ?_⟩,
    fun s v hs => ⟨?_, ?_⟩, fun s v hs => ⟨?_, ?_⟩, fun s v hs => ⟨?_, ?_⟩, fun s v hs => ⟨?_, ?_⟩⟩
  · exact mul_pos_iff_of_pos_right hs
  · exact hneg s v hs
  · exact mul_nonneg_iff_of_pos_right hs
  · exact hnp s v hs
  · exact hneg s v hs
  · exact mul_pos_iff_of_pos_right hs
  · exact hnp s v hs
  · exact mul_nonneg_iff_of_pos_right hs
  all_goals simp [eq_comm, hs.ne']

/-- Two lengths at scale factor one half. -/
private noncomputable def halves : Arr := ⟨[1, 2], some true, some ⟨some 1, some (1 / 2)⟩, true⟩

/-- `x > [1, 3]` with a list raises; the same numbers in an array are compared with a warning. -/
example : compared (num2 (· > ·)) (.opd (.cosmo halves)) (.sequence [1, 3]) = .error .attribute :=
  (c106_lists_fails _ halves [1, 3]).1

private theorem halves_compared : compared (num2 (· < ·)) (.opd (.cosmo halves)) (.opd (.plain [1, 3])) = .ok ([(1 : ℝ) < 1, (2 : ℝ) < 3], true) := by
  simp [compared, prepare, flags, Operand.opd?, halves, comparisonFactor, Operand.isZero, Opd.vals, Opd.cf, warns, num2, bcast2]

example : ¬ AllZero (.opd (.plain [1, 3])) := ((c106_warning _ _ _ _ _ halves_compared).2.2.1 rfl).2.2

/-- `x > 0` is silent and holds whatever the units of the zero. -/
example : ∃ q, compared (num2 (· > ·)) (.opd (.cosmo halves)) (.opd (.plain [0])) = .ok (q, false) ∧
    compared (num2 (· > ·)) (.opd (.cosmo halves)) (.opd (.plain ([0].map (· * 5)))) = .ok (q, false) := by
  have h : compared (num2 (· > ·)) (.opd (.cosmo halves)) (.opd (.plain [0])) = .ok ([(1 : ℝ) > 0, (2 : ℝ) > 0], false) := by
    simp [compared, prepare, flags, Operand.opd?, halves, comparisonFactor, Operand.isZero, Opd.vals, Opd.cf, warns, num2, bcast2]
  exact ⟨_, h, (c106_silent c106_relations.2.2.1 halves (by simp [halves]) [0] 5 (by norm_num)).1 _ h⟩

/-- C106. The object `False` has the result of the number zero, on either side. Against an array with a factor that is not all zero
there is a warning for `False` and none for zero. -/
theorem c106_false {β : Type} (num : List (List ℝ) → Except Err β) (x : Arr) :
    (compared num (.opd (.cosmo x)) .false).map Prod.fst = (compared num (.opd (.cosmo x)) (.opd (.plain [0]))).map Prod.fst ∧
    (compared num .false (.opd (.cosmo x))).map Prod.fst = (compared num (.opd (.plain [0])) (.opd (.cosmo x))).map Prod.fst ∧
    (x.cf ≠ none → (∃ t ∈ x.val, t ≠ 0) → ∀ q w, compared num (.opd (.cosmo x)) .false = .ok (q, w) →
      w = true ∧ compared num (.opd (.cosmo x)) (.opd (.plain [0])) = .ok (q, false)) := by
  obtain ⟨p, hp, ha, -⟩ := prepare_left x [0]
  obtain ⟨p', hp', ha'⟩ := prepare_right x [0]
  have z0 : (Operand.opd (.plain [0])).isZero = .ok true := by simp [Operand.isZero, Opd.vals]
  have zf : Operand.false.isZero = .ok false := rfl
  have zx : (Operand.opd (.cosmo x)).isZero = .ok (x.val.all fun t => decide (t = 0)) := rfl
  have of : Operand.false.opd? = .plain [0] := rfl
  have o0 : (Operand.opd (.plain [0])).opd? = .plain [0] := rfl
  have ox : (Operand.opd (.cosmo x)).opd? = .cosmo x := rfl
  refine ⟨?_, ?_, ?_⟩
  · unfold compared comparisonFactor
    rw [of, o0, ox, hp, z0, zf, zx]
    dsimp only [Opd.cf]
    cases x.cf with
    | none => simp only [warns]
    | some f => simp only [warns]; cases num (p.args.map Opd.vals) <;> rfl
  · unfold compared comparisonFactor
    rw [of, o0, ox, hp', z0, zf, zx]
    dsimp only [Opd.cf]
    cases x.cf with
    | none => simp only [warns]
    | some f => simp only [warns]; cases num (p'.args.map Opd.vals) <;> rfl
  · intro hc ⟨t, ht, hne⟩ q w h
    have hz : (x.val.all fun t => decide (t = 0)) = false := by
      rw [List.all_eq_false]
      exact ⟨t, ht, by simpa using hne⟩
    obtain ⟨f, hf⟩ := Option.ne_none_iff_exists'.1 hc
    unfold compared comparisonFactor at h ⊢
    rw [of, ox, hp, zf, zx, hz] at h
    rw [o0, ox, hp, z0, zx, hz]
    dsimp only [Opd.cf] at h ⊢
    rw [hf] at h ⊢
    simp only [warns] at h ⊢
    cases hn : num (p.args.map Opd.vals) with
    | error e => rw [hn] at h; cases h
    | ok r =>
      rw [hn] at h
      simp only [Except.ok.injEq, Prod.mk.injEq] at h
      simp only [Bool.or_true, Bool.not_true, Except.ok.injEq, Prod.mk.injEq]
      exact ⟨by rw [← h.2]; rfl, h.1, trivial⟩

/-- `x > False` is `x > 0` with a warning. -/
example : compared (num2 (· > ·)) (.opd (.cosmo halves)) .false = .ok ([(1 : ℝ) > 0, (2 : ℝ) > 0], true) := by
  simp [compared, prepare, flags, Operand.opd?, halves, comparisonFactor, Operand.isZero, Opd.vals, Opd.cf, warns, num2, bcast2]

end Verif.Props
