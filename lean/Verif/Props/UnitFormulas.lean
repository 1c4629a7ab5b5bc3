import Verif.Spec.UnitFormulas
import Verif.Props.Formulas

/-!
# Formulas of arrays with units in any frames (C125)
-/

namespace Verif.Props
open Verif Verif.Cosmo Verif.Formulas Verif.Spec Verif.UnitFormulas

variable {D : Type} [AddCommGroup D] [Module ℝ D]

/-- The array with all numbers multiplied by `s`. -/
private def scaleArr (s : ℝ) (x : Arr) : Arr := { x with val := x.val.map (· * s) }

/-- The value with all numbers multiplied by `s`. -/
private def scaleOpd (s : ℝ) : Opd → Opd
  | .plain v => .plain (v.map (· * s))
  | .cosmo x => .cosmo (scaleArr s x)

/-- Operands with their factors. -/
private def scaleAll (l : List (ℝ × Opd)) : List Opd := l.map (fun q => scaleOpd q.1 q.2)

private theorem scaled_flags (l : List (ℝ × Opd)) : flags (scaleAll l) = flags (l.map Prod.snd) := by
  induction l with
  | nil => rfl
  | cons q l ih =>
    obtain ⟨s, o⟩ := q
    cases o with
    | plain v => exact ih
    | cosmo x => exact congrArg (x.comoving :: ·) ih

private theorem scaled_fixed (l : List (ℝ × Opd)) : anyFixed (scaleAll l) = anyFixed (l.map Prod.snd) := by
  induction l with
  | nil => rfl
  | cons q l ih =>
    obtain ⟨s, o⟩ := q
    cases o with
    | plain v => exact ih
    | cosmo x => exact congrArg (!x.vt || ·) ih

private theorem scaled_cf (s : ℝ) (o : Opd) : (scaleOpd s o).cf = o.cf := by cases o <;> rfl

private theorem scaled_vt (s : ℝ) (o : Opd) : (scaleOpd s o).vt = o.vt := by cases o <;> rfl

private theorem scaled_vals (s : ℝ) (o : Opd) : (scaleOpd s o).vals = o.vals.map (· * s) := by cases o <;> rfl

private theorem scaled_toComoving (s : ℝ) (x : Arr) : (scaleArr s x).toComoving = x.toComoving.map (scaleArr s) := by
  unfold Arr.toComoving Arr.convertToComoving
  have hf : (scaleArr s x).factor = x.factor := rfl
  rw [hf]
  simp only [show (scaleArr s x).vt = x.vt from rfl, show (scaleArr s x).comoving = x.comoving from rfl]
  split_ifs
  · rfl
  · rfl
  · rfl
  · cases x.factor with
    | error e => rfl
    | ok r =>
      simp only [Except.map, scaleArr, List.map_map]
      congr 2
      refine List.map_congr_left (fun v _ => ?_)
      simp only [Function.comp]
      ring

private theorem scaled_toPhysical (s : ℝ) (x : Arr) : (scaleArr s x).toPhysical = x.toPhysical.map (scaleArr s) := by
  unfold Arr.toPhysical Arr.convertToPhysical
  have hf : (scaleArr s x).factor = x.factor := rfl
  rw [hf]
  simp only [show (scaleArr s x).vt = x.vt from rfl, show (scaleArr s x).comoving = x.comoving from rfl]
  split_ifs
  · rfl
  · cases x.comoving with
    | none => rfl
    | some b => cases b with
      | false => rfl
      | true => cases x.factor with
        | error e => rfl
        | ok r =>
          simp only [Except.map, scaleArr, List.map_map]
          congr 2
          refine List.map_congr_left (fun v _ => ?_)
          simp only [Function.comp]
          ring

/-- Scale the operands of a list. -/
private def zipScale (l : List (ℝ × Opd)) (r : List Opd) : List Opd := List.zipWith (fun q o => scaleOpd q.1 o) l r

private theorem scaled_allComoving (l : List (ℝ × Opd)) :
    allToComoving (scaleAll l) = (allToComoving (l.map Prod.snd)).map (zipScale l) := by
  induction l with
  | nil => rfl
  | cons q l ih =>
    obtain ⟨s, o⟩ := q
    cases o with
    | plain v =>
      change (allToComoving (scaleAll l)).map _ = ((allToComoving (l.map Prod.snd)).map _).map _
      rw [ih]
      cases allToComoving (l.map Prod.snd) <;> rfl
    | cosmo x =>
      change (if x.comoving = some true then (allToComoving (scaleAll l)).map _ else match (scaleArr s x).toComoving with
        | .error e => .error e
        | .ok y => (allToComoving (scaleAll l)).map (fun r => .cosmo y :: r)) = (if x.comoving = some true then (allToComoving (l.map Prod.snd)).map _ else match x.toComoving with
        | .error e => .error e
        | .ok y => (allToComoving (l.map Prod.snd)).map (fun r => .cosmo y :: r)).map _
      rw [ih, scaled_toComoving]
      split_ifs
      · cases allToComoving (l.map Prod.snd) <;> rfl
      · cases x.toComoving with
        | error e => rfl
        | ok y => cases allToComoving (l.map Prod.snd) <;> rfl

private theorem scaled_allPhysical (l : List (ℝ × Opd)) :
    allToPhysical (scaleAll l) = (allToPhysical (l.map Prod.snd)).map (zipScale l) := by
  induction l with
  | nil => rfl
  | cons q l ih =>
    obtain ⟨s, o⟩ := q
    cases o with
    | plain v =>
      change (allToPhysical (scaleAll l)).map _ = ((allToPhysical (l.map Prod.snd)).map _).map _
      rw [ih]
      cases allToPhysical (l.map Prod.snd) <;> rfl
    | cosmo x =>
      change (if x.comoving = some true then (allToPhysical (scaleAll l)).map _ else match (scaleArr s x).toPhysical with
        | .error e => .error e
        | .ok y => (allToPhysical (scaleAll l)).map (fun r => .cosmo y :: r)) = (if x.comoving = some true then (allToPhysical (l.map Prod.snd)).map _ else match x.toPhysical with
        | .error e => .error e
        | .ok y => (allToPhysical (l.map Prod.snd)).map (fun r => .cosmo y :: r)).map _
      rw [ih, scaled_toPhysical]
      split_ifs
      · cases allToPhysical (l.map Prod.snd) <;> rfl
      · cases x.toPhysical with
        | error e => rfl
        | ok y => cases allToPhysical (l.map Prod.snd) <;> rfl

private theorem zipScale_self (l : List (ℝ × Opd)) : zipScale l (l.map Prod.snd) = scaleAll l := by
  induction l with
  | nil => rfl
  | cons q l ih => exact congrArg (scaleOpd q.1 q.2 :: ·) ih

/-- Factors of the numbers do not matter for the frames. -/
private theorem scaled_prepare (l : List (ℝ × Opd)) : prepare true (scaleAll l) [] =
    (prepare true (l.map Prod.snd) []).map (fun p => { p with args := zipScale l p.args }) := by
  have h1 : (scaleAll l).map Opd.cf = (l.map Prod.snd).map Opd.cf := by simp [scaleAll, scaled_cf]
  have h2 : (scaleAll l).map Opd.vt = (l.map Prod.snd).map Opd.vt := by simp [scaleAll, scaled_vt]
  unfold prepare
  simp only [scaled_flags, scaled_fixed, scaled_allComoving, scaled_allPhysical, h1, h2]
  split_ifs
  · simp only [Except.map, zipScale_self]
  · simp only [Except.map, zipScale_self]
  · simp only [Except.map, zipScale_self]
  · rfl
  · simp only [Except.map, zipScale_self]
  · cases allToComoving (l.map Prod.snd) <;> rfl
  · cases allToPhysical (l.map Prod.snd) <;> rfl

private theorem prepared_length {l : List Opd} {p : Prepared} (h : prepare true l [] = .ok p) : p.args.length = l.length := by
  have hc : ∀ (l r : List Opd), allToComoving l = .ok r → r.length = l.length := by
    intro l
    induction l with
    | nil => rintro r h; cases h; rfl
    | cons o l ih =>
      rintro r h
      cases o with
      | plain v =>
        simp only [allToComoving] at h
        cases e : allToComoving l with
        | error e' => rw [e] at h; cases h
        | ok r' => rw [e] at h; cases h; simp [ih r' e]
      | cosmo x =>
        simp only [allToComoving] at h
        cases e : allToComoving l with
        | error e' =>
          rw [e] at h
          split_ifs at h
          · cases h
          · cases e2 : x.toComoving <;> rw [e2] at h <;> cases h
        | ok r' =>
          rw [e] at h
          split_ifs at h
          · cases h; simp [ih r' e]
          · cases e2 : x.toComoving with
            | error e' => rw [e2] at h; cases h
            | ok y => rw [e2] at h; cases h; simp [ih r' e]
  have hp : ∀ (l r : List Opd), allToPhysical l = .ok r → r.length = l.length := by
    intro l
    induction l with
    | nil => rintro r h; cases h; rfl
    | cons o l ih =>
      rintro r h
      cases o with
      | plain v =>
        simp only [allToPhysical] at h
        cases e : allToPhysical l with
        | error e' => rw [e] at h; cases h
        | ok r' => rw [e] at h; cases h; simp [ih r' e]
      | cosmo x =>
        simp only [allToPhysical] at h
        cases e : allToPhysical l with
        | error e' =>
          rw [e] at h
          split_ifs at h
          · cases h
          · cases e2 : x.toPhysical <;> rw [e2] at h <;> cases h
        | ok r' =>
          rw [e] at h
          split_ifs at h
          · cases h; simp [ih r' e]
          · cases e2 : x.toPhysical with
            | error e' => rw [e2] at h; cases h
            | ok y => rw [e2] at h; cases h; simp [ih r' e]
  unfold prepare at h
  dsimp only at h
  split_ifs at h
  · cases h; rfl
  · cases h; rfl
  · cases h; rfl
  · cases h; rfl
  · cases e : allToComoving l with
    | error e' => rw [e] at h; cases h
    | ok r => rw [e] at h; cases h; exact hc l r e
  · cases e : allToPhysical l with
    | error e' => rw [e] at h; cases h
    | ok r => rw [e] at h; cases h; exact hp l r e

/-- A ufunc with units gives the numbers of the ufunc of the amounts. -/
private theorem scaled_ufunc {u : Ufunc} {num : List (List ℝ) → Except Err (List ℝ)} {numU : List (List ℝ) → Except Err (List ℝ × U D)}
    (l : List (ℝ × Opd))
    (hh : ∀ cfs, handle (registry u) cfs (scaleAll l) = handle (registry u) cfs (l.map Prod.snd))
    (hn : ∀ r : List (List ℝ), r.length = l.length → num (List.zipWith (fun q v => v.map (· * q.1)) l r) = (numU r).map (fun w => w.1.map (· * w.2.size))) :
    ufunc u num (scaleAll l) = (ufuncUnits u numU (l.map Prod.snd)).map (fun z => scaleArr z.2.size z.1) := by
  unfold ufunc ufuncUnits
  rw [scaled_prepare]
  cases e : prepare true (l.map Prod.snd) [] with
  | error e' => rfl
  | ok p =>
    simp only [Except.map]
    rw [hh]
    cases handle (registry u) p.cfs (l.map Prod.snd) with
    | error e' => rfl
    | ok c =>
      dsimp only
      have hlen := prepared_length e
      have hv : (zipScale l p.args).map Opd.vals = List.zipWith (fun q v => v.map (· * q.1)) l (p.args.map Opd.vals) := by
        rw [zipScale, List.map_zipWith, List.zipWith_map_right]
        simp only [scaled_vals]
      rw [hv, hn _ (by simpa using hlen)]
      cases numU (p.args.map Opd.vals) <;> rfl

private theorem handle_inputs {h : Handler} (hp : h ≠ .power) (cfs : List (Option CF)) (i j : List Opd) : handle h cfs i = handle h cfs j := by
  cases h with
  | power => exact absurd rfl hp
  | _ => rcases cfs with _ | ⟨c, _ | ⟨d, _ | ⟨e, l⟩⟩⟩ <;> rfl

private theorem bin_power (f : Bin) : registry f.ufunc ≠ .power := by cases f <;> decide

private theorem un_power (f : Un) : registry f.ufunc ≠ .power := by cases f <;> decide

/-- Operations on amounts of the same dimensions. -/
private theorem like_hom {f : Bin} (hf : f ∉ [Bin.multiply, .divide]) {c : ℝ} (hc : 0 < c) (u v : ℝ) : f.fn (u * c) (v * c) = f.fn u v * c := by
  cases f with
  | multiply => exact absurd (by simp) hf
  | divide => exact absurd (by simp) hf
  | add => exact (add_mul u v _).symm
  | subtract => exact (sub_mul u v _).symm
  | maximum => exact (max_mul_of_nonneg u v hc.le).symm
  | minimum => exact (min_mul_of_nonneg u v hc.le).symm
  | fmax => exact (max_mul_of_nonneg u v hc.le).symm
  | fmin => exact (min_mul_of_nonneg u v hc.le).symm
  | hypot =>
    simp only [Bin.fn]
    rw [show u * c * (u * c) + v * c * (v * c) = (u * u + v * v) * (c * c) by ring, Real.sqrt_mul' _ (mul_self_nonneg _), Real.sqrt_mul_self hc.le]
  | remainder =>
    simp only [Bin.fn]
    rw [mul_div_mul_right _ _ hc.ne']
    ring

private theorem zeros_scale {x : List ℝ} (h : ∀ t ∈ x, t = 0) (s t : ℝ) : x.map (· * s) = x.map (· * t) :=
  List.map_congr_left (fun v hv => by rw [h v hv, zero_mul, zero_mul])

private theorem map_pair {α β γ : Type} (x : Except Err α) (b : β) (g : α × β → γ) : (x.map (·, b)).map g = x.map (fun w => g (w, b)) := by
  cases x <;> rfl

private theorem law_like {f : Bin} (hf : f ∉ [Bin.multiply, .divide]) {u v : U D} (hu : 0 < u.size) (hv : 0 < v.size) (hd : u.dim = v.dim)
    (x y : List ℝ) :
    num2 f.fn [x.map (· * u.size), y.map (· * v.size)] = (likeUnits f.fn u v [x, y]).map (fun w => w.1.map (· * w.2.size)) ∧
      ∀ w, likeUnits f.fn u v [x, y] = .ok w → 0 < w.2.size ∧ w.2.dim = u.dim := by
  have key : ∀ (c : U D) (y' : List ℝ), 0 < c.size → c.dim = u.dim → x.map (· * u.size) = x.map (· * c.size) →
      y.map (· * v.size) = y'.map (· * c.size) →
      num2 f.fn [x.map (· * u.size), y.map (· * v.size)] = ((bcast2 f.fn x y').map (·, c)).map (fun w => w.1.map (· * w.2.size)) ∧
      ∀ w, (bcast2 f.fn x y').map (·, c) = .ok w → 0 < w.2.size ∧ w.2.dim = u.dim := by
    intro c y' hc hcd e1 e2
    constructor
    · rw [map_pair]
      simp only [num2]
      rw [e1, e2]
      exact bcast2_map f.fn f.fn _ _ _ (fun p q => like_hom hf hc p q) x y'
    · intro w hw
      cases e : bcast2 f.fn x y' with
      | error e' => rw [e] at hw; cases hw
      | ok r => rw [e] at hw; cases hw; exact ⟨hc, hcd⟩
  unfold likeUnits
  dsimp only
  split_ifs with h1 h2 h3 h4
  · subst h1; exact key u y hu rfl rfl rfl
  · exact key v y hv hd.symm (zeros_scale h2 _ _) rfl
  · exact key u y hu rfl rfl (zeros_scale h3 _ _)
  · exact absurd hd h4
  · refine key u _ hu rfl rfl ?_
    rw [List.map_map]
    refine List.map_congr_left (fun t _ => ?_)
    simp only [Function.comp]
    rw [mul_assoc, div_mul_cancel₀ _ hu.ne']

private theorem law_mul {u v : U D} (hu : 0 < u.size) (hv : 0 < v.size) (x y : List ℝ) :
    num2 Bin.multiply.fn [x.map (· * u.size), y.map (· * v.size)] = (mulUnits u v [x, y]).map (fun w => w.1.map (· * w.2.size)) ∧
      ∀ w, mulUnits u v [x, y] = .ok w → 0 < w.2.size ∧ w.2.dim = u.dim + v.dim := by
  simp only [mulUnits, num2, Bin.fn, map_pair]
  constructor
  · exact bcast2_map _ _ _ _ _ (fun p q => by simp only [U.mul]; ring) x y
  · intro w hw
    cases e : bcast2 (fun p q : ℝ => p * q) x y with
    | error e' => rw [e] at hw; cases hw
    | ok r => rw [e] at hw; cases hw; exact ⟨mul_pos hu hv, rfl⟩

private theorem law_div {u v : U D} (hu : 0 < u.size) (hv : 0 < v.size) (x y : List ℝ) :
    num2 Bin.divide.fn [x.map (· * u.size), y.map (· * v.size)] = (divUnits u v [x, y]).map (fun w => w.1.map (· * w.2.size)) ∧
      ∀ w, divUnits u v [x, y] = .ok w → 0 < w.2.size ∧ w.2.dim = u.dim - v.dim := by
  have hb := bcast2_map (fun p q : ℝ => p / q) (fun p q : ℝ => p / q) (· * u.size) (· * v.size) (· * (u.size / v.size))
    (fun p q => by rw [mul_div_mul_comm]) x y
  unfold divUnits
  dsimp only [num2, Bin.fn]
  rw [hb]
  split_ifs with h1
  · constructor
    · cases bcast2 (fun p q : ℝ => p / q) x y with
      | error e => rfl
      | ok r => simp [Except.map, U.one]
    · intro w hw
      cases e : bcast2 (fun p q : ℝ => p / q) x y with
      | error e' => rw [e] at hw; cases hw
      | ok r => rw [e] at hw; cases hw; exact ⟨one_pos, by simp [U.one, h1.1]⟩
  · constructor
    · rw [map_pair]
      rfl
    · intro w hw
      cases e : bcast2 (fun p q : ℝ => p / q) x y with
      | error e' => rw [e] at hw; cases hw
      | ok r => rw [e] at hw; cases hw; exact ⟨div_pos hu hv, rfl⟩

private theorem law_one (f : Un) {u : U D} (hu : 0 < u.size) (t : ℝ) : f.fn (t * u.size) = f.fn t * (unit1 f u).size := by
  cases f with
  | negative => exact (neg_mul t _).symm
  | absolute => simp only [Un.fn, unit1, abs_mul, abs_of_pos hu]
  | sqrt =>
    simp only [Un.fn, unit1, U.pow]
    rw [Real.sqrt_mul' t hu.le, Real.sqrt_eq_rpow u.size]
  | square =>
    simp only [Un.fn, unit1, U.pow]
    rw [Real.rpow_two]
    ring
  | cbrt =>
    simp only [Un.fn, unit1, U.pow]
    by_cases h : 0 ≤ t
    · rw [if_pos h, if_pos (mul_nonneg h hu.le), Real.mul_rpow h hu.le]
    · rw [if_neg h, if_neg (by rw [not_le]; exact mul_neg_of_neg_of_pos (not_le.1 h) hu), ← neg_mul, Real.mul_rpow (by linarith) hu.le, neg_mul]
  | reciprocal =>
    simp only [Un.fn, unit1, U.pow]
    rw [Real.rpow_neg_one, one_div, one_div, mul_inv]

private theorem unit1_pos (f : Un) {u : U D} (hu : 0 < u.size) : 0 < (unit1 f u).size := by
  cases f <;> first | exact hu | exact Real.rpow_pos_of_pos hu _

/-- The value as an array of amounts. -/
private def toBase (r : Val D) : Opd := scaleOpd r.2.size r.1

/-- What is known of a value: its unit has a positive size and the right dimensions; bare numbers have none. -/
private def Good (d : D) (b : Prop) (r : Val D) : Prop := 0 < r.2.size ∧ r.2.dim = d ∧ ((∃ v, r.1 = .plain v) → r.2 = U.one) ∧ ((∃ v, r.1 = .plain v) ↔ b)

private theorem good_cosmo {d : D} {b : Prop} {x : Arr} {u : U D} (hu : 0 < u.size) (hd : u.dim = d) (hb : ¬ b) : Good d b (.cosmo x, u) :=
  ⟨hu, hd, fun ⟨v, h⟩ => (by cases h), ⟨fun ⟨v, h⟩ => (by cases h), fun h => absurd h hb⟩⟩

private theorem scale_one (v : List ℝ) : v.map (· * (1 : ℝ)) = v := by simp

private theorem sim2 {f : Bin} {c d e : D} {b b' : Prop} {x y : Val D} (hx : Good c b x) (hy : Good d b' y)
    (hplain : c = 0 → d = 0 → e = 0)
    (law : ∀ p q : List ℝ, num2 f.fn [p.map (· * x.2.size), q.map (· * y.2.size)] = (units2 f x.2 y.2 [p, q]).map (fun w => w.1.map (· * w.2.size)) ∧
      ∀ w, units2 f x.2 y.2 [p, q] = .ok w → 0 < w.2.size ∧ w.2.dim = e) :
    apply2 f (toBase x) (toBase y) = (apply2U f x y).map toBase ∧ ∀ r, apply2U f x y = .ok r → Good e (b ∧ b') r := by
  obtain ⟨o, u⟩ := x
  obtain ⟨p, v⟩ := y
  obtain ⟨hu, hc, hxp, hxb⟩ := hx
  obtain ⟨hv, hd, hyp, hyb⟩ := hy
  dsimp only at hu hv hc hd law hxp hyp hxb hyb
  have main : ¬ (b ∧ b') → (ufunc f.ufunc (num2 f.fn) [scaleOpd u.size o, scaleOpd v.size p]).map Opd.cosmo =
        ((ufuncUnits f.ufunc (units2 f u v) [o, p]).map (fun z => ((.cosmo z.1, z.2) : Val D))).map toBase ∧
      ∀ r, (ufuncUnits f.ufunc (units2 f u v) [o, p]).map (fun z => ((.cosmo z.1, z.2) : Val D)) = .ok r → Good e (b ∧ b') r := by
    intro hb
    have h := scaled_ufunc (u := f.ufunc) (num := num2 f.fn) (numU := units2 f u v) [(u.size, o), (v.size, p)]
      (fun cfs => handle_inputs (bin_power f) cfs _ _) (by
        intro r hr
        match r, hr with
        | [q, q'], _ => exact (law q q').1)
    constructor
    · change (ufunc f.ufunc (num2 f.fn) (scaleAll [(u.size, o), (v.size, p)])).map Opd.cosmo = _
      rw [h]
      change ((ufuncUnits f.ufunc (units2 f u v) [o, p]).map _).map _ = _
      cases ufuncUnits f.ufunc (units2 f u v) [o, p] <;> rfl
    · intro r hr
      cases hz : ufuncUnits f.ufunc (units2 f u v) [o, p] with
      | error e' => rw [hz] at hr; cases hr
      | ok z =>
        rw [hz] at hr
        cases hr
        unfold ufuncUnits at hz
        cases hp : prepare true [o, p] [] with
        | error e' => rw [hp] at hz; cases hz
        | ok q =>
          rw [hp] at hz
          dsimp only at hz
          cases hh : handle (registry f.ufunc) q.cfs [o, p] with
          | error e' => rw [hh] at hz; cases hz
          | ok cf =>
            rw [hh] at hz
            dsimp only at hz
            have hlen := prepared_length hp
            match hq : q.args, hlen with
            | [o', p'], _ =>
              rw [hq] at hz
              cases hw : units2 f u v ([o', p'].map Opd.vals) with
              | error e' => rw [hw] at hz; cases hz
              | ok w =>
                rw [hw] at hz
                cases hz
                have := (law o'.vals p'.vals).2 w hw
                exact good_cosmo this.1 this.2 hb
  cases o with
  | cosmo x' => exact main (fun h => by obtain ⟨w, hw⟩ := hxb.2 h.1; cases hw)
  | plain w => cases p with
    | cosmo y' => exact main (fun h => by obtain ⟨w, hw⟩ := hyb.2 h.2; cases hw)
    | plain w' =>
      have hu1 := hxp ⟨w, rfl⟩
      have hv1 := hyp ⟨w', rfl⟩
      subst hu1 hv1
      have hb := hxb.1 ⟨w, rfl⟩
      have hb' := hyb.1 ⟨w', rfl⟩
      constructor
      · simp only [toBase, scaleOpd, U.one, scale_one, apply2, apply2U]
        cases num2 f.fn [w, w'] with
        | error e' => rfl
        | ok r => simp [Except.map, toBase, scaleOpd, U.one]
      · intro r hr
        simp only [apply2U] at hr
        cases hn : num2 f.fn [w, w'] with
        | error e' => rw [hn] at hr; cases hr
        | ok s =>
          rw [hn] at hr
          cases hr
          exact ⟨one_pos, (hplain hc.symm hd.symm).symm, fun _ => rfl, ⟨fun _ => ⟨hb, hb'⟩, fun _ => ⟨s, rfl⟩⟩⟩

private theorem un_plain {f : Un} {u : U D} (h : u = U.one) : (unit1 f u).dim = 0 := by
  subst h
  cases f <;> simp [unit1, U.pow, U.one]

private theorem single_prepare (x : Arr) : prepare true [.cosmo x] [] =
    .ok { args := [.cosmo x], kw := [], cfs := [x.cf], kwcfs := [], comoving := x.comoving, vt := x.vt } := by
  unfold prepare
  rcases x with ⟨v, cm, cf, vt⟩
  rcases cm with _ | _ | _ <;> simp [flags, Opd.cf, Opd.vt]

private theorem pair_prepare (x : Arr) (v : List ℝ) : prepare true [.cosmo x, .plain v] [] =
    .ok { args := [.cosmo x, .plain v], kw := [], cfs := [x.cf, none], kwcfs := [], comoving := x.comoving, vt := x.vt } := by
  unfold prepare
  rcases x with ⟨w, cm, cf, vt⟩
  rcases cm with _ | _ | _ <;> simp [flags, Opd.cf, Opd.vt]

private theorem bcast2_single {β : Type} (f : ℝ → ℝ → β) (xs : List ℝ) (w : ℝ) : bcast2 f xs [w] = .ok (xs.map fun u => f u w) := by
  unfold bcast2
  rcases xs with _ | ⟨x, _ | ⟨y, xs⟩⟩ <;> simp

private theorem sim1 {f : Un} {d : D} {b : Prop} {x : Val D} (hx : Good d b x) :
    apply1 f (toBase x) = (apply1U f x).map toBase ∧ ∀ r, apply1U f x = .ok r → Good (unit1 f x.2).dim b r := by
  obtain ⟨o, u⟩ := x
  obtain ⟨hu, hd, hxp, hxb⟩ := hx
  dsimp only at hu hd hxp hxb
  cases o with
  | plain w =>
    have hu1 := hxp ⟨w, rfl⟩
    constructor
    · subst hu1
      simp [toBase, scaleOpd, U.one, apply1, apply1U, Except.map]
    · intro r hr
      cases hr
      exact ⟨one_pos, (un_plain hu1).symm, fun _ => rfl, ⟨fun _ => hxb.1 ⟨w, rfl⟩, fun _ => ⟨_, rfl⟩⟩⟩
  | cosmo x' =>
    have hb : ¬ b := fun h => by obtain ⟨w, hw⟩ := hxb.2 h; cases hw
    simp only [toBase, scaleOpd, apply1, apply1U, ufunc, ufuncUnits, single_prepare]
    rw [handle_inputs (un_power f) _ [Opd.cosmo (scaleArr u.size x')] [Opd.cosmo x']]
    change (match handle (registry f.ufunc) [x'.cf] [Opd.cosmo x'] with | .error e => _ | .ok c => _ : Except Err Arr).map _ = _ ∧ _
    cases handle (registry f.ufunc) [x'.cf] [Opd.cosmo x'] with
    | error e => exact ⟨rfl, by rintro r hr; cases hr⟩
    | ok c =>
      refine ⟨?_, ?_⟩
      · simp only [Except.map, List.map_cons, List.map_nil, Opd.vals, num1, scaleArr, List.map_map, toBase, scaleOpd]
        congr 3
        exact List.map_congr_left (fun t _ => law_one f hu t)
      · rintro r hr
        cases hr
        exact good_cosmo (unit1_pos f hu) rfl hb

private theorem simPow (q : ℝ) {d : D} {b : Prop} {x : Val D} (hx : Good d b x) :
    applyPow q (toBase x) = (applyPowU q x).map toBase ∧ ∀ r, applyPowU q x = .ok r → Good (q • d) b r := by
  obtain ⟨o, u⟩ := x
  obtain ⟨hu, hd, hxp, hxb⟩ := hx
  dsimp only at hu hd hxp hxb
  cases o with
  | plain w =>
    have hu1 := hxp ⟨w, rfl⟩
    subst hu1
    constructor
    · simp [toBase, scaleOpd, U.one, applyPow, applyPowU, Except.map]
    · intro r hr
      cases hr
      exact ⟨one_pos, by rw [← hd]; simp [U.one], fun _ => rfl, ⟨fun _ => hxb.1 ⟨w, rfl⟩, fun _ => ⟨_, rfl⟩⟩⟩
  | cosmo x' =>
    have hb : ¬ b := fun h => by obtain ⟨w, hw⟩ := hxb.2 h; cases hw
    simp only [toBase, scaleOpd, applyPow, applyPowU, ufunc, ufuncUnits, pair_prepare]
    have hh : ∀ y : Arr, handle (registry .power) [x'.cf, none] [.cosmo y, .plain [q]] = powerCF x'.cf none q := fun _ => rfl
    rw [hh, show (scaleArr u.size x').cf = x'.cf from rfl, hh]
    cases powerCF x'.cf none q with
    | error e => exact ⟨rfl, by rintro r hr; cases hr⟩
    | ok c =>
      simp only [List.map_cons, List.map_nil, Opd.vals, num2, bcast2_single]
      refine ⟨?_, ?_⟩
      · simp only [Except.map, scaleArr, List.map_map, toBase, scaleOpd]
        congr 3
        exact List.map_congr_left (fun t _ => mul_rpow_pos hu t q)
      · rintro r hr
        cases hr
        exact good_cosmo (Real.rpow_pos_of_pos hu q) (by rw [← hd]; rfl) hb

private theorem simWhole {f : List ℝ → List ℝ} (hf : Homogeneous f) {d : D} {b : Prop} {x : Val D} (hx : Good d b x) :
    applyWhole f (toBase x) = ((applyWhole f x.1).map (·, x.2)).map toBase ∧ ∀ r, (applyWhole f x.1).map (·, x.2) = .ok r → Good d b r := by
  obtain ⟨o, u⟩ := x
  obtain ⟨hu, hd, hxp, hxb⟩ := hx
  dsimp only at hu hd hxp hxb
  cases o with
  | plain w =>
    refine ⟨?_, ?_⟩
    · simp only [toBase, scaleOpd, applyWhole, Except.map]
      rw [hf _ _ hu]
    · rintro r hr
      cases hr
      exact ⟨hu, hd, fun _ => hxp ⟨w, rfl⟩, ⟨fun _ => hxb.1 ⟨w, rfl⟩, fun _ => ⟨_, rfl⟩⟩⟩
  | cosmo x' =>
    have hb : ¬ b := fun h => by obtain ⟨w, hw⟩ := hxb.2 h; cases hw
    refine ⟨?_, ?_⟩
    · simp only [toBase, scaleOpd, applyWhole, Except.map, propagate, scaleArr]
      rw [hf _ _ hu]
    · rintro r hr
      cases hr
      exact good_cosmo hu hd hb

private theorem simTo (ph : Bool) {d : D} {b : Prop} {x : Val D} (hx : Good d b x) :
    applyTo ph (toBase x) = ((applyTo ph x.1).map (·, x.2)).map toBase ∧ ∀ r, (applyTo ph x.1).map (·, x.2) = .ok r → Good d b r := by
  obtain ⟨o, u⟩ := x
  obtain ⟨hu, hd, hxp, hxb⟩ := hx
  dsimp only at hu hd hxp hxb
  cases o with
  | plain w => exact ⟨rfl, by rintro r hr; cases hr⟩
  | cosmo x' =>
    have hb : ¬ b := fun h => by obtain ⟨w, hw⟩ := hxb.2 h; cases hw
    have e : (if ph then (scaleArr u.size x').toPhysical else (scaleArr u.size x').toComoving) =
        (if ph then x'.toPhysical else x'.toComoving).map (scaleArr u.size) := by
      cases ph
      · exact scaled_toComoving _ _
      · exact scaled_toPhysical _ _
    simp only [toBase, scaleOpd, applyTo]
    rw [e]
    cases (if ph then x'.toPhysical else x'.toComoving) with
    | error e => exact ⟨rfl, by rintro r hr; cases hr⟩
    | ok y =>
      refine ⟨rfl, ?_⟩
      rintro r hr
      cases hr
      exact good_cosmo hu hd hb

private theorem simUnit {v : U D} (hv : 0 < v.size) {b : Prop} {x : Val D} (hx : Good v.dim b x) (hb : ¬ b) :
    (.ok (toBase x) : Except Err Opd) = (applyToUnit v x).map toBase ∧ ∀ r, applyToUnit v x = .ok r → Good v.dim b r := by
  obtain ⟨o, u⟩ := x
  obtain ⟨hu, hd, hxp, hxb⟩ := hx
  dsimp only at hu hd hxp hxb
  cases o with
  | plain w => exact absurd (hxb.1 ⟨w, rfl⟩) hb
  | cosmo x' =>
    simp only [applyToUnit, hd, ne_eq, not_true_eq_false, if_false]
    refine ⟨?_, ?_⟩
    · simp only [toBase, scaleOpd, Except.map, propagate, scaleArr, List.map_map]
      congr 3
      refine List.map_congr_left (fun t _ => ?_)
      simp only [Function.comp]
      rw [mul_assoc, div_mul_cancel₀ _ hv.ne']
    · rintro r hr
      cases hr
      exact good_cosmo hv rfl hb

private theorem times_ufunc (x : Arr) (c : ℝ) : ufunc .multiply (num2 Bin.multiply.fn) [.cosmo x, .plain [c]] = .ok (scaleArr c x) := by
  simp only [ufunc, pair_prepare]
  have hh : handle (registry .multiply) [x.cf, none] [.cosmo x, .plain [c]] = .ok x.cf := by
    cases h : x.cf <;> rfl
  rw [hh]
  simp only [List.map_cons, List.map_nil, Opd.vals, num2, bcast2_single]
  rfl

private theorem simTimes {v : U D} (hv : 0 < v.size) {d : D} {b : Prop} {x : Val D} (hx : Good d b x) (hb : ¬ b) :
    apply2 .multiply (toBase x) (.plain [v.size]) = (applyTimes v x).map toBase ∧ ∀ r, applyTimes v x = .ok r → Good (d + v.dim) b r := by
  obtain ⟨o, u⟩ := x
  obtain ⟨hu, hd, hxp, hxb⟩ := hx
  dsimp only at hu hd hxp hxb
  cases o with
  | plain w => exact absurd (hxb.1 ⟨w, rfl⟩) hb
  | cosmo x' =>
    refine ⟨?_, ?_⟩
    · change (ufunc .multiply (num2 Bin.multiply.fn) [.cosmo (scaleArr u.size x'), .plain [v.size]]).map Opd.cosmo = _
      rw [times_ufunc]
      simp only [applyTimes, Except.map, toBase, scaleOpd, scaleArr, List.map_map, U.mul]
      congr 3
      refine List.map_congr_left (fun t _ => ?_)
      simp only [Function.comp]
      ring
    · rintro r hr
      cases hr
      exact good_cosmo (mul_pos hv hu) (by rw [← hd]; exact add_comm _ _) hb

private theorem sim_bind1 {x : Except Err (Val D)} {y : Except Err Opd} {d d' : D} {b b' : Prop} {g : Val D → Except Err (Val D)} {h : Opd → Except Err Opd}
    (ih : y = x.map toBase ∧ ∀ r, x = .ok r → Good d b r)
    (hg : ∀ r, Good d b r → h (toBase r) = (g r).map toBase ∧ ∀ s, g r = .ok s → Good d' b' s) :
    y.bind h = (x.bind g).map toBase ∧ ∀ s, x.bind g = .ok s → Good d' b' s := by
  obtain ⟨rfl, h2⟩ := ih
  cases x with
  | error e => exact ⟨rfl, by rintro r hr; cases hr⟩
  | ok r => exact hg r (h2 r rfl)

private theorem sim_bind2 {x x' : Except Err (Val D)} {y y' : Except Err Opd} {c d e : D} {b b' : Prop} {f : Bin}
    (ih : y = x.map toBase ∧ ∀ r, x = .ok r → Good c b r) (ih' : y' = x'.map toBase ∧ ∀ r, x' = .ok r → Good d b' r)
    (hplain : c = 0 → d = 0 → e = 0)
    (law : ∀ u v : U D, 0 < u.size → 0 < v.size → u.dim = c → v.dim = d → ∀ p q : List ℝ,
      num2 f.fn [p.map (· * u.size), q.map (· * v.size)] = (units2 f u v [p, q]).map (fun w => w.1.map (· * w.2.size)) ∧
      ∀ w, units2 f u v [p, q] = .ok w → 0 < w.2.size ∧ w.2.dim = e) :
    (y.bind fun o => y'.bind fun p => apply2 f o p) = (x.bind fun r => x'.bind fun s => apply2U f r s).map toBase ∧
      ∀ s, (x.bind fun r => x'.bind fun s => apply2U f r s) = .ok s → Good e (b ∧ b') s := by
  obtain ⟨rfl, h2⟩ := ih
  obtain ⟨rfl, h2'⟩ := ih'
  cases x with
  | error e => exact ⟨rfl, by rintro r hr; cases hr⟩
  | ok r => cases x' with
    | error e => exact ⟨rfl, by rintro r hr; cases hr⟩
    | ok s =>
      have h3 := h2 r rfl
      have h4 := h2' s rfl
      exact sim2 h3 h4 hplain (law r.2 s.2 h3.1 h4.1 h3.2.1 h4.2.1)

private theorem sim {ds : Nat → D} {env : Nat → Arr × U D} (hsz : ∀ i, 0 < (env i).2.size) (hdim : ∀ i, (env i).2.dim = ds i) {e : UExpr D} {d : D}
    (h : Measures ds e d) : eval (fun i => scaleArr (env i).2.size (env i).1) (ofAmounts e) = (evalU env e).map toBase ∧
      ∀ r, evalU env e = .ok r → Good d (Bare (ofAmounts e)) r := by
  induction h with
  | var i =>
    refine ⟨rfl, ?_⟩
    rintro r hr
    cases hr
    exact good_cosmo (hsz i) (hdim i) (fun h => h)
  | nums v =>
    refine ⟨?_, ?_⟩
    · simp [eval, ofAmounts, evalU, Except.map, toBase, scaleOpd, U.one]
    · rintro r hr
      cases hr
      exact ⟨one_pos, rfl, fun _ => rfl, ⟨fun _ => trivial, fun _ => ⟨v, rfl⟩⟩⟩
  | @like f s t d hf hs ht ihs iht =>
    refine sim_bind2 ihs iht (fun h _ => h) (fun u v hu hv hc hd p q => ?_)
    have : units2 f u v = likeUnits f.fn u v := by
      cases f with
      | multiply => exact absurd (by simp) hf
      | divide => exact absurd (by simp) hf
      | _ => rfl
    rw [this, ← hc]
    exact law_like hf hu hv (hc.trans hd.symm) p q
  | @mul s t c d hs ht ihs iht =>
    refine sim_bind2 ihs iht (fun h h' => by rw [h, h', add_zero]) (fun u v hu hv hc hd p q => ?_)
    rw [← hc, ← hd]
    exact law_mul hu hv p q
  | @div s t c d hs ht ihs iht =>
    refine sim_bind2 ihs iht (fun h h' => by rw [h, h', sub_zero]) (fun u v hu hv hc hd p q => ?_)
    rw [← hc, ← hd]
    exact law_div hu hv p q
  | @same f s d hf hs ih =>
    refine sim_bind1 ih (fun r hr => ?_)
    have := sim1 (f := f) hr
    refine ⟨this.1, fun s hs => ?_⟩
    have h3 := this.2 s hs
    simp only [List.mem_cons, List.not_mem_nil, or_false] at hf
    rcases hf with rfl | rfl <;> exact hr.2.1 ▸ h3
  | @sqrt s d hs ih =>
    refine sim_bind1 ih (fun r hr => ?_)
    have := sim1 (f := .sqrt) hr
    exact ⟨this.1, fun s hs => hr.2.1 ▸ this.2 s hs⟩
  | @square s d hs ih =>
    refine sim_bind1 ih (fun r hr => ?_)
    have := sim1 (f := .square) hr
    refine ⟨this.1, fun s hs => ?_⟩
    have h3 := this.2 s hs
    rw [← two_smul ℝ d, ← hr.2.1]
    exact h3
  | @cbrt s d hs ih =>
    refine sim_bind1 ih (fun r hr => ?_)
    have := sim1 (f := .cbrt) hr
    exact ⟨this.1, fun s hs => hr.2.1 ▸ this.2 s hs⟩
  | @reciprocal s d hs ih =>
    refine sim_bind1 ih (fun r hr => ?_)
    have := sim1 (f := .reciprocal) hr
    refine ⟨this.1, fun s hs => ?_⟩
    have h3 := this.2 s hs
    rw [← neg_one_smul ℝ d, ← hr.2.1]
    exact h3
  | @pow s d hs q ih => exact sim_bind1 ih (fun r hr => simPow q hr)
  | @whole s d f hf hs ih => exact sim_bind1 ih (fun r hr => simWhole hf hr)
  | @physical s d hs ih => exact sim_bind1 ih (fun r hr => simTo true hr)
  | @comoving s d hs ih => exact sim_bind1 ih (fun r hr => simTo false hr)
  | @convert u s hu hs hb ih =>
    have := sim_bind1 (h := fun o => .ok o) ih (fun r hr => simUnit hu hr hb)
    refine ⟨?_, this.2⟩
    rw [← show (evalU env s).bind (applyToUnit u) = evalU env (.convert u s) from rfl, ← this.1]
    change eval _ (ofAmounts s) = _
    cases eval _ (ofAmounts s) <;> rfl
  | @times u s d hu hs hb ih =>
    have := sim_bind1 (h := fun o => apply2 .multiply o (.plain [u.size])) ih (fun r hr => simTimes hu hr hb)
    refine ⟨this.1, fun r hr => ?_⟩
    obtain ⟨h1, h2, h3, h4⟩ := this.2 r hr
    exact ⟨h1, h2, h3, h4.trans ⟨fun h => absurd h hb, fun h => absurd h.1 hb⟩⟩

private theorem scaled_conv {a k s : ℝ} {x : Arr} (h : Conv a k x) : Conv a k (scaleArr s x) := ⟨h.pos, h.cf, h.vt, h.framed⟩

private theorem scaled_phys (s : ℝ) (x : Arr) : (scaleArr s x).phys = x.phys.map (· * s) := by
  rcases x with ⟨v, cm, cf, vt⟩
  unfold Arr.phys scaleArr
  dsimp only
  split
  · simp only [List.map_map]
    refine List.map_congr_left (fun t _ => ?_)
    simp only [Function.comp]
    ring
  · rfl

private theorem toBase_phys (r : Val D) : (toBase r).phys = valueAmounts r := by
  obtain ⟨o, u⟩ := r
  cases o with
  | plain v => rfl
  | cosmo x => exact scaled_phys u.size x

/-- C125: the amounts of a formula (physical values in base units) are the formula of the amounts of its variables, whatever their
frames and units; if the shapes do not fit, there is the same error. -/
theorem c125_value {a : ℝ} (ha : 0 < a) {ks : Nat → ℝ} {ds : Nat → D} {env : Nat → Arr × U D} (henv : ∀ i, Conv a (ks i) (env i).1)
    (hsz : ∀ i, 0 < (env i).2.size) (hdim : ∀ i, (env i).2.dim = ds i) {e : UExpr D} {k : ℝ} {d : D} (hd : Measures ds e d)
    (hk : Dimension ks (ofAmounts e) k) : (evalU env e).map valueAmounts = meaning (fun i => amounts (env i)) (ofAmounts e) := by
  have h1 := (sim hsz hdim hd).1
  have h2 := c114_value ha (env := fun i => scaleArr (env i).2.size (env i).1) (fun i => scaled_conv (henv i)) hk
  rw [h1] at h2
  have h3 : (fun i => (scaleArr (env i).2.size (env i).1).phys) = fun i => amounts (env i) := funext (fun i => scaled_phys _ _)
  rw [h3] at h2
  rw [← h2]
  cases evalU env e with
  | error e' => rfl
  | ok r => exact congrArg Except.ok (toBase_phys r).symm

/-- C125: the result has the dimensions and the factor that the formula says, and its unit has a positive size. -/
theorem c125_result {a : ℝ} (ha : 0 < a) {ks : Nat → ℝ} {ds : Nat → D} {env : Nat → Arr × U D} (henv : ∀ i, Conv a (ks i) (env i).1)
    (hsz : ∀ i, 0 < (env i).2.size) (hdim : ∀ i, (env i).2.dim = ds i) {e : UExpr D} {k : ℝ} {d : D} (hd : Measures ds e d)
    (hk : Dimension ks (ofAmounts e) k) {r : Val D} (hr : evalU env e = .ok r) :
    0 < r.2.size ∧ r.2.dim = d ∧ (Bare (ofAmounts e) → k = 0 ∧ d = 0 ∧ ∃ v, r.1 = .plain v) ∧
      (¬ Bare (ofAmounts e) → ∃ x, r.1 = .cosmo x ∧ Conv a k x) := by
  obtain ⟨h1, h2⟩ := sim hsz hdim hd
  obtain ⟨g1, g2, g3, g4⟩ := h2 r hr
  rw [hr] at h1
  obtain ⟨f1, f2⟩ := c114_factor ha (env := fun i => scaleArr (env i).2.size (env i).1) (fun i => scaled_conv (henv i)) hk h1
  refine ⟨g1, g2, fun hb => ⟨(f1 hb).1, ?_, g4.2 hb⟩, fun hb => ?_⟩
  · rw [← g2, g3 (g4.2 hb)]
    rfl
  · obtain ⟨x, hx, hc⟩ := f2 hb
    obtain ⟨o, u⟩ := r
    cases o with
    | plain v => exact absurd (g4.1 ⟨v, rfl⟩) hb
    | cosmo y =>
      refine ⟨y, rfl, ?_⟩
      cases hx
      exact ⟨hc.pos, hc.cf, hc.vt, hc.framed⟩

/-- C125: the units and the frames of the variables do not matter. -/
theorem c125_units {a : ℝ} (ha : 0 < a) {ks : Nat → ℝ} {ds : Nat → D} {env env' : Nat → Arr × U D} (henv : ∀ i, Conv a (ks i) (env i).1)
    (henv' : ∀ i, Conv a (ks i) (env' i).1) (hsz : ∀ i, 0 < (env i).2.size) (hsz' : ∀ i, 0 < (env' i).2.size)
    (hdim : ∀ i, (env i).2.dim = ds i) (hdim' : ∀ i, (env' i).2.dim = ds i) (hsame : ∀ i, amounts (env i) = amounts (env' i))
    {e : UExpr D} {k : ℝ} {d : D} (hd : Measures ds e d) (hk : Dimension ks (ofAmounts e) k) :
    (evalU env e).map valueAmounts = (evalU env' e).map valueAmounts := by
  rw [c125_value ha henv hsz hdim hd hk, c125_value ha henv' hsz' hdim' hd hk]
  exact congrArg (fun vals => meaning vals (ofAmounts e)) (funext hsame)

/-- C125: formulas that mean the same for numbers give the same amounts, wherever in them units are converted. -/
theorem c125_equivalent {a : ℝ} (ha : 0 < a) {ks : Nat → ℝ} {ds : Nat → D} {env : Nat → Arr × U D} (henv : ∀ i, Conv a (ks i) (env i).1)
    (hsz : ∀ i, 0 < (env i).2.size) (hdim : ∀ i, (env i).2.dim = ds i) {e e' : UExpr D} {k k' : ℝ} {d d' : D} (hd : Measures ds e d)
    (hk : Dimension ks (ofAmounts e) k) (hd' : Measures ds e' d') (hk' : Dimension ks (ofAmounts e') k')
    (he : meaning (fun i => amounts (env i)) (ofAmounts e) = meaning (fun i => amounts (env i)) (ofAmounts e')) :
    (evalU env e).map valueAmounts = (evalU env e').map valueAmounts := by
  rw [c125_value ha henv hsz hdim hd hk, c125_value ha henv hsz hdim hd' hk', he]

private theorem scaled_bool {β : Type} {c : Ufunc} {num numU : List (List ℝ) → Except Err (List β)} (hc : registry c ≠ .power) (l : List (ℝ × Opd))
    (hn : ∀ r : List (List ℝ), r.length = l.length → num (List.zipWith (fun q v => v.map (· * q.1)) l r) = numU r) :
    ufuncBool c num (scaleAll l) = ufuncBool c numU (l.map Prod.snd) := by
  unfold ufuncBool
  rw [scaled_prepare]
  cases e : prepare true (l.map Prod.snd) [] with
  | error e' => rfl
  | ok p =>
    simp only [Except.map]
    rw [handle_inputs hc _ _ (l.map Prod.snd)]
    cases handle (registry c) p.cfs (l.map Prod.snd) with
    | error e' => rfl
    | ok _ =>
      dsimp only
      have hlen := prepared_length e
      have hv : (zipScale l p.args).map Opd.vals = List.zipWith (fun q v => v.map (· * q.1)) l (p.args.map Opd.vals) := by
        rw [zipScale, List.map_zipWith, List.zipWith_map_right]
        simp only [scaled_vals]
      rw [hv]
      exact hn _ (by simpa using hlen)

private theorem law_compare {r : ℝ → ℝ → Prop} (hr : ∀ s p q : ℝ, 0 < s → r (p * s) (q * s) = r p q) {u v : U D} (hu : 0 < u.size)
    (hv : 0 < v.size) (hd : u.dim = v.dim) (h0 : u.dim ≠ 0 ∨ u.size = v.size) (x y : List ℝ) :
    num2 r [x.map (· * u.size), y.map (· * v.size)] = compareUnits r u v [x, y] := by
  have key : ∀ (c : ℝ) (y' : List ℝ), 0 < c → x.map (· * u.size) = x.map (· * c) → y.map (· * v.size) = y'.map (· * c) →
      num2 r [x.map (· * u.size), y.map (· * v.size)] = bcast2 r x y' := by
    intro c y' hc e1 e2
    simp only [num2]
    rw [e1, e2, bcast2_map r r (· * c) (· * c) id (fun p q => hr c p q hc)]
    cases bcast2 r x y' <;> simp [Except.map]
  unfold compareUnits
  dsimp only
  split_ifs with h1 h4
  · rcases h1 with h1 | h1 | h1 | h1 | h1
    · subst h1; exact key _ y hu rfl rfl
    · exact key _ y hv (zeros_scale h1 _ _) rfl
    · exact key _ y hu rfl (zeros_scale h1 _ _)
    · rcases h0 with h0 | h0
      · exact absurd h1 h0
      · exact key _ y hu rfl (by rw [h0])
    · rcases h0 with h0 | h0
      · exact absurd (hd.trans h1) h0
      · exact key _ y hu rfl (by rw [h0])
  · exact absurd hd h4
  · refine key _ _ hu rfl ?_
    rw [List.map_map]
    refine List.map_congr_left (fun t _ => ?_)
    simp only [Function.comp]
    rw [mul_assoc, div_mul_cancel₀ _ hu.ne']

/-- C125: comparisons of two formulas with dimensions are those of their amounts. -/
theorem c125_compare {a : ℝ} (ha : 0 < a) {ks : Nat → ℝ} {ds : Nat → D} {env : Nat → Arr × U D} (henv : ∀ i, Conv a (ks i) (env i).1)
    (hsz : ∀ i, 0 < (env i).2.size) (hdim : ∀ i, (env i).2.dim = ds i) {s t : UExpr D} {k : ℝ} {d : D} (h0 : d ≠ 0)
    (hs : Measures ds s d) (ht : Measures ds t d) (hks : Dimension ks (ofAmounts s) k) (hkt : Dimension ks (ofAmounts t) k)
    (c : Ufunc) (r : ℝ → ℝ → Prop)
    (hcr : (c, r) ∈ [(Ufunc.less, fun p q : ℝ => p < q), (.lessEqual, fun p q => p ≤ q), (.greater, fun p q => p > q),
      (.greaterEqual, fun p q => p ≥ q), (.equal, fun p q => p = q), (.notEqual, fun p q => p ≠ q)]) :
    compareU c r env s t = (meaning (fun i => amounts (env i)) (ofAmounts s)).bind fun v =>
      (meaning (fun i => amounts (env i)) (ofAmounts t)).bind fun w => bcast2 r v w := by
  rw [← c125_value ha henv hsz hdim hs hks, ← c125_value ha henv hsz hdim ht hkt]
  unfold compareU
  cases h1 : evalU env s with
  | error e => rfl
  | ok p => cases h2 : evalU env t with
    | error e => rfl
    | ok q =>
      obtain ⟨p1, p2, p3, p4⟩ := c125_result ha henv hsz hdim hs hks h1
      obtain ⟨q1, q2, q3, q4⟩ := c125_result ha henv hsz hdim ht hkt h2
      obtain ⟨x, hx, hxc⟩ := p4 (fun hb => h0 (p3 hb).2.1)
      obtain ⟨y, hy, hyc⟩ := q4 (fun hb => h0 (q3 hb).2.1)
      obtain ⟨o, u⟩ := p
      obtain ⟨o', v⟩ := q
      dsimp only at hx hy p1 p2 q1 q2
      subst hx hy
      change ufuncBool c (compareUnits r u v) [.cosmo x, .cosmo y] = bcast2 r (x.phys.map (· * u.size)) (y.phys.map (· * v.size))
      have hr : ∀ s p q : ℝ, 0 < s → r (p * s) (q * s) = r p q := by
        intro s p q hs
        refine propext ?_
        simp only [List.mem_cons, Prod.mk.injEq, List.not_mem_nil, or_false] at hcr
        rcases hcr with ⟨rfl, rfl⟩ | ⟨rfl, rfl⟩ | ⟨rfl, rfl⟩ | ⟨rfl, rfl⟩ | ⟨rfl, rfl⟩ | ⟨rfl, rfl⟩
        · exact mul_lt_mul_iff_left₀ hs
        · exact mul_le_mul_iff_left₀ hs
        · exact mul_lt_mul_iff_left₀ hs
        · exact mul_le_mul_iff_left₀ hs
        · exact mul_left_inj' hs.ne'
        · exact not_congr (mul_left_inj' hs.ne')
      have hreg : registry c ≠ .power := by
        simp only [List.mem_cons, Prod.mk.injEq, List.not_mem_nil, or_false] at hcr
        rcases hcr with ⟨rfl, -⟩ | ⟨rfl, -⟩ | ⟨rfl, -⟩ | ⟨rfl, -⟩ | ⟨rfl, -⟩ | ⟨rfl, -⟩ <;> decide
      have h3 := scaled_bool (num := num2 r) (numU := compareUnits r u v) hreg [(u.size, .cosmo x), (v.size, .cosmo y)] (by
        intro w hw
        match w, hw with
        | [w1, w2], _ => exact law_compare hr p1 q1 (p2.trans q2.symm) (.inl (fun h => h0 (p2.symm.trans h))) w1 w2)
      have h4 := c25_compare (scaled_conv (s := u.size) hxc) (scaled_conv (s := v.size) hyc) c r hcr
      have h5 : ufuncBool c (compareUnits r u v) [.cosmo x, .cosmo y] = ufuncBool c (num2 r) [.cosmo (scaleArr u.size x), .cosmo (scaleArr v.size y)] := h3.symm
      rw [h5, h4, scaled_phys, scaled_phys]
      rfl

private theorem pair_flags {o p : Opd} (h : ¬ ((∃ v, o = .plain v) ∧ ∃ v, p = .plain v)) : flags [o, p] ≠ [] := by
  intro hf
  obtain ⟨u, v, rfl, rfl⟩ := not_flags_nil hf
  exact h ⟨⟨u, rfl⟩, v, rfl⟩

private theorem like_units2 {f : Bin} (hf : f ∉ [Bin.multiply, .divide]) (u v : U D) : units2 f u v = likeUnits f.fn u v := by
  cases f with
  | multiply => exact absurd (by simp) hf
  | divide => exact absurd (by simp) hf
  | _ => rfl

private theorem apply2U_cosmo {f : Bin} {o p : Opd} {u v : U D} (h : ¬ ((∃ v, o = .plain v) ∧ ∃ v, p = .plain v)) :
    apply2U f (o, u) (p, v) = (ufuncUnits f.ufunc (units2 f u v) [o, p]).map (fun z => (.cosmo z.1, z.2)) := by
  cases o with
  | cosmo x => rfl
  | plain w => cases p with
    | cosmo y => rfl
    | plain w' => exact absurd ⟨⟨w, rfl⟩, w', rfl⟩ h

private theorem like_handle {f : Bin} (hf : f ∉ [Bin.multiply, .divide]) (c d : Option CF) (ins : List Opd) :
    (∃ r, handle (registry f.ufunc) [c, d] ins = .ok r) ∨ handle (registry f.ufunc) [c, d] ins = .error .value := by
  have h1 : ∀ c d : Option CF, (∃ r, preserve2 c d = .ok r) ∨ preserve2 c d = .error .value := by
    intro c d
    rcases c with _ | c <;> rcases d with _ | d <;> simp only [preserve2]
    · exact .inl ⟨_, rfl⟩
    · exact .inl ⟨_, rfl⟩
    · exact .inl ⟨_, rfl⟩
    · split_ifs
      · exact .inl ⟨_, rfl⟩
      · exact .inr rfl
  have h2 : ∀ c d : Option CF, (∃ r, passthrough2 c d = .ok r) ∨ passthrough2 c d = .error .value := by
    intro c d
    rcases c with _ | c <;> rcases d with _ | d <;> simp only [passthrough2]
    · exact .inl ⟨_, rfl⟩
    · exact .inr trivial
    · exact .inl ⟨_, rfl⟩
    · split_ifs
      · exact .inl ⟨_, rfl⟩
      · exact .inr rfl
  have h3 : ∀ ins, handle .preserve [c, d] ins = preserve2 c d := by
    intro ins
    simp [handle, reduce1]
  cases f with
  | multiply => exact absurd (by simp) hf
  | divide => exact absurd (by simp) hf
  | maximum => exact h2 c d
  | minimum => exact h2 c d
  | _ =>
    change (∃ r, handle .preserve [c, d] ins = .ok r) ∨ handle .preserve [c, d] ins = .error .value
    rw [h3]
    exact h1 c d

/-- C125: sums, extrema and remainders of amounts with different dimensions are refused, unless one operand is zero everywhere. -/
theorem c125_refused {a : ℝ} (ha : 0 < a) {ks : Nat → ℝ} {ds : Nat → D} {env : Nat → Arr × U D} (henv : ∀ i, Conv a (ks i) (env i).1)
    (hsz : ∀ i, 0 < (env i).2.size) (hdim : ∀ i, (env i).2.dim = ds i) {s t : UExpr D} {k l : ℝ} {c d : D} (hcd : c ≠ d)
    (hs : Measures ds s c) (ht : Measures ds t d) (hks : Dimension ks (ofAmounts s) k) (hkt : Dimension ks (ofAmounts t) l)
    {v w : List ℝ} (hv : meaning (fun i => amounts (env i)) (ofAmounts s) = .ok v) (hw : meaning (fun i => amounts (env i)) (ofAmounts t) = .ok w)
    (hvn : ∃ q ∈ v, q ≠ 0) (hwn : ∃ q ∈ w, q ≠ 0) {f : Bin} (hf : f ∉ [Bin.multiply, .divide]) :
    evalU env (.two f s t) = .error .value := by
  rw [← c125_value ha henv hsz hdim hs hks] at hv
  rw [← c125_value ha henv hsz hdim ht hkt] at hw
  simp only [evalU]
  cases h1 : evalU env s with
  | error e => rw [h1] at hv; cases hv
  | ok p => cases h2 : evalU env t with
    | error e => rw [h2] at hw; cases hw
    | ok q =>
      rw [h1] at hv
      rw [h2] at hw
      have hv' := Except.ok.inj hv
      have hw' := Except.ok.inj hw
      obtain ⟨p1, p2, p3, p4⟩ := c125_result ha henv hsz hdim hs hks h1
      obtain ⟨q1, q2, q3, q4⟩ := c125_result ha henv hsz hdim ht hkt h2
      have hp : HasExp a p.1 k := by
        by_cases hb : Bare (ofAmounts s)
        · obtain ⟨g1, -, v', g2⟩ := p3 hb
          rw [g2]; exact g1
        · obtain ⟨x, g1, g2⟩ := p4 hb
          rw [g1]; exact g2
      have hq : HasExp a q.1 l := by
        by_cases hb : Bare (ofAmounts t)
        · obtain ⟨g1, -, v', g2⟩ := q3 hb
          rw [g2]; exact g1
        · obtain ⟨x, g1, g2⟩ := q4 hb
          rw [g1]; exact g2
      have hnb : ¬ ((∃ v, p.1 = .plain v) ∧ ∃ v, q.1 = .plain v) := by
        rintro ⟨⟨v1, e1⟩, v2, e2⟩
        refine hcd ?_
        have b1 : Bare (ofAmounts s) := by
          by_contra hb
          obtain ⟨x, g1, -⟩ := p4 hb
          rw [g1] at e1; cases e1
        have b2 : Bare (ofAmounts t) := by
          by_contra hb
          obtain ⟨x, g1, -⟩ := q4 hb
          rw [g1] at e2; cases e2
        rw [(p3 b1).2.1, (q3 b2).2.1]
      obtain ⟨o, u⟩ := p
      obtain ⟨o', u'⟩ := q
      dsimp only at p1 p2 q1 q2 hp hq hnb hv' hw'
      change apply2U f (o, u) (o', u') = _
      rw [apply2U_cosmo hnb, like_units2 hf]
      have hmix : ∀ z ∈ [o, o'], Mix a z := by
        intro z hz
        rcases List.mem_pair.mp hz with rfl | rfl
        · exact hp.mix
        · exact hq.mix
      obtain ⟨r, b, e, hc, hvt, hcfs, hfa, hbf⟩ := prepare_mix hmix (pair_flags hnb)
      obtain ⟨z, z', hargs, m1, m2⟩ := forall2_two hfa
      have n1 : ¬ ∀ t ∈ z.vals, t = 0 := by
        intro hz
        obtain ⟨q, hq1, hq2⟩ := hvn
        rw [← hv'] at hq1
        simp only [valueAmounts] at hq1
        rw [m1.phys hp] at hq1
        simp only [List.map_map, List.mem_map, Function.comp] at hq1
        obtain ⟨t, ht1, ht2⟩ := hq1
        rw [hz t ht1] at ht2
        simp at ht2
        exact hq2 ht2.symm
      have n2 : ¬ ∀ t ∈ z'.vals, t = 0 := by
        intro hz
        obtain ⟨q', hq1, hq2⟩ := hwn
        rw [← hw'] at hq1
        simp only [valueAmounts] at hq1
        rw [m2.phys hq] at hq1
        simp only [List.map_map, List.mem_map, Function.comp] at hq1
        obtain ⟨t, ht1, ht2⟩ := hq1
        rw [hz t ht1] at ht2
        simp at ht2
        exact hq2 ht2.symm
      have hdd : u.dim ≠ u'.dim := by rw [p2, q2]; exact hcd
      have hnum : likeUnits f.fn u u' (r.args.map Opd.vals) = .error .value := by
        rw [hargs]
        change likeUnits f.fn u u' [z.vals, z'.vals] = _
        unfold likeUnits
        dsimp only
        rw [if_neg (fun h => hdd (by rw [h])), if_neg n1, if_neg n2, if_pos hdd]
      unfold ufuncUnits
      rw [e]
      dsimp only
      rw [hcfs, hnum]
      rcases like_handle hf o.cf o'.cf [o, o'] with ⟨y, hy⟩ | hy
      · simp only [List.map_cons, List.map_nil, hy]; rfl
      · simp only [List.map_cons, List.map_nil, hy]; rfl

private theorem preserve_like {f : Bin} (hf : f ∈ [Bin.add, .subtract, .fmax, .fmin, .hypot, .remainder]) : f ∉ [Bin.multiply, .divide] := by
  simp only [List.mem_cons, List.not_mem_nil, or_false] at hf
  rcases hf with rfl | rfl | rfl | rfl | rfl | rfl <;> decide

private theorem zero_phys {a m : ℝ} {b : Bool} {o z : Opd} (ha : 0 < a) (h : Same a b o z) (ho : HasExp a o m) (h0 : ∀ q ∈ o.phys, q = 0) :
    ∀ q ∈ z.vals, q = 0 := by
  intro q hq
  have hp : 0 < scale a b m := by
    unfold scale
    split_ifs
    · exact Real.rpow_pos_of_pos ha m
    · exact one_pos
  have h1 := h0 (q * scale a b m) (by rw [h.phys ho]; exact List.mem_map_of_mem hq)
  exact (mul_eq_zero.1 h1).resolve_right hp.ne'

/-- C125: an operand that is zero everywhere may have any dimensions: the result has those of the other one. A bare zero may be added to
everything (`sum([x, y])` starts with `0 + x`). -/
theorem c125_zero {a : ℝ} (ha : 0 < a) {ks : Nat → ℝ} {ds : Nat → D} {env : Nat → Arr × U D} (henv : ∀ i, Conv a (ks i) (env i).1)
    (hsz : ∀ i, 0 < (env i).2.size) (hdim : ∀ i, (env i).2.dim = ds i) {s t : UExpr D} {k m : ℝ} {c d : D}
    (hs : Measures ds s c) (ht : Measures ds t d) (hks : Dimension ks (ofAmounts s) m) (hkt : Dimension ks (ofAmounts t) k)
    (hm : Bare (ofAmounts s) ∨ m = k) (hbt : ¬ Bare (ofAmounts t)) {z : List ℝ}
    (hz : meaning (fun i => amounts (env i)) (ofAmounts s) = .ok z) (hz0 : ∀ q ∈ z, q = 0)
    {f : Bin} (hf : f ∈ [Bin.add, .subtract, .fmax, .fmin, .hypot, .remainder]) :
    (evalU env (.two f s t)).map valueAmounts = ((meaning (fun i => amounts (env i)) (ofAmounts t)).bind fun w => bcast2 (numbers2 f) z w) ∧
      ∀ r, evalU env (.two f s t) = .ok r → r.2.dim = d ∧ ∃ x, r.1 = .cosmo x ∧ Conv a k x := by
  rw [← c125_value ha henv hsz hdim hs hks] at hz
  rw [← c125_value ha henv hsz hdim ht hkt]
  simp only [evalU]
  cases h1 : evalU env s with
  | error e => rw [h1] at hz; cases hz
  | ok p => cases h2 : evalU env t with
    | error e => exact ⟨rfl, by rintro r hr; cases hr⟩
    | ok q =>
      rw [h1] at hz
      have hz' := Except.ok.inj hz
      obtain ⟨p1, p2, p3, p4⟩ := c125_result ha henv hsz hdim hs hks h1
      obtain ⟨q1, q2, q3, q4⟩ := c125_result ha henv hsz hdim ht hkt h2
      obtain ⟨y, hy, hyc⟩ := q4 hbt
      obtain ⟨o, u⟩ := p
      obtain ⟨o', v⟩ := q
      dsimp only at p1 p2 p3 p4 q1 q2 hz' hy
      subst hy
      have hp : HasExp a o m := by
        by_cases hb : Bare (ofAmounts s)
        · obtain ⟨g1, -, v', g2⟩ := p3 hb
          rw [g2]; exact g1
        · obtain ⟨x, g1, g2⟩ := p4 hb
          rw [g1]; exact g2
      have hq : HasExp a (.cosmo y) k := hyc
      have ho0 : ∀ q ∈ o.phys, q = 0 := by
        intro q hq
        have h3 := hz0 (q * u.size) (by rw [← hz']; exact List.mem_map_of_mem hq)
        exact (mul_eq_zero.1 h3).resolve_right p1.ne'
      have hnb : ¬ ((∃ v, o = .plain v) ∧ ∃ v, Opd.cosmo y = .plain v) := by
        rintro ⟨-, v', e⟩
        cases e
      change ((apply2U f (o, u) (.cosmo y, v)).map valueAmounts = bcast2 (numbers2 f) z (y.phys.map (· * v.size))) ∧
        ∀ r, apply2U f (o, u) (.cosmo y, v) = .ok r → _
      rw [apply2U_cosmo hnb, like_units2 (preserve_like hf)]
      have hmix : ∀ z ∈ [o, .cosmo y], Mix a z := by
        intro z hz
        rcases List.mem_pair.mp hz with rfl | rfl
        · exact hp.mix
        · exact hq.mix
      obtain ⟨r, b, e, hc, hvt, hcfs, hfa, hbf⟩ := prepare_mix hmix (pair_flags hnb)
      obtain ⟨w, w', hargs, m1, m2⟩ := forall2_two hfa
      have hw0 := zero_phys ha m1 hp ho0
      have hreg : handle (registry f.ufunc) [o.cf, y.cf] [o, .cosmo y] = .ok (some ⟨some k, some a⟩) := by
        have h3 : registry f.ufunc = .preserve := by
          simp only [List.mem_cons, List.not_mem_nil, or_false] at hf
          rcases hf with rfl | rfl | rfl | rfl | rfl | rfl <;> rfl
        rw [h3]
        rcases hm with hb | rfl
        · obtain ⟨-, -, v', g2⟩ := p3 hb
          rw [g2]
          simp [handle, reduce1, preserve2, Opd.cf, hyc.cf]
        · cases o with
          | plain v' => simp [handle, reduce1, preserve2, Opd.cf, hyc.cf]
          | cosmo x =>
            have hx : Conv a m x := hp
            simp [handle, reduce1, preserve2, Opd.cf, hx.cf, hyc.cf, same_refl]
      have hnum : likeUnits f.fn u v [w.vals, w'.vals] = (bcast2 f.fn w.vals w'.vals).map (·, v) := by
        unfold likeUnits
        dsimp only
        split_ifs with g
        · rw [g]
        · rfl
      have key : ∀ σ : ℝ, 0 < σ → bcast2 f.fn z (w'.vals.map (· * σ)) = (bcast2 f.fn w.vals w'.vals).map (List.map (· * σ)) := by
        intro σ hσ
        have hzw : z = w.vals.map (· * σ) := by
          have l1 : z = w.vals.map (fun _ => (0 : ℝ)) := by
            rw [← hz']
            simp only [valueAmounts]
            rw [m1.phys hp, List.map_map]
            refine List.map_congr_left (fun t ht => ?_)
            simp [hw0 t ht]
          rw [l1]
          exact List.map_congr_left (fun t ht => by rw [hw0 t ht, zero_mul])
        rw [hzw]
        exact bcast2_map f.fn f.fn _ _ _ (fun p q => like_hom (preserve_like hf) hσ p q) w.vals w'.vals
      have hsc : 0 < scale a b k := by
        unfold scale
        split_ifs
        · exact Real.rpow_pos_of_pos ha k
        · exact one_pos
      have hyp : y.phys = w'.vals.map (fun t => t * scale a b k) := m2.phys hq
      have key2 := key (scale a b k * v.size) (mul_pos hsc q1)
      unfold ufuncUnits
      rw [e]
      dsimp only
      rw [hcfs, hargs]
      simp only [List.map_cons, List.map_nil, Opd.cf] at hreg ⊢
      rw [hreg]
      dsimp only
      rw [hnum, fn2]
      have e3 : y.phys.map (· * v.size) = w'.vals.map (· * (scale a b k * v.size)) := by
        rw [hyp, List.map_map]
        exact List.map_congr_left (fun t _ => by simp only [Function.comp]; ring)
      rw [e3, key2]
      cases bcast2 f.fn w.vals w'.vals with
      | error e' => exact ⟨rfl, by rintro r hr; cases hr⟩
      | ok n =>
        refine ⟨?_, ?_⟩
        · simp only [Except.map, valueAmounts, Opd.phys]
          rw [phys_result (m := k) (a := a) (b := b) hc rfl, List.map_map]
          congr 1
          exact List.map_congr_left (fun t _ => by simp only [Function.comp]; ring)
        · rintro r' hr
          cases hr
          exact ⟨q2, _, rfl, ⟨ha, rfl, hvt, by simp [hc]⟩⟩

/-- C125: the second operand may be zero as well (`x - 0`, `np.maximum(x, 0)`); the result has the dimensions of the first one unless
that is zero too. -/
theorem c125_zero_right {a : ℝ} (ha : 0 < a) {ks : Nat → ℝ} {ds : Nat → D} {env : Nat → Arr × U D} (henv : ∀ i, Conv a (ks i) (env i).1)
    (hsz : ∀ i, 0 < (env i).2.size) (hdim : ∀ i, (env i).2.dim = ds i) {s t : UExpr D} {k m : ℝ} {c d : D}
    (hs : Measures ds s c) (ht : Measures ds t d) (hks : Dimension ks (ofAmounts s) k) (hkt : Dimension ks (ofAmounts t) m)
    (hm : Bare (ofAmounts t) ∨ m = k) (hbs : ¬ Bare (ofAmounts s)) {z : List ℝ}
    (hz : meaning (fun i => amounts (env i)) (ofAmounts t) = .ok z) (hz0 : ∀ q ∈ z, q = 0)
    {f : Bin} (hf : f ∉ [Bin.multiply, .divide]) :
    (evalU env (.two f s t)).map valueAmounts = ((meaning (fun i => amounts (env i)) (ofAmounts s)).bind fun w => bcast2 (numbers2 f) w z) ∧
      ∀ r, evalU env (.two f s t) = .ok r → (∃ x, r.1 = .cosmo x ∧ Conv a k x) ∧
        ∀ w, meaning (fun i => amounts (env i)) (ofAmounts s) = .ok w → (∃ q ∈ w, q ≠ 0) → r.2.dim = c := by
  rw [← c125_value ha henv hsz hdim ht hkt] at hz
  rw [← c125_value ha henv hsz hdim hs hks]
  simp only [evalU]
  cases h1 : evalU env t with
  | error e => rw [h1] at hz; cases hz
  | ok p => cases h2 : evalU env s with
    | error e => exact ⟨rfl, by rintro r hr; cases hr⟩
    | ok q =>
      rw [h1] at hz
      have hz' := Except.ok.inj hz
      obtain ⟨p1, p2, p3, p4⟩ := c125_result ha henv hsz hdim ht hkt h1
      obtain ⟨q1, q2, q3, q4⟩ := c125_result ha henv hsz hdim hs hks h2
      obtain ⟨y, hy, hyc⟩ := q4 hbs
      obtain ⟨o, v⟩ := p
      obtain ⟨o', u⟩ := q
      dsimp only at p1 p2 p3 p4 q1 q2 hz' hy
      subst hy
      have hp : HasExp a o m := by
        by_cases hb : Bare (ofAmounts t)
        · obtain ⟨g1, -, v', g2⟩ := p3 hb
          rw [g2]; exact g1
        · obtain ⟨x, g1, g2⟩ := p4 hb
          rw [g1]; exact g2
      have hq : HasExp a (.cosmo y) k := hyc
      have ho0 : ∀ q ∈ o.phys, q = 0 := by
        intro q hq
        have h3 := hz0 (q * v.size) (by rw [← hz']; exact List.mem_map_of_mem hq)
        exact (mul_eq_zero.1 h3).resolve_right p1.ne'
      have hnb : ¬ ((∃ v, Opd.cosmo y = .plain v) ∧ ∃ v, o = .plain v) := by
        rintro ⟨⟨v', e⟩, -⟩
        cases e
      change ((apply2U f (.cosmo y, u) (o, v)).map valueAmounts = bcast2 (numbers2 f) (y.phys.map (· * u.size)) z) ∧
        ∀ r, apply2U f (.cosmo y, u) (o, v) = .ok r → _
      rw [apply2U_cosmo hnb, like_units2 hf]
      have hmix : ∀ z ∈ [.cosmo y, o], Mix a z := by
        intro z hz
        rcases List.mem_pair.mp hz with rfl | rfl
        · exact hq.mix
        · exact hp.mix
      obtain ⟨r, b, e, hc, hvt, hcfs, hfa, hbf⟩ := prepare_mix hmix (pair_flags hnb)
      obtain ⟨w, w', hargs, m1, m2⟩ := forall2_two hfa
      have hw0 := zero_phys ha m2 hp ho0
      have hreg : handle (registry f.ufunc) [y.cf, o.cf] [.cosmo y, o] = .ok (some ⟨some k, some a⟩) := by
        have h3 : registry f.ufunc = .preserve ∨ registry f.ufunc = .passthrough := by
          cases f with
          | multiply => exact absurd (by simp) hf
          | divide => exact absurd (by simp) hf
          | maximum => exact .inr rfl
          | minimum => exact .inr rfl
          | _ => exact .inl rfl
        have h4 : o.cf = none ∨ o.cf = y.cf := by
          rcases hm with hb | rfl
          · obtain ⟨-, -, v', g2⟩ := p3 hb
            rw [g2]; exact .inl rfl
          · cases o with
            | plain v' => exact .inl rfl
            | cosmo x => exact .inr ((show Conv a m x from hp).cf.trans hyc.cf.symm)
        rcases h3 with h3 | h3 <;> rcases h4 with h4 | h4 <;> rw [h3, h4] <;>
          simp [handle, reduce1, preserve2, passthrough2, hyc.cf, same_refl]
      have hsc : 0 < scale a b k := by
        unfold scale
        split_ifs
        · exact Real.rpow_pos_of_pos ha k
        · exact one_pos
      have hyp : y.phys = w.vals.map (fun t => t * scale a b k) := m1.phys hq
      have hnum : ∃ u' : U D, 0 < u'.size ∧ w.vals.map (· * u.size) = w.vals.map (· * u'.size) ∧ ((∃ t ∈ w.vals, t ≠ 0) → u'.dim = c) ∧
          likeUnits f.fn u v [w.vals, w'.vals] = (bcast2 f.fn w.vals w'.vals).map (·, u') := by
        unfold likeUnits
        dsimp only
        split_ifs with g1 g2
        · exact ⟨u, q1, rfl, fun _ => q2, rfl⟩
        · exact ⟨v, p1, zeros_scale g2 _ _, fun ⟨t, t1, t2⟩ => absurd (g2 t t1) t2, rfl⟩
        · exact ⟨u, q1, rfl, fun _ => q2, rfl⟩
      obtain ⟨u', hu', hsame, hdimc, hnum⟩ := hnum
      have hzw : ∀ σ : ℝ, z = w'.vals.map (· * σ) := by
        intro σ
        have l1 : z = w'.vals.map (fun _ => (0 : ℝ)) := by
          rw [← hz']
          simp only [valueAmounts]
          rw [m2.phys hp, List.map_map]
          refine List.map_congr_left (fun t ht => ?_)
          simp [hw0 t ht]
        rw [l1]
        exact List.map_congr_left (fun t ht => by rw [hw0 t ht, zero_mul])
      have e3 : y.phys.map (· * u.size) = w.vals.map (· * (scale a b k * u'.size)) := by
        have h5 : w.vals.map (· * (scale a b k * u'.size)) = (w.vals.map (· * u'.size)).map (· * scale a b k) := by
          rw [List.map_map]
          exact List.map_congr_left (fun t _ => by simp only [Function.comp]; ring)
        rw [h5, ← hsame, hyp, List.map_map, List.map_map]
        exact List.map_congr_left (fun t _ => by simp only [Function.comp]; ring)
      have key := bcast2_map f.fn f.fn (· * (scale a b k * u'.size)) (· * (scale a b k * u'.size)) (· * (scale a b k * u'.size))
        (fun p q => like_hom hf (mul_pos hsc hu') p q) w.vals w'.vals
      rw [← e3, ← hzw] at key
      have hnz : ∀ l, (Except.ok (valueAmounts (Opd.cosmo y, u)) : Except Err (List ℝ)) = .ok l → (∃ q ∈ l, q ≠ 0) → ∃ t ∈ w.vals, t ≠ 0 := by
        rintro l hl ⟨q, hq1, hq2⟩
        cases hl
        simp only [valueAmounts, Opd.phys] at hq1
        rw [hyp, List.map_map] at hq1
        simp only [List.mem_map, Function.comp] at hq1
        obtain ⟨t, t1, t2⟩ := hq1
        exact ⟨t, t1, fun h => hq2 (by rw [← t2, h]; simp)⟩
      unfold ufuncUnits
      rw [e]
      dsimp only
      rw [hcfs, hargs]
      simp only [List.map_cons, List.map_nil, Opd.cf] at hreg ⊢
      rw [hreg]
      dsimp only
      rw [hnum, fn2, key]
      cases bcast2 f.fn w.vals w'.vals with
      | error e' => exact ⟨rfl, by rintro r hr; cases hr⟩
      | ok n =>
        refine ⟨?_, ?_⟩
        · simp only [Except.map, valueAmounts, Opd.phys]
          rw [phys_result (m := k) (a := a) (b := b) hc rfl, List.map_map]
          congr 1
          exact List.map_congr_left (fun t _ => by simp only [Function.comp]; ring)
        · rintro r' hr
          cases hr
          exact ⟨⟨_, rfl, ⟨ha, rfl, hvt, by simp [hc]⟩⟩, fun l hl hn => hdimc (hnz l hl hn)⟩

/-- C125: arrays are converted to units of their own dimensions only. -/
theorem c125_convert_refused {a : ℝ} (ha : 0 < a) {ks : Nat → ℝ} {ds : Nat → D} {env : Nat → Arr × U D} (henv : ∀ i, Conv a (ks i) (env i).1)
    (hsz : ∀ i, 0 < (env i).2.size) (hdim : ∀ i, (env i).2.dim = ds i) {s : UExpr D} {k : ℝ} {d : D} (hs : Measures ds s d)
    (hks : Dimension ks (ofAmounts s) k) (hbs : ¬ Bare (ofAmounts s)) {v : List ℝ} (hv : meaning (fun i => amounts (env i)) (ofAmounts s) = .ok v)
    {u : U D} (hu : u.dim ≠ d) : evalU env (.convert u s) = .error .value := by
  rw [← c125_value ha henv hsz hdim hs hks] at hv
  simp only [evalU]
  cases h1 : evalU env s with
  | error e => rw [h1] at hv; cases hv
  | ok p =>
    obtain ⟨-, p2, -, p4⟩ := c125_result ha henv hsz hdim hs hks h1
    obtain ⟨x, hx, -⟩ := p4 hbs
    obtain ⟨o, w⟩ := p
    dsimp only at hx p2
    subst hx
    change applyToUnit u (.cosmo x, w) = _
    simp only [applyToUnit]
    rw [if_pos (by rw [p2]; exact hu.symm)]

/-- C125: comparisons of amounts with different dimensions are refused, unless one side is zero everywhere or has no dimensions. -/
theorem c125_compare_refused {a : ℝ} (ha : 0 < a) {ks : Nat → ℝ} {ds : Nat → D} {env : Nat → Arr × U D} (henv : ∀ i, Conv a (ks i) (env i).1)
    (hsz : ∀ i, 0 < (env i).2.size) (hdim : ∀ i, (env i).2.dim = ds i) {s t : UExpr D} {k l : ℝ} {c d : D} (hcd : c ≠ d) (hc0 : c ≠ 0)
    (hd0 : d ≠ 0) (hs : Measures ds s c) (ht : Measures ds t d) (hks : Dimension ks (ofAmounts s) k) (hkt : Dimension ks (ofAmounts t) l)
    {v w : List ℝ} (hv : meaning (fun i => amounts (env i)) (ofAmounts s) = .ok v) (hw : meaning (fun i => amounts (env i)) (ofAmounts t) = .ok w)
    (hvn : ∃ q ∈ v, q ≠ 0) (hwn : ∃ q ∈ w, q ≠ 0) (u : Ufunc) {β : Type} (r : ℝ → ℝ → β)
    (hu : u ∈ [Ufunc.less, .lessEqual, .greater, .greaterEqual, .equal, .notEqual]) : compareU u r env s t = .error .value := by
  rw [← c125_value ha henv hsz hdim hs hks] at hv
  rw [← c125_value ha henv hsz hdim ht hkt] at hw
  unfold compareU
  cases h1 : evalU env s with
  | error e => rw [h1] at hv; cases hv
  | ok p => cases h2 : evalU env t with
    | error e => rw [h2] at hw; cases hw
    | ok q =>
      rw [h1] at hv
      rw [h2] at hw
      have hv' := Except.ok.inj hv
      have hw' := Except.ok.inj hw
      obtain ⟨p1, p2, p3, p4⟩ := c125_result ha henv hsz hdim hs hks h1
      obtain ⟨q1, q2, q3, q4⟩ := c125_result ha henv hsz hdim ht hkt h2
      obtain ⟨x, hx, hxc⟩ := p4 (fun hb => hc0 (p3 hb).2.1)
      obtain ⟨y, hy, hyc⟩ := q4 (fun hb => hd0 (q3 hb).2.1)
      obtain ⟨o, μ⟩ := p
      obtain ⟨o', ν⟩ := q
      dsimp only at hx hy p1 p2 q1 q2 hv' hw'
      subst hx hy
      change ufuncBool u (compareUnits r μ ν) [.cosmo x, .cosmo y] = _
      have hp : HasExp a (.cosmo x) k := hxc
      have hq : HasExp a (.cosmo y) l := hyc
      have hmix : ∀ z ∈ [Opd.cosmo x, .cosmo y], Mix a z := by
        intro z hz
        rcases List.mem_pair.mp hz with rfl | rfl
        · exact hp.mix
        · exact hq.mix
      obtain ⟨r', b, e, hc, hvt, hcfs, hfa, hbf⟩ := prepare_mix hmix (by simp [flags])
      obtain ⟨z, z', hargs, m1, m2⟩ := forall2_two hfa
      have n1 : ¬ ∀ t ∈ z.vals, t = 0 := by
        intro hz
        obtain ⟨q, hq1, hq2⟩ := hvn
        rw [← hv'] at hq1
        simp only [valueAmounts] at hq1
        rw [m1.phys hp] at hq1
        simp only [List.map_map, List.mem_map, Function.comp] at hq1
        obtain ⟨t, ht1, ht2⟩ := hq1
        rw [hz t ht1] at ht2
        simp at ht2
        exact hq2 ht2.symm
      have n2 : ¬ ∀ t ∈ z'.vals, t = 0 := by
        intro hz
        obtain ⟨q', hq1, hq2⟩ := hwn
        rw [← hw'] at hq1
        simp only [valueAmounts] at hq1
        rw [m2.phys hq] at hq1
        simp only [List.map_map, List.mem_map, Function.comp] at hq1
        obtain ⟨t, ht1, ht2⟩ := hq1
        rw [hz t ht1] at ht2
        simp at ht2
        exact hq2 ht2.symm
      have hdd : μ.dim ≠ ν.dim := by rw [p2, q2]; exact hcd
      have hnum : compareUnits r μ ν (r'.args.map Opd.vals) = .error .value := by
        rw [hargs]
        change compareUnits r μ ν [z.vals, z'.vals] = _
        unfold compareUnits
        dsimp only
        rw [if_neg, if_pos hdd]
        rintro (h | h | h | h | h)
        · exact hdd (by rw [h])
        · exact n1 h
        · exact n2 h
        · exact hc0 (p2.symm.trans h)
        · exact hd0 (q2.symm.trans h)
      unfold ufuncBool
      rw [e]
      dsimp only
      rw [hcfs, hnum]
      have hreg : registry u = .comparison := by
        simp only [List.mem_cons, List.not_mem_nil, or_false] at hu
        rcases hu with rfl | rfl | rfl | rfl | rfl | rfl <;> rfl
      rw [hreg]
      simp only [List.map_cons, List.map_nil, Opd.cf, handle, without2, hxc.cf, hyc.cf]
      split_ifs <;> rfl

private theorem far_same {a k l : ℝ} (ha : 0 < a) (h : 1e-8 + 1e-6 * |a ^ l| < |a ^ k - a ^ l|) :
    ¬ (⟨some k, some a⟩ : CF).same ⟨some l, some a⟩ := by
  rintro ⟨-, h2⟩
  simp only [CF.aFactor, isclose] at h2
  exact absurd h2 (not_le.mpr h)

/-- C125: sums, extrema and remainders of arrays that scale differently are refused, whatever their units are: factors that differ by more
than `np.isclose` allows. -/
theorem c125_factor_refused {a : ℝ} (ha : 0 < a) {ks : Nat → ℝ} {ds : Nat → D} {env : Nat → Arr × U D} (henv : ∀ i, Conv a (ks i) (env i).1)
    (hsz : ∀ i, 0 < (env i).2.size) (hdim : ∀ i, (env i).2.dim = ds i) {s t : UExpr D} {k l : ℝ} {c d : D}
    (hkl : 1e-8 + 1e-6 * |a ^ l| < |a ^ k - a ^ l|) (hs : Measures ds s c) (ht : Measures ds t d) (hks : Dimension ks (ofAmounts s) k)
    (hkt : Dimension ks (ofAmounts t) l) (hbs : ¬ Bare (ofAmounts s)) (hbt : ¬ Bare (ofAmounts t)) {v w : List ℝ}
    (hv : meaning (fun i => amounts (env i)) (ofAmounts s) = .ok v) (hw : meaning (fun i => amounts (env i)) (ofAmounts t) = .ok w)
    {f : Bin} (hf : f ∉ [Bin.multiply, .divide]) : evalU env (.two f s t) = .error .value := by
  rw [← c125_value ha henv hsz hdim hs hks] at hv
  rw [← c125_value ha henv hsz hdim ht hkt] at hw
  simp only [evalU]
  cases h1 : evalU env s with
  | error e => rw [h1] at hv; cases hv
  | ok p => cases h2 : evalU env t with
    | error e => rw [h2] at hw; cases hw
    | ok q =>
      obtain ⟨x, hx, hxc⟩ := (c125_result ha henv hsz hdim hs hks h1).2.2.2 hbs
      obtain ⟨y, hy, hyc⟩ := (c125_result ha henv hsz hdim ht hkt h2).2.2.2 hbt
      obtain ⟨o, u⟩ := p
      obtain ⟨o', u'⟩ := q
      dsimp only at hx hy
      subst hx hy
      have hp : HasExp a (.cosmo x) k := hxc
      have hq : HasExp a (.cosmo y) l := hyc
      have hmix : ∀ z ∈ [Opd.cosmo x, .cosmo y], Mix a z := by
        intro z hz
        rcases List.mem_pair.mp hz with rfl | rfl
        · exact hp.mix
        · exact hq.mix
      obtain ⟨r, b, e, hc, hvt, hcfs, hfa, hbf⟩ := prepare_mix hmix (by simp [flags])
      have hh : handle (registry f.ufunc) [some ⟨some k, some a⟩, some ⟨some l, some a⟩] [.cosmo x, .cosmo y] = .error .value := by
        have hsame := far_same ha hkl
        cases f with
        | multiply => exact absurd (by simp) hf
        | divide => exact absurd (by simp) hf
        | maximum => exact if_neg hsame
        | minimum => exact if_neg hsame
        | _ =>
          change handle .preserve _ _ = _
          simp only [handle, reduce1, preserve2, List.foldlM, bind, Except.bind, if_neg hsame]
      change (ufuncUnits f.ufunc (units2 f u u') [.cosmo x, .cosmo y]).map _ = _
      unfold ufuncUnits
      rw [e]
      dsimp only
      rw [hcfs]
      simp only [List.map_cons, List.map_nil, Opd.cf, hxc.cf, hyc.cf]
      rw [hh]
      rfl

/-- C125: so are their comparisons. -/
theorem c125_factor_compare_refused {a : ℝ} (ha : 0 < a) {ks : Nat → ℝ} {ds : Nat → D} {env : Nat → Arr × U D}
    (henv : ∀ i, Conv a (ks i) (env i).1) (hsz : ∀ i, 0 < (env i).2.size) (hdim : ∀ i, (env i).2.dim = ds i) {s t : UExpr D} {k l : ℝ} {c d : D}
    (hkl : 1e-8 + 1e-6 * |a ^ l| < |a ^ k - a ^ l|) (hs : Measures ds s c) (ht : Measures ds t d) (hks : Dimension ks (ofAmounts s) k)
    (hkt : Dimension ks (ofAmounts t) l) (hbs : ¬ Bare (ofAmounts s)) (hbt : ¬ Bare (ofAmounts t)) {v w : List ℝ}
    (hv : meaning (fun i => amounts (env i)) (ofAmounts s) = .ok v) (hw : meaning (fun i => amounts (env i)) (ofAmounts t) = .ok w)
    (u : Ufunc) {β : Type} (r : ℝ → ℝ → β) (hu : u ∈ [Ufunc.less, .lessEqual, .greater, .greaterEqual, .equal, .notEqual]) :
    compareU u r env s t = .error .value := by
  rw [← c125_value ha henv hsz hdim hs hks] at hv
  rw [← c125_value ha henv hsz hdim ht hkt] at hw
  unfold compareU
  cases h1 : evalU env s with
  | error e => rw [h1] at hv; cases hv
  | ok p => cases h2 : evalU env t with
    | error e => rw [h2] at hw; cases hw
    | ok q =>
      obtain ⟨x, hx, hxc⟩ := (c125_result ha henv hsz hdim hs hks h1).2.2.2 hbs
      obtain ⟨y, hy, hyc⟩ := (c125_result ha henv hsz hdim ht hkt h2).2.2.2 hbt
      obtain ⟨o, μ⟩ := p
      obtain ⟨o', ν⟩ := q
      dsimp only at hx hy
      subst hx hy
      change ufuncBool u (compareUnits r μ ν) [.cosmo x, .cosmo y] = _
      have hp : HasExp a (.cosmo x) k := hxc
      have hq : HasExp a (.cosmo y) l := hyc
      have hmix : ∀ z ∈ [Opd.cosmo x, .cosmo y], Mix a z := by
        intro z hz
        rcases List.mem_pair.mp hz with rfl | rfl
        · exact hp.mix
        · exact hq.mix
      obtain ⟨r', b, e, hc, hvt, hcfs, hfa, hbf⟩ := prepare_mix hmix (by simp [flags])
      unfold ufuncBool
      rw [e]
      dsimp only
      rw [hcfs]
      have hreg : registry u = .comparison := by
        simp only [List.mem_cons, List.not_mem_nil, or_false] at hu
        rcases hu with rfl | rfl | rfl | rfl | rfl | rfl <;> rfl
      rw [hreg]
      simp only [List.map_cons, List.map_nil, Opd.cf, handle, without2, hxc.cf, hyc.cf, if_neg (far_same ha hkl)]

/-- C125: if there are no dimensions, unyt compares the numbers as they are, so that comparisons are not always those of the amounts:
50 percent are more than 1. -/
theorem c125_compare_dimensionless_fails :
    ∃ (env : Nat → Arr × U D) (t : UExpr D), (∀ i, Conv 1 0 (env i).1) ∧ (∀ i, 0 < (env i).2.size) ∧ Measures (fun _ => (0 : D)) (.var 0) 0 ∧
      Measures (fun _ => (0 : D)) t 0 ∧ (∀ i, (env i).2.dim = 0) ∧ compareU .less (fun p q => p < q) env (.var 0) t = .ok [False] ∧
      (meaning (fun i => amounts (env i)) (ofAmounts (.var 0 : UExpr D))).bind (fun v =>
        (meaning (fun i => amounts (env i)) (ofAmounts t)).bind fun w => bcast2 (fun p q => p < q) v w) = .ok [True] := by
  refine ⟨fun _ => (⟨[50], some false, some ⟨some 0, some 1⟩, true⟩, ⟨1 / 100, 0⟩), .nums [1], fun _ => ⟨one_pos, rfl, rfl, nofun⟩,
    fun _ => by norm_num, .var 0, .nums _, fun _ => rfl, ?_, ?_⟩
  · simp only [compareU, evalU, Except.bind]
    unfold ufuncBool
    rw [pair_prepare]
    simp only [handle, registry, without2, List.map_cons, List.map_nil, Opd.vals]
    unfold compareUnits
    dsimp only
    rw [if_pos (by simp)]
    simp [bcast2]
  · simp only [ofAmounts, meaning, Except.bind, amounts, Arr.phys, bcast2, List.map_cons, List.map_nil, List.length_cons, List.length_nil,
      if_true, List.zipWith_cons_cons, List.zipWith_nil_left]
    norm_num

/-! Positions in Mpc (comoving) and kpc (physical) at `a = 1/2` and a time in Myr; dimensions are exponents of length and time. -/

private noncomputable def mpc : U (ℝ × ℝ) := ⟨1000, (1, 0)⟩

private noncomputable def envQ : Nat → Arr × U (ℝ × ℝ)
  | 0 => (⟨[2, 4], some true, some ⟨some 1, some (1 / 2)⟩, true⟩, mpc)
  | 1 => (⟨[500], some false, some ⟨some 1, some (1 / 2)⟩, true⟩, ⟨1, (1, 0)⟩)
  | _ => (⟨[10], some false, some ⟨some 0, some (1 / 2)⟩, true⟩, ⟨1, (0, 1)⟩)

private noncomputable def ksQ : Nat → ℝ
  | 0 => 1
  | 1 => 1
  | _ => 0

private noncomputable def dsQ : Nat → ℝ × ℝ
  | 0 => (1, 0)
  | 1 => (1, 0)
  | _ => (0, 1)

private theorem envQ_conv (i : Nat) : Conv (1 / 2) (ksQ i) (envQ i).1 := by
  match i with
  | 0 => exact ⟨by norm_num, rfl, rfl, nofun⟩
  | 1 => exact ⟨by norm_num, rfl, rfl, nofun⟩
  | _ + 2 => exact ⟨by norm_num, rfl, rfl, nofun⟩

private theorem envQ_size (i : Nat) : 0 < (envQ i).2.size := by
  match i with
  | 0 => norm_num [envQ, mpc]
  | 1 => norm_num [envQ]
  | _ + 2 => exact one_pos

private theorem envQ_dim (i : Nat) : (envQ i).2.dim = dsQ i := by
  match i with
  | 0 => rfl
  | 1 => rfl
  | _ + 2 => rfl

private theorem posQ : Measures dsQ (.two .add (.var 0) (.var 1)) (1, 0) ∧ Dimension ksQ (.two .add (.var 0) (.var 1)) 1 :=
  ⟨.like (by decide) (Measures.var 0) (Measures.var (ds := dsQ) 1), .sum (by simp) (Dimension.var (ks := ksQ) 0) (Dimension.var (ks := ksQ) 1)⟩

/-- `(x + y).to(Mpc) / t` in kpc per Myr; the result has the dimensions of a velocity. -/
example : (evalU envQ (.two .divide (.convert mpc (.two .add (.var 0) (.var 1))) (.var 2))).map valueAmounts = .ok [150, 250] ∧
    ∀ r, evalU envQ (.two .divide (.convert mpc (.two .add (.var 0) (.var 1))) (.var 2)) = .ok r → r.2.dim = (1, -1) := by
  have hd : Measures dsQ (.two .divide (.convert mpc (.two .add (.var 0) (.var 1))) (.var 2)) (mpc.dim - dsQ 2) :=
    .div (.convert (by norm_num [mpc]) posQ.1 (fun h => h.1)) (Measures.var 2)
  have hk : Dimension ksQ (ofAmounts (.two .divide (.convert mpc (.two .add (.var 0) (.var 1))) (.var 2))) (1 - ksQ 2) :=
    .div posQ.2 (Dimension.var 2)
  refine ⟨?_, fun r hr => ?_⟩
  · rw [c125_value (by norm_num) envQ_conv envQ_size envQ_dim hd hk]
    simp only [ofAmounts, meaning, amounts, envQ, mpc, Arr.phys, Except.bind, bcast2, List.map_cons, List.map_nil, Real.rpow_one]
    norm_num [numbers2]
  · rw [(c125_result (by norm_num) envQ_conv envQ_size envQ_dim hd hk hr).2.1]
    simp [mpc, dsQ]

/-- `x < y`: 1000 and 2000 kpc are not less than 500 kpc. -/
example : compareU .less (fun p q => p < q) envQ (.var 0) (.var 1) = .ok [(1000 : ℝ) < 500, (2000 : ℝ) < 500] := by
  rw [c125_compare (d := ((1, 0) : ℝ × ℝ)) (k := 1) (by norm_num) envQ_conv envQ_size envQ_dim (by simp) (Measures.var (ds := dsQ) 0)
    (Measures.var (ds := dsQ) 1) (Dimension.var (ks := ksQ) 0) (Dimension.var (ks := ksQ) 1) .less _ (List.mem_cons_self ..)]
  simp only [ofAmounts, meaning, amounts, envQ, mpc, Arr.phys, Except.bind, bcast2, List.map_cons, List.map_nil, Real.rpow_one]
  norm_num

/-- `x + t` is refused, `0 + x` is not. -/
example : evalU envQ (.two .add (.var 0) (.var 2)) = .error .value ∧
    (evalU envQ (.two .add (.nums [0]) (.var 0))).map valueAmounts = .ok [1000, 2000] := by
  refine ⟨c125_refused (v := [1000, 2000]) (w := [10]) (a := 1 / 2) (by norm_num) envQ_conv envQ_size envQ_dim (c := dsQ 0) (d := dsQ 2) (by simp [dsQ]) (.var 0)
    (.var 2) (.var (ks := ksQ) 0) (.var (ks := ksQ) 2) ?_ ?_ ⟨1000, by simp, by norm_num⟩ ⟨10, by simp, by norm_num⟩ (by decide), ?_⟩
  · simp only [ofAmounts, meaning, amounts, envQ, mpc, Arr.phys, List.map_cons, List.map_nil, Real.rpow_one]
    norm_num
  · simp only [ofAmounts, meaning, amounts, envQ, Arr.phys, List.map_cons, List.map_nil]
    norm_num
  · rw [(c125_zero (a := 1 / 2) (z := [0]) (by norm_num) envQ_conv envQ_size envQ_dim (.nums [0]) (.var (ds := dsQ) 0) (.nums (ks := ksQ) [0]) (.var 0) (.inl trivial)
      (fun h => h) rfl (by simp) (by simp)).1]
    simp only [ofAmounts, meaning, amounts, envQ, mpc, Arr.phys, Except.bind, bcast2, List.map_cons, List.map_nil, Real.rpow_one]
    norm_num [numbers2]

/-- `np.maximum(x, 0)` is `x` here; `x.to(Myr)` and `x < t` are refused. -/
example : (evalU envQ (.two .maximum (.var 0) (.nums [0]))).map valueAmounts = .ok [1000, 2000] ∧
    evalU envQ (.convert ⟨1, (0, 1)⟩ (.var 0)) = .error .value ∧ compareU .less (fun p q => p < q) envQ (.var 0) (.var 2) = .error .value := by
  have hv : meaning (fun i => amounts (envQ i)) (ofAmounts (.var 0 : UExpr (ℝ × ℝ))) = .ok [1000, 2000] := by
    simp only [ofAmounts, meaning, amounts, envQ, mpc, Arr.phys, List.map_cons, List.map_nil, Real.rpow_one]
    norm_num
  have hw : meaning (fun i => amounts (envQ i)) (ofAmounts (.var 2 : UExpr (ℝ × ℝ))) = .ok [10] := by
    simp only [ofAmounts, meaning, amounts, envQ, Arr.phys, List.map_cons, List.map_nil]
    norm_num
  refine ⟨?_, ?_, ?_⟩
  · rw [(c125_zero_right (a := 1 / 2) (z := [0]) (by norm_num) envQ_conv envQ_size envQ_dim (.var (ds := dsQ) 0) (.nums [0]) (.var (ks := ksQ) 0) (.nums [0])
      (.inl trivial) (fun h => h) rfl (by simp) (by decide)).1, hv]
    norm_num [Except.bind, bcast2, numbers2]
  · exact c125_convert_refused (a := 1 / 2) (by norm_num) envQ_conv envQ_size envQ_dim (.var (ds := dsQ) 0) (.var (ks := ksQ) 0) (fun h => h) hv (by simp [dsQ])
  · exact c125_compare_refused (a := 1 / 2) (by norm_num) envQ_conv envQ_size envQ_dim (by simp [dsQ]) (by simp [dsQ]) (by simp [dsQ]) (.var (ds := dsQ) 0)
      (.var (ds := dsQ) 2) (.var (ks := ksQ) 0) (.var (ks := ksQ) 2) hv hw ⟨1000, by simp, by norm_num⟩ ⟨10, by simp, by norm_num⟩ .less _ (by simp)

/-- The factors of positions (`a`) and times (1) at `a = 1/2` are not close: `x + t` and `x < t` are refused for this reason too. -/
example : (1e-8 : ℝ) + 1e-6 * |(1 / 2 : ℝ) ^ (0 : ℝ)| < |(1 / 2 : ℝ) ^ (1 : ℝ) - (1 / 2 : ℝ) ^ (0 : ℝ)| ∧
    compareU .less (fun p q => p < q) envQ (.var 0) (.var 2) = .error .value := by
  have hf : (1e-8 : ℝ) + 1e-6 * |(1 / 2 : ℝ) ^ (0 : ℝ)| < |(1 / 2 : ℝ) ^ (1 : ℝ) - (1 / 2 : ℝ) ^ (0 : ℝ)| := by
    rw [Real.rpow_zero, Real.rpow_one, abs_one, show (1 / 2 : ℝ) - 1 = -(1 / 2) by norm_num, abs_neg, abs_of_pos (by norm_num)]
    norm_num
  refine ⟨hf, c125_factor_compare_refused (v := [1000, 2000]) (w := [10]) (by norm_num) envQ_conv envQ_size envQ_dim hf (.var (ds := dsQ) 0)
    (.var (ds := dsQ) 2) (.var (ks := ksQ) 0) (.var (ks := ksQ) 2) (fun h => h) (fun h => h) ?_ ?_ .less _ (by simp)⟩
  · simp only [ofAmounts, meaning, amounts, envQ, mpc, Arr.phys, List.map_cons, List.map_nil, Real.rpow_one]
    norm_num
  · simp only [ofAmounts, meaning, amounts, envQ, Arr.phys, List.map_cons, List.map_nil]
    norm_num

end Verif.Props
