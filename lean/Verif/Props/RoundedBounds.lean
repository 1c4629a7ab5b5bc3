import Verif.Spec.RoundedBounds
import Verif.Lemmas.MaskRows
import Verif.Props.RoundedCuts

/-!
# C144: constrain_property in double precision (`swiftsimio/masks.py`)
-/

namespace Verif.Props
open Verif Verif.Mask Verif.Spec Verif.RoundedBounds

variable {K : Type} [Field K] [LinearOrder K] {m : Nat}

private theorem rows_iff (flx flq : K → K) (c : Column K) (lower upper : RoundedBounds.Bound K) {current : List Bool} (hl : current.length = c.numbers.length)
    (i : Nat) : (RoundedBounds.newMask flx flq c lower upper current)[i]? = some true ↔ current[i]? = some true ∧ ∃ v, c.numbers[i]? = some v ∧
      boundNumber flq c lower < dataNumber flx c lower v ∧ dataNumber flx c upper v ≤ boundNumber flq c upper := by
  unfold RoundedBounds.newMask
  rw [maskedAssign_get _ _ _ hl]
  simp

/-- C144. If the bounds have the frame and the unit of the field, the rows are those whose stored number is above the lower bound and at most the
upper bound, whatever the rounding is: no digit is lost. -/
theorem c144_stored (flx flq : K → K) (c : Column K) (lower upper : RoundedBounds.Bound K) (hlo : AsStored c lower) (hup : AsStored c upper)
    (current : List Bool) (hl : current.length = c.numbers.length) (i : Nat) :
    (RoundedBounds.newMask flx flq c lower upper current)[i]? = some true ↔
      current[i]? = some true ∧ ∃ v, c.numbers[i]? = some v ∧ lower.value < v ∧ v ≤ upper.value := by
  have hd : ∀ q : RoundedBounds.Bound K, AsStored c q → ∀ v, dataNumber flx c q v = v := by
    intro q h v
    unfold dataNumber
    rw [h.1]
    cases c.comoving <;> rfl
  have hb : ∀ q : RoundedBounds.Bound K, AsStored c q → boundNumber flq c q = q.value := by
    intro q h
    unfold boundNumber
    rw [h.1, h.2]
    cases c.comoving <;> rfl
  rw [rows_iff flx flq c lower upper hl i]
  simp only [hd _ hlo, hd _ hup, hb _ hlo, hb _ hup]

/-- C144. In this case the whole call is that of the model with exact numbers, to which all other claims about masks refer. -/
theorem c144_refines (flx flq : K → K) (f : File K m) (disk : String → String → Option (Column K)) (s : State m) (group quantity : String)
    (lower upper : RoundedBounds.Bound K) (hd : disk group quantity = none → f.field group quantity = none)
    (hc : ∀ c, disk group quantity = some c → f.field group quantity = some c.numbers ∧ AsStored c lower ∧ AsStored c upper) :
    RoundedBounds.constrainProperty flx flq f disk s group quantity lower upper = propertyBody f s group quantity lower.value upper.value := by
  unfold RoundedBounds.constrainProperty propertyBody
  dsimp only
  cases hq : disk group quantity with
  | none =>
    rw [hd hq]
    cases f.group group <;> rfl
  | some c =>
    obtain ⟨h1, ⟨l1, l2⟩, u1, u2⟩ := hc c hq
    rw [h1]
    cases f.group group with
    | none => rfl
    | some k =>
      dsimp only
      have hn : ∀ cur, RoundedBounds.newMask flx flq c lower upper cur =
          maskedAssign cur ((compress cur c.numbers).map fun v => decide (v > lower.value) && decide (v ≤ upper.value)) := by
        intro cur
        unfold RoundedBounds.newMask dataNumber boundNumber
        rw [l1, l2, u1, u2]
        cases c.comoving <;> rfl
      cases (toBool f s).rep with
      | bools bs => simp only [hn]
      | ranges r => rfl

private theorem newMask_length (flx flq : K → K) (c : Column K) (lower upper : RoundedBounds.Bound K) (current : List Bool) :
    (RoundedBounds.newMask flx flq c lower upper current).length = current.length := by
  unfold RoundedBounds.newMask
  exact maskedAssign_length _ _

private theorem bools_ext {l l' : List Bool} (hl : l.length = l'.length) (h : ∀ i : Nat, l[i]? = some true ↔ l'[i]? = some true) : l = l' := by
  apply List.ext_getElem hl
  intro i h1 h2
  have := h i
  rw [List.getElem?_eq_getElem h1, List.getElem?_eq_getElem h2] at this
  simp only [Option.some.injEq] at this
  exact Bool.eq_iff_iff.2 this

/-- C144. The row `i` of the field passes the cut when it is the only one. -/
def PassesCut (flx flq : K → K) (t : Column K × RoundedBounds.Bound K × RoundedBounds.Bound K) (i : Nat) : Prop :=
  (RoundedBounds.newMask flx flq t.1 t.2.1 t.2.2 (t.1.numbers.map fun _ => true))[i]? = some true

/-- C144. After any number of cuts on fields of one type the rows are those of the mask before that pass each of the cuts alone, to the last digit. So
neither the order of cuts nor repeated cuts matter. -/
theorem c144_history (flx flq : K → K) (cuts : List (Column K × RoundedBounds.Bound K × RoundedBounds.Bound K)) :
    ∀ (current : List Bool), (∀ t ∈ cuts, current.length = t.1.numbers.length) → ∀ i : Nat,
    (cuts.foldl (fun now t => RoundedBounds.newMask flx flq t.1 t.2.1 t.2.2 now) current)[i]? = some true ↔
      current[i]? = some true ∧ ∀ t ∈ cuts, PassesCut flx flq t i := by
  induction cuts with
  | nil => intro current _ i; simp
  | cons t cuts ih =>
    intro current hl i
    rw [List.foldl_cons, ih _ (fun t' h => by rw [newMask_length]; exact hl t' (List.mem_cons_of_mem _ h)) i,
      rows_iff flx flq t.1 t.2.1 t.2.2 (hl t List.mem_cons_self) i]
    have hp : PassesCut flx flq t i ↔ ∃ v, t.1.numbers[i]? = some v ∧
        boundNumber flq t.1 t.2.1 < dataNumber flx t.1 t.2.1 v ∧ dataNumber flx t.1 t.2.2 v ≤ boundNumber flq t.1 t.2.2 := by
      unfold PassesCut
      rw [rows_iff flx flq t.1 t.2.1 t.2.2 (by simp) i]
      constructor
      · exact fun h => h.2
      · intro h
        refine ⟨?_, h⟩
        obtain ⟨v, hv, -⟩ := h
        rw [List.getElem?_map, hv]
        rfl
    rw [← hp]
    simp only [List.mem_cons, forall_eq_or_imp]
    tauto

/-- C144. The order of the cuts does not matter, and cuts may be repeated. -/
theorem c144_order (flx flq : K → K) (cuts cuts' : List (Column K × RoundedBounds.Bound K × RoundedBounds.Bound K)) (hc : ∀ t, t ∈ cuts ↔ t ∈ cuts')
    (current : List Bool) (hl : ∀ t ∈ cuts, current.length = t.1.numbers.length) :
    cuts.foldl (fun now t => RoundedBounds.newMask flx flq t.1 t.2.1 t.2.2 now) current =
      cuts'.foldl (fun now t => RoundedBounds.newMask flx flq t.1 t.2.1 t.2.2 now) current := by
  have len : ∀ (l : List (Column K × RoundedBounds.Bound K × RoundedBounds.Bound K)) (now : List Bool),
      (l.foldl (fun now t => RoundedBounds.newMask flx flq t.1 t.2.1 t.2.2 now) now).length = now.length := by
    intro l
    induction l with
    | nil => intro now; rfl
    | cons t l ih => intro now; rw [List.foldl_cons, ih, newMask_length]
  apply bools_ext
  · rw [len, len]
  · intro i
    rw [c144_history flx flq cuts current hl i, c144_history flx flq cuts' current (fun t h => hl t ((hc t).2 h)) i]
    simp only [hc]

section
variable [IsStrictOrderedRing K]

theorem bound_mono {fl : K → K} (hfl : ∀ x y, x ≤ y → fl x ≤ fl y) (c : Column K) {q q' : RoundedBounds.Bound K} (h : BelowBound q q')
    (hq : PositiveBound q) : boundNumber fl c q ≤ boundNumber fl c q' := by
  obtain ⟨v, qc, a, s⟩ := q
  obtain ⟨v', qc', a', s'⟩ := q'
  obtain ⟨h1, h2, h3, h4⟩ := h
  dsimp only at h1 h2 h3 h4
  subst h1 h2 h3
  obtain ⟨ha, hs⟩ := hq
  dsimp only at ha hs
  have key : (if c.comoving && !qc then fl (v / a) else v) ≤ (if c.comoving && !qc then fl (v' / a) else v') := by
    split
    · exact hfl _ _ (div_le_div_of_nonneg_right h4 ha.le)
    · exact h4
  unfold boundNumber
  cases s with
  | none => exact key
  | some s => exact hfl _ _ (mul_le_mul_of_nonneg_right key (hs s rfl).le)

omit [IsStrictOrderedRing K] in
theorem data_same (fl : K → K) (c : Column K) {q q' : RoundedBounds.Bound K} (h : BelowBound q q') (v : K) :
    dataNumber fl c q v = dataNumber fl c q' v := by
  unfold dataNumber
  rw [h.1]

/-- C144. Bins: the rows between the first and the last of three bounds in one unit and frame are those between the first and the second together
with those between the second and the third, and no row is in both bins, to the last digit, whatever is converted. -/
theorem c144_bins (flx flq : K → K) (hfl : ∀ x y, x ≤ y → flq x ≤ flq y) (c : Column K) (b0 b1 b2 : RoundedBounds.Bound K) (h01 : BelowBound b0 b1)
    (h12 : BelowBound b1 b2) (hp : PositiveBound b0) (current : List Bool) (hl : current.length = c.numbers.length) (i : Nat) :
    ((RoundedBounds.newMask flx flq c b0 b2 current)[i]? = some true ↔
      (RoundedBounds.newMask flx flq c b0 b1 current)[i]? = some true ∨ (RoundedBounds.newMask flx flq c b1 b2 current)[i]? = some true) ∧
    ¬ ((RoundedBounds.newMask flx flq c b0 b1 current)[i]? = some true ∧ (RoundedBounds.newMask flx flq c b1 b2 current)[i]? = some true) := by
  have hp1 : PositiveBound b1 := by
    obtain ⟨-, e2, e3, -⟩ := h01
    exact ⟨e2 ▸ hp.1, e3 ▸ hp.2⟩
  have m01 := bound_mono hfl c h01 hp
  have m12 := bound_mono hfl c h12 hp1
  have d01 := data_same flx c h01
  have d12 := data_same flx c h12
  simp only [rows_iff flx flq c _ _ hl i, d01, d12]
  constructor
  · constructor
    · rintro ⟨hc, v, hv, h1, h2⟩
      by_cases hm : dataNumber flx c b2 v ≤ boundNumber flq c b1
      · exact .inl ⟨hc, v, hv, h1, hm⟩
      · exact .inr ⟨hc, v, hv, not_le.1 hm, h2⟩
    · rintro (⟨hc, v, hv, h1, h2⟩ | ⟨hc, v, hv, h1, h2⟩)
      · exact ⟨hc, v, hv, h1, h2.trans m12⟩
      · exact ⟨hc, v, hv, m01.trans_lt h1, h2⟩
  · rintro ⟨⟨_, v, hv, _, h2⟩, _, w, hw, h1, _⟩
    have : v = w := Option.some.inj (hv.symm.trans hw)
    subst this
    exact absurd h1 (not_lt.2 h2)

/-- C144. Wider bounds in the same units and frames select at least the same rows. -/
theorem c144_wider (flx flq : K → K) (hfl : ∀ x y, x ≤ y → flq x ≤ flq y) (c : Column K) (lower lower' upper upper' : RoundedBounds.Bound K)
    (hlo : BelowBound lower' lower) (hup : BelowBound upper upper') (hp : PositiveBound lower') (hp' : PositiveBound upper) (current : List Bool)
    (hl : current.length = c.numbers.length) (i : Nat) (h : (RoundedBounds.newMask flx flq c lower upper current)[i]? = some true) :
    (RoundedBounds.newMask flx flq c lower' upper' current)[i]? = some true := by
  rw [rows_iff flx flq c _ _ hl i] at h ⊢
  obtain ⟨hc, v, hv, h1, h2⟩ := h
  refine ⟨hc, v, hv, ?_, ?_⟩
  · rw [data_same flx c hlo]
    exact (bound_mono hfl c hlo hp).trans_lt h1
  · rw [← data_same flx c hup]
    exact h2.trans (bound_mono hfl c hup hp')

/-- C144. The numbers that are selected have no gaps: a number between two that are selected is selected. -/
theorem c144_between (flx flq : K → K) (hfl : ∀ x y, x ≤ y → flx x ≤ flx y) (c : Column K) (hf : 0 < c.factor) (lower upper : RoundedBounds.Bound K)
    (current : List Bool) (hl : current.length = c.numbers.length) (i j k : Nat) (u v w : K) (hu : c.numbers[i]? = some u)
    (hv : c.numbers[j]? = some v) (hw : c.numbers[k]? = some w) (huv : u ≤ v) (hvw : v ≤ w) (hj : current[j]? = some true)
    (h : (RoundedBounds.newMask flx flq c lower upper current)[i]? = some true)
    (h' : (RoundedBounds.newMask flx flq c lower upper current)[k]? = some true) :
    (RoundedBounds.newMask flx flq c lower upper current)[j]? = some true := by
  have mono : ∀ (q : RoundedBounds.Bound K) (x y : K), x ≤ y → dataNumber flx c q x ≤ dataNumber flx c q y := by
    intro q x y hxy
    unfold dataNumber
    split
    · exact hfl _ _ (div_le_div_of_nonneg_right hxy hf.le)
    · exact hxy
  rw [rows_iff flx flq c _ _ hl] at h h' ⊢
  obtain ⟨-, u', hu', h1, -⟩ := h
  obtain ⟨-, w', hw', -, h2⟩ := h'
  have e1 : u = u' := Option.some.inj (hu.symm.trans hu')
  have e2 : w = w' := Option.some.inj (hw.symm.trans hw')
  subst e1 e2
  exact ⟨hj, v, hv, h1.trans_le (mono lower u v huv), (mono upper v w hvw).trans h2⟩

private theorem data_err {fl : K → K} {ε : K} {c : Column K} {q : RoundedBounds.Bound K} {v : K} (hv : 0 ≤ exactData c q v) (he : 0 ≤ ε)
    (h : RelErr fl ε (exactData c q v)) :
    (1 - ε) * exactData c q v ≤ dataNumber fl c q v ∧ dataNumber fl c q v ≤ (1 + ε) * exactData c q v := by
  have e := mul_nonneg he hv
  unfold RelErr at h
  rw [abs_of_nonneg hv, abs_le] at h
  have hd : dataNumber fl c q v = exactData c q v ∨ dataNumber fl c q v = fl (exactData c q v) := by
    unfold dataNumber exactData
    cases c.comoving <;> cases q.comoving
    · exact .inl rfl
    · exact .inr rfl
    · exact .inl rfl
    · exact .inl rfl
  rcases hd with h' | h'
  · rw [h']
    constructor <;> linarith
  · rw [h']
    constructor <;> linarith [h.1, h.2]

private theorem bound_err {fl : K → K} {ε : K} {c : Column K} {q : RoundedBounds.Bound K} (hp : PositiveBound q) (hv : 0 ≤ q.value) (he : 0 ≤ ε) (he1 : ε ≤ 1)
    (h1 : RelErr fl ε (q.value / q.factor)) (h2 : ∀ x s, q.unit = some s → x = q.value ∨ x = fl (q.value / q.factor) → RelErr fl ε (x * s)) :
    (1 - ε) * ((1 - ε) * exactBound c q) ≤ boundNumber fl c q ∧ boundNumber fl c q ≤ (1 + ε) * ((1 + ε) * exactBound c q) := by
  obtain ⟨x, qc, a, s⟩ := q
  dsimp only at hv h1 h2
  obtain ⟨ha, hs⟩ := hp
  dsimp only at ha hs
  have hxa : 0 ≤ x / a := div_nonneg hv ha.le
  unfold RelErr at h1
  rw [abs_of_nonneg hxa, abs_le] at h1
  -- the bound in the frame of the field, without rounding and with it
  have step : ∃ y z : K, 0 ≤ z ∧ (1 - ε) * z ≤ y ∧ y ≤ (1 + ε) * z ∧ (y = x ∨ y = fl (x / a)) ∧
      exactBound c ⟨x, qc, a, s⟩ = z * s.getD 1 ∧ boundNumber fl c ⟨x, qc, a, s⟩ = s.elim y (fun s => fl (y * s)) := by
    have plain : (1 - ε) * x ≤ x ∧ x ≤ (1 + ε) * x := by constructor <;> nlinarith [mul_nonneg he hv]
    unfold exactBound boundNumber
    cases c.comoving <;> cases qc
    · exact ⟨x, x, hv, plain.1, plain.2, .inl rfl, rfl, by cases s <;> rfl⟩
    · exact ⟨x, x, hv, plain.1, plain.2, .inl rfl, rfl, by cases s <;> rfl⟩
    · exact ⟨fl (x / a), x / a, hxa, by linarith [h1.1], by linarith [h1.2], .inr rfl, rfl, by cases s <;> rfl⟩
    · exact ⟨x, x, hv, plain.1, plain.2, .inl rfl, rfl, by cases s <;> rfl⟩
  obtain ⟨y, z, hz, l, u, hy, ex, eb⟩ := step
  have hy0 : 0 ≤ y := (mul_nonneg (by linarith) hz).trans l
  rw [ex, eb]
  cases s with
  | none =>
    dsimp only [Option.getD, Option.elim]
    have hz1 : 0 ≤ (1 + ε) * z := hy0.trans u
    have hz2 : 0 ≤ (1 - ε) * z := mul_nonneg (by linarith) hz
    rw [mul_one]
    constructor
    · nlinarith [mul_nonneg he hz2]
    · nlinarith [mul_nonneg he hz1]
  | some s =>
    dsimp only [Option.getD, Option.elim]
    have hs' := hs s rfl
    have h2' := h2 y s rfl hy
    unfold RelErr at h2'
    have hys : 0 ≤ y * s := mul_nonneg hy0 hs'.le
    rw [abs_of_nonneg hys, abs_le] at h2'
    have l' := mul_le_mul_of_nonneg_right l hs'.le
    have u' := mul_le_mul_of_nonneg_right u hs'.le
    constructor
    · have : (1 - ε) * ((1 - ε) * z * s) ≤ (1 - ε) * (y * s) := mul_le_mul_of_nonneg_left l' (by linarith)
      calc (1 - ε) * ((1 - ε) * (z * s)) = (1 - ε) * ((1 - ε) * z * s) := by ring
        _ ≤ (1 - ε) * (y * s) := this
        _ ≤ fl (y * s) := by linarith [h2'.1]
    · have : (1 + ε) * (y * s) ≤ (1 + ε) * ((1 + ε) * z * s) := mul_le_mul_of_nonneg_left u' (by linarith)
      calc fl (y * s) ≤ (1 + ε) * (y * s) := by linarith [h2'.2]
        _ ≤ (1 + ε) * ((1 + ε) * z * s) := this
        _ = (1 + ε) * ((1 + ε) * (z * s)) := by ring

/-- The roundings that happen in the conversion of a bound have a relative error of at most `ε`. -/
def SmallErrors (fl : K → K) (ε : K) (q : RoundedBounds.Bound K) : Prop :=
  RelErr fl ε (q.value / q.factor) ∧ ∀ x s, q.unit = some s → x = q.value ∨ x = fl (q.value / q.factor) → RelErr fl ε (x * s)

/-- C144. With conversions, a row is selected if its number is between the bounds by more than the errors of three roundings, and is not selected if
it is outside of the bounds by as much. -/
theorem c144_near (flx flq : K → K) (ε : K) (he : 0 ≤ ε) (he1 : ε ≤ 1) (c : Column K) (lower upper : RoundedBounds.Bound K)
    (hl1 : PositiveBound lower) (hl2 : 0 ≤ lower.value) (hl3 : SmallErrors flq ε lower) (hu1 : PositiveBound upper) (hu2 : 0 ≤ upper.value)
    (hu3 : SmallErrors flq ε upper) (current : List Bool) (hl : current.length = c.numbers.length) (i : Nat) (v : K) (hv : c.numbers[i]? = some v)
    (hi : current[i]? = some true) (h1 : 0 ≤ exactData c lower v) (h2 : 0 ≤ exactData c upper v) (r1 : RelErr flx ε (exactData c lower v))
    (r2 : RelErr flx ε (exactData c upper v)) :
    ((1 + ε) * ((1 + ε) * exactBound c lower) < (1 - ε) * exactData c lower v → (1 + ε) * exactData c upper v ≤ (1 - ε) * ((1 - ε) * exactBound c upper) →
      (RoundedBounds.newMask flx flq c lower upper current)[i]? = some true) ∧
    ((1 + ε) * exactData c lower v ≤ (1 - ε) * ((1 - ε) * exactBound c lower) ∨ (1 + ε) * ((1 + ε) * exactBound c upper) < (1 - ε) * exactData c upper v →
      (RoundedBounds.newMask flx flq c lower upper current)[i]? ≠ some true) := by
  obtain ⟨d1, d2⟩ := data_err h1 he r1
  obtain ⟨d3, d4⟩ := data_err h2 he r2
  obtain ⟨b1, b2⟩ := bound_err (c := c) hl1 hl2 he he1 hl3.1 hl3.2
  obtain ⟨b3, b4⟩ := bound_err (c := c) hu1 hu2 he he1 hu3.1 hu3.2
  constructor
  · intro k1 k2
    rw [rows_iff flx flq c _ _ hl]
    exact ⟨hi, v, hv, (b2.trans_lt k1).trans_le d1, (d4.trans k2).trans b3⟩
  · rintro hk hs
    rw [rows_iff flx flq c _ _ hl] at hs
    obtain ⟨-, w, hw, s1, s2⟩ := hs
    have e : v = w := Option.some.inj (hv.symm.trans hw)
    subst e
    rcases hk with k | k
    · exact absurd s1 (not_lt.2 ((d2.trans k).trans b1))
    · exact absurd s2 (not_le.2 ((b4.trans_lt k).trans_le d3))

end

/-- C144. Double precision has relative errors of at most 2 to the power -53, except for numbers below 2 to the power -1022. -/
theorem c144_double (ρ : ℚ → ℤ) (hρ : ToNearest ρ) (x : ℚ) (hx : (2 : ℚ) ^ (-1022 : ℤ) ≤ |x| ∨ x = 0) :
    RelErr (nearest 53 (-1074) ρ) (1 / 2 ^ 53) x := by
  unfold RelErr
  rcases hx with hx | rfl
  · have hx0 : x ≠ 0 := by
      rintro rfl
      rw [abs_zero] at hx
      exact absurd hx (not_le.2 (Nearest.pow_pos' _))
    have h1 := Nearest.nearest_err (p := 53) (emin := -1074) hρ x
    have hlog : (-1022 : ℤ) ≤ Int.log 2 |x| := (Int.zpow_le_iff_le_log (by norm_num) (abs_pos.2 hx0)).1 (by exact_mod_cast hx)
    have hd : lastDigit 53 (-1074) x = Int.log 2 |x| - 52 := by
      unfold lastDigit
      push_cast
      omega
    rw [hd] at h1
    have h2 := Nearest.log_le_abs hx0
    refine h1.trans ?_
    have e : (2 : ℚ) ^ (Int.log 2 |x| - 52) = 2 ^ Int.log 2 |x| / 2 ^ 52 := by
      rw [zpow_sub₀ (by norm_num)]
      norm_num
    rw [e]
    calc 1 / 2 * ((2 : ℚ) ^ Int.log 2 |x| / 2 ^ 52) = 1 / 2 ^ 53 * 2 ^ Int.log 2 |x| := by ring
      _ ≤ 1 / 2 ^ 53 * |x| := mul_le_mul_of_nonneg_left h2 (by norm_num)
  · rw [Nearest.nearest_zero hρ]
    norm_num

/-- C144. A number of the file that is converted and used as a bound can miss its own row: at the scale factor 0.7, as it is in double precision,
the comoving length 3 has a physical length that is converted back to a number below 3. As an upper bound it does not select the row it
comes from. -/
theorem c144_own_fails :
    let fl := nearest 53 (-1074) toEven
    let a : ℚ := 3152519739159347 / 4503599627370496
    let c : Column ℚ := ⟨true, a, [3]⟩
    RoundedBounds.newMask fl fl c ⟨0, false, a, none⟩ ⟨fl (3 * a), false, a, none⟩ [true] = [false] := by
  decide +kernel

/-- C144. Bins whose common bound is given in two frames can miss a row: the bound is the comoving length 3 in one bin, and in the other it is the
same length converted to physical. The row with the number 3 is in neither bin, but is between the outer bounds. -/
theorem c144_frames_fails :
    let fl := nearest 53 (-1074) toEven
    let a : ℚ := 3152519739159347 / 4503599627370496
    let c : Column ℚ := ⟨true, a, [3]⟩
    RoundedBounds.newMask fl fl c ⟨0, true, a, none⟩ ⟨fl (3 * a), false, a, none⟩ [true] = [false] ∧
      RoundedBounds.newMask fl fl c ⟨3, true, a, none⟩ ⟨10, true, a, none⟩ [true] = [false] ∧
      RoundedBounds.newMask fl fl c ⟨0, true, a, none⟩ ⟨10, true, a, none⟩ [true] = [true] := by
  decide +kernel

-- The hypotheses can be met: a comoving field of five rows of which one is not selected, and physical bounds in another unit. The first bin has the
-- rows with 2 and 3, the second those with 5.
example :
    let fl := nearest 53 (-1074) toEven
    let c : Column ℚ := ⟨true, 1 / 2, [1, 2, 3, 4, 5]⟩
    let b0 : RoundedBounds.Bound ℚ := ⟨1 / 4, false, 1 / 2, some 2⟩
    let b1 : RoundedBounds.Bound ℚ := ⟨3 / 4, false, 1 / 2, some 2⟩
    let b2 : RoundedBounds.Bound ℚ := ⟨5 / 4, false, 1 / 2, some 2⟩
    let now := [true, true, true, false, true]
    (∀ x y, x ≤ y → fl x ≤ fl y) ∧ BelowBound b0 b1 ∧ BelowBound b1 b2 ∧ PositiveBound b0 ∧ now.length = c.numbers.length ∧
      RoundedBounds.newMask fl fl c b0 b1 now = [false, true, true, false, false] ∧
      RoundedBounds.newMask fl fl c b1 b2 now = [false, false, false, false, true] ∧
      RoundedBounds.newMask fl fl c b0 b2 now = [false, true, true, false, true] := by
  refine ⟨fun x y h => Nearest.nearest_mono (by norm_num) c138_toEven h, ⟨rfl, rfl, rfl, by norm_num⟩, ⟨rfl, rfl, rfl, by norm_num⟩,
    ⟨by norm_num, ?_⟩, rfl, by decide +kernel⟩
  intro s hs
  obtain rfl := Option.some.inj hs
  norm_num

-- The hypotheses of the margins can be met: a physical field with comoving bounds at the scale factor 0.7 in double precision. The number 3 is
-- converted to about 4.29, which is between 4 and 5.
example :
    let fl := nearest 53 (-1074) toEven
    let ε : ℚ := 1 / 2 ^ 53
    let a : ℚ := 3152519739159347 / 4503599627370496
    let c : Column ℚ := ⟨false, a, [3]⟩
    let lower : RoundedBounds.Bound ℚ := ⟨4, true, a, none⟩
    let upper : RoundedBounds.Bound ℚ := ⟨5, true, a, none⟩
    SmallErrors fl ε lower ∧ SmallErrors fl ε upper ∧ RelErr fl ε (exactData c lower 3) ∧ RelErr fl ε (exactData c upper 3) ∧
      (1 + ε) * ((1 + ε) * exactBound c lower) < (1 - ε) * exactData c lower 3 ∧
      (1 + ε) * exactData c upper 3 ≤ (1 - ε) * ((1 - ε) * exactBound c upper) := by
  refine ⟨⟨by unfold RelErr; decide +kernel, fun x s h => by simp at h⟩, ⟨by unfold RelErr; decide +kernel, fun x s h => by simp at h⟩, ?_, ?_, ?_, ?_⟩
  · unfold RelErr exactData; decide +kernel
  · unfold RelErr exactData; decide +kernel
  · unfold exactData exactBound; decide +kernel
  · unfold exactData exactBound; decide +kernel

-- Bounds as they are stored: even with a rounding that loses all digits, the rows are exact.
example :
    let c : Column ℚ := ⟨true, 1 / 2, [1, 2, 3, 2]⟩
    AsStored c ⟨1, true, 1 / 2, none⟩ ∧ AsStored c ⟨2, true, 1 / 2, none⟩ ∧
      RoundedBounds.newMask (fun _ => 0) (fun _ => 0) c ⟨1, true, 1 / 2, none⟩ ⟨2, true, 1 / 2, none⟩ [true, true, true, false] =
        [false, true, false, false] :=
  ⟨⟨rfl, rfl⟩, ⟨rfl, rfl⟩, by decide +kernel⟩

-- Cuts on two fields in either order, one of them repeated.
example :
    let fl := nearest 53 (-1074) toEven
    let a : ℚ := 3152519739159347 / 4503599627370496
    let t : Column ℚ × RoundedBounds.Bound ℚ × RoundedBounds.Bound ℚ := (⟨true, a, [1, 2, 3]⟩, ⟨1, false, a, none⟩, ⟨2, false, a, none⟩)
    let t' : Column ℚ × RoundedBounds.Bound ℚ × RoundedBounds.Bound ℚ := (⟨false, a, [5, 6, 7]⟩, ⟨5, false, a, none⟩, ⟨9, true, a, none⟩)
    (∀ u, u ∈ [t, t'] ↔ u ∈ [t', t, t']) ∧
      [t, t'].foldl (fun now t => RoundedBounds.newMask fl fl t.1 t.2.1 t.2.2 now) [true, true, true] = [false, true, false] := by
  refine ⟨fun u => ?_, by decide +kernel⟩
  simp only [List.mem_cons, List.not_mem_nil, or_false]
  tauto

end Verif.Props
