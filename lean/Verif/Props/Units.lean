import Verif.Model.Units
import Verif.Spec.Units
import Mathlib.Tactic.Linarith
import Mathlib.Tactic.Positivity
import Mathlib.Tactic.FieldSimp
import Mathlib.Tactic.NormNum
import Mathlib.Tactic.Ring

/-!
# The named unit chosen for a file unit (C51)
-/

namespace Verif.Props
open Verif Verif.Units Verif.Spec

/-- How far apart two sizes are as a ratio of at least one. -/
noncomputable def ratio (x y : ℝ) : ℝ := max (x / y) (y / x)

private theorem fold_inv (f : ℝ → ℝ) (l : List ℝ) (b : ℝ × Nat) (pre : List ℝ)
    (hb : (pre[b.2]? = some b.1) ∧ (∀ x : ℝ, x ∈ pre → f b.1 ≤ f x) ∧
      ∀ (j : Nat) (x : ℝ), j < b.2 → pre[j]? = some x → f b.1 < f x) :
    let r := (l.zipIdx (pre.length - 1)).foldl (fun (b : ℝ × Nat) (c : ℝ × Nat) => if f c.1 < f b.1 then (c.1, c.2 + 1) else b) b
    0 < pre.length →
    ((pre ++ l)[r.2]? = some r.1) ∧ (∀ x : ℝ, x ∈ pre ++ l → f r.1 ≤ f x) ∧
      ∀ (j : Nat) (x : ℝ), j < r.2 → (pre ++ l)[j]? = some x → f r.1 < f x := by
  intro r hp
  induction l generalizing b pre with
  | nil => simpa [r] using hb
  | cons c l ih =>
    have hlen : (pre ++ [c]).length - 1 = pre.length - 1 + 1 := by simp; omega
    have key := ih (if f c < f b.1 then (c, pre.length - 1 + 1) else b) (pre ++ [c]) ?_ (by simp)
    · simp only [hlen, List.append_assoc, List.singleton_append] at key
      simpa [r, List.zipIdx_cons] using key
    · obtain ⟨h1, h2, h3⟩ := hb
      have h0 : b.2 < pre.length := (List.getElem?_eq_some_iff.mp h1).1
      split
      · rename_i hlt
        have e : pre.length - 1 + 1 = pre.length := by omega
        refine ⟨by simp [e], ?_, ?_⟩
        · intro x hx
          rcases List.mem_append.mp hx with hx | hx
          · exact le_trans hlt.le (h2 x hx)
          · rw [List.mem_singleton.mp hx]
        · intro j x hj hx
          simp only [e] at hj
          rw [List.getElem?_append_left hj] at hx
          exact lt_of_lt_of_le hlt (h2 x (List.mem_of_getElem? hx))
      · rename_i hge
        refine ⟨by rw [List.getElem?_append_left h0]; exact h1, ?_, ?_⟩
        · intro x hx
          rcases List.mem_append.mp hx with hx | hx
          · exact h2 x hx
          · rw [List.mem_singleton.mp hx]; exact not_lt.mp hge
        · intro j x hj hx
          rw [List.getElem?_append_left (by omega)] at hx
          exact h3 j x hj hx

private theorem argmin_spec (f : ℝ → ℝ) (l : List ℝ) (i : Nat) (h : argmin f l = .ok i) :
    ∃ c : ℝ, l[i]? = some c ∧ (∀ x : ℝ, x ∈ l → f c ≤ f x) ∧ ∀ (j : Nat) (x : ℝ), j < i → l[j]? = some x → f c < f x := by
  cases l with
  | nil => cases h
  | cons a l =>
    have key := fold_inv f l (a, 0) [a] (by simp) (by simp)
    simp only [argmin] at h
    injection h with h
    simp only [List.length_singleton, Nat.sub_self, List.singleton_append] at key
    rw [h] at key
    exact ⟨_, key⟩

private theorem argmin_total (f : ℝ → ℝ) (l : List ℝ) (h : l ≠ []) : ∃ i : Nat, argmin f l = .ok i := by
  cases l with
  | nil => exact absurd rfl h
  | cons a l => exact ⟨_, rfl⟩

private theorem abs_logb_le {x y u : ℝ} (hx : 0 < x) (hy : 0 < y) (hu : 0 < u) :
    |Real.logb 10 (x / u)| ≤ |Real.logb 10 (y / u)| ↔ ratio x u ≤ ratio y u := by
  have key : ∀ z : ℝ, 0 < z → |Real.logb 10 (z / u)| = Real.logb 10 (ratio z u) := by
    intro z hz
    have h1 : 0 < z / u := by positivity
    have h2 : Real.logb 10 (u / z) = - Real.logb 10 (z / u) := by
      rw [← Real.logb_inv, inv_div]
    unfold ratio
    rcases le_total (u / z) (z / u) with h | h
    · rw [max_eq_left h]
      have := (Real.logb_le_logb (b := 10) (by norm_num) (by positivity) h1).mpr h
      rw [h2] at this
      exact abs_of_nonneg (by linarith)
    · rw [max_eq_right h, h2]
      have := (Real.logb_le_logb (b := 10) (by norm_num) h1 (by positivity)).mpr h
      rw [h2] at this
      exact abs_of_nonpos (by linarith)
  have hr : ∀ z : ℝ, 0 < z → 0 < ratio z u := fun z hz => lt_of_lt_of_le (by positivity : 0 < z / u) (le_max_left _ _)
  rw [key x hx, key y hy, Real.logb_le_logb (by norm_num) (hr x hx) (hr y hy)]

private theorem round_near (x : ℝ) : |(roundEven x : ℝ) - x| ≤ 1 / 2 := by
  have h1 := Int.floor_le x
  have h2 := Int.lt_floor_add_one x
  rw [abs_le]
  unfold roundEven
  split
  · constructor <;> linarith
  · rename_i h
    split
    · push_cast
      constructor <;> linarith
    · rename_i h'
      split
      · constructor <;> linarith
      · push_cast
        constructor <;> linarith

private theorem round_int (n : Int) : roundEven (n : ℝ) = n := by
  unfold roundEven
  rw [Int.floor_intCast]
  rw [if_pos (by simp)]

private theorem sig5_near (x : ℝ) : |sig5 x - x| ≤ 5 / 100000 * |x| := by
  unfold sig5
  split
  · rename_i h; simp [h]
  · rename_i h
    have hx : 0 < |x| := abs_pos.mpr h
    set e := Int.log 10 |x| with he
    have hq : (0 : ℝ) < (10 : ℝ) ^ (e - 4) := by positivity
    have h1 : (10 : ℝ) ^ e ≤ |x| := by
      have := Int.zpow_log_le_self (R := ℝ) (b := 10) (by norm_num) hx
      exact_mod_cast this
    have h2 := round_near (x / (10 : ℝ) ^ (e - 4))
    have h3 : (roundEven (x / (10 : ℝ) ^ (e - 4)) : ℝ) * (10 : ℝ) ^ (e - 4) - x =
        ((roundEven (x / (10 : ℝ) ^ (e - 4)) : ℝ) - x / (10 : ℝ) ^ (e - 4)) * (10 : ℝ) ^ (e - 4) := by
      rw [sub_mul, div_mul_cancel₀ _ hq.ne']
    simp only
    rw [h3, abs_mul, abs_of_pos hq]
    have h4 : (10 : ℝ) ^ e = (10 : ℝ) ^ (e - 4) * 10000 := by
      rw [zpow_sub₀ (by norm_num)]; norm_num
    nlinarith

/-- A decimal number with at most five significant digits. -/
def FiveDigits (x : ℝ) : Prop := ∃ (m : Int) (k : Int), |m| ≤ 100000 ∧ x = m * (10 : ℝ) ^ k

private theorem sig5_exact (x : ℝ) (h : FiveDigits x) : sig5 x = x := by
  obtain ⟨m, k, hm, rfl⟩ := h
  unfold sig5
  split
  · rename_i h0; exact h0.symm
  · rename_i h0
    set x := (m : ℝ) * (10 : ℝ) ^ k with hxdef
    have hx : 0 < |x| := abs_pos.mpr h0
    set e := Int.log 10 |x| with he
    have hq : (0 : ℝ) < (10 : ℝ) ^ (e - 4) := by positivity
    simp only
    -- x / q is an integer: e - 4 ≤ k, or |m| = 100000
    have hxm : |x| = |(m : ℝ)| * (10 : ℝ) ^ k := by rw [hxdef, abs_mul, abs_of_pos (by positivity : (0 : ℝ) < 10 ^ k)]
    have hm' : |(m : ℝ)| ≤ 100000 := by exact_mod_cast hm
    have h1 : (10 : ℝ) ^ e ≤ |x| := by
      have := Int.zpow_log_le_self (R := ℝ) (b := 10) (by norm_num) hx
      exact_mod_cast this
    have hint : ∃ n : Int, x / (10 : ℝ) ^ (e - 4) = n := by
      by_cases hk : e - 4 ≤ k
      · obtain ⟨d, hd⟩ := Int.eq_ofNat_of_zero_le (by omega : 0 ≤ k - (e - 4))
        refine ⟨m * 10 ^ d, ?_⟩
        rw [hxdef, mul_div_assoc, ← zpow_sub₀ (by norm_num), hd]
        push_cast
        rw [zpow_natCast]
      · have hk : k ≤ e - 5 := by omega
        have h5 : (10 : ℝ) ^ k ≤ (10 : ℝ) ^ (e - 5) := zpow_le_zpow_right₀ (by norm_num) hk
        have h6 : (10 : ℝ) ^ e = (10 : ℝ) ^ (e - 5) * 100000 := by rw [zpow_sub₀ (by norm_num)]; norm_num
        have h7 : (10 : ℝ) ^ (e - 4) = (10 : ℝ) ^ (e - 5) * 10 := by
          rw [zpow_sub₀ (by norm_num), zpow_sub₀ (by norm_num)]; norm_num; ring
        have hq5 : (0 : ℝ) < (10 : ℝ) ^ (e - 5) := by positivity
        have hk0 : (0 : ℝ) < (10 : ℝ) ^ k := by positivity
        have h8 : |x| = (10 : ℝ) ^ e := by
          apply le_antisymm _ h1
          rw [hxm, h6]
          nlinarith [abs_nonneg (m : ℝ)]
        rcases abs_eq (by positivity : (0 : ℝ) ≤ 10 ^ e) |>.mp h8 with hx | hx
        · refine ⟨10000, ?_⟩
          rw [hx, h6, h7]; field_simp; norm_num
        · refine ⟨-10000, ?_⟩
          rw [hx, h6, h7]; field_simp; norm_num
    obtain ⟨n, hn⟩ := hint
    rw [hn, round_int, ← hn, div_mul_cancel₀ _ hq.ne']

private theorem sig5_five (x : ℝ) : FiveDigits (sig5 x) := by
  unfold sig5
  split
  · exact ⟨0, 0, by norm_num, by norm_num⟩
  · rename_i h
    have hx : 0 < |x| := abs_pos.mpr h
    set e := Int.log 10 |x| with he
    have hq : (0 : ℝ) < (10 : ℝ) ^ (e - 4) := by positivity
    refine ⟨roundEven (x / (10 : ℝ) ^ (e - 4)), e - 4, ?_, rfl⟩
    have h1 : |x| < (10 : ℝ) ^ (e + 1) := by
      have := Int.lt_zpow_succ_log_self (R := ℝ) (b := 10) (by norm_num) |x|
      exact_mod_cast this
    have h2 : (10 : ℝ) ^ (e + 1) = (10 : ℝ) ^ (e - 4) * 100000 := by
      rw [zpow_sub₀ (by norm_num), zpow_add₀ (by norm_num)]; norm_num; ring
    have h3 : |x / (10 : ℝ) ^ (e - 4)| < 100000 := by
      rw [abs_div, abs_of_pos hq, div_lt_iff₀ hq]
      linarith
    have h4 := round_near (x / (10 : ℝ) ^ (e - 4))
    have h5 : |(roundEven (x / (10 : ℝ) ^ (e - 4)) : ℝ)| < 100001 := by
      have := abs_sub_abs_le_abs_sub (roundEven (x / (10 : ℝ) ^ (e - 4)) : ℝ) (x / (10 : ℝ) ^ (e - 4))
      linarith
    have h6 : |roundEven (x / (10 : ℝ) ^ (e - 4))| < 100001 := by exact_mod_cast h5
    omega

/-- C51: the chosen unit is in the table, no other unit of the table is closer as a ratio, and every earlier unit of the table is
strictly further away. -/
theorem c51_nearest (bases : List ℝ) (unit : ℝ) (hb : ∀ x : ℝ, x ∈ bases → 0 < x) (hu : 0 < unit) (i : Nat) (v : ℝ)
    (h : findNearest bases unit = .ok (i, v)) :
    ∃ c : ℝ, bases[i]? = some c ∧ (∀ x : ℝ, x ∈ bases → ratio c unit ≤ ratio x unit) ∧
      ∀ (j : Nat) (x : ℝ), j < i → bases[j]? = some x → ratio c unit < ratio x unit := by
  unfold findNearest at h
  cases e : argmin (fun x => |Real.logb 10 (x / unit)|) bases with
  | error _ => rw [e] at h; cases h
  | ok k =>
    rw [e] at h
    cases h
    obtain ⟨c, h1, h2, h3⟩ := argmin_spec _ _ _ e
    have hc := hb c (List.mem_of_getElem? h1)
    refine ⟨c, h1, fun x hx => (abs_logb_le hc (hb x hx) hu).mp (h2 x hx), fun j x hj hx => ?_⟩
    have := h3 j x hj hx
    rw [← not_le] at this ⊢
    rwa [abs_logb_le (hb x (List.mem_of_getElem? hx)) hc hu] at this

/-- C51: a table with units always gives a result. -/
theorem c51_total (bases : List ℝ) (unit : ℝ) (h : bases ≠ []) : ∃ (i : Nat) (v : ℝ), findNearest bases unit = .ok (i, v) := by
  obtain ⟨i, hi⟩ := argmin_total (fun x => |Real.logb 10 (x / unit)|) bases h
  exact ⟨i, _, by unfold findNearest; rw [hi]; rfl⟩

/-- C51: the unit that is used differs from the unit of the file by at most five parts in a hundred thousand. -/
theorem c51_error (bases : List ℝ) (unit : ℝ) (hb : ∀ x : ℝ, x ∈ bases → 0 < x) (hu : 0 < unit) (i : Nat) (v : ℝ)
    (h : findNearest bases unit = .ok (i, v)) :
    ∃ c : ℝ, bases[i]? = some c ∧ |v * c - unit| ≤ 5 / 100000 * unit ∧ 0 < v := by
  obtain ⟨c, h1, -, -⟩ := c51_nearest bases unit hb hu i v h
  have hc := hb c (List.mem_of_getElem? h1)
  unfold findNearest at h
  cases e : argmin (fun x => |Real.logb 10 (x / unit)|) bases with
  | error _ => rw [e] at h; cases h
  | ok k =>
    rw [e] at h
    cases h
    have hn := sig5_near (unit / c)
    have hpos : 0 < unit / c := by positivity
    simp only [h1, Option.getD_some] at *
    rw [abs_of_pos hpos] at hn
    refine ⟨c, rfl, ?_, ?_⟩
    · have : sig5 (unit / c) * c - unit = (sig5 (unit / c) - unit / c) * c := by
        rw [sub_mul, div_mul_cancel₀ _ hc.ne']
      rw [this, abs_mul, abs_of_pos hc]
      calc |sig5 (unit / c) - unit / c| * c ≤ 5 / 100000 * (unit / c) * c := by gcongr
        _ = 5 / 100000 * unit := by rw [mul_assoc, div_mul_cancel₀ _ hc.ne']
    · have := (abs_le.mp hn).1
      linarith

/-- C51: a unit that is a decimal number with at most five digits times the chosen unit is kept exactly. -/
theorem c51_exact (bases : List ℝ) (unit : ℝ) (i : Nat) (v c : ℝ) (h : findNearest bases unit = .ok (i, v))
    (hc : bases[i]? = some c) (h0 : c ≠ 0) (h5 : FiveDigits (unit / c)) : v * c = unit := by
  unfold findNearest at h
  cases e : argmin (fun x => |Real.logb 10 (x / unit)|) bases with
  | error _ => rw [e] at h; cases h
  | ok k =>
    rw [e] at h
    cases h
    rw [hc, Option.getD_some, sig5_exact _ h5, div_mul_cancel₀ _ h0]

/-- C51: the number has at most five significant digits. -/
theorem c51_digits (bases : List ℝ) (unit : ℝ) (i : Nat) (v : ℝ) (h : findNearest bases unit = .ok (i, v)) : FiveDigits v := by
  unfold findNearest at h
  cases e : argmin (fun x => |Real.logb 10 (x / unit)|) bases with
  | error _ => rw [e] at h; cases h
  | ok k =>
    rw [e] at h
    cases h
    exact sig5_five _

example : ∃ v : ℝ, findNearest [1, 1000] 999 = .ok (1, v) ∧ v * 1000 = 999 := by
  obtain ⟨i, v, e⟩ := c51_total [1, 1000] 999 (by simp)
  obtain ⟨c, h1, h2, -⟩ := c51_nearest [1, 1000] 999 (by simp) (by norm_num) i v e
  have h3 := h2 1000 (by simp)
  have hi : i < 2 := (List.getElem?_eq_some_iff.mp h1).1
  have : i = 1 := by
    rcases (by omega : i = 0 ∨ i = 1) with rfl | rfl
    · simp only [List.getElem?_cons_zero, Option.some.injEq] at h1
      subst h1
      unfold ratio at h3
      have := le_trans (le_max_right _ _) h3
      rw [max_eq_left (by norm_num)] at this
      norm_num at this
    · rfl
  subst this
  exact ⟨v, e, c51_exact _ _ _ _ _ e rfl (by norm_num) ⟨999, -3, by norm_num, by norm_num⟩⟩

private theorem mem_unitNames (n : String) (d : Dim) : (n, d) ∈ unitNames ↔ n = unitAttribute d := by
  cases d <;> simp [unitNames, unitAttribute]

private theorem attributes (table : Dim → List ℝ) (attrs : List (String × ℝ)) (d : Dim) (r : Nat × ℝ)
    (h : loadUnit table attrs d = .ok r) :
    (∀ a : String × ℝ, a ∈ attrs → ∃ e : Dim, (a.1, e) ∈ unitNames) ∧
      ∃ (n : String) (v : ℝ), (n, d) ∈ unitNames ∧ (n, v) ∈ attrs ∧ findNearest (table d) v = .ok r := by
  have mem : ∀ (n : String) (e : Dim), unitNames.lookup n = some e → (n, e) ∈ unitNames := by
    intro n e he
    obtain ⟨l1, l2, h1, -⟩ := List.lookup_eq_some_iff.mp he
    rw [h1]
    simp
  have key : ∀ (attrs : List (String × ℝ)) (u : List (Dim × ℝ)), unitDict attrs = .ok u →
      (∀ a : String × ℝ, a ∈ attrs → ∃ e : Dim, (a.1, e) ∈ unitNames) ∧
      ∀ (e : Dim) (v : ℝ), (e, v) ∈ u → ∃ n : String, (n, e) ∈ unitNames ∧ (n, v) ∈ attrs := by
    intro attrs
    induction attrs with
    | nil => intro u hu; cases hu; simp
    | cons a l ih =>
      intro u hu
      unfold unitDict at hu ih
      rw [List.mapM_cons] at hu
      cases e1 : unitNames.lookup a.1 with
      | none => rw [e1] at hu; cases hu
      | some e =>
        rw [e1] at hu
        simp only [bind, Except.bind] at hu
        split at hu
        · cases hu
        · rename_i r hr
          cases hu
          obtain ⟨i1, i2⟩ := ih r hr
          constructor
          · intro b hb
            rcases List.mem_cons.mp hb with rfl | hb
            · exact ⟨e, mem _ _ e1⟩
            · exact i1 b hb
          · intro e' v hv
            rcases List.mem_cons.mp hv with hv | hv
            · cases hv
              exact ⟨a.1, mem _ _ e1, List.mem_cons_self ..⟩
            · obtain ⟨n, h1, h2⟩ := i2 e' v hv
              exact ⟨n, h1, List.mem_cons_of_mem _ h2⟩
  unfold loadUnit at h
  cases e : unitDict attrs with
  | error _ => rw [e] at h; cases h
  | ok u =>
    rw [e] at h
    simp only [bind, Except.bind] at h
    obtain ⟨k1, k2⟩ := key attrs u e
    cases e2 : u.lookup d with
    | none => rw [e2] at h; cases h
    | some v =>
      rw [e2] at h
      obtain ⟨l1, l2, h1, -⟩ := List.lookup_eq_some_iff.mp e2
      obtain ⟨n, h2, h3⟩ := k2 d v (by rw [h1]; simp)
      exact ⟨k1, n, v, h2, h3, h⟩

/-- C51: a unit is read from the attribute with its name, and no other attributes may be there than those of the five units. -/
theorem c51_attributes (table : Dim → List ℝ) (attrs : List (String × ℝ)) (d : Dim) (r : Nat × ℝ)
    (h : loadUnit table attrs d = .ok r) :
    (∀ a : String × ℝ, a ∈ attrs → ∃ e : Dim, a.1 = unitAttribute e) ∧
      ∃ v : ℝ, (unitAttribute d, v) ∈ attrs ∧ findNearest (table d) v = .ok r := by
  obtain ⟨h1, n, v, h2, h3, h4⟩ := attributes table attrs d r h
  rw [mem_unitNames] at h2
  subst h2
  exact ⟨fun a ha => (h1 a ha).imp fun e he => (mem_unitNames _ _).1 he, v, h3, h4⟩

/-- C51: a file that lacks one of the units, or has an attribute with another name, raises KeyError. -/
theorem c51_missing (table : Dim → List ℝ) (attrs : List (String × ℝ)) (d : Dim)
    (h : (∀ v : ℝ, (unitAttribute d, v) ∉ attrs) ∨ ∃ a : String × ℝ, a ∈ attrs ∧ ∀ e : Dim, a.1 ≠ unitAttribute e) :
    loadUnit table attrs d = .error .key := by
  have h : (∀ (n : String) (v : ℝ), (n, v) ∈ attrs → (n, d) ∉ unitNames) ∨
      ∃ a : String × ℝ, a ∈ attrs ∧ ∀ e : Dim, (a.1, e) ∉ unitNames := by
    rcases h with h | ⟨a, ha, h⟩
    · left
      intro n v hv hn
      rw [mem_unitNames] at hn
      subst hn
      exact h v hv
    · right
      exact ⟨a, ha, fun e he => h e ((mem_unitNames _ _).1 he)⟩
  cases e : loadUnit table attrs d with
  | ok r =>
    obtain ⟨h1, n, v, h2, h3, -⟩ := attributes table attrs d r e
    rcases h with h | ⟨a, ha, h⟩
    · exact absurd h2 (h n v h3)
    · obtain ⟨x, hx⟩ := h1 a ha
      exact absurd hx (h x)
  | error x =>
    have dict : ∀ (attrs : List (String × ℝ)) (y : Err), unitDict attrs = .error y → y = .key := by
      intro attrs y
      unfold unitDict
      induction attrs with
      | nil => intro h; cases h
      | cons a l ih =>
        intro h
        rw [List.mapM_cons] at h
        cases e1 : unitNames.lookup a.1 with
        | none => rw [e1] at h; cases h; rfl
        | some e =>
          rw [e1] at h
          simp only [bind, Except.bind] at h
          split at h
          · rename_i z hz
            cases h
            exact ih hz
          · cases h
    unfold loadUnit at e
    cases e1 : unitDict attrs with
    | error y =>
      rw [e1] at e
      cases e
      rw [dict attrs _ e1]
    | ok u =>
      rw [e1] at e
      simp only [bind, Except.bind] at e
      cases e2 : u.lookup d with
      | none => rw [e2] at e; cases e; rfl
      | some v =>
        exfalso
        -- the lookup succeeded, so neither alternative holds
        have hf : ∀ (t : Dim → List ℝ), t d ≠ [] → ∃ r : Nat × ℝ, loadUnit t attrs d = .ok r := by
          intro t ht
          obtain ⟨i, w, hw⟩ := c51_total (t d) v ht
          exact ⟨(i, w), by unfold loadUnit; rw [e1]; simp only [bind, Except.bind, e2]; exact hw⟩
        obtain ⟨r, hr⟩ := hf (fun _ => [1]) (by simp)
        obtain ⟨h1, n, v, h2, h3, -⟩ := attributes _ attrs d r hr
        rcases h with h | ⟨a, ha, h⟩
        · exact h n v h3 h2
        · obtain ⟨x, hx⟩ := h1 a ha
          exact h x hx

end Verif.Props
