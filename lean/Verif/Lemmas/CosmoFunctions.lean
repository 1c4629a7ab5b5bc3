import Verif.Lemmas.Cosmo
import Verif.Model.CosmoFunctions

/-! Array functions on convertible arrays. -/

namespace Verif.Cosmo
open Verif

theorem flags_append (l m : List Opd) : flags (l ++ m) = flags l ++ flags m := by
  induction l with
  | nil => rfl
  | cons o l ih => cases o <;> simp [flags, ih]

/-- `_prepare_array_func_args` with keyword arguments. -/
theorem prepare_kw {a : ℝ} {l kw : List Opd} (h : ∀ o ∈ l, Mix a o) (h' : ∀ o ∈ kw, Mix a o)
    (hne : flags l ++ flags kw ≠ []) :
    ∃ p b, prepare true l kw = .ok p ∧ p.comoving = some b ∧ p.vt = true ∧ p.cfs = l.map Opd.cf ∧
      List.Forall₂ (Same a b) l p.args ∧ List.Forall₂ (Same a b) kw p.kw := by
  have hvt : (l.map Opd.vt ++ kw.map Opd.vt).all id = true := by
    rw [List.all_append, vt_mix h, vt_mix h']; rfl
  have hnone : none ∉ flags l ++ flags kw := by
    rw [List.mem_append, not_or]
    exact ⟨flags_none h, flags_none h'⟩
  have side : ∀ b, (∀ c ∈ flags l ++ flags kw, c = some b) →
      List.Forall₂ (Same a b) l l ∧ List.Forall₂ (Same a b) kw kw := fun b hb =>
    ⟨same_self h fun c hc => hb c (List.mem_append_left _ hc), same_self h' fun c hc => hb c (List.mem_append_right _ hc)⟩
  unfold prepare
  simp only [hne, if_false]
  by_cases h1 : ∀ c ∈ flags l ++ flags kw, c = some true
  · rw [if_pos h1]
    exact ⟨_, true, rfl, rfl, hvt, rfl, (side _ h1).1, (side _ h1).2⟩
  · rw [if_neg h1]
    have h2 : ¬ ∀ c ∈ flags l ++ flags kw, c = none := by
      intro q
      obtain ⟨c, hc⟩ := List.exists_mem_of_ne_nil _ hne
      rw [q c hc] at hc
      exact hnone hc
    have h3 : ¬ ∃ c ∈ flags l ++ flags kw, c = none := by
      rintro ⟨c, hc, rfl⟩
      exact hnone hc
    rw [if_neg h2, if_neg h3]
    by_cases h4 : ∀ c ∈ flags l ++ flags kw, c = some false
    · rw [if_pos h4]
      exact ⟨_, false, rfl, rfl, hvt, rfl, (side _ h4).1, (side _ h4).2⟩
    · rw [if_neg h4, if_pos ⟨trivial, anyFixed_mix h⟩]
      obtain ⟨m, hm, hf⟩ := allToComoving_ok h
      obtain ⟨m', hm', hf'⟩ := allToComoving_ok h'
      rw [hm, hm']
      exact ⟨_, true, rfl, rfl, hvt, rfl, hf, hf'⟩

theorem scale_pos {a : ℝ} (ha : 0 < a) (b : Bool) (k : ℝ) : 0 < scale a b k := by
  cases b
  · simp [scale]
  · simpa [scale] using Real.rpow_pos_of_pos ha k

theorem scale_mul {a : ℝ} (ha : 0 < a) (b : Bool) (k l : ℝ) : scale a b (k + l) = scale a b k * scale a b l := by
  cases b
  · simp [scale]
  · simp [scale, Real.rpow_add ha]

theorem scale_pow {a : ℝ} (ha : 0 < a) (b : Bool) (k p : ℝ) : scale a b (k * p) = scale a b k ^ p := by
  cases b
  · simp [scale]
  · simp [scale, Real.rpow_mul ha.le]

/-- A unary wrapper is covariant if its rule gives the exponent `m` and the function scales accordingly. -/
theorem wrap1_cov {a k m : ℝ} {x : Arr} {rule : Option CF → Except Err (Option CF)} {f : List ℝ → List ℝ}
    (hx : Conv a k x) (hr : rule (some ⟨some k, some a⟩) = .ok (some ⟨some m, some a⟩))
    (hom : ∀ (b : Bool) (l : List ℝ), l.length = x.val.length →
      f (l.map (fun v => v * scale a b k)) = (f l).map (fun v => v * scale a b m)) :
    ∃ z, wrap1 rule f x = .ok z ∧ Conv a m z ∧ z.phys = f x.phys := by
  have hmix : ∀ q ∈ [Opd.cosmo x], Mix a q := by
    intro q hq
    rw [List.mem_singleton.mp hq]
    exact ⟨k, hx⟩
  obtain ⟨p, b, e, hc, hvt, -, hf, -⟩ := prepare_mix hmix (by simp [flags])
  obtain ⟨o, hargs, h1⟩ := forall2_one hf
  have e1 : x.phys = _ := h1.phys (o := .cosmo x) hx
  have hlen : o.vals.length = x.val.length := by
    have := congrArg List.length e1
    rw [List.length_map] at this
    rw [← this]
    rcases hx.framed_cases with hc | hc
    · rw [phys_true hx hc, List.length_map]
    · rw [phys_false hc]
  unfold wrap1
  simp only [e, hx.cf, hr, hargs]
  refine ⟨_, rfl, ⟨hx.pos, rfl, hvt, by simp [hc]⟩, ?_⟩
  rw [phys_result (m := m) (a := a) hc rfl, e1, hom b _ hlen]

/-- A binary wrapper. -/
theorem wrap2_cov {a k l m : ℝ} {o p : Opd} {rule : Option CF → Option CF → Except Err (Option CF)}
    {f : List ℝ → List ℝ → Except Err (List ℝ)} (ha : 0 < a) (ho : HasExp a o k) (hp : HasExp a p l)
    (hne : flags [o, p] ≠ []) (hr : rule o.cf p.cf = .ok (some ⟨some m, some a⟩))
    (hom : ∀ (b : Bool) (u v : List ℝ), f (u.map (fun t => t * scale a b k)) (v.map (fun t => t * scale a b l)) =
      (f u v).map (List.map (fun t => t * scale a b m))) :
    (wrap2 rule f o p).map Arr.phys = f o.phys p.phys ∧ ∀ z, wrap2 rule f o p = .ok z → Conv a m z := by
  have hmix : ∀ q ∈ [o, p], Mix a q := by
    intro q hq
    rcases List.mem_pair.mp hq with rfl | rfl
    · exact ho.mix
    · exact hp.mix
  obtain ⟨r, b, e, hc, hvt, -, hf, -⟩ := prepare_mix hmix hne
  obtain ⟨o', p', hargs, h1, h2⟩ := forall2_two hf
  have e1 := h1.phys ho
  have e2 := h2.phys hp
  unfold wrap2
  simp only [e, hr, hargs, e1, e2, hom]
  cases f o'.vals p'.vals with
  | error q => simp [Except.map]
  | ok v =>
    simp only [Except.map, Except.ok.injEq]
    refine ⟨phys_result hc rfl, ?_⟩
    rintro z rfl
    exact ⟨ha, rfl, hvt, by simp [hc]⟩

/-- The counts of a histogram do not depend on a common scale of values and edges and are linear in the weights. -/
theorem histCounts_scale (s t : ℝ) (hs : 0 < s) (xs ws es : List ℝ) :
    histCounts (xs.map (· * s)) (ws.map (· * t)) (es.map (· * s)) = (histCounts xs ws es).map (· * t) := by
  have key : ∀ (c d : ℝ → Prop) [DecidablePred c] [DecidablePred d], (∀ v, c (v * s) ↔ d v) →
      (((xs.map (· * s)).zip (ws.map (· * t))).map (fun q => if c q.1 then q.2 else 0)).sum =
        ((xs.zip ws).map (fun q => if d q.1 then q.2 else 0)).sum * t := by
    intro c d _ _ hcd
    rw [← List.sum_map_mul_right, List.zip_map, List.map_map]
    congr 1
    refine List.map_congr_left fun q _ => ?_
    simp only [Function.comp, Prod.map, hcd]
    split <;> simp
  fun_induction histCounts xs ws es with
  | case1 => simp [histCounts]
  | case2 e => simp [histCounts]
  | case3 e f =>
    simp only [List.map_cons, List.map_nil, histCounts]
    rw [key (fun v => e * s ≤ v ∧ v ≤ f * s) (fun v => e ≤ v ∧ v ≤ f) (fun v => by
      rw [mul_le_mul_iff_left₀ hs, mul_le_mul_iff_left₀ hs])]
  | case4 e f g l ih =>
    simp only [List.map_cons, histCounts] at ih ⊢
    rw [ih, key (fun v => e * s ≤ v ∧ v < f * s) (fun v => e ≤ v ∧ v < f) (fun v => by
      rw [mul_le_mul_iff_left₀ hs, mul_lt_mul_iff_left₀ hs])]

end Verif.Cosmo
