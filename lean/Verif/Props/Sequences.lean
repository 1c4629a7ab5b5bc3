import Verif.Spec.Sequences
import Verif.Props.CosmoReduce

/-! # C107: lists of quantities as arguments, and ranges of histograms -/

namespace Verif.Props
open Verif Verif.Cosmo Verif.Spec Verif.Sequences

private theorem seq_flags (l : List Arr) : flags (l.map Opd.cosmo) = l.map Arr.comoving := by
  induction l with
  | nil => rfl
  | cons x l ih => simp [flags, ih]

private theorem given_same {a k : ℝ} {b : Bool} {l : List Arr} (hne : l ≠ []) (h : ∀ q ∈ l, Conv a k q)
    (hb : ∀ q ∈ l, q.comoving = some b) :
    GivenBoth l ⟨(l.map Arr.val).flatten, some b, some ⟨some k, some a⟩, true⟩ := by
  have hfl : flags (l.map Opd.cosmo) ≠ [] := by
    rw [seq_flags]
    simpa using hne
  have hall : ∀ c ∈ flags (l.map Opd.cosmo), c = some b := by
    rw [seq_flags]
    intro c hc
    obtain ⟨q, hq, rfl⟩ := List.mem_map.mp hc
    exact hb q hq
  have hvals : (l.map (Opd.vals ∘ Opd.cosmo)) = l.map Arr.val := List.map_congr_left fun _ _ => rfl
  have hred := reduce_preserve (f := ⟨some k, some a⟩) (l := l.map Opd.cosmo) (by simpa using hne) (by
    intro o ho
    obtain ⟨x, hx, rfl⟩ := List.mem_map.mp ho
    exact (h x hx).cf)
  have hcne : (l.map Opd.cosmo).map Opd.cf ≠ [] := by simpa using hne
  unfold GivenBoth newFromList
  cases b with
  | true =>
    have e : ∃ p, prepare true (l.map Opd.cosmo) [] = .ok p ∧ p.args = l.map Opd.cosmo ∧ p.comoving = some true ∧
        p.cfs = (l.map Opd.cosmo).map Opd.cf := by
      unfold prepare
      simp only [flags, List.append_nil, hfl, if_false]
      rw [if_pos hall]
      exact ⟨_, rfl, rfl, rfl, rfl⟩
    obtain ⟨p, e, ha, hc, hcf⟩ := e
    simp only [Option.getD_none, e, hc, ha, hcf, if_neg hcne, hred]
    simp [Arr.verify, List.map_map, hvals]
  | false =>
    have h1 : ¬ ∀ c ∈ flags (l.map Opd.cosmo), c = some true := by
      intro q
      obtain ⟨c, hc⟩ := List.exists_mem_of_ne_nil _ hfl
      have := q c hc
      rw [hall c hc] at this
      cases this
    have h2 : ¬ ∀ c ∈ flags (l.map Opd.cosmo), c = none := by
      intro q
      obtain ⟨c, hc⟩ := List.exists_mem_of_ne_nil _ hfl
      have := q c hc
      rw [hall c hc] at this
      cases this
    have h3 : ¬ ∃ c ∈ flags (l.map Opd.cosmo), c = none := by
      rintro ⟨c, hc, rfl⟩
      cases hall _ hc
    have e : ∃ p, prepare true (l.map Opd.cosmo) [] = .ok p ∧ p.args = l.map Opd.cosmo ∧ p.comoving = some false ∧
        p.cfs = (l.map Opd.cosmo).map Opd.cf := by
      unfold prepare
      simp only [flags, List.append_nil, hfl, if_false]
      rw [if_neg h1, if_neg h2, if_neg h3, if_pos hall]
      exact ⟨_, rfl, rfl, rfl, rfl⟩
    obtain ⟨p, e, ha, hc, hcf⟩ := e
    simp only [Option.getD_none, e, hc, ha, hcf, if_neg hcne, hred]
    simp [Arr.verify, List.map_map, hvals]

/-- C107: a list of quantities that are all in the frame of the array and have its factor can be added, subtracted and so on, and used as
the range of a histogram, like the array made from the list. -/
theorem c107_sequences_partial {a k : ℝ} {x : Arr} {l : List Arr} (hx : Conv a k x) (hne : l ≠ [])
    (h : ∀ q ∈ l, Conv a k q ∧ q.comoving = x.comoving) :
    ∃ z, GivenBoth l z ∧
      (∀ u num, registry u = .preserve ∨ registry u = .passthrough →
        ufuncOf u num [.opd (.cosmo x), .list l] = ufuncOf u num [.opd (.cosmo x), .opd (.cosmo z)]) ∧
      (∀ u num, registry u = .preserve →
        ufuncOf u num [.list l, .opd (.cosmo x)] = ufuncOf u num [.opd (.cosmo z), .opd (.cosmo x)]) ∧
      ∀ n, histogramRange x n (.list l) = histogramRange x n (.opd (.cosmo z)) := by
  obtain ⟨v, cm, cf, vt⟩ := x
  have hcf := hx.cf
  have hvt := hx.vt
  have hfr := hx.framed
  dsimp only at hcf hvt hfr
  subst hcf hvt
  cases cm with
  | none => exact absurd rfl hfr
  | some b =>
    refine ⟨_, given_same hne (fun q hq => (h q hq).1) (fun q hq => (h q hq).2), ?_, ?_, ?_⟩
    · intro u num hu
      cases b <;> rcases hu with hu | hu <;>
        simp [ufuncOf, Item.seen, ufunc, prepare, flags, Opd.cf, Opd.vt, Opd.vals, handle, hu, reduce1, preserve2, passthrough2, same_refl, bind,
          Except.bind, pure, Except.pure]
    · intro u num hu
      cases b <;>
        simp [ufuncOf, Item.seen, ufunc, prepare, flags, Opd.cf, Opd.vt, Opd.vals, handle, hu, reduce1, preserve2, same_refl, bind,
          Except.bind, pure, Except.pure]
    · intro n
      cases b <;>
        simp [histogramRange, Item.seen, Item.hasUnits, prepare, flags, Opd.vt, Opd.vals]

private theorem counts_even (n : Nat) (es : List ℝ) (xs : List ℝ) (h : es.length = n + 1) :
    (histCounts xs (xs.map fun _ => 1) es).length = n ∧
    (∀ (i : Nat) (e f : ℝ), i + 1 < n → es[i]? = some e → es[i + 1]? = some f →
      (histCounts xs (xs.map fun _ => 1) es)[i]? = some ((xs.countP fun v => decide (e ≤ v ∧ v < f) : Nat) : ℝ)) ∧
    ∀ (i : Nat) (e f : ℝ), i + 1 = n → es[i]? = some e → es[i + 1]? = some f →
      (histCounts xs (xs.map fun _ => 1) es)[i]? = some ((xs.countP fun v => decide (e ≤ v ∧ v ≤ f) : Nat) : ℝ) := by
  have sum_count : ∀ (p : ℝ → Prop) [DecidablePred p],
      ((xs.zip (xs.map fun _ => (1 : ℝ))).map (fun q => if p q.1 then q.2 else 0)).sum = ((xs.countP fun v => decide (p v) : Nat) : ℝ) := by
    intro p _
    clear h
    induction xs with
    | nil => simp
    | cons v l ih =>
      simp only [List.map_cons, List.zip_cons_cons, List.sum_cons, ih, List.countP_cons]
      by_cases hv : p v <;> simp [hv, add_comm]
  induction n generalizing es with
  | zero =>
    obtain ⟨e, rfl⟩ := List.length_eq_one_iff.mp h
    simp [histCounts]
  | succ n ih =>
    match es, h with
    | [e, f], h =>
      have hn : n = 0 := by simpa using h.symm
      subst hn
      refine ⟨by simp [histCounts], fun i _ _ hi => by omega, ?_⟩
      intro i e' f' hi he hf
      have : i = 0 := by omega
      subst this
      simp only [List.getElem?_cons_zero, Option.some.injEq, zero_add, List.getElem?_cons_succ] at he hf
      subst he hf
      simp only [histCounts, List.getElem?_cons_zero]
      rw [sum_count fun v => e ≤ v ∧ v ≤ f]
    | e :: f :: g :: l, h =>
      obtain ⟨h1, h2, h3⟩ := ih (f :: g :: l) (by simpa using h)
      refine ⟨by simp only [histCounts, List.length_cons, h1], ?_, ?_⟩
      · intro i e' f' hi he hf
        cases i with
        | zero =>
          simp only [List.getElem?_cons_zero, Option.some.injEq, zero_add, List.getElem?_cons_succ] at he hf
          subst he hf
          simp only [histCounts, List.getElem?_cons_zero]
          rw [sum_count fun v => e ≤ v ∧ v < f]
        | succ i =>
          simp only [histCounts, List.getElem?_cons_succ] at he hf ⊢
          exact h2 i e' f' (by omega) he hf
      · intro i e' f' hi he hf
        cases i with
        | zero =>
          simp only [List.length_cons] at h
          omega
        | succ i =>
          simp only [histCounts, List.getElem?_cons_succ] at he hf ⊢
          exact h3 i e' f' (by omega) he hf

private theorem uniform_scale (n : Nat) (lo hi s : ℝ) : (uniform n lo hi).map (· * s) = uniform n (lo * s) (hi * s) := by
  unfold uniform
  rw [List.map_map]
  refine List.map_congr_left fun i _ => ?_
  simp only [Function.comp]
  ring

/-- C107: with a range given as an array with the factor of the values, in any frame, a histogram has even bins between the physical values
of the range, and counts the physical values. -/
theorem c107_range {a k : ℝ} {x r : Arr} (hx : Conv a k x) (hr : Conv a k r) {lo hi : ℝ} (hp : r.phys = [lo, hi]) (hlt : lo < hi) (n : Nat)
    (hn : n ≠ 0) :
    ∃ c e, histogramRange x n (.opd (.cosmo r)) = .ok (c, e) ∧ Conv a k e ∧ EvenBins n lo hi x.phys c e.phys := by
  obtain ⟨p, b, ep, hc, hvt, -, hf, hf'⟩ := prepare_kw (a := a) (l := [.cosmo x]) (kw := [.cosmo r]) (by
      intro q hq
      rw [List.mem_singleton.mp hq]
      exact ⟨k, hx⟩) (by
      intro q hq
      rw [List.mem_singleton.mp hq]
      exact ⟨k, hr⟩) (by simp [flags])
  obtain ⟨y, hargs, h1⟩ := forall2_one hf
  obtain ⟨r', hkw, h2⟩ := forall2_one hf'
  have e1 : x.phys = _ := h1.phys (o := .cosmo x) hx
  have e2 : r.phys = _ := h2.phys (o := .cosmo r) hr
  have hs := scale_pos hx.pos b k
  rw [hp] at e2
  match hv : r'.vals, e2 with
  | [u, w], e2 =>
    simp only [List.map_cons, List.map_nil, List.cons.injEq, and_true] at e2
    obtain ⟨elo, ehi⟩ := e2
    have huw : u < w := by
      rw [elo, ehi] at hlt
      exact lt_of_mul_lt_mul_right hlt hs.le
    have hedges : rangeEdges n u w = .ok (uniform n u w) := by
      unfold rangeEdges
      rw [if_neg (by simpa [hn] using huw.le), if_neg huw.ne]
    unfold histogramRange
    simp only [Item.seen, Item.hasUnits, ep, hargs, hkw, hv, hedges, Bool.true_eq_false, if_false]
    refine ⟨_, _, rfl, ⟨hx.pos, hx.cf, hvt, by simp [hc]⟩, ?_⟩
    have hph : (Arr.mk (uniform n u w) p.comoving x.cf p.vt).phys = uniform n lo hi := by
      rw [phys_result (z := ⟨uniform n u w, p.comoving, x.cf, p.vt⟩) (m := k) (a := a) hc hx.cf, elo, ehi]
      exact uniform_scale ..
    have hcounts : histCounts y.vals (y.vals.map fun _ => 1) (uniform n u w) = histCounts x.phys (x.phys.map fun _ => 1) (uniform n lo hi) := by
      have := histCounts_scale (scale a b k) 1 hs y.vals (y.vals.map fun _ => 1) (uniform n u w)
      rw [uniform_scale, ← elo, ← ehi, ← e1] at this
      simp only [mul_one, List.map_id'] at this
      rw [← this, e1, List.map_map]
      rfl
    rw [hph, hcounts]
    have hl : (uniform n lo hi).length = n + 1 := by simp [uniform]
    obtain ⟨c1, c2, c3⟩ := counts_even n (uniform n lo hi) x.phys hl
    refine ⟨hl, ?_, c1, c2, c3⟩
    intro i hi
    simp [uniform, List.getElem?_map, List.getElem?_range (show i < n + 1 by omega)]

/-- C107: a range that is reversed in physical values is refused, in any mix of frames. -/
theorem c107_range_reversed {a k : ℝ} {x r : Arr} (hx : Conv a k x) (hr : Conv a k r) {lo hi : ℝ} (hp : r.phys = [lo, hi]) (hlt : hi < lo)
    (n : Nat) : histogramRange x n (.opd (.cosmo r)) = .error .value := by
  obtain ⟨p, b, ep, hc, hvt, -, hf, hf'⟩ := prepare_kw (a := a) (l := [.cosmo x]) (kw := [.cosmo r]) (by
      intro q hq
      rw [List.mem_singleton.mp hq]
      exact ⟨k, hx⟩) (by
      intro q hq
      rw [List.mem_singleton.mp hq]
      exact ⟨k, hr⟩) (by simp [flags])
  obtain ⟨y, hargs, h1⟩ := forall2_one hf
  obtain ⟨r', hkw, h2⟩ := forall2_one hf'
  have e2 : r.phys = _ := h2.phys (o := .cosmo r) hr
  have hs := scale_pos hx.pos b k
  rw [hp] at e2
  match hv : r'.vals, e2 with
  | [u, w], e2 =>
    simp only [List.map_cons, List.map_nil, List.cons.injEq, and_true] at e2
    obtain ⟨elo, ehi⟩ := e2
    have huw : w < u := by
      rw [elo, ehi] at hlt
      exact lt_of_mul_lt_mul_right hlt hs.le
    unfold histogramRange
    simp [Item.seen, Item.hasUnits, ep, hargs, hkw, hv, rangeEdges, huw]

/-- C107: ranges of bare numbers and histograms of no bins are refused. -/
theorem c107_range_refused (x : Arr) (n : Nat) :
    (∀ v, ∃ e, histogramRange x n (.opd (.plain v)) = .error e) ∧
    ∀ r c, n = 0 → histogramRange x n r ≠ .ok c := by
  constructor
  · intro v
    unfold histogramRange
    cases prepare true [.cosmo x] [(Item.opd (.plain v)).seen] with
    | error e => exact ⟨e, rfl⟩
    | ok p => exact ⟨.typeErr, by simp [Item.hasUnits]⟩
  · rintro r c rfl
    unfold histogramRange
    intro h
    split at h
    · cases h
    · split at h
      · cases h
      · split at h
        · split at h
          · simp [rangeEdges] at h
          · cases h
        · cases h

private theorem not_same {a k m : ℝ} (h : 1e-8 + 1e-6 * |a ^ m| < |a ^ k - a ^ m|) :
    ¬ CF.same ⟨some k, some a⟩ ⟨some m, some a⟩ := by
  intro q
  have := q.2
  simp only [CF.aFactor, isclose] at this
  linarith

/-- C107 fails for the frame of the elements: adding a list of a physical quantity to a comoving array adds its number as a comoving one,
adding the array made from this list converts it. -/
theorem c107_frames_fails {a k v w : ℝ} (ha : 0 < a) (hw : w ≠ 0) (hk : a ^ k ≠ 1) :
    ∃ z r s, GivenBoth [⟨[w], some false, some ⟨some k, some a⟩, true⟩] z ∧
      ufuncOf .add (num2 (· + ·)) [.opd (.cosmo (com a k v)), .list [⟨[w], some false, some ⟨some k, some a⟩, true⟩]] = .ok r ∧
      ufuncOf .add (num2 (· + ·)) [.opd (.cosmo (com a k v)), .opd (.cosmo z)] = .ok s ∧
      s.phys = [v * a ^ k + w] ∧ r.phys = [v * a ^ k + w * a ^ k] ∧ r.phys ≠ s.phys := by
  have hc : Conv a k ⟨[w], some false, some ⟨some k, some a⟩, true⟩ := ⟨ha, rfl, rfl, by simp⟩
  have hp : a ^ k ≠ 0 := (Real.rpow_pos_of_pos ha k).ne'
  refine ⟨_, ⟨[v + w], some true, some ⟨some k, some a⟩, true⟩, ⟨[v + w / a ^ k], some true, some ⟨some k, some a⟩, true⟩,
    given_same (b := false) (by simp) (by simpa using hc) (by simp), ?_, ?_, ?_, ?_, ?_⟩
  · simp [ufuncOf, Item.seen, ufunc, prepare, flags, com, Opd.cf, Opd.vt, Opd.vals, handle, registry, reduce1, preserve2, bind, Except.bind, pure,
      Except.pure, num2, bcast2]
  · simp [ufuncOf, Item.seen, ufunc, prepare, flags, com, Opd.cf, Opd.vt, Opd.vals, handle, registry, reduce1, preserve2, bind, Except.bind, pure,
      Except.pure, num2, bcast2, same_refl, anyFixed, allToComoving, Arr.toComoving, Arr.convertToComoving, Except.map, Arr.factor, CF.aFactor, hp]
  · simp only [Arr.phys, List.map_cons, List.map_nil, List.cons.injEq, and_true]
    field_simp
  · simp only [Arr.phys, List.map_cons, List.map_nil, List.cons.injEq, and_true]
    ring
  · simp only [Arr.phys, List.map_cons, List.map_nil, ne_eq, List.cons.injEq, and_true]
    intro q
    apply hk
    field_simp at q
    have : w * (a ^ k - 1) = 0 := by linarith
    rcases mul_eq_zero.mp this with q | q
    · exact absurd q hw
    · linarith

/-- C107 fails for the factors of the elements: a list with different factors cannot be made an array, but it can be added. -/
theorem c107_factors_fails {a k m v w t : ℝ} (h : 1e-8 + 1e-6 * |a ^ m| < |a ^ k - a ^ m|) :
    newFromList [.cosmo (com a k w), .cosmo (com a m t)] none none true = .error .value ∧
    ufuncOf .add (num2 (· + ·)) [.opd (.cosmo (com a k v)), .opd (.cosmo (com a m t))] = .error .value ∧
    ufuncOf .add (num2 (· + ·)) [.opd (.cosmo (com a k v)), .list [com a k w, com a m t]] =
      .ok ⟨[v + w, v + t], some true, some ⟨some k, some a⟩, true⟩ := by
  have hn := not_same h
  refine ⟨?_, ?_, ?_⟩
  · simp [newFromList, prepare, flags, com, Opd.cf, reduce1, preserve2, hn, bind, Except.bind]
  · simp [ufuncOf, Item.seen, ufunc, prepare, flags, com, Opd.cf, handle, registry, reduce1, preserve2, hn, bind, Except.bind]
  · simp [ufuncOf, Item.seen, ufunc, prepare, flags, com, Opd.cf, Opd.vt, Opd.vals, handle, registry, reduce1, preserve2, bind, Except.bind,
      pure, Except.pure, num2, bcast2]

/-- C107 fails for products: a factor in a list is not multiplied. -/
theorem c107_products_fails {a k m v w : ℝ} (ha : 0 < a) (hv : v ≠ 0) (hw : w ≠ 0) (hm : a ^ m ≠ 1) :
    ∃ z r s, GivenBoth [com a m w] z ∧
      ufuncOf .multiply (num2 (· * ·)) [.opd (.cosmo (com a k v)), .list [com a m w]] = .ok r ∧
      ufuncOf .multiply (num2 (· * ·)) [.opd (.cosmo (com a k v)), .opd (.cosmo z)] = .ok s ∧
      s.phys = [v * a ^ k * (w * a ^ m)] ∧ r.phys = [v * a ^ k * w] ∧ r.phys ≠ s.phys := by
  have hp : a ^ k ≠ 0 := (Real.rpow_pos_of_pos ha k).ne'
  refine ⟨_, ⟨[v * w], some true, some ⟨some k, some a⟩, true⟩, ⟨[v * w], some true, some ⟨some (k + m), some a⟩, true⟩,
    given_same (b := true) (by simp) (by simpa using com_conv ha m w) (by simp [com]), ?_, ?_, ?_, ?_, ?_⟩
  · simp [ufuncOf, Item.seen, ufunc, prepare, flags, com, Opd.cf, Opd.vt, Opd.vals, handle, registry, reduce1, mul2, bind, Except.bind, pure,
      Except.pure, num2, bcast2]
  · simp [ufuncOf, Item.seen, ufunc, prepare, flags, com, Opd.cf, Opd.vt, Opd.vals, handle, registry, reduce1, mul2, CF.mul, bind, Except.bind,
      pure, Except.pure, num2, bcast2, Except.map]
  · simp only [Arr.phys, List.map_cons, List.map_nil, List.cons.injEq, and_true, Real.rpow_add ha]
    ring
  · simp only [Arr.phys, List.map_cons, List.map_nil, List.cons.injEq, and_true]
    ring
  · simp only [Arr.phys, List.map_cons, List.map_nil, ne_eq, List.cons.injEq, and_true, Real.rpow_add ha]
    intro q
    apply hm
    have : v * w * a ^ k * (a ^ m - 1) = 0 := by linarith
    rcases mul_eq_zero.mp this with q | q
    · exact absurd q (by positivity)
    · linarith

/-- C107 fails for ranges: the first edge of a histogram of comoving values over a tuple of physical quantities is not the first of the
quantities, but this number taken as a comoving one. -/
theorem c107_range_fails {a k lo hi : ℝ} (x : List ℝ) (hlt : lo < hi) (hlo : lo ≠ 0) (hk : a ^ k ≠ 1) (n : Nat) (hn : n ≠ 0) :
    ∃ c e, histogramRange ⟨x, some true, some ⟨some k, some a⟩, true⟩ n
        (.list [⟨[lo], some false, some ⟨some k, some a⟩, true⟩, ⟨[hi], some false, some ⟨some k, some a⟩, true⟩]) = .ok (c, e) ∧
      e.phys[0]? = some (lo * a ^ k) ∧ lo * a ^ k ≠ lo := by
  have hedges : rangeEdges n lo hi = .ok (uniform n lo hi) := by
    unfold rangeEdges
    rw [if_neg (by simpa [hn] using hlt.le), if_neg hlt.ne]
  refine ⟨histCounts x (x.map fun _ => 1) (uniform n lo hi), ⟨uniform n lo hi, some true, some ⟨some k, some a⟩, true⟩, ?_, ?_, ?_⟩
  · simp [histogramRange, Item.seen, Item.hasUnits, prepare, flags, Opd.vt, Opd.vals, hedges]
  · simp [Arr.phys, uniform, List.range_succ_eq_map]
  · intro q
    apply hk
    have : lo * (a ^ k - 1) = 0 := by linarith
    rcases mul_eq_zero.mp this with q | q
    · exact absurd q hlo
    · linarith

/-- C107 fails for the factor of a range: it is not compared with the one of the values. -/
theorem c107_range_factor_fails {a k m v lo hi : ℝ} (hlt : lo < hi) :
    ∃ c e, histogramRange (com a k v) 1 (.opd (.cosmo ⟨[lo, hi], some true, some ⟨some m, some a⟩, true⟩)) = .ok (c, e) ∧
      e = ⟨[lo, hi], some true, some ⟨some k, some a⟩, true⟩ := by
  refine ⟨histCounts [v] [1] [lo, hi], _, ?_, rfl⟩
  have hedges : rangeEdges 1 lo hi = .ok [lo, hi] := by
    unfold rangeEdges
    rw [if_neg (by simpa using hlt.le), if_neg hlt.ne]
    simp [uniform, List.range_succ_eq_map]
  simp [histogramRange, Item.seen, Item.hasUnits, prepare, flags, com, Opd.vt, Opd.vals, hedges]

/-- C107 fails for ranges of no width: they are extended by one half of the unit in the frame of the values, so that the same physical
values and range have other bins in the other frame. -/
theorem c107_range_point_fails {a k v : ℝ} (hk : a ^ k ≠ 1) :
    ∃ c d e f, histogramRange (com a k v) 1 (.list [com a k v, com a k v]) = .ok (c, e) ∧
      histogramRange ⟨[v * a ^ k], some false, some ⟨some k, some a⟩, true⟩ 1
        (.list [⟨[v * a ^ k], some false, some ⟨some k, some a⟩, true⟩, ⟨[v * a ^ k], some false, some ⟨some k, some a⟩, true⟩]) = .ok (d, f) ∧
      e.phys = [(v - 1 / 2) * a ^ k, (v + 1 / 2) * a ^ k] ∧ f.phys = [v * a ^ k - 1 / 2, v * a ^ k + 1 / 2] ∧ e.phys ≠ f.phys := by
  have hedges : ∀ t : ℝ, rangeEdges 1 t t = .ok [t - 1 / 2, t + 1 / 2] := by
    intro t
    unfold rangeEdges
    rw [if_neg (by simp), if_pos rfl]
    simp [uniform, List.range_succ_eq_map]
  refine ⟨histCounts [v] [1] [v - 1 / 2, v + 1 / 2], histCounts [v * a ^ k] [1] [v * a ^ k - 1 / 2, v * a ^ k + 1 / 2],
    ⟨[v - 1 / 2, v + 1 / 2], some true, some ⟨some k, some a⟩, true⟩,
    ⟨[v * a ^ k - 1 / 2, v * a ^ k + 1 / 2], some false, some ⟨some k, some a⟩, true⟩, ?_, ?_, rfl, rfl, ?_⟩
  · simp [histogramRange, Item.seen, Item.hasUnits, prepare, flags, com, Opd.vt, Opd.vals, hedges]
  · simp [histogramRange, Item.seen, Item.hasUnits, prepare, flags, Opd.vt, Opd.vals, hedges]
  · simp only [Arr.phys, List.map_cons, List.map_nil, ne_eq, List.cons.injEq, and_true, not_and]
    intro q
    exfalso
    apply hk
    linarith

example : Conv (1 / 2) 1 (com (1 / 2) 1 3) ∧ ∀ q ∈ [com (1 / 2) 1 1, com (1 / 2) 1 8], Conv (1 / 2) 1 q ∧ q.comoving = (com (1 / 2) 1 3).comoving := by
  refine ⟨com_conv (by norm_num) _ _, ?_⟩
  intro q hq
  rcases List.mem_pair.mp hq with rfl | rfl <;> exact ⟨com_conv (by norm_num) _ _, rfl⟩

example : (⟨[2, 6], some true, some ⟨some 1, some (1 / 2)⟩, true⟩ : Arr).phys = [1, 3] ∧ (1 : ℝ) < 3 := by
  norm_num [Arr.phys]

example : (1e-8 : ℝ) + 1e-6 * |(1 / 2 : ℝ) ^ (2 : ℝ)| < |(1 / 2 : ℝ) ^ (1 : ℝ) - (1 / 2 : ℝ) ^ (2 : ℝ)| := by
  have h : ((1 / 2 : ℝ)) ^ (2 : ℝ) = 1 / 4 := by
    rw [show (2 : ℝ) = ((2 : ℕ) : ℝ) by norm_num, Real.rpow_natCast]
    norm_num
  rw [h, Real.rpow_one, abs_of_pos (by norm_num), abs_of_pos (by norm_num)]
  norm_num

example : ((1 / 2 : ℝ)) ^ (1 : ℝ) ≠ 1 := by norm_num

end Verif.Props
