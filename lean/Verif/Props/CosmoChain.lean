import Verif.Props.CosmoFactor

/-! # C28, C29, C57: arrays that are not convertible, and joining arrays -/

namespace Verif.Props
open Verif Verif.Cosmo

/-- A computation: arrays and bare numbers combined by ufuncs, conversions and concatenation. -/
inductive Chain
  | leaf (o : Opd)
  | unary (u : Ufunc) (f : ℝ → ℝ) (c : Chain)
  | binary (u : Ufunc) (f : ℝ → ℝ → ℝ) (c d : Chain)
  | convert (v : Conversion) (c : Chain)
  | join (c d : Chain)

/-- A ufunc call: without any `cosmo_array` among the arguments it is plain numpy. -/
noncomputable def callUfunc (u : Ufunc) (num : List (List ℝ) → Except Err (List ℝ)) (args : List Opd) : Except Err Opd :=
  if flags args = [] then (num (args.map Opd.vals)).map .plain else (ufunc u num args).map .cosmo

/-- Evaluation of a computation. -/
noncomputable def Chain.eval : Chain → Except Err Opd
  | .leaf o => .ok o
  | .unary u f c => c.eval.bind fun x => callUfunc u (num1 f) [x]
  | .binary u f c d => c.eval.bind fun x => d.eval.bind fun y => callUfunc u (num2 f) [x, y]
  | .convert v c => c.eval.bind fun x => match x with
    | .plain _ => .error .attribute
    | .cosmo x => (v.call x).map .cosmo
  | .join c d => c.eval.bind fun x => d.eval.bind fun y =>
    if flags [x, y] = [] then .ok (.plain (x.vals ++ y.vals)) else (oplist (fun l => .ok l.flatten) [x, y]).map .cosmo

/-- The numbers that the computation gives when nothing is ever rescaled. -/
noncomputable def Chain.numbers : Chain → Except Err (List ℝ)
  | .leaf o => .ok o.vals
  | .unary _ f c => c.numbers.bind fun x => num1 f [x]
  | .binary _ f c d => c.numbers.bind fun x => d.numbers.bind fun y => num2 f [x, y]
  | .convert _ c => c.numbers
  | .join c d => c.numbers.bind fun x => d.numbers.bind fun y => .ok (x ++ y)

/-- The arrays that a computation starts from. -/
def Chain.leaves : Chain → List Opd
  | .leaf o => [o]
  | .unary _ _ c => c.leaves
  | .binary _ _ c d => c.leaves ++ d.leaves
  | .convert _ c => c.leaves
  | .join c d => c.leaves ++ d.leaves

/-- Bare numbers, or not convertible. -/
def Still : Opd → Prop
  | .plain _ => True
  | .cosmo x => x.vt = false ∧ x.comoving ≠ some true

private theorem still_of_plain {l : List Opd} (h : flags l = []) (x : Arr) : Opd.cosmo x ∉ l := by
  intro hx
  induction l with
  | nil => cases hx
  | cons o l ih =>
    cases o with
    | plain v =>
      rcases List.mem_cons.mp hx with e | hx
      · cases e
      · exact ih (by simpa [flags] using h) hx
    | cosmo y => simp [flags] at h

private theorem exists_cosmo {l : List Opd} (h : flags l ≠ []) : ∃ x, Opd.cosmo x ∈ l := by
  induction l with
  | nil => simp [flags] at h
  | cons o l ih =>
    cases o with
    | plain v =>
      obtain ⟨x, hx⟩ := ih (by simpa [flags] using h)
      exact ⟨x, List.mem_cons_of_mem _ hx⟩
    | cosmo y => exact ⟨y, List.mem_cons_self ..⟩

private theorem call_still {u : Ufunc} {num : List (List ℝ) → Except Err (List ℝ)} {l : List Opd} {o : Opd}
    (hl : ∀ q ∈ l, Still q) (h : callUfunc u num l = .ok o) : Still o ∧ num (l.map Opd.vals) = .ok o.vals := by
  unfold callUfunc at h
  split at h
  · cases e : num (l.map Opd.vals) with
    | error q => simp [e, Except.map] at h
    | ok v =>
      simp only [e, Except.map, Except.ok.injEq] at h
      subst h
      exact ⟨trivial, rfl⟩
  · rename_i hne
    obtain ⟨x, hx⟩ := exists_cosmo hne
    unfold ufunc at h
    cases e : prepare true l [] with
    | error q => simp [e, Except.map] at h
    | ok p =>
      obtain ⟨h1, h2, h3⟩ := prepare_fixed hx (hl _ hx) e
      simp only [e] at h
      cases e2 : handle (registry u) p.cfs l with
      | error q => simp [e2, Except.map] at h
      | ok c =>
        simp only [e2, h1] at h
        cases e3 : num (l.map Opd.vals) with
        | error q => simp [e3, Except.map] at h
        | ok v =>
          simp only [e3, Except.map, Except.ok.injEq] at h
          subst h
          exact ⟨⟨h2, h3⟩, rfl⟩

private theorem join_still {l : List Opd} {z : Arr} (hne : flags l ≠ []) (hl : ∀ q ∈ l, Still q)
    (h : oplist (fun l => .ok l.flatten) l = .ok z) : Still (.cosmo z) ∧ z.val = (l.map Opd.vals).flatten := by
  obtain ⟨x, hx⟩ := exists_cosmo hne
  unfold oplist at h
  cases e : prepare true l [] with
  | error q => simp [e] at h
  | ok p =>
    obtain ⟨h1, h2, h3⟩ := prepare_fixed hx (hl _ hx) e
    simp only [e] at h
    cases e2 : reduce1 preserve2 (p.cfs.take 1) with
    | error q => simp [e2] at h
    | ok c =>
      simp only [e2, h1, Except.ok.injEq] at h
      subst h
      exact ⟨⟨h2, h3⟩, rfl⟩

/-- C28: any computation that starts from arrays that are not convertible (and bare numbers) gives bare numbers or an
array that is not convertible, in the physical frame or without a frame, and its numbers are those of the computation in
which nothing is ever rescaled. -/
theorem c28_chain (c : Chain) (hl : ∀ o ∈ c.leaves, Still o) (o : Opd) (h : c.eval = .ok o) :
    Still o ∧ c.numbers = .ok o.vals := by
  induction c generalizing o with
  | leaf q =>
    simp only [Chain.eval, Except.ok.injEq] at h
    subst h
    exact ⟨hl _ (by simp [Chain.leaves]), rfl⟩
  | unary u f c ih =>
    cases e : c.eval with
    | error q => simp [Chain.eval, e, Except.bind] at h
    | ok x =>
      simp only [Chain.eval, e, Except.bind] at h
      obtain ⟨h1, h2⟩ := ih hl x e
      obtain ⟨h3, h4⟩ := call_still (l := [x]) (by simpa using h1) h
      exact ⟨h3, by simpa [Chain.numbers, h2, Except.bind] using h4⟩
  | binary u f c d ihc ihd =>
    have hc : ∀ o ∈ c.leaves, Still o := fun o ho => hl o (List.mem_append_left _ ho)
    have hd : ∀ o ∈ d.leaves, Still o := fun o ho => hl o (List.mem_append_right _ ho)
    cases e : c.eval with
    | error q => simp [Chain.eval, e, Except.bind] at h
    | ok x =>
      cases e' : d.eval with
      | error q => simp [Chain.eval, e, e', Except.bind] at h
      | ok y =>
        simp only [Chain.eval, e, e', Except.bind] at h
        obtain ⟨h1, h2⟩ := ihc hc x e
        obtain ⟨h3, h4⟩ := ihd hd y e'
        obtain ⟨h5, h6⟩ := call_still (l := [x, y]) (by
          intro q hq
          rcases List.mem_pair.mp hq with rfl | rfl
          · exact h1
          · exact h3) h
        exact ⟨h5, by simpa [Chain.numbers, h2, h4, Except.bind] using h6⟩
  | convert v c ih =>
    cases e : c.eval with
    | error q => simp [Chain.eval, e, Except.bind] at h
    | ok x =>
      obtain ⟨h1, h2⟩ := ih hl x e
      cases x with
      | plain w => simp [Chain.eval, e, Except.bind] at h
      | cosmo x =>
        cases e2 : v.call x with
        | error q => simp [Chain.eval, e, e2, Except.bind, Except.map] at h
        | ok y =>
          simp only [Chain.eval, e, e2, Except.bind, Except.map, Except.ok.injEq] at h
          have hs := (c23_refused h1.1 h1.2).2.2.2 [v]
          simp only [convertAll, e2] at hs
          subst hs h
          exact ⟨h1, h2⟩
  | join c d ihc ihd =>
    have hc : ∀ o ∈ c.leaves, Still o := fun o ho => hl o (List.mem_append_left _ ho)
    have hd : ∀ o ∈ d.leaves, Still o := fun o ho => hl o (List.mem_append_right _ ho)
    cases e : c.eval with
    | error q => simp [Chain.eval, e, Except.bind] at h
    | ok x =>
      cases e' : d.eval with
      | error q => simp [Chain.eval, e, e', Except.bind] at h
      | ok y =>
        obtain ⟨h1, h2⟩ := ihc hc x e
        obtain ⟨h3, h4⟩ := ihd hd y e'
        simp only [Chain.eval, e, e', Except.bind] at h
        simp only [Chain.numbers, h2, h4, Except.bind]
        split at h
        · simp only [Except.ok.injEq] at h
          subst h
          exact ⟨trivial, rfl⟩
        · rename_i hne
          cases e3 : oplist (fun l => .ok l.flatten) [x, y] with
          | error q => simp [e3, Except.map] at h
          | ok z =>
            simp only [e3, Except.map, Except.ok.injEq] at h
            subst h
            obtain ⟨h5, h6⟩ := join_still hne (by
              intro q hq
              rcases List.mem_pair.mp hq with rfl | rfl
              · exact h1
              · exact h3) e3
            exact ⟨h5, by simp [Opd.vals, h6]⟩

/-- C28: one operand that is not convertible makes the result not convertible, whatever the other operands are, and no
operand is rescaled. -/
theorem c28_operand (u : Ufunc) (num : List (List ℝ) → Except Err (List ℝ)) (l : List Opd) (x z : Arr)
    (hx : .cosmo x ∈ l) (hv : x.vt = false) (hc : x.comoving ≠ some true) (h : ufunc u num l = .ok z) :
    z.vt = false ∧ z.comoving ≠ some true ∧ num (l.map Opd.vals) = .ok z.val := by
  unfold ufunc at h
  cases e : prepare true l [] with
  | error q => simp [e] at h
  | ok p =>
    obtain ⟨h1, h2, h3⟩ := prepare_fixed hx ⟨hv, hc⟩ e
    simp only [e] at h
    cases e2 : handle (registry u) p.cfs l with
    | error q => simp [e2] at h
    | ok c =>
      simp only [e2, h1] at h
      cases e3 : num (l.map Opd.vals) with
      | error q => simp [e3] at h
      | ok v =>
        simp only [e3, Except.ok.injEq] at h
        subst h
        exact ⟨h2, h3, rfl⟩

/-- A quantity that is not convertible. -/
noncomputable def stuck : Arr := ⟨[3, 4], some false, some ⟨some 1, some (1 / 2)⟩, false⟩

theorem stuck_fixed : Still (.cosmo stuck) ∧ Arr.verify stuck = .ok stuck := by
  simp [Still, stuck, Arr.verify]

example : ∃ o, (Chain.binary .add (· + ·) (.convert .toPhysical (.leaf (.cosmo stuck))) (.leaf (.cosmo stuck))).eval =
    .ok o :=
  ⟨.cosmo ⟨[3 + 3, 4 + 4], some false, some ⟨some 1, some (1 / 2)⟩, false⟩, by
    simp [Chain.eval, Except.bind, Conversion.call, Arr.toPhysical, Arr.convertToPhysical, stuck, callUfunc, flags, ufunc,
      prepare, Opd.cf, Opd.vt, Opd.vals, handle, registry, reduce1, preserve2, same_refl, num2, bcast2, Except.map, bind,
      pure, Except.pure]⟩

/-- C28 fails for the constructor: `cosmo_array(x)` of an array that is not convertible is convertible, because the
default `valid_transform=True` replaces the flag of the input. -/
theorem c28_constructor_fails :
    ∃ z w, newFromArr stuck none true = .ok z ∧ z.vt = true ∧ z.toComoving = .ok w ∧ w.val = [6, 8] := by
  refine ⟨{ stuck with vt := true }, ⟨[3 / (1 / 2), 4 / (1 / 2)], some true, some ⟨some 1, some (1 / 2)⟩, true⟩, ?_, rfl,
    ?_, ?_⟩
  · simp [newFromArr, stuck, Arr.verify]
  · simp [Arr.toComoving, Arr.convertToComoving, stuck, Arr.factor, CF.aFactor]
  · norm_num

/-- C28 fails for the constructor from a list, in the same way. -/
theorem c28_list_constructor_fails :
    ∃ z, newFromList [.cosmo stuck, .cosmo stuck] none none true = .ok z ∧ z.vt = true := by
  refine ⟨⟨[3, 4, 3, 4], some false, some ⟨some 1, some (1 / 2)⟩, true⟩, ?_, rfl⟩
  simp [newFromList, prepare, flags, stuck, Opd.cf, Opd.vt, Opd.vals, reduce1, preserve2, same_refl, Arr.verify, bind,
    Except.bind, pure, Except.pure]

/-- C57: when a convertible operand is combined with one that is not convertible, a physical convertible operand gives the
physical result. The full statement also asks this for a comoving operand; that is false, see below. -/
theorem c57_mixed_partial {u : Ufunc} {f : ℝ → ℝ → ℝ} {x y z : Arr}
    (hxc : x.comoving = some false) (hv : y.vt = false) (hc : y.comoving = some false)
    (h : ufunc u (num2 f) [.cosmo x, .cosmo y] = .ok z) :
    num2 f [x.phys, y.phys] = .ok z.phys ∧ z.comoving = some false ∧ z.vt = false := by
  obtain ⟨h1, h2, h3⟩ := c28_operand u (num2 f) [.cosmo x, .cosmo y] y z (by simp) hv (by simp [hc]) h
  have hz : z.comoving = some false := by
    unfold ufunc at h
    have e : ∃ p, prepare true [.cosmo x, .cosmo y] [] = .ok p ∧ p.comoving = some false := by
      unfold prepare
      simp only [flags, hxc, hc, List.append_nil]
      rw [if_neg (by simp), if_neg (by simp), if_neg (by simp), if_neg (by simp), if_pos (by simp)]
      exact ⟨_, rfl, rfl⟩
    obtain ⟨p, e, hp⟩ := e
    rw [e] at h
    simp only at h
    repeat' split at h
    all_goals first
      | (simp only [Except.ok.injEq] at h; subst h; exact hp)
      | exact absurd h (by simp)
  refine ⟨?_, hz, h1⟩
  rw [phys_false hxc, phys_false hc, phys_false hz]
  exact h3

/-- C57 fails: adding a comoving length to a physical length that is not convertible adds the comoving number and labels
the sum as physical. -/
theorem c57_comoving_fails :
    ∃ z, ufunc .add (num2 (· + ·)) [.cosmo (com (1 / 2) 1 8), .cosmo ⟨[1], some false, some ⟨some 1, some (1 / 2)⟩, false⟩]
        = .ok z ∧ (com (1 / 2) 1 8).phys = [4] ∧ z.comoving = some false ∧ z.phys = [9] := by
  refine ⟨⟨[8 + 1], some false, some ⟨some 1, some (1 / 2)⟩, false⟩, ?_, ?_, rfl, ?_⟩
  · simp [ufunc, prepare, flags, com, Opd.cf, Opd.vt, Opd.vals, handle, registry, reduce1, preserve2, same_refl, num2,
      bcast2, bind, Except.bind, pure, Except.pure, anyFixed, allToPhysical, Arr.toPhysical, Arr.convertToPhysical,
      Except.map]
  · norm_num [Arr.phys, com]
  · norm_num [Arr.phys]

example : Conv (1 / 2) 1 radius ∧ radius.comoving = some false ∧ stuck.vt = false ∧ stuck.comoving = some false :=
  ⟨radius_conv, rfl, rfl, rfl⟩

/-- C29: an array made from a list of convertible arrays or quantities with one exponent, in any mix of frames, holds the
physical values of the elements in order. -/
theorem c29_constructor {a k : ℝ} {l : List Arr} (hne : l ≠ []) (h : ∀ x ∈ l, Conv a k x) :
    ∃ z, newFromList (l.map .cosmo) none none true = .ok z ∧ Conv a k z ∧ z.phys = (l.map Arr.phys).flatten := by
  have hexp : ∀ o ∈ l.map Opd.cosmo, HasExp a o k := by
    intro o ho
    obtain ⟨x, hx, rfl⟩ := List.mem_map.mp ho
    exact h x hx
  have hne' : l.map Opd.cosmo ≠ [] := by simpa using hne
  obtain ⟨p, b, e, hc, hvt, hcfs, hf, -⟩ := prepare_mix (fun o ho => (hexp o ho).mix) (by
    rw [flags_cosmo]
    simpa using hne)
  have hred := reduce_preserve (f := ⟨some k, some a⟩) hne' (by
    intro o ho
    obtain ⟨x, hx, rfl⟩ := List.mem_map.mp ho
    exact (h x hx).cf)
  have hcne : p.cfs ≠ [] := by simpa [hcfs] using hne
  have hpos : 0 < a := by
    obtain ⟨x, hx⟩ := List.exists_mem_of_ne_nil _ hne
    exact (h x hx).pos
  unfold newFromList
  simp only [Option.getD_none, e]
  rw [if_neg hcne, hcfs, hred]
  simp only [hc]
  refine ⟨⟨_, some b, some ⟨some k, some a⟩, true⟩, by simp [Arr.verify]; rfl, ⟨hpos, rfl, rfl, by simp⟩, ?_⟩
  rw [phys_result (m := k) (a := a) rfl rfl, ← same_flatten hexp hf, List.map_map]
  rfl

/-- C29: the same for `concatenate` and its relatives. -/
theorem c29_concatenate {a k : ℝ} {l : List Arr} (hne : l ≠ []) (h : ∀ x ∈ l, Conv a k x) :
    ∃ z, oplist (fun m => .ok m.flatten) (l.map .cosmo) = .ok z ∧ Conv a k z ∧ z.phys = (l.map Arr.phys).flatten := by
  have hexp : ∀ o ∈ l.map Opd.cosmo, HasExp a o k := by
    intro o ho
    obtain ⟨x, hx, rfl⟩ := List.mem_map.mp ho
    exact h x hx
  obtain ⟨p, b, e, hc, hvt, hcfs, hf, -⟩ := prepare_mix (fun o ho => (hexp o ho).mix) (by
    rw [flags_cosmo]
    simpa using hne)
  have hpos : 0 < a := by
    obtain ⟨x, hx⟩ := List.exists_mem_of_ne_nil _ hne
    exact (h x hx).pos
  have hred : reduce1 preserve2 (p.cfs.take 1) = .ok (some ⟨some k, some a⟩) := by
    cases l with
    | nil => exact absurd rfl hne
    | cons x l =>
      rw [hcfs]
      simp [reduce1, Opd.cf, (h x (List.mem_cons_self ..)).cf, pure, Except.pure]
  unfold oplist
  simp only [e, hred]
  refine ⟨_, rfl, ⟨hpos, rfl, hvt, by simp [hc]⟩, ?_⟩
  rw [phys_result (m := k) (a := a) hc rfl, ← same_flatten hexp hf, List.map_map]
  rfl

example : ∀ x ∈ [lengths, radius, lengths], Conv (1 / 2) 1 x := by
  intro x hx
  simp only [List.mem_cons, List.not_mem_nil, or_false] at hx
  rcases hx with rfl | rfl | rfl
  · exact lengths_conv
  · exact radius_conv
  · exact lengths_conv

/-- C29 fails when the frame is given: a list of comoving quantities made physical keeps the comoving numbers. -/
theorem c29_all_comoving_fails :
    ∃ z, newFromList [.cosmo (com (1 / 2) 1 8)] (some false) none true = .ok z ∧ (com (1 / 2) 1 8).phys = [4] ∧
      z.phys = [8] := by
  refine ⟨⟨[8], some false, some ⟨some 1, some (1 / 2)⟩, true⟩, ?_, ?_, ?_⟩
  · simp [newFromList, prepare, flags, com, Opd.cf, Opd.vt, Opd.vals, reduce1, Arr.verify, pure, Except.pure]
  · norm_num [Arr.phys, com]
  · norm_num [Arr.phys]

/-- C29 fails when the frame is given: a list of physical quantities made comoving keeps the physical numbers. -/
theorem c29_all_physical_fails :
    ∃ z, newFromList [.cosmo radius] (some true) none true = .ok z ∧ radius.phys = [3] ∧ z.phys = [3 / 2] := by
  refine ⟨⟨[3], some true, some ⟨some 1, some (1 / 2)⟩, true⟩, ?_, ?_, ?_⟩
  · simp [newFromList, prepare, flags, radius, Opd.cf, Opd.vt, Opd.vals, reduce1, Arr.verify, pure, Except.pure]
  · norm_num [Arr.phys, radius]
  · norm_num [Arr.phys]

/-- C29 fails when the frame is given as physical and the list mixes frames: the comoving element is not converted. -/
theorem c29_mixed_physical_fails :
    ∃ z, newFromList [.cosmo (com (1 / 2) 1 8), .cosmo radius] (some false) none true = .ok z ∧
      (com (1 / 2) 1 8).phys = [4] ∧ z.phys = [8, 3] := by
  refine ⟨⟨[8, 3], some false, some ⟨some 1, some (1 / 2)⟩, true⟩, ?_, ?_, ?_⟩
  · simp [newFromList, prepare, flags, radius, com, Opd.cf, Opd.vt, Opd.vals, reduce1, preserve2, same_refl, Arr.verify,
      allToPhysical, Arr.toPhysical, Arr.convertToPhysical, Except.map, bind, Except.bind, pure, Except.pure]
  · norm_num [Arr.phys, com]
  · norm_num [Arr.phys]

end Verif.Props
