import Verif.Spec.Calls
import Verif.Lemmas.CosmoFunctions
import Verif.Lemmas.Memory
import Verif.Props.CosmoChain

/-! # C108: the ways to pass arguments to wrapped functions -/

namespace Verif.Props
open Verif Verif.Cosmo Verif.Spec Verif.Calls Verif.Names

/-- What `_prepare_array_func_args` does with an argument, given the frames of all arguments. -/
private noncomputable def adj (F : List (Option Bool)) (o : Opd) : Opd :=
  open Classical in
  if some true ∈ F ∧ some false ∈ F then
    match o with
    | .plain v => .plain v
    | .cosmo x => if x.comoving = some true then .cosmo x else match x.toComoving with
      | .ok y => .cosmo y
      | .error _ => .cosmo x
  else o

/-- The frame of the result. -/
private noncomputable def frameOf (F : List (Option Bool)) : Option Bool :=
  open Classical in
  if some true ∈ F then some true else if some false ∈ F then some false else none

private theorem adj_congr {F G : List (Option Bool)} (h : ∀ c, c ∈ F ↔ c ∈ G) : adj F = adj G := by
  funext o
  simp only [adj, h]

private theorem frameOf_congr {F G : List (Option Bool)} (h : ∀ c, c ∈ F ↔ c ∈ G) : frameOf F = frameOf G := by
  simp only [frameOf, h]

private theorem allToComoving_adj {a : ℝ} {F : List (Option Bool)} {l : List Opd} (h : ∀ o ∈ l, Mix a o) (hF : some true ∈ F ∧ some false ∈ F) :
    allToComoving l = .ok (l.map (adj F)) := by
  induction l with
  | nil => rfl
  | cons o l ih =>
    have ih := ih fun o ho => h o (List.mem_cons_of_mem _ ho)
    have ho := h o (List.mem_cons_self ..)
    cases o with
    | plain v => simp [allToComoving, ih, Except.map, adj]
    | cosmo x =>
      obtain ⟨k, hk⟩ := ho
      by_cases hc : x.comoving = some true
      · simp [allToComoving, ih, Except.map, adj, hc]
      · obtain ⟨y, e, -, -, -⟩ := convertToComoving_ok hk
        rw [← toComoving_eq hk] at e
        simp [allToComoving, ih, Except.map, adj, hc, hF, e]

private theorem prepare_adj {a : ℝ} {l kw : List Opd} (h : ∀ o ∈ l, Mix a o) (h' : ∀ o ∈ kw, Mix a o) :
    ∃ p, prepare true l kw = .ok p ∧ p.args = l.map (adj (flags l ++ flags kw)) ∧ p.kw = kw.map (adj (flags l ++ flags kw)) ∧
      p.comoving = frameOf (flags l ++ flags kw) ∧ p.vt = true ∧ p.cfs = l.map Opd.cf := by
  have hvt : (l.map Opd.vt ++ kw.map Opd.vt).all id = true := by
    rw [List.all_append, vt_mix h, vt_mix h']
    rfl
  have hnone : none ∉ flags l ++ flags kw := by
    rw [List.mem_append, not_or]
    exact ⟨flags_none h, flags_none h'⟩
  generalize hF : flags l ++ flags kw = F at hnone
  have hid : ¬ (some true ∈ F ∧ some false ∈ F) → ∀ m : List Opd, m.map (adj F) = m := by
    intro hn m
    have : adj F = id := by
      funext o
      simp only [adj, if_neg hn, id]
    rw [this, List.map_id]
  unfold prepare
  simp only [hF]
  by_cases h0 : F = []
  · subst h0
    simp only [if_true]
    exact ⟨_, rfl, (hid (by simp) _).symm, (hid (by simp) _).symm, by simp [frameOf], hvt, rfl⟩
  rw [if_neg h0]
  obtain ⟨e, he⟩ := List.exists_mem_of_ne_nil _ h0
  by_cases h1 : ∀ c ∈ F, c = some true
  · rw [if_pos h1]
    have hf : some false ∉ F := fun q => by cases h1 _ q
    have ht : some true ∈ F := h1 e he ▸ he
    exact ⟨_, rfl, (hid (by simp [hf]) _).symm, (hid (by simp [hf]) _).symm, by simp [frameOf, ht], hvt, rfl⟩
  · rw [if_neg h1, if_neg (show ¬ ∀ c ∈ F, c = none from fun q => hnone (q e he ▸ he)), if_neg (by rintro ⟨c, hc, rfl⟩; exact hnone hc)]
    have hcase : ∀ c ∈ F, c = some true ∨ c = some false := by
      intro c hc
      match c with
      | none => exact absurd hc hnone
      | some true => exact .inl rfl
      | some false => exact .inr rfl
    by_cases h4 : ∀ c ∈ F, c = some false
    · rw [if_pos h4]
      have ht : some true ∉ F := fun q => by cases h4 _ q
      have hf : some false ∈ F := h4 e he ▸ he
      exact ⟨_, rfl, (hid (by simp [ht]) _).symm, (hid (by simp [ht]) _).symm, by simp [frameOf, ht, hf], hvt, rfl⟩
    · rw [if_neg h4, if_pos ⟨trivial, anyFixed_mix h⟩]
      have hboth : some true ∈ F ∧ some false ∈ F := by
        push Not at h1 h4
        obtain ⟨c, hc, hc'⟩ := h1
        obtain ⟨d, hd, hd'⟩ := h4
        exact ⟨(hcase d hd).resolve_right hd' ▸ hd, (hcase c hc).resolve_left hc' ▸ hc⟩
      rw [allToComoving_adj h hboth, allToComoving_adj h' hboth]
      exact ⟨_, rfl, rfl, rfl, by simp [frameOf, hboth], hvt, rfl⟩

private theorem mem_flags {l : List Opd} {c : Option Bool} : c ∈ flags l ↔ ∃ x, Opd.cosmo x ∈ l ∧ x.comoving = c := by
  induction l with
  | nil => simp [flags]
  | cons o l ih =>
    cases o with
    | plain v => simp [flags, ih]
    | cosmo x => simp [flags, ih, eq_comm]

private theorem convertible_mix {a : ℝ} {c : Call} (h : Convertible a c) : (∀ o ∈ c.args, Mix a o) ∧ ∀ o ∈ c.keywords, Mix a o := by
  constructor
  · intro o ho
    cases o with
    | plain v => trivial
    | cosmo x => exact h x (.inl ho)
  · intro o ho
    cases o with
    | plain v => trivial
    | cosmo x =>
      simp only [Call.keywords, List.mem_append, List.mem_map, Option.mem_toList] at ho
      rcases ho with ⟨⟨n, q⟩, hq, rfl⟩ | ho
      · exact h x (.inr (.inl ⟨n, hq⟩))
      · exact h x (.inr (.inr ho))

private theorem gets_iff {params : List Str} {c : Call} {name : Str} {o : Opd} :
    Gets params c name o ↔ (name, o) ∈ params.zip c.args ++ c.kws := by
  unfold Gets
  rw [List.mem_append]
  refine or_congr ?_ Iff.rfl
  rw [List.mem_iff_getElem?]
  refine exists_congr fun i => ?_
  rw [List.getElem?_zip_eq_some]

private theorem lookup_iff {α : Type} {l : List (Str × α)} (h : (l.map Prod.fst).Nodup) {name : Str} {v : α} :
    l.lookup name = some v ↔ (name, v) ∈ l := by
  induction l with
  | nil => simp
  | cons q l ih =>
    obtain ⟨m, w⟩ := q
    simp only [List.map_cons, List.nodup_cons] at h
    rw [List.lookup_cons]
    by_cases hm : name = m
    · subst hm
      simp only [beq_self_eq_true, Option.some.injEq, List.mem_cons, Prod.mk.injEq, true_and]
      constructor
      · intro e
        exact .inl e.symm
      · rintro (e | e)
        · exact e.symm
        · exact absurd (List.mem_map.mpr ⟨_, e, rfl⟩) h.1
    · have : (name == m) = false := by simpa using hm
      simp [this, ih h.2, hm]

private theorem lookup_map {α β : Type} (f : α → β) (l : List (Str × α)) (name : Str) :
    (l.map fun q => (q.1, f q.2)).lookup name = (l.lookup name).map f := by
  induction l with
  | nil => rfl
  | cons q l ih =>
    obtain ⟨m, w⟩ := q
    simp only [List.map_cons, List.lookup_cons, ih]
    cases name == m <;> rfl

private theorem names_zip {params : List Str} {α : Type} {l : List α} (h : l.length ≤ params.length) :
    (params.zip l).map Prod.fst = params.take l.length := by
  induction l generalizing params with
  | nil => simp
  | cons x l ih =>
    cases params with
    | nil => simp at h
    | cons q params => simpa using ih (by simpa using h)

private theorem accepted_names {params : List Str} {c : Call} (h : Accepted params c) : ((params.zip c.args ++ c.kws).map Prod.fst).Nodup := by
  rw [List.map_append, names_zip h.few]
  exact h.once

private theorem bind_accepted {params : List Str} {c : Call} (h : Accepted params c) (f : Opd → List ℝ)
    (g : (Str → Option (List ℝ)) → Except Err (List ℝ)) :
    bindTo params g (c.args.map f) (c.kws.map fun q => (q.1, f q.2)) = g fun name => ((params.zip c.args ++ c.kws).lookup name).map f := by
  unfold bindTo
  rw [if_neg]
  · congr 1
    funext name
    rw [← lookup_map, List.map_append, List.zip_map_right]
    rfl
  · simp only [List.length_map, not_or, not_lt, not_not, List.map_map]
    refine ⟨h.few, ?_, ?_⟩
    · rintro ⟨k, hk, hn⟩
      obtain ⟨q, hq, rfl⟩ := List.mem_map.mp hk
      exact hn (h.known q hq)
    · exact h.once

private theorem prefix_same {params : List Str} {c d : Call} (hd : Accepted params d) (hs : SameCall params c d) (hcp : c.args.length ≤ params.length)
    {n : Nat} (h1 : n ≤ c.args.length) (h2 : n ≤ d.args.length) : c.args.take n = d.args.take n := by
  apply List.ext_getElem?
  intro i
  by_cases hi : i < n
  · rw [List.getElem?_take_of_lt hi, List.getElem?_take_of_lt hi]
    have ic : i < c.args.length := by omega
    have id : i < d.args.length := by omega
    have ip : i < params.length := by omega
    have hg : Gets params c params[i] c.args[i] := .inl ⟨i, List.getElem?_eq_getElem ip, List.getElem?_eq_getElem ic⟩
    have hn := List.nodup_append.mp hd.once
    have it : i < (params.take d.args.length).length := by
      rw [List.length_take]
      omega
    have ei : (params.take d.args.length)[i] = params[i] := List.getElem_take
    rcases (hs.1 _ _).mp hg with ⟨j, hj, hj'⟩ | hk
    · have jd : j < d.args.length := (List.getElem?_eq_some_iff.mp hj').1
      obtain ⟨jp, ej⟩ := List.getElem?_eq_some_iff.mp hj
      have jt : j < (params.take d.args.length).length := by
        rw [List.length_take]
        omega
      have : j = i := by
        refine (List.Nodup.getElem_inj_iff hn.1 (hi := jt) (hj := it)).mp ?_
        rw [ei, ← ej]
        exact List.getElem_take
      subst this
      rw [hj', List.getElem?_eq_getElem ic]
    · exfalso
      refine hn.2.2 params[i] (ei ▸ List.getElem_mem it) params[i] (List.mem_map.mpr ⟨_, hk, rfl⟩) rfl
  · rw [List.getElem?_eq_none (by rw [List.length_take]; omega), List.getElem?_eq_none (by rw [List.length_take]; omega)]

private theorem flags_iff {params : List Str} {c : Call} (hp : c.args.length ≤ params.length) {b : Option Bool} :
    b ∈ flags c.args ++ flags c.keywords ↔
      (∃ name x, Gets params c name (.cosmo x) ∧ x.comoving = b) ∨ ∃ x, c.out = some (.cosmo x) ∧ x.comoving = b := by
  rw [List.mem_append, mem_flags, mem_flags]
  constructor
  · rintro (⟨x, hx, e⟩ | ⟨x, hx, e⟩)
    · obtain ⟨i, hi⟩ := List.mem_iff_getElem?.mp hx
      have il := (List.getElem?_eq_some_iff.mp hi).1
      exact .inl ⟨params[i], x, .inl ⟨i, List.getElem?_eq_getElem (by omega), hi⟩, e⟩
    · simp only [Call.keywords, List.mem_append, List.mem_map, Option.mem_toList] at hx
      rcases hx with ⟨⟨n, q⟩, hq, rfl⟩ | hx
      · exact .inl ⟨n, x, .inr hq, e⟩
      · exact .inr ⟨x, hx, e⟩
  · rintro (⟨name, x, hg | hg, e⟩ | ⟨x, hx, e⟩)
    · obtain ⟨i, -, hi⟩ := hg
      exact .inl ⟨x, List.mem_of_getElem? hi, e⟩
    · exact .inr ⟨x, by simp only [Call.keywords, List.mem_append, List.mem_map]; exact .inl ⟨_, hg, rfl⟩, e⟩
    · exact .inr ⟨x, by simp [Call.keywords, hx], e⟩

private theorem mixed_iff (c : Call) : mixed c = true ↔ some true ∈ flags c.args ++ flags c.keywords ∧ some false ∈ flags c.args ++ flags c.keywords := by
  simp [mixed, flags_append]

/-- C108: two ways to write a call, that both have the arguments whose factors are combined at the front, give the same result and the same
`out`. -/
theorem c108_same_call_partial {a : ℝ} {n : Nat} {rule : List (Option CF) → Except Err (Option CF)} {params : List Str}
    {g : (Str → Option (List ℝ)) → Except Err (List ℝ)} {c d : Call} (hc : Accepted params c) (hd : Accepted params d)
    (hs : SameCall params c d) (hm : Convertible a c) (h1 : n ≤ c.args.length) (h2 : n ≤ d.args.length) :
    wrapped n rule params g c = wrapped n rule params g d := by
  have hmd : Convertible a d := by
    intro x hx
    rcases hx with hx | ⟨name, hx⟩ | hx
    · obtain ⟨i, hi⟩ := List.mem_iff_getElem?.mp hx
      have il := (List.getElem?_eq_some_iff.mp hi).1
      have := hd.few
      rcases (hs.1 params[i] (.cosmo x)).mpr (.inl ⟨i, List.getElem?_eq_getElem (by omega), hi⟩) with ⟨j, -, hj⟩ | hk
      · exact hm x (.inl (List.mem_of_getElem? hj))
      · exact hm x (.inr (.inl ⟨_, hk⟩))
    · rcases (hs.1 name (.cosmo x)).mpr (.inr hx) with ⟨j, -, hj⟩ | hk
      · exact hm x (.inl (List.mem_of_getElem? hj))
      · exact hm x (.inr (.inl ⟨_, hk⟩))
    · exact hm x (.inr (.inr (hs.2.trans hx)))
  obtain ⟨p, ep, pa, pk, pc, pv, pf⟩ := prepare_adj (convertible_mix hm).1 (convertible_mix hm).2
  obtain ⟨q, eq, qa, qk, qc, qv, qf⟩ := prepare_adj (convertible_mix hmd).1 (convertible_mix hmd).2
  have hF : ∀ b, b ∈ flags c.args ++ flags c.keywords ↔ b ∈ flags d.args ++ flags d.keywords := by
    intro b
    rw [flags_iff hc.few, flags_iff hd.few, hs.2]
    simp only [hs.1]
  rw [adj_congr hF] at pa pk
  rw [frameOf_congr hF] at pc
  have hmix : mixed c = mixed d := by
    rw [Bool.eq_iff_iff, mixed_iff, mixed_iff, hF, hF]
  have hzip : ∀ (e : Call) (F : Opd → Opd), (e.kws.map Prod.fst).zip ((e.keywords.map F).map Opd.vals) = e.kws.map fun q => (q.1, (F q.2).vals) := by
    intro e F
    unfold Call.keywords
    rw [List.map_append, List.map_append, ← List.append_nil (e.kws.map Prod.fst), List.zip_append (by simp), List.zip_nil_left, List.append_nil,
      List.map_map, List.map_map, List.zip_map']
    rfl
  have hlook : (fun name => ((params.zip c.args ++ c.kws).lookup name).map fun o => (adj (flags d.args ++ flags d.keywords) o).vals) =
      fun name => ((params.zip d.args ++ d.kws).lookup name).map fun o => (adj (flags d.args ++ flags d.keywords) o).vals := by
    funext name
    congr 1
    apply Option.ext
    intro o
    rw [lookup_iff (accepted_names hc), lookup_iff (accepted_names hd), ← gets_iff, ← gets_iff]
    exact hs.1 name o
  have hrule : p.cfs.take n = q.cfs.take n := by
    rw [pf, qf, ← List.map_take, ← List.map_take, prefix_same hd hs hc.few h1 h2]
  have hw : writes c = writes d := by
    funext o
    cases o <;> simp [writes, hmix]
  unfold wrapped
  simp only [ep, eq]
  rw [if_neg (by omega), if_neg (by omega), hrule, pa, pk, qa, qk, hzip, hzip, List.map_map, List.map_map]
  have b1 := bind_accepted hc (fun o => (adj (flags d.args ++ flags d.keywords) o).vals) g
  have b2 := bind_accepted hd (fun o => (adj (flags d.args ++ flags d.keywords) o).vals) g
  rw [hlook] at b1
  have hb := b1.trans b2.symm
  simp only [Function.comp_def, hb, pc, qc, pv, qv, hs.2, hw]

private theorem wrapped_short {a : ℝ} {n : Nat} {rule : List (Option CF) → Except Err (Option CF)} {params : List Str}
    {g : (Str → Option (List ℝ)) → Except Err (List ℝ)} {c : Call} (hm : Convertible a c) (h : c.args.length < n) :
    wrapped n rule params g c = .error .index := by
  obtain ⟨p, ep, -⟩ := prepare_adj (convertible_mix hm).1 (convertible_mix hm).2
  unfold wrapped
  simp [ep, h]

/-- C108 fails for keywords: an array given by the name of the first parameter is refused with IndexError, whatever the function, where the
same call with a positional argument gives a result. -/
theorem c108_keywords_fails {a k : ℝ} {x : Arr} (hx : Conv a k x) (name : Str) (params : List Str) (f : List ℝ → List ℝ)
    (g : (Str → Option (List ℝ)) → Except Err (List ℝ)) (hg : ∀ h v, h name = some v → g h = .ok (f v)) :
    SameCall (name :: params) ⟨[.cosmo x], [], none⟩ ⟨[], [(name, .cosmo x)], none⟩ ∧
    Accepted (name :: params) ⟨[.cosmo x], [], none⟩ ∧ Accepted (name :: params) ⟨[], [(name, .cosmo x)], none⟩ ∧
    (∃ r, wrapped 1 (reduce1 preserve2) (name :: params) g ⟨[.cosmo x], [], none⟩ = .ok r ∧ r.res.val = f x.val ∧ r.res.cf = x.cf ∧
      r.res.comoving = x.comoving) ∧
    wrapped 1 (reduce1 preserve2) (name :: params) g ⟨[], [(name, .cosmo x)], none⟩ = .error .index := by
  have hmix : ∀ o ∈ [Opd.cosmo x], Mix a o := by
    intro o ho
    rw [List.mem_singleton.mp ho]
    exact ⟨k, hx⟩
  refine ⟨⟨?_, rfl⟩, ⟨by simp, by simp, by simp⟩, ⟨by simp, by simp, by simp⟩, ?_, ?_⟩
  · intro m o
    rw [gets_iff, gets_iff]
    simp
  · obtain ⟨p, ep, pa, pk, pc, pv, pf⟩ := prepare_adj (kw := []) hmix (by simp)
    have hadj : adj (flags [Opd.cosmo x] ++ flags []) (.cosmo x) = .cosmo x := by
      unfold adj
      rw [if_neg]
      simp only [flags, List.append_nil, List.mem_singleton, not_and]
      intro e q
      rw [← e] at q
      cases q
    have hfr : p.comoving = x.comoving := by
      rw [pc]
      rcases hx.framed_cases with h | h <;> simp [frameOf, flags, h]
    simp only [List.map_cons, List.map_nil, hadj] at pa pk pf
    unfold wrapped
    simp only [Call.keywords, List.map_nil, List.nil_append, Option.toList_none, ep, pf, List.length_singleton, lt_irrefl, if_false,
      List.take_succ_cons, List.take_zero, reduce1, List.foldlM_nil, pure, Except.pure, pa, pk, List.map_cons, List.zip_nil_left, bindTo,
      List.length_cons, List.zip_cons_cons, List.append_nil]
    rw [if_neg (by simp), hg _ x.val (by simp [Opd.vals])]
    exact ⟨_, rfl, rfl, rfl, hfr⟩
  · refine wrapped_short (a := a) ?_ (by simp)
    intro y hy
    rcases hy with hy | ⟨m, hy⟩ | hy
    · cases hy
    · simp only [List.mem_singleton, Prod.mk.injEq, Opd.cosmo.injEq] at hy
      exact hy.2 ▸ ⟨k, hx⟩
    · cases hy

/-- C108 fails for keywords: of the two arrays of `np.cross`, `np.dot`, `np.isclose` and so on, the second cannot be given by its name
either. -/
theorem c108_second_fails {a : ℝ} {rule : List (Option CF) → Except Err (Option CF)} {params : List Str}
    {g : (Str → Option (List ℝ)) → Except Err (List ℝ)} {c : Call} (hm : Convertible a c) (x : Opd) (hc : c.args = [x]) :
    wrapped 2 rule params g c = .error .index := wrapped_short hm (by simp [hc])

/-- C108: an `out` that is comoving, or not comoving like all arguments, is the result afterwards; so is an array without a frame in its
numbers. -/
theorem c108_out {n : Nat} {rule : List (Option CF) → Except Err (Option CF)} {params : List Str}
    {g : (Str → Option (List ℝ)) → Except Err (List ℝ)} {c : Call} {r : Outcome} (h : wrapped n rule params g c = .ok r) :
    (c.out = none → r.out = none) ∧ (∀ w, c.out = some (.plain w) → r.out = some (.plain r.res.val)) ∧
    ∀ o, c.out = some (.cosmo o) →
      (o.comoving = some true ∨ ∀ x, Opd.cosmo x ∈ c.args ∨ (∃ name, (name, Opd.cosmo x) ∈ c.kws) → x.comoving ≠ some true) →
      r.out = some (.cosmo r.res) := by
  unfold wrapped at h
  split at h
  · cases h
  · split at h
    · cases h
    · split at h
      · cases h
      · split at h
        · cases h
        · split at h
          · cases h
          · simp only [Except.ok.injEq] at h
            subst h
            refine ⟨fun e => by simp [e], fun w e => by simp [e, afterwards], ?_⟩
            intro o ho hor
            have hw : writes c (.cosmo o) = true := by
              unfold writes
              by_cases hoc : o.comoving = some true
              · simp [hoc]
              · have hnt := hor.resolve_left hoc
                have : mixed c = false := by
                  rw [Bool.eq_false_iff, ne_eq, mixed_iff]
                  rintro ⟨ht, -⟩
                  rw [List.mem_append, mem_flags, mem_flags] at ht
                  rcases ht with ⟨x, hx, e⟩ | ⟨x, hx, e⟩
                  · exact hnt x (.inl hx) e
                  · simp only [Call.keywords, List.mem_append, List.mem_map, Option.mem_toList, ho, Option.some.injEq, Opd.cosmo.injEq] at hx
                    rcases hx with ⟨⟨m, q⟩, hq, rfl⟩ | hx
                    · exact hnt x (.inr ⟨m, hq⟩) e
                    · exact hoc (hx ▸ e)
                simp [this]
            simp [ho, afterwards, hw]

/-- C108 fails for `out`: a physical array given as `out` of a function of a comoving array keeps its numbers, and is labelled comoving with
the factor of the result. -/
theorem c108_out_fails {a k m : ℝ} (ha : 0 < a) (v w : List ℝ) (name : Str) (params : List Str)
    (g : (Str → Option (List ℝ)) → Except Err (List ℝ)) (f : List ℝ → List ℝ) (hg : ∀ h v, h name = some v → g h = .ok (f v))
    (hw : w.length = (f v).length) :
    wrapped 1 (reduce1 preserve2) (name :: params) g ⟨[.cosmo ⟨v, some true, some ⟨some k, some a⟩, true⟩], [],
        some (.cosmo ⟨w, some false, some ⟨some m, some a⟩, true⟩)⟩ =
      .ok ⟨⟨f v, some true, some ⟨some k, some a⟩, true⟩, some (.cosmo ⟨w, some true, some ⟨some k, some a⟩, true⟩)⟩ := by
  have hp : a ^ m ≠ 0 := (Real.rpow_pos_of_pos ha m).ne'
  have hgv := hg (fun n => ((name :: params).zip [v] ++ []).lookup n) v (by simp)
  simp only [List.zip_cons_cons, List.zip_nil_right, List.append_nil] at hgv
  simp [wrapped, Call.keywords, prepare, flags, anyFixed, allToComoving, Arr.toComoving, Arr.convertToComoving, Arr.factor, CF.aFactor, Except.map,
    Opd.cf, Opd.vt, Opd.vals, reduce1, pure, Except.pure, bindTo, hgv, hw, writes, mixed, afterwards]

/-- C108 for `out` of `np.concatenate` and its relatives. An array of another size is refused. An array of the size of the result gets its
numbers and keeps its own attributes, and so is the result if it has the frame and the factor of the result. -/
theorem c108_join_out {a k : ℝ} {l : List Arr} (hne : l ≠ []) (h : ∀ x ∈ l, Conv a k x) (out : Opd) :
    (out.vals.length ≠ ((l.map Arr.val).map List.length).sum → joinOut (l.map .cosmo) out = .error .value) ∧
    (out.vals.length = ((l.map Arr.val).map List.length).sum → ∃ z o, joinOut (l.map .cosmo) out = .ok ⟨z, some o⟩ ∧ Conv a k z ∧
      z.phys = (l.map Arr.phys).flatten ∧ o.vals = z.val ∧ (∀ v, out = .plain v → o = .plain z.val) ∧
      ∀ x, out = .cosmo x → ∃ y, o = .cosmo y ∧ y.comoving = x.comoving ∧ y.cf = x.cf ∧ y.vt = x.vt ∧
        (x.comoving = z.comoving → x.cf = z.cf → y.phys = (l.map Arr.phys).flatten)) := by
  obtain ⟨z, e, hz, hp⟩ := c29_concatenate hne h
  have hl : z.val.length = ((l.map Arr.val).map List.length).sum := by
    rw [← Memory.phys_length, hp, List.length_flatten, List.map_map, List.map_map]
    congr 1
    apply List.map_congr_left
    intro x _
    exact Memory.phys_length x
  unfold joinOut
  rw [e]
  dsimp only
  rw [hl]
  refine ⟨fun hn => if_neg hn, fun hy => ?_⟩
  rw [if_pos hy]
  refine ⟨z, _, rfl, hz, hp, ?_, ?_, ?_⟩
  · cases out <;> rfl
  · rintro v rfl
    rfl
  · rintro x rfl
    refine ⟨{ x with val := z.val }, rfl, rfl, rfl, rfl, fun h1 h2 => ?_⟩
    rw [← hp]
    unfold Arr.phys
    simp only [h1, h2]

example : ∃ z o, joinOut [.cosmo lengths, .cosmo radius] (.plain (List.replicate (lengths.val.length + radius.val.length) 0)) = .ok ⟨z, some o⟩ ∧
    z.phys = lengths.phys ++ radius.phys ∧ o.vals = z.val := by
  obtain ⟨z, o, e, -, h1, h2, -⟩ := (c108_join_out (a := 1 / 2) (k := 1) (l := [lengths, radius]) (by simp) (by
    intro x hx
    simp only [List.mem_cons, List.not_mem_nil, or_false] at hx
    rcases hx with rfl | rfl
    · exact lengths_conv
    · exact radius_conv) (.plain (List.replicate (lengths.val.length + radius.val.length) 0))).2 (by simp [Opd.vals])
  exact ⟨z, o, e, by simpa using h1, h2⟩

/-- C108 fails for `out` of `np.concatenate` and its relatives: it gets the numbers, and keeps its frame and factor. -/
theorem c108_join_out_fails {a k v w : ℝ} (hv : v ≠ 0) (hk : a ^ k ≠ 1) :
    ∃ z o, joinOut [.cosmo (com a k v)] (.cosmo ⟨[w], some false, some ⟨some k, some a⟩, true⟩) = .ok ⟨z, some (.cosmo o)⟩ ∧
      z.phys = [v * a ^ k] ∧ o.phys = [v] ∧ o.phys ≠ z.phys := by
  refine ⟨com a k v, ⟨[v], some false, some ⟨some k, some a⟩, true⟩, ?_, by simp [Arr.phys, com], by simp [Arr.phys], ?_⟩
  · simp [joinOut, oplist, prepare, flags, com, Opd.cf, Opd.vt, Opd.vals, reduce1, pure, Except.pure]
  · simp only [Arr.phys, com, List.map_cons, List.map_nil, ne_eq, List.cons.injEq, and_true]
    intro q
    apply hk
    have : v * (a ^ k - 1) = 0 := by linarith
    rcases mul_eq_zero.mp this with q | q
    · exact absurd q hv
    · linarith

/-- C108 fails for arrays that cannot be converted: beside a comoving array, such a physical array is refused as a keyword and accepted as a
positional argument. -/
theorem c108_fixed_fails {a k m : ℝ} (v w : List ℝ) (first second : Str) (hne : first ≠ second)
    (g : (Str → Option (List ℝ)) → Except Err (List ℝ)) (r : List ℝ) (hg : ∀ h, h first = some v → h second = some w → g h = .ok r) :
    let x : Arr := ⟨v, some true, some ⟨some k, some a⟩, true⟩
    let y : Arr := ⟨w, some false, some ⟨some m, some a⟩, false⟩
    SameCall [first, second] ⟨[.cosmo x, .cosmo y], [], none⟩ ⟨[.cosmo x], [(second, .cosmo y)], none⟩ ∧
    wrapped 1 (reduce1 preserve2) [first, second] g ⟨[.cosmo x, .cosmo y], [], none⟩ =
      .ok ⟨⟨r, some false, some ⟨some k, some a⟩, false⟩, none⟩ ∧
    wrapped 1 (reduce1 preserve2) [first, second] g ⟨[.cosmo x], [(second, .cosmo y)], none⟩ = .error .invalidConversion := by
  intro x y
  refine ⟨⟨?_, rfl⟩, ?_, ?_⟩
  · intro m o
    rw [gets_iff, gets_iff]
    simp
  · have hg' := hg (fun n => ([first, second].zip [v, w] ++ []).lookup n) (by simp) (by simp [List.lookup_cons, hne.symm, beq_eq_false_iff_ne.mpr hne.symm])
    simp only [List.zip_cons_cons, List.zip_nil_left, List.append_nil] at hg'
    simp [x, y, wrapped, Call.keywords, prepare, flags, anyFixed, allToPhysical, Arr.toPhysical, Arr.convertToPhysical, Except.map, Opd.cf, Opd.vt,
      Opd.vals, reduce1, pure, Except.pure, bindTo, hne, hg']
  · simp [x, y, wrapped, Call.keywords, prepare, flags, anyFixed, allToComoving, Arr.toComoving, Arr.convertToComoving, Except.map]

/-- Three parameters. -/
private def three : List Str := [['a'], ['b'], ['c']]

example : Accepted three ⟨[.cosmo lengths], [(['c'], .plain [3]), (['b'], .cosmo radius)], some (.cosmo lengths)⟩ ∧
    Accepted three ⟨[.cosmo lengths, .cosmo radius], [(['c'], .plain [3])], some (.cosmo lengths)⟩ ∧
    SameCall three ⟨[.cosmo lengths], [(['c'], .plain [3]), (['b'], .cosmo radius)], some (.cosmo lengths)⟩
      ⟨[.cosmo lengths, .cosmo radius], [(['c'], .plain [3])], some (.cosmo lengths)⟩ ∧
    Convertible (1 / 2) ⟨[.cosmo lengths], [(['c'], .plain [3]), (['b'], .cosmo radius)], some (.cosmo lengths)⟩ := by
  refine ⟨⟨by simp [three], by simp [three], by simp [three]⟩, ⟨by simp [three], by simp [three], by simp [three]⟩, ⟨?_, rfl⟩, ?_⟩
  · intro m o
    rw [gets_iff, gets_iff]
    simp only [three, List.zip_cons_cons, List.zip_nil_right, List.cons_append, List.nil_append, List.mem_cons, List.not_mem_nil, or_false]
    tauto
  · intro x hx
    simp only [List.mem_cons, Opd.cosmo.injEq, List.not_mem_nil, or_false, Prod.mk.injEq, reduceCtorEq, and_false, false_or, exists_eq_left,
      Option.some.injEq] at hx
    rcases hx with rfl | rfl | rfl
    · exact ⟨1, lengths_conv⟩
    · exact ⟨1, radius_conv⟩
    · exact ⟨1, lengths_conv⟩

example : ∀ (h : Str → Option (List ℝ)) (v : List ℝ), h ['a'] = some v →
    (fun h : Str → Option (List ℝ) => match h ['a'] with | some v => Except.ok [v.sum] | none => .error Err.typeErr) h = .ok [v.sum] := by
  intro h v hv
  simp [hv]

example : ((1 / 2 : ℝ)) ^ (1 : ℝ) ≠ 1 ∧ (3 : ℝ) ≠ 0 ∧ ([7] : List ℝ).length = [([1, 2, 3] : List ℝ).sum].length := by norm_num

example : wrapped 1 (reduce1 preserve2) three (fun h => match h ['a'] with | some v => .ok [v.sum] | none => .error Err.typeErr)
    ⟨[.cosmo lengths], [], some (.cosmo (com (1 / 2) 1 5))⟩ = .ok ⟨com (1 / 2) 1 8, some (.cosmo (com (1 / 2) 1 8))⟩ := by
  have h : (2 : ℝ) + 6 = 8 := by norm_num
  simp [wrapped, Call.keywords, prepare, flags, lengths, com, Opd.cf, Opd.vt, Opd.vals, reduce1, pure, Except.pure, bindTo, three, writes, mixed,
    afterwards, List.lookup, h]

end Verif.Props
