import Verif.Props.Subset
import Mathlib.Data.List.Induction

/-!
# C116: subsets of subsets of subsets

A chain of subsets is made by writing a subset, opening it, constraining a new mask on it, writing again, and so on. The
claim says what the last file holds in terms of the first file only.
-/

namespace Verif.Props
open Verif Verif.Spec Verif.Accel Verif.Mask

variable {K : Type} [Field K] [LinearOrder K] {m : Nat}

/-- Calls that mean the same in a file and in a subset of it: regions, bounds on one of the datasets that are written, and
conversions. (Row numbers mean something else in the subset.) -/
def Portable (names : List (String × String)) : Op K → Prop
  | .spatial _ _ => True
  | .property g q _ _ => (g, q) ∈ names
  | .indices _ => False
  | .index _ => False
  | .toBool => True
  | .toRanges => True

/-- `g` is reached from `f` by writing one subset for each of the histories, each time from the file written before. -/
inductive Subsets (names : List (String × String)) : File K m → List (List (Op K)) → File K m → Prop
  | nil (f : File K m) : Subsets names f [] f
  | cons (f g : File K m) (ops : List (Op K)) (hs : List (List (Op K))) (lay : String × String → Layout) (allow : Bool)
      (out : SubsetOut K m) (writable : ∀ n ∈ names, Writable f lay n)
      (written : writeSubset f (run f ops) allow names lay = .ok out) (rest : Subsets names (reopen f out) hs g) :
      Subsets names f (ops :: hs) g

private theorem mem_pick (r1 r2 : List Int) (h : ∀ i ∈ r2, 0 ≤ i ∧ i < (r1.length : Int)) (v : Int) :
    v ∈ pick r1 r2 ↔ ∃ i : Nat, (i : Int) ∈ r2 ∧ r1[i]? = some v := by
  unfold pick
  rw [List.mem_filterMap]
  constructor
  · rintro ⟨i, hi, he⟩
    have := h i hi
    unfold valueAt at he
    rw [if_neg (by omega)] at he
    exact ⟨i.toNat, by rw [Int.toNat_of_nonneg this.1]; exact hi, he⟩
  · rintro ⟨i, hi, he⟩
    refine ⟨i, hi, ?_⟩
    unfold valueAt
    rw [if_neg (by omega)]
    simpa using he

/-- picking at positions in increasing order from an increasing list gives an increasing list -/
private theorem pick_increasing (r1 r2 : List Int) (h : ∀ i ∈ r2, 0 ≤ i ∧ i < (r1.length : Int))
    (h1 : r1.Pairwise (· < ·)) (h2 : r2.Pairwise (· < ·)) : (pick r1 r2).Pairwise (· < ·) := by
  unfold pick
  rw [List.pairwise_filterMap]
  refine h2.imp_of_mem ?_
  intro a b ha hb hab v hv w hw
  have ha' := h a ha
  have hb' := h b hb
  unfold valueAt at hv hw
  rw [if_neg (by omega)] at hv hw
  obtain ⟨l1, rfl⟩ := List.getElem?_eq_some_iff.mp hv
  obtain ⟨l2, rfl⟩ := List.getElem?_eq_some_iff.mp hw
  exact List.pairwise_iff_getElem.mp h1 _ _ l1 l2 (by omega)

private theorem pick_pick {α : Type} (vals : List α) (r1 r2 : List Int)
    (h1 : ∀ i ∈ r1, 0 ≤ i ∧ i < (vals.length : Int)) (h2 : ∀ i ∈ r2, 0 ≤ i ∧ i < (r1.length : Int)) :
    pick (pick vals r1) r2 = pick vals (pick r1 r2) := by
  have hl1 : (pick vals r1).length = r1.length := pick_length _ _ h1
  have h12 : ∀ i ∈ pick r1 r2, 0 ≤ i ∧ i < (vals.length : Int) := by
    intro i hi
    obtain ⟨j, _, he⟩ := (mem_pick r1 r2 h2 i).1 hi
    exact h1 i (List.mem_of_getElem? he)
  unfold pick
  rw [List.filterMap_filterMap]
  refine List.filterMap_congr (fun i hi => ?_)
  have hb := h2 i hi
  have e0 := congrArg (fun l => l[i.toNat]?) (pick_some vals r1 h1)
  simp only [List.getElem?_map, select] at e0
  have hlt : i.toNat < r1.length := by omega
  have hlt' : i.toNat < (pick vals r1).length := by omega
  rw [List.getElem?_eq_getElem hlt, List.getElem?_eq_getElem hlt'] at e0
  simp only [Option.map_some, Option.some.injEq] at e0
  show valueAt (pick vals r1) i = (valueAt r1 i).bind (valueAt vals)
  have e1 : valueAt (pick vals r1) i = some (pick vals r1)[i.toNat] := by
    unfold valueAt; rw [if_neg (by omega), List.getElem?_eq_getElem hlt']
  have e2 : valueAt r1 i = some r1[i.toNat] := by
    unfold valueAt; rw [if_neg (by omega), List.getElem?_eq_getElem hlt]
  rw [e1, e2, e0]
  rfl

variable [IsStrictOrderedRing K]

omit [IsStrictOrderedRing K] in
private theorem isSubset_trans (names : List (String × String)) (f f1 g : File K m) (hf : WF f)
    (r1 r2 : Fin m → List Int) (hr1 : ∀ k, ∀ i ∈ r1 k, 0 ≤ i ∧ i < (f.rows k : Int))
    (hr2 : ∀ k, ∀ i ∈ r2 k, 0 ≤ i ∧ i < ((r1 k).length : Int)) (a : IsSubset f names r1 f1) (b : IsSubset f1 names r2 g) :
    IsSubset f names (fun k => pick (r1 k) (r2 k)) g := by
  refine ⟨b.box.trans a.box, ?_, b.group.trans a.group, b.homogeneous.trans a.homogeneous, ?_,
    fun k => (b.cells_len k).trans (a.cells_len k), ?_⟩
  · intro k; rw [b.rows_eq, pick_length _ _ (hr2 k)]
  · intro n k vals hn hg hv
    have hlen := hf.fields n.1 n.2 k vals hg hv
    rw [b.fields n k _ hn (by rw [a.group]; exact hg) (a.fields n k vals hn hg hv),
      pick_pick vals (r1 k) (r2 k) (by rw [hlen]; exact hr1 k) (hr2 k)]
  · intro k j h1 h2
    have h3 : j < (f1.cells k).length := by rw [a.cells_len]; exact h2
    have c1 := b.cells k j h1 h3
    have c2 := a.cells k j h3 h2
    refine ⟨c1.1.trans c2.1, c1.2.1.trans c2.2.1, ?_⟩
    intro i v hv
    have hi' : i < (r2 k).length := by
      have := (List.getElem?_eq_some_iff.mp hv).1
      rwa [pick_length _ _ (hr2 k)] at this
    have hw' := hr2 k (r2 k)[i] (List.getElem_mem hi')
    have d1 := c1.2.2 i (r2 k)[i] (List.getElem?_eq_getElem hi')
    have e1 := congrArg (fun l => l[i]?) (pick_some (r1 k) (r2 k) (hr2 k))
    simp only [List.getElem?_map, hv, Option.map_some, select, List.getElem?_eq_getElem hi', Option.some.injEq] at e1
    unfold valueAt at e1
    rw [if_neg (by omega)] at e1
    have d2 := c2.2.2 (r2 k)[i].toNat v e1.symm
    rw [d1, ← d2]
    have : (((r2 k)[i].toNat : Nat) : Int) = (r2 k)[i] := by omega
    rw [this]

/-! ## A history means the same in a subset -/

/-- the two histories agree so far, one on the file and one on the subset -/
private structure Agree (rows : Fin m → List Int) (a b : Abs m) : Prop where
  last : b.last = a.last
  asBool : b.asBool ↔ a.asBool
  region : ∀ k (i : Nat) v, (rows k)[i]? = some v → (b.region k i ↔ a.region k v)
  sel : ∀ k (i : Nat) v, (rows k)[i]? = some v → (b.sel k i ↔ a.sel k v)

omit [IsStrictOrderedRing K] in
private theorem inRegion_iff (names : List (String × String)) (f g : File K m) (rows : Fin m → List Int)
    (h : IsSubset f names rows g) (reg : List (Option (List K))) (k : Fin m) (i : Nat) (v : Int)
    (hv : (rows k)[i]? = some v) : InRegion g reg k i ↔ InRegion f reg k v := by
  unfold InRegion
  rw [h.box]
  refine exists_congr (fun r => and_congr_right (fun _ => ?_))
  constructor
  · rintro ⟨c, hc, hh, hm⟩
    obtain ⟨j, hj, rfl⟩ := List.mem_iff_getElem.mp hc
    have hj' : j < (f.cells k).length := by rw [← h.cells_len]; exact hj
    obtain ⟨e1, e2, e3⟩ := h.cells k j hj hj'
    refine ⟨_, List.getElem_mem hj', (e3 i v hv).1 hh, ?_⟩
    unfold Meets at hm ⊢
    rwa [e1, e2] at hm
  · rintro ⟨c, hc, hh, hm⟩
    obtain ⟨j, hj, rfl⟩ := List.mem_iff_getElem.mp hc
    have hj' : j < (g.cells k).length := by rw [h.cells_len]; exact hj
    obtain ⟨e1, e2, e3⟩ := h.cells k j hj' hj
    refine ⟨_, List.getElem_mem hj', (e3 i v hv).2 hh, ?_⟩
    unfold Meets at hm ⊢
    rwa [← e1, ← e2] at hm

/-- the datasets exist in the file -/
private def Known (names : List (String × String)) (f : File K m) : Prop :=
  ∀ n ∈ names, ∃ k vals, f.group n.1 = some k ∧ f.field n.1 n.2 = some vals

omit [IsStrictOrderedRing K] in
private theorem accepts_iff (names : List (String × String)) (f g : File K m) (hk : Known names f)
    (rows : Fin m → List Int) (h : IsSubset f names rows g) (a b : Abs m) (hab : Agree rows a b) (op : Op K)
    (hop : Portable names op) : Accepts g b op ↔ Accepts f a op := by
  cases op with
  | spatial reg u => simp only [Accepts, h.box, hab.last]
  | property gr q lo hi =>
    obtain ⟨k, vals, h1, h2⟩ := hk (gr, q) hop
    have h3 := h.fields (gr, q) k vals hop h1 h2
    simp only [Accepts, h.group]
    exact ⟨fun _ => ⟨⟨k, h1⟩, vals, h2⟩, fun _ => ⟨⟨k, h1⟩, _, h3⟩⟩
  | indices l => exact absurd hop id
  | index i => exact absurd hop id
  | toBool => exact Iff.rfl
  | toRanges => exact Iff.rfl

omit [IsStrictOrderedRing K] in
private theorem agree_step (names : List (String × String)) (f g : File K m) (hf : WF f) (hk : Known names f)
    (rows : Fin m → List Int) (hr : ∀ k, ∀ i ∈ rows k, 0 ≤ i ∧ i < (f.rows k : Int)) (h : IsSubset f names rows g)
    (a b : Abs m) (hab : Agree rows a b) (op : Op K) (hop : Portable names op) :
    Agree rows (builtStep f a op) (builtStep g b op) := by
  have hacc := accepts_iff names f g hk rows h a b hab op hop
  unfold builtStep
  by_cases hy : Accepts f a op
  · rw [if_pos hy, if_pos (hacc.2 hy)]
    cases op with
    | spatial reg u =>
      have hreg : ∀ k (i : Nat) v, (rows k)[i]? = some v →
          ((InRegion g reg k i ∨ (b.last = some .spatial ∧ b.region k i)) ↔
            (InRegion f reg k v ∨ (a.last = some .spatial ∧ a.region k v))) := by
        intro k i v hv
        rw [inRegion_iff names f g rows h reg k i v hv, hab.last, hab.region k i v hv]
      refine ⟨rfl, hab.asBool, hreg, ?_⟩
      intro k i v hv
      simp only [builtApply]
      rw [hreg k i v hv, hab.asBool, hab.sel k i v hv]
    | property gr q lo hi =>
      refine ⟨rfl, Iff.rfl, hab.region, ?_⟩
      intro k i v hv
      simp only [builtApply, absApply]
      rw [hab.sel k i v hv, h.group]
      refine and_congr_right (fun _ => forall_congr' (fun hg => ?_))
      obtain ⟨k', vals, h1, h2⟩ := hk (gr, q) hop
      have hkk : k = k' := by
        have : f.group gr = some k' := h1
        rw [hg] at this; exact Option.some.inj this
      subst hkk
      have h3 := h.fields (gr, q) k vals hop h1 h2
      have hlen := hf.fields gr q k vals h1 h2
      have hval : valueAt (pick vals (rows k)) (i : Int) = valueAt vals v := by
        have e := congrArg (fun l => l[i]?) (pick_some vals (rows k) (by rw [hlen]; exact hr k))
        simp only [List.getElem?_map, select, hv, Option.map_some] at e
        unfold valueAt
        rw [if_neg (by omega), Int.toNat_natCast]
        cases hp : (pick vals (rows k))[i]? with
        | none => rw [hp] at e; simp at e
        | some w =>
          rw [hp] at e
          simp only [Option.map_some, Option.some.injEq] at e
          rw [e]; rfl
      dsimp only at h2 h3
      constructor
      · rintro ⟨vs, w, e1, e2, e3⟩
        rw [h3] at e1
        obtain rfl := Option.some.inj e1
        exact ⟨vals, w, h2, by rw [← hval]; exact e2, e3⟩
      · rintro ⟨vs, w, e1, e2, e3⟩
        rw [h2] at e1
        obtain rfl := Option.some.inj e1
        exact ⟨_, w, h3, by rw [hval]; exact e2, e3⟩
    | indices l => exact absurd hop id
    | index i => exact absurd hop id
    | toBool => exact ⟨hab.last, Iff.rfl, hab.region, hab.sel⟩
    | toRanges => exact ⟨hab.last, Iff.rfl, hab.region, hab.sel⟩
  · rw [if_neg hy, if_neg (fun e => hy (hacc.1 e))]
    cases op with
    | property gr q lo hi => exact ⟨hab.last, Iff.rfl, hab.region, hab.sel⟩
    | spatial reg u => exact hab
    | indices l => exact hab
    | index i => exact hab
    | toBool => exact hab
    | toRanges => exact hab

omit [IsStrictOrderedRing K] in
private theorem agree_run (names : List (String × String)) (f g : File K m) (hf : WF f) (hk : Known names f)
    (rows : Fin m → List Int) (hr : ∀ k, ∀ i ∈ rows k, 0 ≤ i ∧ i < (f.rows k : Int)) (h : IsSubset f names rows g)
    (ops : List (Op K)) (hops : ∀ op ∈ ops, Portable names op) : Agree rows (builtRun f ops) (builtRun g ops) := by
  have h0 : Agree rows (absInit f) (absInit g) := by
    have hin : ∀ k (i : Nat) v, (rows k)[i]? = some v → ((0 ≤ (i : Int) ∧ (i : Int) < g.rows k) ↔ (0 ≤ v ∧ v < f.rows k)) := by
      intro k i v hv
      have h1 := hr k v (List.mem_of_getElem? hv)
      have h2 := (List.getElem?_eq_some_iff.mp hv).1
      have h3 := h.rows_eq k
      constructor
      · intro _; exact h1
      · intro _; omega
    exact ⟨rfl, Iff.rfl, hin, hin⟩
  unfold builtRun
  generalize absInit f = a at h0 ⊢
  generalize absInit g = b at h0 ⊢
  induction ops generalizing a b with
  | nil => exact h0
  | cons op ops ih =>
    exact ih (fun o ho => hops o (by simp [ho])) _ _
      (agree_step names f g hf hk rows hr h a b h0 op (hops op (by simp)))

omit [Field K] [LinearOrder K] [IsStrictOrderedRing K] in
private theorem portable_ok (names : List (String × String)) [Field K] [LinearOrder K] (f : File K m) (ops : List (Op K))
    (h : ∀ op ∈ ops, Portable names op) : ∀ op ∈ ops, IndicesOk f op := by
  intro op hop
  have := h op hop
  cases op with
  | indices l => exact absurd this id
  | index i => exact absurd this id
  | spatial _ _ => trivial
  | property _ _ _ _ => trivial
  | toBool => trivial
  | toRanges => trivial

/-- C116. A history of regions and bounds on written datasets selects in a subset exactly the rows that it selects in the
original file. -/
theorem c116_transport (names : List (String × String)) (f g : File K m) (hf : WF f) (hg : WF g)
    (lay : String × String → Layout) (hw : ∀ n ∈ names, Writable f lay n)
    (rows : Fin m → List Int) (hr : ∀ k, ∀ i ∈ rows k, 0 ≤ i ∧ i < (f.rows k : Int)) (h : IsSubset f names rows g)
    (ops : List (Op K)) (hops : ∀ op ∈ ops, Portable names op) (k : Fin m) (i : Nat) (v : Int)
    (hv : (rows k)[i]? = some v) : Selects (run g ops) k i ↔ Selects (run f ops) k v := by
  have hk : Known names f := by
    intro n hn
    obtain ⟨⟨k, vals, h1, h2, _⟩, _⟩ := hw n hn
    exact ⟨k, vals, h1, h2⟩
  rw [c09_history_as_built g hg ops (portable_ok names g ops hops), c09_history_as_built f hf ops (portable_ok names f ops hops)]
  exact (agree_run names f g hf hk rows hr h ops hops).sel k i v hv

/-! ## Chains -/

omit [IsStrictOrderedRing K] in
private theorem built_last (names : List (String × String)) (f : File K m) (ops : List (Op K))
    (hops : ∀ op ∈ ops, Portable names op) :
    (builtRun f ops).last ≠ some .indices ∧ (builtRun f ops).last ≠ some .index := by
  have h0 : (absInit f).last ≠ some .indices ∧ (absInit f).last ≠ some .index := by simp [absInit]
  unfold builtRun
  generalize absInit f = a at h0 ⊢
  induction ops generalizing a with
  | nil => exact h0
  | cons op ops ih =>
    refine ih (fun o ho => hops o (by simp [ho])) _ ?_
    have := hops op (by simp)
    unfold builtStep
    by_cases hy : Accepts f a op
    · rw [if_pos hy]
      cases op with
      | indices l => exact absurd this id
      | index i => exact absurd this id
      | spatial _ _ => simp [builtApply]
      | property _ _ _ _ => simp [builtApply, absApply]
      | toBool => exact h0
      | toRanges => exact h0
    · rw [if_neg hy]
      cases op <;> exact h0

/-- one link -/
private theorem link (names : List (String × String)) (f : File K m) (hf : WF f) (hc : ∀ k, f.cells k ≠ [])
    (ops : List (Op K)) (hops : ∀ op ∈ ops, Portable names op) (lay : String × String → Layout) (allow : Bool)
    (out : SubsetOut K m) (hw : ∀ n ∈ names, Writable f lay n)
    (ho : writeSubset f (run f ops) allow names lay = .ok out) :
    ∃ rows : Fin m → List Int, (∀ k, ∀ i ∈ rows k, 0 ≤ i ∧ i < (f.rows k : Int)) ∧ IsSubset f names rows (reopen f out) ∧
      WF (reopen f out) ∧ (∀ k, (reopen f out).cells k ≠ []) ∧ (∀ k, (rows k).Pairwise (· < ·)) ∧
      (∀ k i, i ∈ rows k ↔ Selects (run f ops) k i) ∧ ∀ n, n ∉ names → (reopen f out).field n.1 n.2 = none := by
  have hi := portable_ok names f ops hops
  obtain ⟨out', rows, a1, a2, a3, a4, a5, a6, a7, a8, a9⟩ := reopen_isSubset f hf hc ops hi names lay hw
  have hout : out' = out := by
    unfold writeSubset at ho
    split at ho
    · cases ho
    · rw [a1] at ho; exact Except.ok.inj ho
  subst hout
  have hrow : ∀ k, (rows k).Pairwise (· < ·) ∧ ∀ i, i ∈ rows k ↔ Selects (run f ops) k i := by
    intro k
    obtain ⟨rs, b1, b2, b3, b4, b5, b6⟩ := c07_masked_read f hf ops hi k (rowNumbers (f.rows k)) (by simp [rowNumbers])
      .contiguous (by simp) (by simp)
    have hl : LoadsRows f (run f ops) k rs := by
      unfold LoadsRows
      rw [b1, select_rowNumbers _ _ (by simpa [rowNumbers] using b5)]
    obtain rfl := loadsRows_unique f _ k _ _ (a2 k) hl
    have hl' := built_last names f ops hops
    rw [← (inv_run f hf ops hi).last] at hl'
    exact ⟨b6 hl'.1 hl'.2, b3⟩
  refine ⟨rows, a3, a4, a5, a6, fun k => (hrow k).1, fun k => (hrow k).2, fun n hn => ?_⟩
  show (out'.data.lookup (n.1, n.2)).map _ = none
  rw [a9 (n.1, n.2) hn]; rfl

omit [IsStrictOrderedRing K] in
private theorem isSubset_refl (names : List (String × String)) (f : File K m) (hf : WF f) :
    IsSubset f names (fun k => rowNumbers (f.rows k)) f := by
  refine ⟨rfl, fun k => by simp [rowNumbers], rfl, rfl, ?_, fun k => rfl, ?_⟩
  · intro n k vals _ hg hv
    have hlen := hf.fields n.1 n.2 k vals hg hv
    rw [hv]
    congr 1
    apply List.map_injective_iff.mpr (Option.some_injective _)
    rw [pick_some vals _ (by
      intro i hi
      obtain ⟨j, hj, rfl⟩ := List.mem_map.mp hi
      have := List.mem_range.mp hj
      omega)]
    apply List.ext_getElem
    · simp [select, rowNumbers, hlen]
    · intro j h1 h2
      have h3 : j < vals.length := by simpa using h1
      simp [select, rowNumbers, valueAt, h3]
  · intro k j h1 h2
    refine ⟨rfl, rfl, fun i v hv => ?_⟩
    have : v = (i : Int) := by
      unfold rowNumbers at hv
      obtain ⟨hl, rfl⟩ := List.getElem?_eq_some_iff.mp hv
      simp
    rw [this]

/-- C116. The last file of a chain of subsets holds, in the original order, exactly the rows of the first file that every
one of the masks would select there; the cells keep their place and each holds what comes from the same original cell. -/
theorem c116_chain (names : List (String × String)) (f g : File K m) (hf : WF f) (hc : ∀ k, f.cells k ≠ [])
    (hs : List (List (Op K))) (hops : ∀ ops ∈ hs, ∀ op ∈ ops, Portable names op) (h : Subsets names f hs g) :
    ∃ rows : Fin m → List Int, (∀ k, (rows k).Pairwise (· < ·)) ∧
      (∀ k i, i ∈ rows k ↔ (0 ≤ i ∧ i < (f.rows k : Int)) ∧ ∀ ops ∈ hs, Selects (run f ops) k i) ∧ WF g ∧
      IsSubset f names rows g ∧ (hs ≠ [] → ∀ n, n ∉ names → g.field n.1 n.2 = none) := by
  induction h with
  | nil f =>
    refine ⟨fun k => rowNumbers (f.rows k), ?_, ?_, hf, isSubset_refl names f hf, fun h => absurd rfl h⟩
    · intro k
      unfold rowNumbers
      exact List.Pairwise.map _ (fun a b h => by exact_mod_cast h) List.pairwise_lt_range
    · intro k i
      unfold rowNumbers
      rw [List.mem_map]
      constructor
      · rintro ⟨j, hj, rfl⟩
        have := List.mem_range.mp hj
        exact ⟨⟨by omega, by omega⟩, by simp⟩
      · rintro ⟨⟨h0, h1⟩, _⟩
        exact ⟨i.toNat, List.mem_range.mpr (by omega), by omega⟩
  | cons f g ops hs lay allow out hw ho hrest ih =>
    obtain ⟨r1, a1, a2, a3, a4, a5, a6, a7⟩ := link names f hf hc ops (hops ops (by simp)) lay allow out hw ho
    obtain ⟨r2, b1, b2, b3, b4, b5⟩ := ih a3 a4 (fun o ho' => hops o (by simp [ho']))
    have hr2 : ∀ k, ∀ i ∈ r2 k, 0 ≤ i ∧ i < ((r1 k).length : Int) := by
      intro k i hi
      have := ((b2 k i).1 hi).1
      rwa [a2.rows_eq] at this
    have htr : ∀ k (i : Nat) v, (r1 k)[i]? = some v → ∀ o ∈ hs, (Selects (run (reopen f out) o) k i ↔ Selects (run f o) k v) :=
      fun k i v hv o ho' =>
        c116_transport names f (reopen f out) hf a3 lay hw r1 a1 a2 o (hops o (by simp [ho'])) k i v hv
    refine ⟨fun k => pick (r1 k) (r2 k), fun k => pick_increasing _ _ (hr2 k) (a5 k) (b1 k), ?_, b3,
      isSubset_trans names f _ g hf r1 r2 a1 hr2 a2 b4, ?_⟩
    · intro k v
      rw [mem_pick _ _ (hr2 k)]
      constructor
      · rintro ⟨i, hi, hv⟩
        have hm := List.mem_of_getElem? hv
        refine ⟨a1 k v hm, fun o ho' => ?_⟩
        rcases List.mem_cons.mp ho' with rfl | ho'
        · exact (a6 k v).1 hm
        · exact (htr k i v hv o ho').1 (((b2 k i).1 hi).2 o ho')
      · rintro ⟨_, hall⟩
        have hm := (a6 k v).2 (hall ops (by simp))
        obtain ⟨i, hi, hv⟩ := List.mem_iff_getElem.mp hm
        have hv' : (r1 k)[i]? = some v := by rw [List.getElem?_eq_getElem hi, hv]
        refine ⟨i, (b2 k i).2 ⟨⟨by omega, by rw [a2.rows_eq]; omega⟩, fun o ho' => ?_⟩, hv'⟩
        exact (htr k i v hv' o ho').2 (hall o (by simp [ho']))
    · intro _ n hn
      cases hrest with
      | nil => exact a7 n hn
      | cons => exact b5 (by simp) n hn

private theorem table_unique (l1 l2 : List (Int × Int)) : ∀ (start stop : Int), Contiguous start stop l1 → Contiguous start stop l2 →
    l1.length = l2.length → (∀ j (h1 : j < l1.length) (h2 : j < l2.length) i, start ≤ i → i < stop →
      ((l1[j].1 ≤ i ∧ i < l1[j].1 + l1[j].2) ↔ (l2[j].1 ≤ i ∧ i < l2[j].1 + l2[j].2))) → l1 = l2 := by
  have hle : ∀ (l : List (Int × Int)) (start stop : Int), Contiguous start stop l → start ≤ stop := by
    intro l
    induction l with
    | nil => intro start stop h; exact le_of_eq h
    | cons c l ih => intro start stop h; have := ih _ _ h.2.2; have := h.2.1; omega
  induction l1 generalizing l2 with
  | nil => intro start stop _ _ hl _; exact (List.eq_nil_of_length_eq_zero hl.symm).symm
  | cons c1 l1 ih =>
    intro start stop h1 h2 hl hh
    cases l2 with
    | nil => simp at hl
    | cons c2 l2 =>
      obtain ⟨e1, n1, t1⟩ := h1
      obtain ⟨e2, n2, t2⟩ := h2
      have s1 := hle _ _ _ t1
      have s2 := hle _ _ _ t2
      have hc : c1.2 = c2.2 := by
        have h0 := hh 0 (by simp) (by simp)
        simp only [List.getElem_cons_zero] at h0
        rcases lt_trichotomy c1.2 c2.2 with hlt | heq | hgt
        · have := (h0 (start + c1.2) (by omega) (by omega)).2 ⟨by omega, by omega⟩
          omega
        · exact heq
        · have := (h0 (start + c2.2) (by omega) (by omega)).1 ⟨by omega, by omega⟩
          omega
      have : c1 = c2 := Prod.ext (e1.trans e2.symm) hc
      subst this
      congr 1
      refine ih l2 _ _ t1 t2 (by simpa using hl) (fun j h1 h2 i hi1 hi2 => ?_)
      have := hh (j + 1) (by simp [h1]) (by simp [h2]) i (by omega) hi2
      simpa using this

/-- C116. Two chains of subsets that use the same masks, in whatever order and however often, end in the same file. -/
theorem c116_same_file (names : List (String × String)) (f g1 g2 : File K m) (hf : WF f) (hc : ∀ k, f.cells k ≠ [])
    (hs1 hs2 : List (List (Op K))) (h1 : ∀ ops ∈ hs1, ∀ op ∈ ops, Portable names op)
    (h2 : ∀ ops ∈ hs2, ∀ op ∈ ops, Portable names op) (hne1 : hs1 ≠ []) (hne2 : hs2 ≠ [])
    (hsame : ∀ k i, (∀ ops ∈ hs1, Selects (run f ops) k i) ↔ ∀ ops ∈ hs2, Selects (run f ops) k i)
    (c1 : Subsets names f hs1 g1) (c2 : Subsets names f hs2 g2) : g1 = g2 := by
  obtain ⟨r1, a1, a2, a3, a4, a5⟩ := c116_chain names f g1 hf hc hs1 h1 c1
  obtain ⟨r2, b1, b2, b3, b4, b5⟩ := c116_chain names f g2 hf hc hs2 h2 c2
  have hk : Known names f := by
    intro n hn
    cases c1 with
    | nil => exact absurd rfl hne1
    | cons _ _ _ _ lay _ _ hw _ _ =>
      obtain ⟨⟨k, vals, e1, e2, _⟩, _⟩ := hw n hn
      exact ⟨k, vals, e1, e2⟩
  have hrr : r1 = r2 := by
    funext k
    refine List.Perm.eq_of_pairwise (le := (· < ·)) (fun a b _ _ h h' => absurd (lt_trans h h') (lt_irrefl _)) (a1 k) (b1 k) ?_
    refine (List.perm_ext_iff_of_nodup ((a1 k).imp (fun h => ne_of_lt h)) ((b1 k).imp (fun h => ne_of_lt h))).2 (fun i => ?_)
    rw [a2, b2, hsame]
  subst hrr
  have hrows : g1.rows = g2.rows := by
    funext k; rw [a4.rows_eq, b4.rows_eq]
  have hcells : g1.cells = g2.cells := by
    funext k
    have hlen : (g1.cells k).length = (g2.cells k).length := by rw [a4.cells_len, b4.cells_len]
    have htab : table (g1.cells k) = table (g2.cells k) := by
      have t1 := a3.contiguous k
      have t2 := b3.contiguous k
      rw [← hrows] at t2
      refine table_unique _ _ 0 _ t1 t2 (by simp [table, hlen]) ?_
      intro j j1 j2 i hi0 hi1
      have j1' : j < (g1.cells k).length := by simpa [table] using j1
      have j2' : j < (g2.cells k).length := by simpa [table] using j2
      have j3 : j < (f.cells k).length := by rw [← a4.cells_len]; exact j1'
      have hi : i.toNat < (r1 k).length := by have := a4.rows_eq k; omega
      have x1 := (a4.cells k j j1' j3).2.2 i.toNat _ (List.getElem?_eq_getElem hi)
      have x2 := (b4.cells k j j2' j3).2.2 i.toNat _ (List.getElem?_eq_getElem hi)
      have := x1.trans x2.symm
      rw [Int.toNat_of_nonneg hi0] at this
      simpa [table, Holds] using this
    apply List.ext_getElem hlen
    intro j j1 j2
    have j3 : j < (f.cells k).length := by rw [← a4.cells_len]; exact j1
    have x1 := a4.cells k j j1 j3
    have x2 := b4.cells k j j2 j3
    have x3 := congrArg (fun l => l[j]?) htab
    simp only [table, List.getElem?_map, List.getElem?_eq_getElem j1, List.getElem?_eq_getElem j2, Option.map_some,
      Option.some.injEq, Prod.mk.injEq] at x3
    have hlo := x1.1.trans x2.1.symm
    have hhi := x1.2.1.trans x2.2.1.symm
    generalize (g1.cells k)[j] = u at *
    generalize (g2.cells k)[j] = w at *
    cases u; cases w
    simp only at hlo hhi x3
    rw [hlo, hhi, x3.1, x3.2]
  have hfield : g1.field = g2.field := by
    funext g q
    by_cases hn : (g, q) ∈ names
    · obtain ⟨k, vals, e1, e2⟩ := hk _ hn
      have y1 := a4.fields _ k vals hn e1 e2
      have y2 := b4.fields _ k vals hn e1 e2
      exact y1.trans y2.symm
    · have y1 := a5 hne1 (g, q) hn
      have y2 := b5 hne2 (g, q) hn
      exact y1.trans y2.symm
  have hbox := a4.box.trans b4.box.symm
  have hhom := a4.homogeneous.trans b4.homogeneous.symm
  have hgrp := a4.group.trans b4.group.symm
  cases g1; cases g2
  simp only at hrows hcells hfield hbox hhom hgrp
  subst hrows; subst hcells; subst hfield; subst hbox; subst hhom; subst hgrp
  rfl

/-- C116. The order of the subsets does not matter, and writing the same subset again changes nothing. -/
theorem c116_order (names : List (String × String)) (f g1 g2 : File K m) (hf : WF f) (hc : ∀ k, f.cells k ≠ [])
    (hs1 hs2 : List (List (Op K))) (h1 : ∀ ops ∈ hs1, ∀ op ∈ ops, Portable names op) (hne : hs1 ≠ [])
    (hsame : ∀ ops, ops ∈ hs1 ↔ ops ∈ hs2) (c1 : Subsets names f hs1 g1) (c2 : Subsets names f hs2 g2) : g1 = g2 := by
  refine c116_same_file names f g1 g2 hf hc hs1 hs2 h1 (fun o ho => h1 o ((hsame o).2 ho)) hne ?_ ?_ c1 c2
  · rintro rfl
    obtain ⟨o, ho⟩ := List.exists_mem_of_ne_nil _ hne
    exact absurd ((hsame o).1 ho) (by simp)
  · intro k i
    exact ⟨fun h o ho => h o ((hsame o).2 ho), fun h o ho => h o ((hsame o).1 ho)⟩

/-- C116. Bounds put on a subset give the file that one mask with the bounds after the other calls gives. -/
theorem c116_one_mask (names : List (String × String)) (f g1 g2 : File K m) (hf : WF f) (hc : ∀ k, f.cells k ≠ [])
    (ops bounds : List (Op K)) (h1 : ∀ op ∈ ops, Portable names op) (h2 : ∀ op ∈ bounds, Portable names op)
    (hb : ∀ op ∈ bounds, ∃ g q lo hi, op = .property g q lo hi)
    (c1 : Subsets names f [ops, bounds] g1) (c2 : Subsets names f [ops ++ bounds] g2) : g1 = g2 := by
  have hk : Known names f := by
    intro n hn
    cases c1 with
    | cons _ _ _ _ lay _ _ hw _ _ =>
      obtain ⟨⟨k, vals, e1, e2, _⟩, _⟩ := hw n hn
      exact ⟨k, vals, e1, e2⟩
  have h12 : ∀ op ∈ ops ++ bounds, Portable names op := by
    intro op ho
    rcases List.mem_append.mp ho with h | h
    · exact h1 op h
    · exact h2 op h
  refine c116_same_file names f g1 g2 hf hc _ _ ?_ ?_ (by simp) (by simp) ?_ c1 c2
  · intro o ho
    simp at ho
    rcases ho with rfl | rfl
    · exact h1
    · exact h2
  · intro o ho
    simp at ho
    subst ho
    exact h12
  · intro k i
    simp only [List.mem_cons, List.not_mem_nil, or_false, forall_eq_or_imp, forall_eq]
    have hsub : ∀ k i, Selects (run f ops) k i → 0 ≤ i ∧ i < (f.rows k : Int) := by
      intro k i h
      rw [c09_history_as_built f hf ops (portable_ok names f ops h1)] at h
      exact (inv_run f hf ops (portable_ok names f ops h1)).bnd k i h
    clear c1 c2 h12
    induction bounds using List.reverseRecOn with
    | nil =>
      rw [List.append_nil]
      refine ⟨fun h => h.1, fun h => ⟨h, ?_⟩⟩
      rw [c09_history_as_built f hf [] (by simp)]
      exact hsub k i h
    | append_singleton bs op ih =>
      obtain ⟨g, q, lo, hi, rfl⟩ := hb op (by simp)
      obtain ⟨k', vals, e1, e2⟩ := hk (g, q) (h2 (.property g q lo hi) (by simp))
      have ih' := ih (fun o ho => h2 o (by simp [ho])) (fun o ho => hb o (by simp [ho]))
      have hp : ∀ op ∈ bs, Portable names op := fun o ho => h2 o (by simp [ho])
      have hp' : ∀ op ∈ ops ++ bs, Portable names op := by
        intro op ho
        rcases List.mem_append.mp ho with h | h
        · exact h1 op h
        · exact hp op h
      rw [← List.append_assoc, c11_exact f hf (ops ++ bs) (portable_ok names f _ hp') g q lo hi k' vals e1 e2,
        c11_exact f hf bs (portable_ok names f _ hp) g q lo hi k' vals e1 e2]
      constructor
      · rintro ⟨x, y, z⟩; exact ⟨ih'.1 ⟨x, y⟩, z⟩
      · rintro ⟨x, z⟩; exact ⟨(ih'.2 x).1, (ih'.2 x).2, z⟩

/-! ## Examples -/

private def exNames : List (String × String) := [("gas", "masses"), ("stars", "masses")]

private theorem exFile_writable : ∀ n ∈ exNames, Writable exFile (fun _ => .contiguous) n := by
  intro n hn
  simp only [exNames, List.mem_cons, List.not_mem_nil, or_false] at hn
  rcases hn with rfl | rfl
  · exact ⟨⟨0, [1, 2, 3, 4, 5, 6], by simp [exFile], by simp [exFile], by simp⟩, by simp, by simp⟩
  · exact ⟨⟨1, [1, 2, 3], by simp [exFile], by simp [exFile], by simp⟩, by simp, by simp⟩

/-- the file after one subset -/
private def after (f : File ℚ 2) (ops : List (Op ℚ)) : Option (File ℚ 2) :=
  (writeSubset f (run f ops) false exNames (fun _ => .contiguous)).toOption.map (reopen f)

private theorem chain_one (f g : File ℚ 2) (ops : List (Op ℚ)) (hw : ∀ n ∈ exNames, Writable f (fun _ => .contiguous) n)
    (h : after f ops = some g) : Subsets exNames f [ops] g := by
  unfold after at h
  cases hs : writeSubset f (run f ops) false exNames (fun _ => .contiguous) with
  | error e => rw [hs] at h; cases h
  | ok out =>
    rw [hs] at h
    have hg : reopen f out = g := Option.some.inj h
    subst hg
    exact Subsets.cons f _ ops [] _ _ out hw hs (Subsets.nil _)

/-- what the examples look at: numbers of rows, the masses of the gas and its cells -/
private def seen (g : File ℚ 2) : (Nat × Nat) × List ℚ × List (Int × Int) :=
  ((g.rows 0, g.rows 1), (g.field "gas" "masses").getD [], table (g.cells 0))

-- a region and bounds on the masses: first the one and then the other subset, in both orders, and one mask with both
example : ((after exFile [.spatial [some [1/4, 5/2], none, none] false]).bind
    (fun g => after g [.property "gas" "masses" 1 3])).map seen =
    some ((2, 2), [2, 3], [(0, 1), (1, 1), (2, 0), (2, 0)]) := by decide +kernel
example : ((after exFile [.property "gas" "masses" 1 3]).bind
    (fun g => after g [.spatial [some [1/4, 5/2], none, none] false])).map seen =
    some ((2, 2), [2, 3], [(0, 1), (1, 1), (2, 0), (2, 0)]) := by decide +kernel
example : (after exFile [.spatial [some [1/4, 5/2], none, none] false, .property "gas" "masses" 1 3]).map seen =
    some ((2, 2), [2, 3], [(0, 1), (1, 1), (2, 0), (2, 0)]) := by decide +kernel

example : ∃ g, Subsets exNames exFile [[.spatial [some [1/4, 5/2], none, none] false]] g ∧ WF g ∧ g.rows 0 = 4 ∧
    g.field "gas" "masses" = some [1, 2, 3, 4] := by
  have h : (after exFile [.spatial [some [1/4, 5/2], none, none] false]).map (fun g => (g.rows 0, g.field "gas" "masses")) =
      some (4, some [1, 2, 3, 4]) := by decide +kernel
  cases hg : after exFile [.spatial [some [1/4, 5/2], none, none] false] with
  | none => rw [hg] at h; cases h
  | some g =>
    rw [hg] at h
    have h' := Option.some.inj h
    have hc := chain_one exFile g _ exFile_writable hg
    obtain ⟨_, _, _, hwf, _⟩ := c116_chain exNames exFile g exFile_wf (fun k => by fin_cases k <;> simp [exFile]) _
      (by simp [Portable]) hc
    exact ⟨g, hc, hwf, congrArg (·.1) h', congrArg (·.2) h'⟩

/-- both datasets are there and have rows -/
private def ready (f : File ℚ 2) : Bool :=
  decide (f.group "gas" = some 0) && decide (f.group "stars" = some 1) && !((f.field "gas" "masses").getD []).isEmpty &&
    !((f.field "stars" "masses").getD []).isEmpty

private theorem writable_of_ready (f : File ℚ 2) (h : ready f = true) :
    ∀ n ∈ exNames, Writable f (fun _ => .contiguous) n := by
  simp only [ready, Bool.and_eq_true, decide_eq_true_eq, Bool.not_eq_true', List.isEmpty_eq_false_iff] at h
  obtain ⟨⟨⟨h1, h2⟩, h3⟩, h4⟩ := h
  intro n hn
  simp only [exNames, List.mem_cons, List.not_mem_nil, or_false] at hn
  rcases hn with rfl | rfl
  · cases e : f.field "gas" "masses" with
    | none => rw [e] at h3; exact absurd rfl h3
    | some vals => rw [e] at h3; exact ⟨⟨0, vals, h1, e, h3⟩, by simp, by simp⟩
  · cases e : f.field "stars" "masses" with
    | none => rw [e] at h4; exact absurd rfl h4
    | some vals => rw [e] at h4; exact ⟨⟨1, vals, h2, e, h4⟩, by simp, by simp⟩

private theorem chain_two (ops1 ops2 : List (Op ℚ))
    (h : (((after exFile ops1).filter ready).bind (fun g => after g ops2)).isSome = true) :
    ∃ g, Subsets exNames exFile [ops1, ops2] g := by
  cases h1 : writeSubset exFile (run exFile ops1) false exNames (fun _ => .contiguous) with
  | error e => simp [after, h1, Except.toOption] at h
  | ok out =>
    have e1 : after exFile ops1 = some (reopen exFile out) := by unfold after; rw [h1]; rfl
    rw [e1] at h
    cases hr : ready (reopen exFile out) with
    | false => simp [Option.filter, hr] at h
    | true =>
      simp only [Option.filter, hr, if_true, Option.bind_some] at h
      obtain ⟨g, hg⟩ := Option.isSome_iff_exists.mp h
      exact ⟨g, Subsets.cons _ _ ops1 _ _ _ out exFile_writable h1
        (chain_one _ _ _ (writable_of_ready _ hr) hg)⟩

-- there are chains in both orders, and they end in the same file
example : ∃ g, Subsets exNames exFile [[.spatial [some [1/4, 5/2], none, none] false], [.property "gas" "masses" 1 3]] g ∧
    Subsets exNames exFile [[.property "gas" "masses" 1 3], [.spatial [some [1/4, 5/2], none, none] false]] g := by
  obtain ⟨g1, h1⟩ := chain_two [.spatial [some [1/4, 5/2], none, none] false] [.property "gas" "masses" 1 3] (by decide +kernel)
  obtain ⟨g2, h2⟩ := chain_two [.property "gas" "masses" 1 3] [.spatial [some [1/4, 5/2], none, none] false] (by decide +kernel)
  have he : g1 = g2 := c116_order exNames exFile g1 g2 exFile_wf (fun k => by fin_cases k <;> simp [exFile]) _ _
    (by simp [Portable, exNames]) (by simp) (fun o => by simp only [List.mem_cons, List.not_mem_nil, or_false]; exact or_comm)
    h1 h2
  exact ⟨g1, h1, he ▸ h2⟩

/-- C116 does not extend to row numbers, which count the rows of the file the mask is made for: after two subsets by row
numbers the file holds a row that one of the two masks does not select in the first file. -/
theorem c116_row_numbers_fails :
    ((after { exFile with homogeneous := true } [.indices [1, 2]]).bind (fun g => after g [.indices [0, 1]])).map
      (fun g => g.field "gas" "masses") = some (some [2, 3]) ∧
    rowsLoaded (run { exFile with homogeneous := true } [.indices [0, 1]]) 0 6 = .ok [some 0, some 1] := by decide +kernel

end Verif.Props
