import Verif.Spec.SelectionRows
import Verif.Props.Selections
import Verif.Props.ShapedRows
import Verif.Props.Spatial
import Mathlib.Tactic.IntervalCases

/-!
# C133: selections after reading with a mask
-/

namespace Verif.Props
open Verif Verif.Cosmo Verif.Formulas Verif.Selections Verif.Spec
open Verif.Programs (Cmp)
open Verif.Shaped (In mem_tuples values_at length_tuples)

/-! ### Conditions -/

inductive FlagRows (n : Nat) (js : List Nat) : Except Err FlagTable → Except Err FlagTable → Prop
  | error (e : Err) : FlagRows n js (.error e) (.error e)
  | ok {t t' : FlagTable} (h : t.shape = [n]) (h' : t'.shape = [js.length]) (hh : ∀ i (hi : i < js.length), t'.holds [i] ↔ t.holds [js[i]]) :
      FlagRows n js (.ok t) (.ok t')

theorem own_one {n i : Nat} (h : i < n) : own [n] [i] = [i] := by
  have : (if n = 1 then 0 else i) = i := by
    split
    · omega
    · rfl
  simp [own, this]

theorem own_nil (l : List Nat) : own [] l = [] := by simp [own]

private theorem related_one (n : Nat) (h : List Nat → List Nat → Prop) : related [n] [n] h = .ok ⟨[n], fun l => h (own [n] l) (own [n] l)⟩ := by
  have : fitted [n] [n] = [n] := by simp [fitted, lengthOf]
  rw [related, if_pos (show Fit [n] [n] from fun d => .inl rfl), this]

theorem related_left (n : Nat) (h : List Nat → List Nat → Prop) : related [n] [] h = .ok ⟨[n], fun l => h (own [n] l) (own [] l)⟩ := by
  have : fitted [n] [] = [n] := by
    simp only [fitted, lengthOf]
    simp
    exact fun h => h.symm
  rw [related, if_pos (show Fit [n] [] from fun d => .inr (.inr (by simp [lengthOf]))), this]

private theorem related_right (n : Nat) (h : List Nat → List Nat → Prop) : related [] [n] h = .ok ⟨[n], fun l => h (own [] l) (own [n] l)⟩ := by
  have : fitted [] [n] = [n] := by simp [fitted, lengthOf]
  rw [related, if_pos (show Fit [] [n] from fun d => .inr (.inl (by simp [lengthOf]))), this]

theorem flag_rows {n : Nat} {js : List Nat} (hjs : ∀ j ∈ js, j < n) {rank : Nat → Nat} {row : Nat → Bool} {vals vals' : Nat → NumberTable}
    (hv : ∀ i, TableRows n js (row i) (rank i) (vals i) (vals' i)) {c : Cond} (h : CondPerRow rank row c) :
    FlagRows n js (condMeaning vals c) (condMeaning vals' c) := by
  have hj : ∀ i (hi : i < js.length), js[i] < n := fun i hi => hjs _ (List.getElem_mem hi)
  have pair : ∀ {x x' y y' : FlagTable} (F : Prop → Prop → Prop), FlagRows n js (.ok x) (.ok x') → FlagRows n js (.ok y) (.ok y') →
      FlagRows n js (related x.shape y.shape fun l m => F (x.holds l) (y.holds m)) (related x'.shape y'.shape fun l m => F (x'.holds l) (y'.holds m)) := by
    rintro x x' y y' F ⟨⟩ ⟨⟩
    rename_i a1 a2 a3 b1 b2 b3
    rw [a1, a2, b1, b2, related_one, related_one]
    refine .ok rfl rfl fun i hi => ?_
    simp only
    rw [own_one hi, own_one (hj i hi), propext (a3 i hi), propext (b3 i hi)]
  have both : ∀ {c d : Cond} (F : Prop → Prop → Prop), FlagRows n js (condMeaning vals c) (condMeaning vals' c) →
      FlagRows n js (condMeaning vals d) (condMeaning vals' d) →
      FlagRows n js ((condMeaning vals c).bind fun x => (condMeaning vals d).bind fun y => related x.shape y.shape fun l m => F (x.holds l) (y.holds m))
        ((condMeaning vals' c).bind fun x => (condMeaning vals' d).bind fun y => related x.shape y.shape fun l m => F (x.holds l) (y.holds m)) := by
    intro c d F h1 h2
    generalize condMeaning vals c = r at h1 ⊢
    generalize condMeaning vals' c = r' at h1 ⊢
    generalize condMeaning vals d = q at h2 ⊢
    generalize condMeaning vals' d = q' at h2 ⊢
    cases h1 with
    | error e => exact .error e
    | ok a1 a2 a3 => cases h2 with
      | error e => exact .error e
      | ok b1 b2 b3 => exact pair F (.ok a1 a2 a3) (.ok b1 b2 b3)
  induction h with
  | and _ _ ih ih' => exact both And ih ih'
  | or _ _ ih ih' => exact both Or ih ih'
  | @not c _ ih =>
    simp only [condMeaning]
    generalize condMeaning vals c = r at ih ⊢
    generalize condMeaning vals' c = r' at ih ⊢
    cases ih with
    | error e => exact .error e
    | ok a1 a2 a3 => exact .ok a1 a2 fun i hi => not_congr (a3 i hi)
  | @both c s t h h' =>
    have h1 := table_rows hjs hv h
    have h2 := table_rows hjs hv h'
    simp only [condMeaning]
    generalize shapedMeaning vals s = r at h1 ⊢
    generalize shapedMeaning vals' s = r' at h1 ⊢
    generalize shapedMeaning vals t = q at h2 ⊢
    generalize shapedMeaning vals' t = q' at h2 ⊢
    cases h1 with
    | error e => exact .error e
    | ok h1 => cases h2 with
      | error e => exact .error e
      | ok h2 =>
        obtain ⟨u, a1, a2, a3, a4⟩ := h1
        obtain ⟨v, b1, b2, b3, b4⟩ := h2
        obtain rfl : u = [] := List.length_eq_zero_iff.1 (by omega)
        obtain rfl : v = [] := List.length_eq_zero_iff.1 (by omega)
        simp only [Except.bind]
        rw [a1, a2, b1, b2, related_one, related_one]
        refine .ok rfl rfl fun i hi => ?_
        simp only
        rw [own_one hi, own_one (hj i hi), a4 i hi [] .nil, b4 i hi [] .nil]
  | @left c s t h h' =>
    have h1 := table_rows hjs hv h
    have h2 := table_rows hjs hv h'
    simp only [condMeaning]
    generalize shapedMeaning vals s = r at h1 ⊢
    generalize shapedMeaning vals' s = r' at h1 ⊢
    generalize shapedMeaning vals t = q at h2 ⊢
    generalize shapedMeaning vals' t = q' at h2 ⊢
    cases h1 with
    | error e => exact .error e
    | ok h1 => cases h2 with
      | error e => exact .error e
      | ok h2 =>
        obtain ⟨u, a1, a2, a3, a4⟩ := h1
        obtain ⟨rfl, b⟩ := h2
        obtain rfl : u = [] := List.length_eq_zero_iff.1 (by omega)
        simp only [Except.bind]
        rw [a1, a2, List.length_eq_zero_iff.1 b, related_left, related_left]
        refine .ok rfl rfl fun i hi => ?_
        simp only
        rw [own_one hi, own_one (hj i hi), own_nil, own_nil, a4 i hi [] .nil]
  | @right c s t h h' =>
    have h1 := table_rows hjs hv h
    have h2 := table_rows hjs hv h'
    simp only [condMeaning]
    generalize shapedMeaning vals s = r at h1 ⊢
    generalize shapedMeaning vals' s = r' at h1 ⊢
    generalize shapedMeaning vals t = q at h2 ⊢
    generalize shapedMeaning vals' t = q' at h2 ⊢
    cases h1 with
    | error e => exact .error e
    | ok h1 => cases h2 with
      | error e => exact .error e
      | ok h2 =>
        obtain ⟨u, a1, a2, a3, a4⟩ := h2
        obtain ⟨rfl, b⟩ := h1
        obtain rfl : u = [] := List.length_eq_zero_iff.1 (by omega)
        simp only [Except.bind]
        rw [a1, a2, List.length_eq_zero_iff.1 b, related_right, related_right]
        refine .ok rfl rfl fun i hi => ?_
        simp only
        rw [own_one hi, own_one (hj i hi), own_nil, own_nil, a4 i hi [] .nil]

/-! ### Selections -/

theorem tuples_one (n : Nat) : tuples [n] = (List.range n).map fun i => [i] := by
  rw [List.map_eq_flatMap]
  simp [tuples]

private theorem range_getD (js : List Nat) : (List.range js.length).map (fun i => js.getD i 0) = js := by
  refine List.ext_getElem (by simp) fun i h1 h2 => ?_
  simp [List.getD_eq_getElem?_getD, h2]

open Classical in
/-- The rows of the selection: those of the array for which the condition holds. -/
private theorem selected_rows {n : Nat} {js : List Nat} {q : Nat} {X X' : NumberTable} (h : TableRows n js true q X X') {B B' : FlagTable}
    (h1 : B.shape = [n]) (h2 : B'.shape = [js.length]) (h3 : ∀ i (hi : i < js.length), B'.holds [i] ↔ B.holds [js[i]]) :
    ∃ T T' u, X.select B = .ok T ∧ X'.select B' = .ok T' ∧ X.shape = n :: u ∧
      T.shape = ((List.range n).filter fun i => B.holds [i]).length :: u ∧ T'.shape = (js.filter fun i => B.holds [i]).length :: u ∧
      T.values = ((List.range n).filter fun i => B.holds [i]).flatMap (fun i => (tuples u).map fun l => X.entry (i :: l)) ∧
      T'.values = (js.filter fun i => B.holds [i]).flatMap (fun i => (tuples u).map fun l => X.entry (i :: l)) := by
  obtain ⟨u, a1, a2, -, a4⟩ := h
  have s1 : B.selected = ((List.range n).filter fun i => B.holds [i]).map fun i => [i] := by
    rw [FlagTable.selected, h1, tuples_one, List.filter_map]
    rfl
  have s2 : B'.selected = ((List.range js.length).filter fun i => B.holds [js.getD i 0]).map fun i => [i] := by
    rw [FlagTable.selected, h2, tuples_one, List.filter_map]
    congr 1
    refine List.filter_congr fun i hi => ?_
    have hi' := List.mem_range.1 hi
    simp only [Function.comp, decide_eq_decide]
    rw [h3 i hi', List.getD_eq_getElem?_getD, List.getElem?_eq_getElem hi']
    rfl
  have s3 : ((List.range js.length).filter fun i => B.holds [js.getD i 0]).map (fun i => js.getD i 0) = js.filter fun i => B.holds [i] := by
    conv_rhs => rw [← range_getD js, List.filter_map]
    rfl
  have p1 : B.shape <+: X.shape := by rw [h1, a1]; exact ⟨u, rfl⟩
  have p2 : B'.shape <+: X'.shape := by rw [h2, a2]; exact ⟨u, rfl⟩
  have d1 : X.shape.drop B.shape.length = u := by rw [h1, a1]; rfl
  have d2 : X'.shape.drop B'.shape.length = u := by rw [h2, a2]; rfl
  have e1 : X.select B = .ok _ := if_pos p1
  have e2 : X'.select B' = .ok _ := if_pos p2
  refine ⟨_, _, u, e1, e2, a1, ?_, ?_, ?_, ?_⟩
  · rw [d1, s1, List.length_map]
  · simp only
    rw [d2, s2, List.length_map, ← s3, List.length_map]
  · rw [(select_values e1).2, d1, s1, List.flatMap_map]
    rfl
  · rw [(select_values e2).2, d2, s2, ← s3, List.flatMap_map, List.flatMap_map]
    refine List.flatMap_congr fun i hi => List.map_congr_left fun l hl => ?_
    have hi' := List.mem_range.1 (List.mem_filter.1 hi).1
    have := a4 i hi' l (mem_tuples.1 hl)
    rw [List.getD_eq_getElem?_getD, List.getElem?_eq_getElem hi']
    exact this

theorem rows_flat {n : Nat} {rows : List Int} (hrows : ∀ r ∈ rows, 0 ≤ r ∧ r < n) {X : NumberTable} {u s' : List Nat} {v' : List ℝ} (h1 : X.shape = n :: u)
    (h2 : s' = rows.length :: u) (h3 : v' = (rows.map Int.toNat).flatMap (fun i => (tuples u).map fun l => X.entry (i :: l))) :
    RowsOfShaped n rows X.shape X.values s' v' := by
  refine ⟨u, (List.range n).map (fun i => (tuples u).map fun l => X.entry (i :: l)),
    rows.map (fun i => (tuples u).map fun l => X.entry (i.toNat :: l)), h1, h2, ⟨by simp, ?_, ?_⟩, ⟨by simp, ?_, ?_⟩, ?_⟩
  · simp
  · rw [NumberTable.values, h1, tuples, List.map_flatMap, List.flatMap_def]
    simp only [List.map_map]
    rfl
  · simp
  · rw [h3, List.flatMap_map, List.flatMap_def]
  · rw [select, List.map_map]
    refine List.map_congr_left fun i hi => ?_
    have hr := hrows i hi
    simp only [valueAt, Function.comp]
    rw [if_neg (by omega), List.getElem?_map, List.getElem?_range (by omega)]
    rfl

private theorem of_flagged {b : List Bool} {rows : List Int} {i : Int} (h : i ∈ flagged b rows) : i ∈ rows := (List.mem_filter.1 h).1

private theorem all_nat (n : Nat) : (allRows n).map Int.toNat = List.range n := by
  rw [allRows, List.map_map]
  exact List.map_id' _

open Classical in
private theorem flagged_nat {n : Nat} {b : List Bool} {B : FlagTable} (h1 : B.shape = [n]) (hb : b = (tuples B.shape).map fun l => decide (B.holds l)) {rows : List Int}
    (hrows : ∀ r ∈ rows, 0 ≤ r ∧ r < n) : (flagged b rows).map Int.toNat = (rows.map Int.toNat).filter fun i => B.holds [i] := by
  rw [flagged, List.filter_map]
  congr 1
  refine List.filter_congr fun i hi => ?_
  have := hrows i hi
  have hv : valueAt b i = some (decide (B.holds [i.toNat])) := by
    rw [valueAt, if_neg (by omega), hb, h1, tuples_one, List.map_map, List.getElem?_map, List.getElem?_range (by omega)]
    rfl
  simp [hv]

/-- C133: a row-by-row array of some rows, cut with a row-by-row condition, has exactly those of the rows of the array of all rows for which the
condition holds in all rows, in the same order, and it is refused exactly if the cut of all rows is. -/
theorem c133_rows {a : ℝ} (ha : 0 < a) {ks : Nat → ℝ} {s s' : Selections.State} (hs : ScriptState a ks s) (hs' : ScriptState a ks s') {n : Nat} {rows : List Int}
    (hrows : ∀ r ∈ rows, 0 ≤ r ∧ r < n) {row : Nat → Bool}
    (hr : ∀ i, row i = true → RowsOfShaped n rows (s.shapes i) (s.env i).phys (s'.shapes i) (s'.env i).phys)
    (hf : ∀ i, row i = false → s'.shapes i = s.shapes i ∧ (s'.env i).phys = (s.env i).phys) {e : Shaped.Expr} {k : ℝ} {c : Cond} (h : ShapedDimension ks e k)
    (hb : ¬ ShapedBare e) (hc : CondScales ks c) {q : Nat} (he : PerRow (fun i => (s.shapes i).length) row e true q)
    (hp : CondPerRow (fun i => (s.shapes i).length) row c) :
    (∃ err, evalStep s.shapes s.env (.select e c) = .error err ∧ evalStep s'.shapes s'.env (.select e c) = .error err) ∨
    ∃ x b y y', Shaped.eval s.shapes s.env e = .ok x ∧ evalCond s.shapes s.env c = .ok b ∧ b.shape = [n] ∧ b.val.length = n ∧
      evalStep s.shapes s.env (.select e c) = .ok y ∧ evalStep s'.shapes s'.env (.select e c) = .ok y' ∧
      RowsOfShaped n (flagged b.val (allRows n)) x.shape x.val.phys y.shape y.val.phys ∧
      RowsOfShaped n (flagged b.val rows) x.shape x.val.phys y'.shape y'.val.phys := by
  have hjs : ∀ j ∈ rows.map Int.toNat, j < n := by
    intro j hj
    obtain ⟨r, hr, rfl⟩ := List.mem_map.1 hj
    have := hrows r hr
    omega
  have hv : ∀ i, TableRows n (rows.map Int.toNat) (row i) (s.shapes i).length (tableOf (s.shapes i) (s.env i).phys) (tableOf (s'.shapes i) (s'.env i).phys) := by
    intro i
    cases hi : row i with
    | true => exact table_rows_of hrows (hr i hi)
    | false => exact ⟨by rw [(hf i hi).1, (hf i hi).2], rfl⟩
  have t1 := table_rows hjs hv he
  have t2 := flag_rows hjs hv hp
  have a1 := formula_agrees ha hs.conv hs.length (.formula h)
  have a2 := cond_agrees ha hs.conv hs.length hc
  have a3 := step_agrees ha hs.conv hs.length (.select h hb hc)
  have a4 := step_agrees ha hs'.conv hs'.length (.select h hb hc)
  simp only [stepMeaning] at a3 a4
  generalize evalStep s.shapes s.env (.select e c) = Y at a3 ⊢
  generalize evalStep s'.shapes s'.env (.select e c) = Y' at a4 ⊢
  generalize Shaped.eval s.shapes s.env e = r at a1 ⊢
  generalize evalCond s.shapes s.env c = g at a2 ⊢
  generalize shapedMeaning (fun i => tableOf (s.shapes i) (s.env i).phys) e = R at t1 a1 a3
  generalize shapedMeaning (fun i => tableOf (s'.shapes i) (s'.env i).phys) e = R' at t1 a4
  generalize condMeaning (fun i => tableOf (s.shapes i) (s.env i).phys) c = G at t2 a2 a3
  generalize condMeaning (fun i => tableOf (s'.shapes i) (s'.env i).phys) c = G' at t2 a4
  cases t1 with
  | error err =>
    cases a3
    cases a4
    exact .inl ⟨err, rfl, rfl⟩
  | @ok X X' t1 => cases t2 with
    | error err =>
      cases a3
      cases a4
      exact .inl ⟨err, rfl, rfl⟩
    | @ok B B' b1 b2 b3 =>
      obtain ⟨T, T', u, e1, e2, g1, g2, g3, g4, g5⟩ := selected_rows t1 b1 b2 b3
      simp only [Except.bind] at a3 a4
      rw [e1] at a3
      rw [e2] at a4
      cases a1 with
      | @ok x _ x1 x2 _ _ => cases a2 with
        | @ok b _ c1 c2 => cases a3 with
          | @ok y _ y1 y2 _ _ => cases a4 with
            | @ok y' _ z1 z2 _ _ =>
              have hall : ∀ r ∈ allRows n, 0 ≤ r ∧ r < (n : Int) := by
                intro r hr
                obtain ⟨j, hj, rfl⟩ := List.mem_map.1 hr
                have := List.mem_range.1 hj
                exact ⟨Int.natCast_nonneg j, Int.ofNat_lt.2 this⟩
              have f1 := flagged_nat b1 c2 hall
              have f2 := flagged_nat b1 c2 hrows
              rw [all_nat] at f1
              refine .inr ⟨x, b, y, y', rfl, rfl, c1.trans b1, ?_, rfl, rfl, ?_, ?_⟩
              · rw [c2, b1, tuples_one]
                simp
              · rw [x1, x2, y1, y2]
                refine rows_flat (fun r hr => hall r (of_flagged hr)) g1 ?_ ?_
                · rw [g2, ← f1, List.length_map]
                · rw [g4, ← f1]
              · rw [x1, x2, z1, z2]
                refine rows_flat (fun r hr => hrows r (of_flagged hr)) g1 ?_ ?_
                · rw [g3, ← f2, List.length_map]
                · rw [g5, ← f2]

private theorem flatten_inj {c : Nat} : ∀ {R S : List (List ℝ)}, R.length = S.length → (∀ r ∈ R, r.length = c) → (∀ r ∈ S, r.length = c) →
    R.flatten = S.flatten → R = S
  | [], [], _, _, _, _ => rfl
  | r :: R, t :: S, hl, h1, h2, h => by
    rw [List.flatten_cons, List.flatten_cons] at h
    obtain ⟨e1, e2⟩ := List.append_inj h (by rw [h1 r (by simp), h2 t (by simp)])
    rw [e1, flatten_inj (by simpa using hl) (fun r hr => h1 r (by simp [hr])) (fun r hr => h2 r (by simp [hr])) e2]

private theorem rows_unique {n : Nat} {rows : List Int} {s t t' : List Nat} {v w w' : List ℝ} (h : RowsOfShaped n rows s v t w) (h' : RowsOfShaped n rows s v t' w') :
    t = t' ∧ w = w' := by
  obtain ⟨u, R, Q, a1, a2, a3, a4, a5⟩ := h
  obtain ⟨u', R', Q', b1, b2, b3, b4, b5⟩ := h'
  obtain rfl : u = u' := by
    rw [a1] at b1
    simpa using b1
  obtain rfl : R = R' := flatten_inj (a3.count.trans b3.count.symm) a3.width b3.width (a3.vals.symm.trans b3.vals)
  have : Q = Q' := List.map_injective_iff.2 (Option.some_injective _) (a5.trans b5.symm)
  exact ⟨a2.trans b2.symm, by rw [a4.vals, b4.vals, this]⟩

private theorem all_sorted (n : Nat) : (allRows n).Pairwise (· < ·) := by
  rw [allRows, List.pairwise_map]
  exact List.pairwise_lt_range.imp fun h => Int.ofNat_lt.2 h

private theorem sorted_ext {l l' : List Int} (h : l.Pairwise (· < ·)) (h' : l'.Pairwise (· < ·)) (hm : ∀ i, i ∈ l ↔ i ∈ l') : l = l' := by
  have n1 : l.Nodup := h.imp fun h => h.ne
  have n2 : l'.Nodup := h'.imp fun h => h.ne
  exact ((List.perm_ext_iff_of_nodup n1 n2).2 hm).eq_of_pairwise (fun a b _ _ h h' => absurd h (not_lt.2 h'.le)) h h'

/-- C133: if the rows are in increasing order and none of the rows for which the condition holds is missing, the cut of these rows is the cut of
all rows: shape, physical values and their order, or the same exception. -/
theorem c133_exact {a : ℝ} (ha : 0 < a) {ks : Nat → ℝ} {s s' : Selections.State} (hs : ScriptState a ks s) (hs' : ScriptState a ks s') {n : Nat} {rows : List Int}
    (hrows : ∀ r ∈ rows, 0 ≤ r ∧ r < n) (hsort : rows.Pairwise (· < ·)) {row : Nat → Bool}
    (hr : ∀ i, row i = true → RowsOfShaped n rows (s.shapes i) (s.env i).phys (s'.shapes i) (s'.env i).phys)
    (hf : ∀ i, row i = false → s'.shapes i = s.shapes i ∧ (s'.env i).phys = (s.env i).phys) {e : Shaped.Expr} {k : ℝ} {c : Cond} (h : ShapedDimension ks e k)
    (hb : ¬ ShapedBare e) (hc : CondScales ks c) {q : Nat} (he : PerRow (fun i => (s.shapes i).length) row e true q)
    (hp : CondPerRow (fun i => (s.shapes i).length) row c)
    (hcov : ∀ b, evalCond s.shapes s.env c = .ok b → ∀ i : Int, valueAt b.val i = some true → i ∈ rows) :
    (evalStep s'.shapes s'.env (.select e c)).map (fun y => (y.shape, y.val.phys)) =
      (evalStep s.shapes s.env (.select e c)).map (fun y => (y.shape, y.val.phys)) := by
  rcases c133_rows ha hs hs' hrows hr hf h hb hc he hp with ⟨err, e1, e2⟩ | ⟨x, b, y, y', e1, e2, e3, e4, e5, e6, e7, e8⟩
  · rw [e1, e2]
  · have : flagged b.val rows = flagged b.val (allRows n) := by
      refine sorted_ext (hsort.filter _) ((all_sorted n).filter _) fun i => ?_
      simp only [flagged, List.mem_filter, decide_eq_true_eq]
      refine ⟨fun ⟨h1, h2⟩ => ⟨?_, h2⟩, fun ⟨h1, h2⟩ => ⟨hcov b e2 i h2, h2⟩⟩
      have := hrows i h1
      exact List.mem_map.2 ⟨i.toNat, List.mem_range.2 (by omega), by simp; omega⟩
    rw [this] at e8
    obtain ⟨g1, g2⟩ := rows_unique e8 e7
    rw [e5, e6]
    simp only [Except.map, g1, g2]

/-- C133: the cut is too short if one of those rows is missing. -/
theorem c133_missing {a : ℝ} (ha : 0 < a) {ks : Nat → ℝ} {s s' : Selections.State} (hs : ScriptState a ks s) (hs' : ScriptState a ks s') {n : Nat} {rows : List Int}
    (hrows : ∀ r ∈ rows, 0 ≤ r ∧ r < n) (hsort : rows.Pairwise (· < ·)) {row : Nat → Bool}
    (hr : ∀ i, row i = true → RowsOfShaped n rows (s.shapes i) (s.env i).phys (s'.shapes i) (s'.env i).phys)
    (hf : ∀ i, row i = false → s'.shapes i = s.shapes i ∧ (s'.env i).phys = (s.env i).phys) {e : Shaped.Expr} {k : ℝ} {c : Cond} (h : ShapedDimension ks e k)
    (hb : ¬ ShapedBare e) (hc : CondScales ks c) {q : Nat} (he : PerRow (fun i => (s.shapes i).length) row e true q)
    (hp : CondPerRow (fun i => (s.shapes i).length) row c) {b : Flags} (hcb : evalCond s.shapes s.env c = .ok b) {i : Int} (hi : valueAt b.val i = some true)
    (hm : i ∉ rows) {y y' : Shaped.Value} (hy : evalStep s.shapes s.env (.select e c) = .ok y) (hy' : evalStep s'.shapes s'.env (.select e c) = .ok y') :
    y'.shape.getD 0 0 < y.shape.getD 0 0 := by
  rcases c133_rows ha hs hs' hrows hr hf h hb hc he hp with ⟨err, e1, e2⟩ | ⟨x, b', z, z', e1, e2, e3, e4, e5, e6, e7, e8⟩
  · rw [hy] at e1
    cases e1
  · rw [hcb] at e2
    rw [hy] at e5
    rw [hy'] at e6
    cases e2
    cases e5
    cases e6
    obtain ⟨u, R, Q, -, a2, -⟩ := e7
    obtain ⟨u', R', Q', -, b2, -⟩ := e8
    rw [a2, b2]
    have hlt : i.toNat < n ∧ 0 ≤ i := by
      unfold valueAt at hi
      split at hi
      · cases hi
      · obtain ⟨h1, -⟩ := List.getElem?_eq_some_iff.1 hi
        omega
    have n1 : (flagged b.val rows).Nodup := (hsort.filter _).imp fun h => h.ne
    have hin : i ∈ flagged b.val (allRows n) :=
      List.mem_filter.2 ⟨List.mem_map.2 ⟨i.toNat, List.mem_range.2 hlt.1, by simp; omega⟩, by simpa using hi⟩
    have hout : i ∉ flagged b.val rows := fun h => hm (of_flagged h)
    have hsub : i :: flagged b.val rows ⊆ flagged b.val (allRows n) := by
      intro j hj
      rcases List.mem_cons.1 hj with rfl | hj
      · exact hin
      · have h1 := List.mem_filter.1 hj
        have h2 := hrows j h1.1
        exact List.mem_filter.2 ⟨List.mem_map.2 ⟨j.toNat, List.mem_range.2 (by omega), by simp; omega⟩, h1.2⟩
    have := ((List.nodup_cons.2 ⟨hout, n1⟩).subperm hsub).length_le
    simpa using this

section
open Verif.Accel Verif.Mask
variable {K : Type} [Field K] [LinearOrder K] [IsStrictOrderedRing K] {m : Nat}

/-- What a mask reads of the fields: rows in increasing order. -/
theorem loaded_states (f : File K m) (hf : WF f) (ops : List (Op K)) (hi : ∀ op ∈ ops, IndicesOk f op) (p : Fin m)
    (h1 : (Mask.run f ops).constrained ≠ some .indices) (h2 : (Mask.run f ops).constrained ≠ some .index) (lay : Nat → Layout)
    (hlay : ∀ i, lay i ≠ .remote ∧ ∀ c, lay i = .chunked c → 0 < c) {a : ℝ} {ks : Nat → ℝ} {s s' : Selections.State} (hs : ScriptState a ks s)
    {row : Nat → Bool} {u : Nat → List Nat} {R R' : Nat → List (List ℝ)}
    (hr : ∀ i, row i = true → s.shapes i = f.rows p :: u i ∧ HoldsRows (f.rows p) (u i) (R i) (s.env i).val ∧
      load (Mask.run f ops) (lay i) (R i) p = .ok ((R' i).map some) ∧ s'.shapes i = (R' i).length :: u i ∧ HoldsRows (R' i).length (u i) (R' i) (s'.env i).val)
    (hfix : ∀ i, row i = false → s'.shapes i = s.shapes i ∧ (s'.env i).val = (s.env i).val)
    (hattr : ∀ i, (s'.env i).comoving = (s.env i).comoving ∧ (s'.env i).cf = (s.env i).cf ∧ (s'.env i).vt = (s.env i).vt) :
    ∃ rows : List Int, (∀ r ∈ rows, 0 ≤ r ∧ r < (f.rows p : Int)) ∧ rows.Pairwise (· < ·) ∧ (∀ i, i ∈ rows ↔ Selects (Mask.run f ops) p i) ∧
      ScriptState a ks s' ∧ RowStates (f.rows p) rows row s s' := by
  obtain ⟨rows, -, -, g1, -, g2, g3⟩ := c07_masked_read f hf ops hi p (List.replicate (f.rows p) ()) (by simp) .contiguous (by simp) (by simp)
  have g3 := g3 h1 h2
  simp only [List.length_replicate] at g2
  have hsel : ∀ i, row i = true → (R' i).map some = select (R i) rows := by
    intro i hi'
    obtain ⟨-, e1, e2, -, -⟩ := hr i hi'
    obtain ⟨rows', e3, -, e4, -, -, e5⟩ := c07_masked_read f hf ops hi p (R i) e1.count (lay i) (hlay i).1 (hlay i).2
    rw [e2] at e3
    rw [Except.ok.inj e3, sorted_ext (e5 h1 h2) g3 fun j => by rw [e4, g1]]
  have hlen2 : ∀ i, row i = true → (R' i).length = rows.length := by
    intro i hi
    have := congrArg List.length (hsel i hi)
    simpa [select] using this
  have hconv : ∀ i, Conv a (ks i) (s'.env i) := by
    intro i
    obtain ⟨h1, h2, h3, h4⟩ := hs.conv i
    obtain ⟨g1, g2, g3⟩ := hattr i
    exact ⟨h1, g2.trans h2, g3.trans h3, by rw [g1]; exact h4⟩
  have hp' : ∀ i, ∃ φ : ℝ → ℝ, (s.env i).phys = (s.env i).val.map φ ∧ (s'.env i).phys = (s'.env i).val.map φ := fun i => phys_map ⟨(hattr i).1, (hattr i).2.1⟩
  have hlen' : ∀ i, (s'.env i).val.length = (tuples (s'.shapes i)).length := by
    intro i
    cases hi : row i with
    | true =>
      obtain ⟨-, -, -, h1, h2⟩ := hr i hi
      rw [holds_length h2, h1]
    | false => rw [(hfix i hi).1, (hfix i hi).2, hs.length i]
  have hmap : ∀ (φ : ℝ → ℝ) {n : Nat} {s : List Nat} {T : List (List ℝ)} {v : List ℝ}, HoldsRows n s T v → HoldsRows n s (T.map (List.map φ)) (v.map φ) := by
    intro φ n s T v hT
    refine ⟨by rw [List.length_map, hT.count], ?_, by rw [hT.vals, List.map_flatten]⟩
    intro t ht
    obtain ⟨t', ht', rfl⟩ := List.mem_map.1 ht
    rw [List.length_map, hT.width t' ht']
  refine ⟨rows, g2, g3, g1, ⟨hconv, hlen'⟩, fun i hi => ?_, fun i hi => ⟨(hfix i hi).1, ?_⟩⟩
  · obtain ⟨q1, q2, q3, q4, q5⟩ := hr i hi
    obtain ⟨φ, e1, e2⟩ := hp' i
    rw [e1, e2]
    rw [hlen2 i hi] at q4 q5
    refine ⟨u i, (R i).map (List.map φ), (R' i).map (List.map φ), q1, q4, hmap φ q2, hmap φ q5, ?_⟩
    have h1 := congrArg (List.map (Option.map (List.map φ))) (hsel i hi)
    rw [List.map_map] at h1 ⊢
    refine h1.trans ?_
    rw [select, select, List.map_map]
    refine List.map_congr_left fun r _ => ?_
    simp only [Function.comp, valueAt]
    split
    · rfl
    · rw [List.getElem?_map]
  · obtain ⟨φ, e1, e2⟩ := hp' i
    rw [e1, e2, (hfix i hi).2]

/-- C133: for fields that a mask read, with any history of constraints that does not end in a list of indices: a cut with a condition gives what it
gives without a mask if the mask selects all rows for which the condition holds. -/
theorem c133_masked (f : File K m) (hf : WF f) (ops : List (Op K)) (hi : ∀ op ∈ ops, IndicesOk f op) (p : Fin m)
    (h1 : (Mask.run f ops).constrained ≠ some .indices) (h2 : (Mask.run f ops).constrained ≠ some .index) (lay : Nat → Layout)
    (hlay : ∀ i, lay i ≠ .remote ∧ ∀ c, lay i = .chunked c → 0 < c) {a : ℝ} (ha : 0 < a) {ks : Nat → ℝ} {s s' : Selections.State} (hs : ScriptState a ks s)
    {row : Nat → Bool} {u : Nat → List Nat} {R R' : Nat → List (List ℝ)}
    (hr : ∀ i, row i = true → s.shapes i = f.rows p :: u i ∧ HoldsRows (f.rows p) (u i) (R i) (s.env i).val ∧
      load (Mask.run f ops) (lay i) (R i) p = .ok ((R' i).map some) ∧ s'.shapes i = (R' i).length :: u i ∧ HoldsRows (R' i).length (u i) (R' i) (s'.env i).val)
    (hfix : ∀ i, row i = false → s'.shapes i = s.shapes i ∧ (s'.env i).val = (s.env i).val)
    (hattr : ∀ i, (s'.env i).comoving = (s.env i).comoving ∧ (s'.env i).cf = (s.env i).cf ∧ (s'.env i).vt = (s.env i).vt) {e : Shaped.Expr} {k : ℝ} {c : Cond}
    (h : ShapedDimension ks e k) (hb : ¬ ShapedBare e) (hc : CondScales ks c) {q : Nat} (he : PerRow (fun i => (s.shapes i).length) row e true q)
    (hp : CondPerRow (fun i => (s.shapes i).length) row c)
    (hcov : ∀ b, evalCond s.shapes s.env c = .ok b → ∀ i : Int, valueAt b.val i = some true → Selects (Mask.run f ops) p i) :
    (evalStep s'.shapes s'.env (.select e c)).map (fun y => (y.shape, y.val.phys)) =
      (evalStep s.shapes s.env (.select e c)).map (fun y => (y.shape, y.val.phys)) := by
  obtain ⟨rows, g1, g2, g3, g4, g5⟩ := loaded_states f hf ops hi p h1 h2 lay hlay hs hr hfix hattr
  exact c133_exact ha hs g4 g1 g2 g5.rows g5.fixed h hb hc he hp fun b hb i hi => (g3 i).2 (hcov b hb i hi)

theorem only_spatial (f : File K m) (hf : WF f) (rows : List (Option (List K))) (union : Bool) :
    (Mask.run f [.spatial rows union]).constrained ≠ some .indices ∧ (Mask.run f [.spatial rows union]).constrained ≠ some .index := by
  have h := (inv_run f hf [.spatial rows union] (by simp [IndicesOk])).last
  rw [h]
  unfold builtRun
  simp only [List.foldl_cons, List.foldl_nil, builtStep]
  split_ifs with hacc
  · constructor <;> simp [builtApply]
  · constructor <;> simp [absRefuse, absInit]

/-- Particles closer to a centre than a radius: variables 0, 1 and 2. -/
noncomputable def sphere : Cond := .cmp .less radii (.var 2)

theorem coordinate_lt {l : List ℝ} {r : ℝ} (h : ((l.map fun x => x ^ 2).sum) ^ (1 / 2 : ℝ) < r) {x : ℝ} (hx : x ∈ l) : |x| < r := by
  refine lt_of_le_of_lt ?_ h
  have h1 : x ^ 2 ≤ (l.map fun x => x ^ 2).sum :=
    List.single_le_sum (fun y hy => by
      obtain ⟨z, -, rfl⟩ := List.mem_map.1 hy
      exact sq_nonneg z) _ (List.mem_map_of_mem hx)
  rw [← Real.sqrt_eq_rpow]
  exact Real.abs_le_sqrt h1

/-- Where the condition is true all coordinates are closer to those of the centre than the radius. -/
theorem sphere_flags {a : ℝ} (ha : 0 < a) {ks : Nat → ℝ} {s : Selections.State} (hs : ScriptState a ks s) {n : Nat} (h0 : s.shapes 0 = [n, 3])
    (h1 : s.shapes 1 = [3]) (h2 : s.shapes 2 = []) (hk : ks 0 = ks 1) (hk' : ks 0 = ks 2) {b : Flags} (hb : evalCond s.shapes s.env sphere = .ok b) {i : Int}
    (hi : valueAt b.val i = some true) : 0 ≤ i ∧ i < n ∧ ∀ d < 3,
      |(s.env 0).phys.getD (i.toNat * 3 + d) 0 - (s.env 1).phys.getD d 0| < (s.env 2).phys.getD 0 0 := by
  have hv2 : ScalesAs ks (.var 2) (ks 0) := by rw [hk']; exact .formula (.var 2)
  have hc := cond_agrees ha hs.conv hs.length (CondScales.cmp .less (.formula (radii_scale hk)) hv2)
  have hr := c130_radii ha hs.conv hs.length h0 h1 hk
  rw [c130_value ha hs.conv hs.length (radii_scale hk)] at hr
  rw [show evalCond s.shapes s.env (.cmp .less radii (.var 2)) = .ok b from hb] at hc
  simp only [condMeaning] at hc
  generalize shapedMeaning (fun i => tableOf (s.shapes i) (s.env i).phys) radii = X at hr hc
  cases X with
  | error e => cases hr
  | ok X =>
    simp only [Except.map, Except.ok.injEq, Prod.mk.injEq] at hr
    simp only [shapedMeaning, Except.bind] at hc
    rw [show (tableOf (s.shapes 2) (s.env 2).phys).shape = [] from h2, hr.1, related_left] at hc
    cases hc with
    | ok g1 g2 =>
      dsimp only at g2
      rw [tuples_one, List.map_map] at g2
      unfold valueAt at hi
      split at hi
      · cases hi
      · rename_i hneg
        rw [g2, List.getElem?_map] at hi
        have hin : i.toNat < n := by
          by_contra hn
          rw [List.getElem?_eq_none (by simpa using hn)] at hi
          cases hi
        rw [List.getElem?_range hin] at hi
        simp only [Option.map_some, Function.comp, Option.some.injEq, decide_eq_true_eq] at hi
        rw [own_one hin, own_nil] at hi
        have e1 : X.entry [i.toNat] = _ := (values_at (t := X) (l := [i.toNat]) (by rw [hr.1]; exact .cons hin .nil)).symm
        have e2 : (tableOf (s.shapes 2) (s.env 2).phys).entry [] = (s.env 2).phys.getD 0 0 := by
          rw [h2, entry_tableOf (by
            have := hs.length 2
            rw [h2] at this
            rw [← this]
            unfold Arr.phys
            split <;> simp) .nil]
          rfl
        rw [e1, e2, hr.1, hr.2] at hi
        have hrav : Shaped.ravel [n] [i.toNat] = i.toNat := by simp [Shaped.ravel, Shaped.count]
        rw [hrav, List.getD_eq_getElem?_getD, List.getElem?_map, List.getElem?_range hin] at hi
        simp only [Option.map_some, Option.getD_some, relation] at hi
        refine ⟨by omega, by omega, fun d hd => ?_⟩
        have := coordinate_lt (l := (List.range 3).map fun j => (s.env 0).phys.getD (i.toNat * 3 + j) 0 - (s.env 1).phys.getD j 0)
          (r := (s.env 2).phys.getD 0 0) (by rw [List.map_map]; exact hi) (List.mem_map_of_mem (List.mem_range.2 hd))
        exact this

/-- C133: particles in a sphere. The mask of a region that contains the cube around the sphere reads only the cells that meet the region, and a cut
of any row-by-row array at the radius gives what it gives for all particles. The coordinates `P` of the file, as real numbers, times `σ` are the
physical positions; the centre and the radius are given in the same unit, and the frames of all arrays are arbitrary. -/
theorem c133_sphere (f : File K m) (hf : WF f) (rows : List (Option (List K))) (reg : Fin 3 → K × K) (hreg : RegionIs f.box rows reg) (hw : InWindow f.box reg)
    (union : Bool) (p : Fin m) (lay : Nat → Layout) (hlay : ∀ i, lay i ≠ .remote ∧ ∀ c, lay i = .chunked c → 0 < c) {a : ℝ} (ha : 0 < a) {ks : Nat → ℝ}
    {s s' : Selections.State} (hs : ScriptState a ks s) {row : Nat → Bool} {u : Nat → List Nat} {R R' : Nat → List (List ℝ)}
    (hr : ∀ i, row i = true → s.shapes i = f.rows p :: u i ∧ HoldsRows (f.rows p) (u i) (R i) (s.env i).val ∧
      load (Mask.run f [.spatial rows union]) (lay i) (R i) p = .ok ((R' i).map some) ∧ s'.shapes i = (R' i).length :: u i ∧
      HoldsRows (R' i).length (u i) (R' i) (s'.env i).val)
    (hfix : ∀ i, row i = false → s'.shapes i = s.shapes i ∧ (s'.env i).val = (s.env i).val)
    (hattr : ∀ i, (s'.env i).comoving = (s.env i).comoving ∧ (s'.env i).cf = (s.env i).cf ∧ (s'.env i).vt = (s.env i).vt)
    (r0 : row 0 = true) (r1 : row 1 = false) (r2 : row 2 = false) (u0 : u 0 = [3]) (h1 : s.shapes 1 = [3]) (h2 : s.shapes 2 = []) (hk : ks 0 = ks 1)
    (hk' : ks 0 = ks 2) {ι : K → ℝ} (hι : StrictMono ι) {σ : ℝ} (hσ : 0 < σ) {P : Nat → Fin 3 → K} {ctr : Fin 3 → ℝ} {rad : ℝ}
    (hP : ∀ i < f.rows p, ∀ d : Fin 3, (s.env 0).phys.getD (i * 3 + d.val) 0 = ι (P i d) * σ)
    (hctr : ∀ d : Fin 3, (s.env 1).phys.getD d.val 0 = ctr d * σ) (hrad : (s.env 2).phys.getD 0 0 = rad * σ)
    (hcells : ∀ i < f.rows p, ∃ c ∈ f.cells p, Holds c i ∧ ∀ d, c.lo d ≤ P i d ∧ P i d ≤ c.hi d)
    (hcube : ∀ d, ι (reg d).1 ≤ ctr d - rad ∧ ctr d + rad ≤ ι (reg d).2) {e : Shaped.Expr} {k : ℝ}
    (h : ShapedDimension ks e k) (hb : ¬ ShapedBare e) {q : Nat} (he : PerRow (fun i => (s.shapes i).length) row e true q) :
    (evalStep s'.shapes s'.env (.select e sphere)).map (fun y => (y.shape, y.val.phys)) =
      (evalStep s.shapes s.env (.select e sphere)).map (fun y => (y.shape, y.val.phys)) := by
  have h0 : s.shapes 0 = [f.rows p, 3] := by rw [(hr 0 r0).1, u0]
  have hv2 : ScalesAs ks (.var 2) (ks 0) := by rw [hk']; exact .formula (.var 2)
  have p0 : PerRow (fun i => (s.shapes i).length) row (.var 0) true 2 := by
    have := PerRow.var (rank := fun i => (s.shapes i).length) (row := row) 0
    simpa [h0, r0] using this
  have p1 : PerRow (fun i => (s.shapes i).length) row (.var 1) false 1 := by
    have := PerRow.var (rank := fun i => (s.shapes i).length) (row := row) 1
    simpa [h1, r1] using this
  have p2 : PerRow (fun i => (s.shapes i).length) row (.var 2) false 0 := by
    have := PerRow.var (rank := fun i => (s.shapes i).length) (row := row) 2
    simpa [h2, r2] using this
  have pr : PerRow (fun i => (s.shapes i).length) row radii true 1 := .one (.reduce (.one (.left p0 p1 (by simp))) (by simp))
  obtain ⟨k1, k2⟩ := only_spatial f hf rows union
  refine c133_masked f hf [.spatial rows union] (by simp [IndicesOk]) p k1 k2 lay hlay ha hs hr hfix hattr h hb
    (.cmp .less (.formula (radii_scale hk)) hv2) he (.left .less pr p2) fun b hbv i hi => ?_
  obtain ⟨i1, i2, i3⟩ := sphere_flags ha hs h0 h1 h2 hk hk' hbv hi
  obtain ⟨j, rfl⟩ := Int.eq_ofNat_of_zero_le i1
  have hj : j < f.rows p := by exact_mod_cast i2
  obtain ⟨c, hc, hh, hin⟩ := hcells j hj
  refine c12_complete_rows f hf rows reg hreg hw union p j c hc hh (P j) hin fun d => ⟨0, ?_⟩
  have q1 := i3 d.val d.isLt
  rw [Int.toNat_natCast, hP j hj d, hctr, hrad, ← sub_mul, abs_mul, abs_of_pos hσ, mul_lt_mul_iff_left₀ hσ] at q1
  have q2 := abs_lt.1 q1
  obtain ⟨q3, q4⟩ := hcube d
  have l1 : (reg d).1 < P j d := hι.lt_iff_lt.1 (by linarith [q2.1])
  have l2 : P j d < (reg d).2 := hι.lt_iff_lt.1 (by linarith [q2.2])
  have hup : wrapUpper (f.box d) (reg d).1 (reg d).2 = (reg d).2 := if_neg (not_lt.2 (l1.trans l2).le)
  rw [hup]
  simpa using ⟨l1, l2⟩

end

/-! ### Examples -/

private noncomputable def lengthsState (v : List ℝ) : Selections.State := ⟨fun _ => [v.length], fun _ => ⟨v, some true, some ⟨some 1, some (1 / 2)⟩, true⟩⟩

private theorem lengthsState_ok (v : List ℝ) : ScriptState (1 / 2) (fun _ => 1) (lengthsState v) :=
  ⟨fun _ => ⟨by norm_num, rfl, rfl, by simp [lengthsState]⟩, fun _ => by simp [lengthsState, length_tuples, Shaped.count]⟩

/-- Two lengths, of which a mask reads the first one; the condition holds for both. -/
example {y y' : Shaped.Value} (hy : evalStep (lengthsState [1, 2]).shapes (lengthsState [1, 2]).env (.select (.var 0) (.cmp .lessEqual (.var 0) (.var 1))) = .ok y)
    (hy' : evalStep (lengthsState [1]).shapes (lengthsState [1]).env (.select (.var 0) (.cmp .lessEqual (.var 0) (.var 1))) = .ok y') :
    y'.shape.getD 0 0 < y.shape.getD 0 0 := by
  have hv : ∀ i, ShapedDimension (fun _ => (1 : ℝ)) (.var i) 1 := fun i => ShapedDimension.var (ks := fun _ => 1) i
  have hp : ∀ i, PerRow (fun i => ((lengthsState [1, 2]).shapes i).length) (fun _ => true) (.var i) true 1 := fun i =>
    PerRow.var (rank := fun i => ((lengthsState [1, 2]).shapes i).length) (row := fun _ => true) i
  have hc : CondScales (fun _ => (1 : ℝ)) (.cmp .lessEqual (.var 0) (.var 1)) := .cmp _ (.formula (hv 0)) (.formula (hv 1))
  have hb := c132_condition (by norm_num) (lengthsState_ok [1, 2]) hc
  simp only [condMeaning, shapedMeaning, Except.bind] at hb
  rw [show (tableOf ((lengthsState [1, 2]).shapes 0) ((lengthsState [1, 2]).env 0).phys).shape = [2] from rfl,
    show (tableOf ((lengthsState [1, 2]).shapes 1) ((lengthsState [1, 2]).env 1).phys).shape = [2] from rfl, related_one] at hb
  cases hcb : evalCond (lengthsState [1, 2]).shapes (lengthsState [1, 2]).env (.cmp .lessEqual (.var 0) (.var 1)) with
  | error e => rw [hcb] at hb; cases hb
  | ok b =>
    rw [hcb] at hb
    simp only [Except.map, Except.ok.injEq, Prod.mk.injEq] at hb
    refine c133_missing (by norm_num) (lengthsState_ok [1, 2]) (lengthsState_ok [1]) (n := 2) (rows := [0]) (by simp) (by simp) (row := fun _ => true)
      (fun i _ => ?_) (fun i h => by cases h) (hv 0) (fun h => h) hc (hp 0) (.both _ (hp 0) (hp 1)) hcb (i := 1) ?_ (by simp) hy hy'
    · refine ⟨[], [[1 / 2], [1]], [[1 / 2]], rfl, rfl, ⟨rfl, by simp [tuples], ?_⟩, ⟨rfl, by simp [tuples], ?_⟩, by simp [select, valueAt]⟩
      · simp [lengthsState, Arr.phys]
      · simp [lengthsState, Arr.phys]
    · rw [hb.2, tuples_one]
      simp [valueAt, List.range_succ, relation, lengthsState]

/-! ### A sphere in the example file -/

/-- Comoving positions of the six particles of the example file. -/
def sixAt : Nat → Fin 3 → ℚ := fun i d => if d = 0 then [1 / 2, 3 / 4, 3 / 2, 5 / 2, 7 / 2, 15 / 4].getD i 0 else 2

noncomputable def sixRows : List (List ℝ) := [[1 / 2, 2, 2], [3 / 4, 2, 2], [3 / 2, 2, 2], [5 / 2, 2, 2], [7 / 2, 2, 2], [15 / 4, 2, 2]]

noncomputable def massRows : List (List ℝ) := [[1], [2], [3], [4], [5], [6]]

/-- Positions and masses, comoving; a physical centre and a comoving radius. -/
private noncomputable def sixState : Selections.State where
  shapes := fun i => match i with | 0 => [6, 3] | 1 => [3] | 2 => [] | _ => [6]
  env := fun i => match i with
    | 0 => ⟨sixRows.flatten, some true, some ⟨some 1, some (1 / 2)⟩, true⟩
    | 1 => ⟨[7 / 8, 1, 1], some false, some ⟨some 1, some (1 / 2)⟩, true⟩
    | 2 => ⟨[1 / 2], some true, some ⟨some 1, some (1 / 2)⟩, true⟩
    | _ => ⟨massRows.flatten, some true, some ⟨some 0, some (1 / 2)⟩, true⟩

/-- The same with the rows that the region reads. -/
private noncomputable def twoState : Selections.State where
  shapes := fun i => match i with | 0 => [2, 3] | 1 => [3] | 2 => [] | _ => [2]
  env := fun i => match i with
    | 0 => ⟨[3 / 2, 2, 2, 5 / 2, 2, 2], some true, some ⟨some 1, some (1 / 2)⟩, true⟩
    | 1 => ⟨[7 / 8, 1, 1], some false, some ⟨some 1, some (1 / 2)⟩, true⟩
    | 2 => ⟨[1 / 2], some true, some ⟨some 1, some (1 / 2)⟩, true⟩
    | _ => ⟨[3, 4], some true, some ⟨some 0, some (1 / 2)⟩, true⟩

private def sixExponents : Nat → ℝ := fun i => match i with | 0 => 1 | 1 => 1 | 2 => 1 | _ => 0

private theorem sixState_ok : ScriptState (1 / 2) sixExponents sixState := by
  refine ⟨fun i => ?_, fun i => ?_⟩
  · match i with
    | 0 => exact ⟨by norm_num, rfl, rfl, by simp [sixState]⟩
    | 1 => exact ⟨by norm_num, rfl, rfl, by simp [sixState]⟩
    | 2 => exact ⟨by norm_num, rfl, rfl, by simp [sixState]⟩
    | i + 3 => exact ⟨by norm_num, rfl, rfl, by simp [sixState]⟩
  · match i with
    | 0 => simp [sixState, sixRows, tuples, List.range_succ]
    | 1 => simp [sixState, tuples, List.range_succ]
    | 2 => simp [sixState, tuples]
    | i + 3 => simp [sixState, massRows, tuples, List.range_succ]

/-- The masses of the particles in a sphere: the mask of the region reads two of the six particles, and the cut gives the same as for all six. -/
example : (evalStep twoState.shapes twoState.env (.select (.var 3) sphere)).map (fun y => (y.shape, y.val.phys)) =
    (evalStep sixState.shapes sixState.env (.select (.var 3) sphere)).map (fun y => (y.shape, y.val.phys)) := by
  refine c133_sphere exFile exFile_wf [some [5 / 4, 9 / 4], none, none] (fun d => if d = 0 then (5 / 4, 9 / 4) else (0, 4)) ?_ ?_ false 0 (fun _ => .contiguous)
    (fun _ => ⟨by simp, by simp⟩) (a := 1 / 2) (by norm_num) (ks := sixExponents) sixState_ok (row := fun i => i == 0 || decide (3 ≤ i))
    (u := fun i => if i = 0 then [3] else []) (R := fun i => if i = 0 then sixRows else massRows)
    (R' := fun i => if i = 0 then [[3 / 2, 2, 2], [5 / 2, 2, 2]] else [[3], [4]]) ?_ ?_ ?_ rfl rfl rfl rfl rfl rfl rfl rfl (ι := fun q => (q : ℝ))
    Rat.cast_strictMono (σ := 1 / 2) (by norm_num) (P := sixAt) (ctr := fun d => if d = 0 then 7 / 4 else 2) (rad := 1 / 2) ?_ ?_ ?_ ?_ ?_
    (ShapedDimension.var (ks := sixExponents) 3) (fun h => h) (q := 1)
    (PerRow.var (rank := fun i => (sixState.shapes i).length) (row := fun i => i == 0 || decide (3 ≤ i)) 3)
  · refine ⟨rfl, fun d => ?_⟩
    fin_cases d <;> simp [exFile]
  · intro d
    fin_cases d <;> norm_num [exFile]
  · intro i hi
    match i with
    | 0 =>
      refine ⟨rfl, ⟨rfl, by simp [sixRows, tuples, List.range_succ], rfl⟩, ?_, rfl, ⟨rfl, by simp [tuples, List.range_succ], rfl⟩⟩
      refine (regionS_loads _ rfl).trans ?_
      simp [select, valueAt, sixRows]
    | 1 => cases hi
    | 2 => cases hi
    | i + 3 =>
      refine ⟨rfl, ⟨rfl, by simp [massRows, tuples], rfl⟩, ?_, rfl, ⟨rfl, by simp [tuples], rfl⟩⟩
      refine (regionS_loads _ rfl).trans ?_
      simp [select, valueAt, massRows]
  · intro i hi
    match i with
    | 0 => cases hi
    | 1 => exact ⟨rfl, rfl⟩
    | 2 => exact ⟨rfl, rfl⟩
    | i + 3 => simp at hi
  · intro i
    match i with
    | 0 => exact ⟨rfl, rfl, rfl⟩
    | 1 => exact ⟨rfl, rfl, rfl⟩
    | 2 => exact ⟨rfl, rfl, rfl⟩
    | i + 3 => exact ⟨rfl, rfl, rfl⟩
  · intro i hi d
    have hi : i < 6 := hi
    interval_cases i <;> fin_cases d <;> simp [sixState, sixRows, sixAt, Arr.phys]
  · intro d
    fin_cases d <;> simp [sixState, Arr.phys] <;> norm_num
  · simp [sixState, Arr.phys]
  · intro i hi
    have hi : i < 6 := hi
    interval_cases i
    · exact ⟨exCell 0 2 0, by simp [exFile], by simp [Holds, exCell], fun d => by fin_cases d <;> norm_num [exCell, sixAt]⟩
    · exact ⟨exCell 0 2 0, by simp [exFile], by simp [Holds, exCell], fun d => by fin_cases d <;> norm_num [exCell, sixAt]⟩
    · exact ⟨exCell 2 1 1, by simp [exFile], by simp [Holds, exCell], fun d => by fin_cases d <;> norm_num [exCell, sixAt]⟩
    · exact ⟨exCell 3 1 2, by simp [exFile], by simp [Holds, exCell], fun d => by fin_cases d <;> norm_num [exCell, sixAt]⟩
    · exact ⟨exCell 4 2 3, by simp [exFile], by simp [Holds, exCell], fun d => by fin_cases d <;> norm_num [exCell, sixAt]⟩
    · exact ⟨exCell 4 2 3, by simp [exFile], by simp [Holds, exCell], fun d => by fin_cases d <;> norm_num [exCell, sixAt]⟩
  · intro d
    fin_cases d <;> norm_num

end Verif.Props
