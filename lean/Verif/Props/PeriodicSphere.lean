import Verif.Props.RowScripts
import Verif.Spec.PeriodicSphere

/-!
# C135: spheres that reach over the sides of a periodic box
-/

namespace Verif.Props
open Verif Verif.Cosmo Verif.Formulas Verif.Selections Verif.Spec
open Verif.Programs (Cmp)
open Verif.Shaped (In mem_tuples values_at length_tuples)

/-- `d = np.remainder(coordinates - centre + box / 2, box) - box / 2`: variables 0, 1 and 3. -/
noncomputable def wrapped : Shaped.Expr :=
  .two .subtract (.two .remainder (.two .add (.two .subtract (.var 0) (.var 1)) (.two .divide (.var 3) (.nums [] [2]))) (.var 3)) (.two .divide (.var 3) (.nums [] [2]))

/-- `np.sqrt((d ** 2).sum(axis=1))`. -/
noncomputable def periodicRadii : Shaped.Expr := .one .sqrt (.reduce List.sum 1 (.one .square wrapped))

/-- Particles closer to a periodic copy of the centre than a radius. -/
noncomputable def periodicSphere : Cond := .cmp .less periodicRadii (.var 2)

/-- What `wrapped` computes. -/
private noncomputable def wrap (L y : ℝ) : ℝ := y + L / 2 - L * ⌊(y + L / 2) / L⌋ - L / 2

private theorem wrap_nearest {L : ℝ} (hL : 0 < L) (x c : ℝ) : NearestCopy L x c |wrap L (x - c)| := by
  have e : wrap L (x - c) = x - (c + (⌊(x - c + L / 2) / L⌋ : ℤ) * L) := by
    unfold wrap
    ring
  have h1 := Int.floor_le ((x - c + L / 2) / L)
  have h2 := Int.lt_floor_add_one ((x - c + L / 2) / L)
  rw [le_div_iff₀ hL] at h1
  rw [div_lt_iff₀ hL] at h2
  refine ⟨⟨_, congrArg _ e⟩, fun k => ?_⟩
  rw [e]
  generalize ⌊(x - c + L / 2) / L⌋ = m at h1 h2
  rcases lt_trichotomy k m with hk | rfl | hk
  · have : (k : ℝ) + 1 ≤ m := by exact_mod_cast hk
    have h3 : ((k : ℝ) + 1) * L ≤ m * L := mul_le_mul_of_nonneg_right this hL.le
    rw [abs_le]
    have := le_abs_self (x - (c + k * L))
    constructor <;> nlinarith
  · exact le_rfl
  · have : (m : ℝ) + 1 ≤ k := by exact_mod_cast hk
    have h3 : ((m : ℝ) + 1) * L ≤ k * L := mul_le_mul_of_nonneg_right this hL.le
    rw [abs_le]
    have := neg_abs_le (x - (c + k * L))
    constructor <;> nlinarith

theorem wrapped_scale {ks : Nat → ℝ} (h : ks 0 = ks 1) (h3 : ks 0 = ks 3) : ShapedDimension ks wrapped (ks 0) := by
  have h1 : ShapedDimension ks (.var 1) (ks 0) := by rw [h]; exact .var 1
  have h3' : ShapedDimension ks (.var 3) (ks 0) := by rw [h3]; exact .var 3
  have hh : ShapedDimension ks (.two .divide (.var 3) (.nums [] [2])) (ks 0) := by
    have := ShapedDimension.div h3' (.nums [] [2] (by simp [tuples]))
    rwa [sub_zero] at this
  exact .sum (f := .subtract) (by simp) (.sum (f := .remainder) (by simp) (.sum (f := .add) (by simp) (.sum (f := .subtract) (by simp) (.var 0) h1) hh) h3') hh

theorem periodicRadii_scale {ks : Nat → ℝ} (h : ks 0 = ks 1) (h3 : ks 0 = ks 3) : ShapedDimension ks periodicRadii (ks 0) := by
  have := ShapedDimension.sqrt (.reduce scales_sum 1 (.square (wrapped_scale h h3)))
  rwa [mul_div_cancel_left₀ _ (two_ne_zero)] at this

private theorem zip_ok {f : ℝ → ℝ → ℝ} {x y : NumberTable} {s t : List Nat} (hs : x.shape = s) (ht : y.shape = t) (h : Fit s t) :
    x.zip f y = .ok ⟨fitted s t, fun l => f (x.entry (own s l)) (y.entry (own t l))⟩ := by
  subst hs ht
  exact if_pos h

private theorem fit_rows (n d : Nat) : Fit [n, d] [d] := by
  intro i
  match i with
  | 0 => exact .inl rfl
  | 1 => exact .inr (.inr rfl)
  | i + 2 => exact .inr (.inl (by simp [lengthOf]))

private theorem fitted_rows (n d : Nat) : fitted [n, d] [d] = [n, d] := by
  simp [fitted, lengthOf, List.range_succ]
  intro h
  exact h.symm

private theorem fit_number (d : Nat) : Fit [d] [] := fun i => .inr (.inr (by simp [lengthOf]))

private theorem fitted_number (d : Nat) : fitted [d] [] = [d] := by
  simp [fitted, lengthOf]
  intro h
  exact h.symm

private theorem flatMap_one {α β : Type} (l : List α) (f : α → β) : l.flatMap (fun x => [f x]) = l.map f := by
  induction l with
  | nil => rfl
  | cons x l ih => rw [List.flatMap_cons, ih]; rfl

private theorem periodic_values {a : ℝ} (ha : 0 < a) {ks : Nat → ℝ} {shapes : Nat → List Nat} {env : Nat → Arr} (henv : ∀ i, Conv a (ks i) (env i))
    (hlen : ∀ i, (env i).val.length = (tuples (shapes i)).length) {n d : Nat} (h0 : shapes 0 = [n, d]) (h1 : shapes 1 = [d]) (h3 : shapes 3 = [d])
    (hk : ks 0 = ks 1) (hk3 : ks 0 = ks 3) :
    (Shaped.eval shapes env periodicRadii).map (fun x => (x.shape, x.val.phys)) = .ok ([n], (List.range n).map fun i =>
      ((List.range d).map fun j => (wrap ((env 3).phys.getD j 0) ((env 0).phys.getD (i * d + j) 0 - (env 1).phys.getD j 0)) ^ 2).sum ^ (1 / 2 : ℝ)) := by
  rw [c130_value ha henv hlen (periodicRadii_scale hk hk3)]
  have s0 : (tableOf (shapes 0) (env 0).phys).shape = [n, d] := h0
  have s1 : (tableOf (shapes 1) (env 1).phys).shape = [d] := h1
  have s3 : (tableOf (shapes 3) (env 3).phys).shape = [d] := h3
  have s4 : (tableOf [] [2]).shape = [] := rfl
  simp only [periodicRadii, wrapped, shapedMeaning, Except.bind, zip_ok s0 s1 (fit_rows n d), zip_ok s3 s4 (fit_number d), fitted_rows, fitted_number]
  rw [zip_ok rfl rfl (fit_rows n d)]
  simp only [fitted_rows]
  rw [zip_ok rfl s3 (fit_rows n d)]
  simp only [fitted_rows]
  rw [zip_ok rfl rfl (fit_rows n d)]
  simp only [fitted_rows]
  simp only [List.getElem?_cons_succ, List.getElem?_cons_zero, Except.map, NumberTable.values, List.take_succ_cons, List.take_zero, List.drop_succ_cons,
    List.drop_zero, List.append_nil, tuples, List.map_cons, List.map_nil, List.map_flatMap, numbers1, numbers2]
  refine congrArg Except.ok (Prod.ext rfl ?_)
  rw [flatMap_one]
  refine List.map_congr_left fun i hi => ?_
  refine congrArg (fun l : List ℝ => l.sum ^ (1 / 2 : ℝ)) (List.map_congr_left fun j hj => ?_)
  have hi' : i < n := List.mem_range.1 hi
  have hj' : j < d := List.mem_range.1 hj
  have e0 : own [n, d] [i, j] = [i, j] := by
    simp [own]
    omega
  have e1 : own [d] [i, j] = [j] := by
    simp [own]
    omega
  have e2 : own [d] [j] = [j] := by
    simp [own]
    omega
  have e3 : own [] [j] = [] := by simp [own]
  have l0 : (env 0).phys.length = (tuples (shapes 0)).length := (by unfold Arr.phys; split <;> simp : (env 0).phys.length = _).trans (hlen 0)
  have l1 : (env 1).phys.length = (tuples (shapes 1)).length := (by unfold Arr.phys; split <;> simp : (env 1).phys.length = _).trans (hlen 1)
  have l3 : (env 3).phys.length = (tuples (shapes 3)).length := (by unfold Arr.phys; split <;> simp : (env 3).phys.length = _).trans (hlen 3)
  have t2 : (tableOf [] [2]).entry [] = 2 := by
    rw [entry_tableOf (by simp [tuples]) .nil]
    rfl
  simp only [List.take_succ_cons, List.take_zero, List.drop_succ_cons, List.drop_zero, List.cons_append, List.nil_append]
  simp only [e0, e1, e2, e3, t2]
  rw [entry_tableOf l0 (by rw [h0]; exact .cons hi' (.cons hj' .nil)), entry_tableOf l1 (by rw [h1]; exact .cons hj' .nil),
    entry_tableOf l3 (by rw [h3]; exact .cons hj' .nil), h0, h1, h3]
  simp [Shaped.ravel, Shaped.count, wrap]

/-- C135: the distances are those from the nearest periodic copy of the centre, along each axis, for boxes with sides of any lengths and coordinates in
any frames, inside of the box or not. -/
theorem c135_radii {a : ℝ} (ha : 0 < a) {ks : Nat → ℝ} {s : Selections.State} (hs : ScriptState a ks s) {n d : Nat} (h0 : s.shapes 0 = [n, d])
    (h1 : s.shapes 1 = [d]) (h3 : s.shapes 3 = [d]) (hk : ks 0 = ks 1) (hk3 : ks 0 = ks 3) (hL : ∀ j < d, 0 < (s.env 3).phys.getD j 0) :
    ∃ e : Nat → Nat → ℝ, (∀ i < n, ∀ j < d, NearestCopy ((s.env 3).phys.getD j 0) ((s.env 0).phys.getD (i * d + j) 0) ((s.env 1).phys.getD j 0) (e i j)) ∧
      (Shaped.eval s.shapes s.env periodicRadii).map (fun x => (x.shape, x.val.phys)) =
        .ok ([n], (List.range n).map fun i => ((List.range d).map fun j => e i j ^ 2).sum ^ (1 / 2 : ℝ)) := by
  refine ⟨fun i j => |wrap ((s.env 3).phys.getD j 0) ((s.env 0).phys.getD (i * d + j) 0 - (s.env 1).phys.getD j 0)|, fun i _ j hj => wrap_nearest (hL j hj) _ _, ?_⟩
  rw [periodic_values ha hs.conv hs.length h0 h1 h3 hk hk3]
  simp only [sq_abs]

/-- Where an array with one number for each row is below a single number. -/
private theorem below_flags {a : ℝ} (ha : 0 < a) {ks : Nat → ℝ} {s : Selections.State} (hs : ScriptState a ks s) {n : Nat} {e : Shaped.Expr} {k : ℝ}
    (he : ShapedDimension ks e k) {g : Nat → ℝ} (hg : (Shaped.eval s.shapes s.env e).map (fun x => (x.shape, x.val.phys)) = .ok ([n], (List.range n).map g))
    (h2 : s.shapes 2 = []) (hk' : k = ks 2) {b : Flags} (hb : evalCond s.shapes s.env (.cmp .less e (.var 2)) = .ok b) :
    b.shape = [n] ∧ ∀ i : Int, valueAt b.val i = some true ↔ 0 ≤ i ∧ i < n ∧ g i.toNat < (s.env 2).phys.getD 0 0 := by
  have hv2 : ScalesAs ks (.var 2) k := by rw [hk']; exact .formula (.var 2)
  have hc := cond_agrees ha hs.conv hs.length (CondScales.cmp .less (.formula he) hv2)
  rw [c130_value ha hs.conv hs.length he] at hg
  rw [hb] at hc
  simp only [condMeaning] at hc
  generalize shapedMeaning (fun i => tableOf (s.shapes i) (s.env i).phys) e = X at hg hc
  cases X with
  | error e => cases hg
  | ok X =>
    simp only [Except.map, Except.ok.injEq, Prod.mk.injEq] at hg
    simp only [shapedMeaning, Except.bind] at hc
    rw [show (tableOf (s.shapes 2) (s.env 2).phys).shape = [] from h2, hg.1, related_left] at hc
    cases hc with
    | ok g1 g2 =>
      dsimp only at g1 g2
      refine ⟨g1, fun i => ?_⟩
      rw [tuples_one, List.map_map] at g2
      unfold valueAt
      by_cases hneg : i < 0
      · rw [if_pos hneg]
        constructor
        · intro h
          cases h
        · intro h
          omega
      · rw [if_neg hneg, g2, List.getElem?_map]
        by_cases hin : i.toNat < n
        · rw [List.getElem?_range hin]
          simp only [Option.map_some, Function.comp, Option.some.injEq, decide_eq_true_eq]
          rw [own_one hin, own_nil]
          have e1 : X.entry [i.toNat] = _ := (values_at (t := X) (l := [i.toNat]) (by rw [hg.1]; exact .cons hin .nil)).symm
          have e2 : (tableOf (s.shapes 2) (s.env 2).phys).entry [] = (s.env 2).phys.getD 0 0 := by
            rw [h2, entry_tableOf (by
              have := hs.length 2
              rw [h2] at this
              rw [← this]
              unfold Arr.phys
              split <;> simp) .nil]
            rfl
          rw [e1, e2, hg.1, hg.2]
          have hrav : Shaped.ravel [n] [i.toNat] = i.toNat := by simp [Shaped.ravel, Shaped.count]
          rw [hrav, List.getD_eq_getElem?_getD, List.getElem?_map, List.getElem?_range hin]
          simp only [Option.map_some, Option.getD_some, relation]
          exact ⟨fun h => ⟨by omega, by omega, h⟩, fun h => h.2.2⟩
        · rw [List.getElem?_eq_none (by simpa using hin)]
          constructor
          · intro h
            cases h
          · intro h
            omega

/-- C135: the condition holds exactly for the particles for which the distance from the nearest copies is below the radius. -/
theorem c135_inside {a : ℝ} (ha : 0 < a) {ks : Nat → ℝ} {s : Selections.State} (hs : ScriptState a ks s) {n d : Nat} (h0 : s.shapes 0 = [n, d])
    (h1 : s.shapes 1 = [d]) (h2 : s.shapes 2 = []) (h3 : s.shapes 3 = [d]) (hk : ks 0 = ks 1) (hk2 : ks 0 = ks 2) (hk3 : ks 0 = ks 3)
    (hL : ∀ j < d, 0 < (s.env 3).phys.getD j 0) {b : Flags} (hb : evalCond s.shapes s.env periodicSphere = .ok b) :
    b.shape = [n] ∧ ∀ i : Int, valueAt b.val i = some true ↔ 0 ≤ i ∧ i < n ∧ ∃ e : Nat → ℝ,
      (∀ j < d, NearestCopy ((s.env 3).phys.getD j 0) ((s.env 0).phys.getD (i.toNat * d + j) 0) ((s.env 1).phys.getD j 0) (e j)) ∧
      ((List.range d).map fun j => e j ^ 2).sum ^ (1 / 2 : ℝ) < (s.env 2).phys.getD 0 0 := by
  obtain ⟨e, g1, g2⟩ := c135_radii ha hs h0 h1 h3 hk hk3 hL
  obtain ⟨f1, f2⟩ := below_flags ha hs (periodicRadii_scale hk hk3) g2 h2 hk2 hb
  refine ⟨f1, fun i => (f2 i).trans ⟨fun ⟨i1, i2, i3⟩ => ⟨i1, i2, e i.toNat, fun j hj => g1 _ (by omega) j hj, i3⟩, fun ⟨i1, i2, e', i3, i4⟩ => ⟨i1, i2, ?_⟩⟩⟩
  have : (List.range d).map (fun j => e i.toNat j ^ 2) = (List.range d).map fun j => e' j ^ 2 := by
    refine List.map_congr_left fun j hj => ?_
    obtain ⟨⟨k, u1⟩, u2⟩ := g1 i.toNat (by omega) j (List.mem_range.1 hj)
    obtain ⟨⟨k', v1⟩, v2⟩ := i3 j (List.mem_range.1 hj)
    have : e i.toNat j = e' j := le_antisymm (v1 ▸ u2 k') (u1 ▸ v2 k)
    rw [this]
  rw [this]
  exact i4

section
open Verif.Accel Verif.Mask
variable {K : Type} [Field K] [LinearOrder K] [IsStrictOrderedRing K] {m : Nat}

/-- C135: totals and means in a sphere that may reach over the sides of the box. The region of the mask contains the cube around the sphere,
or around a copy of it; like `constrain_spatial` allows it, it may begin below zero, end above the box, or be inverted. All results are the same as with all particles. -/
theorem c135_sphere (f : File K m) (hf : WF f) (rows : List (Option (List K))) (reg : Fin 3 → K × K) (hreg : RegionIs f.box rows reg) (hw : InWindow f.box reg)
    (union : Bool) (p : Fin m) (lay : Nat → Layout) (hlay : ∀ i, lay i ≠ .remote ∧ ∀ c, lay i = .chunked c → 0 < c) {a : ℝ} (ha : 0 < a) {ks ls : Nat → ℝ}
    {s s' : Selections.State} (hs : ScriptState a ks s) {row : Nat → Bool} {u : Nat → List Nat} {R R' : Nat → List (List ℝ)}
    (hr : ∀ i, row i = true → s.shapes i = f.rows p :: u i ∧ HoldsRows (f.rows p) (u i) (R i) (s.env i).val ∧
      load (Mask.run f [.spatial rows union]) (lay i) (R i) p = .ok ((R' i).map some) ∧ s'.shapes i = (R' i).length :: u i ∧
      HoldsRows (R' i).length (u i) (R' i) (s'.env i).val)
    (hfix : ∀ i, row i = false → s'.shapes i = s.shapes i ∧ (s'.env i).val = (s.env i).val)
    (hattr : ∀ i, (s'.env i).comoving = (s.env i).comoving ∧ (s'.env i).cf = (s.env i).cf ∧ (s'.env i).vt = (s.env i).vt)
    (r0 : row 0 = true) (r1 : row 1 = false) (r2 : row 2 = false) (r3 : row 3 = false) (u0 : u 0 = [3]) (h1 : s.shapes 1 = [3]) (h2 : s.shapes 2 = [])
    (h3 : s.shapes 3 = [3]) (hk : ks 0 = ks 1) (hk2 : ks 0 = ks 2) (hk3 : ks 0 = ks 3) (ι : K →+* ℝ) (hι : StrictMono ι) {σ : ℝ} (hσ : 0 < σ)
    {P : Nat → Fin 3 → K} {ctr : Fin 3 → ℝ} {rad : ℝ}
    (hP : ∀ i < f.rows p, ∀ d : Fin 3, (s.env 0).phys.getD (i * 3 + d.val) 0 = ι (P i d) * σ)
    (hctr : ∀ d : Fin 3, (s.env 1).phys.getD d.val 0 = ctr d * σ) (hrad : (s.env 2).phys.getD 0 0 = rad * σ)
    (hbox : ∀ d : Fin 3, (s.env 3).phys.getD d.val 0 = ι (f.box d) * σ)
    (hcells : ∀ i < f.rows p, ∃ c ∈ f.cells p, Holds c i ∧ ∀ d, c.lo d ≤ P i d ∧ P i d ≤ c.hi d)
    (hcube : ∀ d, ∃ k : ℤ, ι (reg d).1 ≤ ctr d + k * ι (f.box d) - rad ∧ ctr d + k * ι (f.box d) + rad ≤ ι (wrapUpper (f.box d) (reg d).1 (reg d).2)) {cuts l : List (Nat × Shaped.Expr)}
    (hcuts : ∀ d ∈ cuts, 4 ≤ d.1 ∧ row d.1 = false ∧
      ∀ rank : Nat → Nat, (∀ j, j ∉ cuts.map (·.1) → rank j = (s.shapes j).length) → ∃ q, PerRow rank row d.2 true q)
    (hl : ∀ d ∈ l, row d.1 = false ∧ ∃ q, PerRow (fun j => (s.shapes j).length) row d.2 false q)
    (h : ScriptScales ks ((cuts.map fun d => (d.1, .select d.2 periodicSphere)) ++ l.map fun d => (d.1, .formula d.2)) ls) :
    (∃ err, Selections.run ((cuts.map fun d => (d.1, .select d.2 periodicSphere)) ++ l.map fun d => (d.1, .formula d.2)) s = .error err ∧
      Selections.run ((cuts.map fun d => (d.1, .select d.2 periodicSphere)) ++ l.map fun d => (d.1, .formula d.2)) s' = .error err) ∨
    ∃ t t', Selections.run ((cuts.map fun d => (d.1, .select d.2 periodicSphere)) ++ l.map fun d => (d.1, .formula d.2)) s = .ok t ∧
      Selections.run ((cuts.map fun d => (d.1, .select d.2 periodicSphere)) ++ l.map fun d => (d.1, .formula d.2)) s' = .ok t' ∧
      ∀ i, row i = false → t'.shapes i = t.shapes i ∧ (t'.env i).phys = (t.env i).phys := by
  have h0 : s.shapes 0 = [f.rows p, 3] := by rw [(hr 0 r0).1, u0]
  obtain ⟨k1, k2⟩ := only_spatial f hf rows union
  refine c134_masked f hf [.spatial rows union] (by simp [IndicesOk]) p k1 k2 lay hlay ha h hs hr hfix hattr ?_
  refine cuts_script ha _ (w := 4) (S := s.shapes) (p := fun j => (s.env j).phys) (κ := ks) ?_ (rank := fun j => (s.shapes j).length)
    (names := cuts.map (·.1)) (fun d hd => ?_) hl h hs (fun j _ => ⟨rfl, rfl, rfl⟩) fun j _ => rfl
  · intro ks' t ht hlow
    obtain ⟨s0, e0, t0⟩ := hlow 0 (by omega)
    obtain ⟨s1, e1, t1⟩ := hlow 1 (by omega)
    obtain ⟨s2, e2, t2⟩ := hlow 2 (by omega)
    obtain ⟨s3, e3, t3⟩ := hlow 3 (by omega)
    rw [h0] at s0
    rw [h1] at s1
    rw [h2] at s2
    rw [h3] at s3
    have pv : ∀ i, PerRow (fun j => (t.shapes j).length) row (.var i) (row i) (t.shapes i).length := fun i =>
      PerRow.var (rank := fun j => (t.shapes j).length) (row := row) i
    have q0 := pv 0
    have q1 := pv 1
    have q2 := pv 2
    have q3 := pv 3
    rw [r0, s0] at q0
    rw [r1, s1] at q1
    rw [r2, s2] at q2
    rw [r3, s3] at q3
    have qh : PerRow (fun i => (t.shapes i).length) row (.two .divide (.var 3) (.nums [] [2])) false 1 := .neither q3 (.nums [] [2])
    have pr : PerRow (fun i => (t.shapes i).length) row periodicRadii true 1 :=
      .one (.reduce (.one (.left (.left (.left (.left q0 q1 (by simp)) qh (by simp)) q3 (by simp)) qh (by simp))) (by simp))
    refine ⟨.left .less pr q2, fun b hbv i hi => ?_⟩
    have hpos : ∀ j < 3, 0 < (t.env 3).phys.getD j 0 := by
      intro j hj
      rw [e3, hbox ⟨j, hj⟩]
      exact mul_pos (by simpa using hι (hf.box_pos _)) hσ
    obtain ⟨i1, i2, e, i3, i4⟩ := ((c135_inside ha ht s0 s1 s2 s3 (by rw [t0, t1, hk]) (by rw [t0, t2, hk2]) (by rw [t0, t3, hk3]) hpos hbv).2 i).1 hi
    obtain ⟨j, rfl⟩ := Int.eq_ofNat_of_zero_le i1
    have hj : j < f.rows p := by exact_mod_cast i2
    obtain ⟨c, hc, hh, hin⟩ := hcells j hj
    refine c12_complete_rows f hf rows reg hreg hw union p j c hc hh (P j) hin fun d => ?_
    obtain ⟨⟨k, v1⟩, -⟩ := i3 d.val d.isLt
    have q1 : |e d.val| < rad * σ := by
      rw [← hrad, ← e2]
      exact coordinate_lt (l := (List.range 3).map e) (by rw [List.map_map]; exact i4) (List.mem_map_of_mem (List.mem_range.2 d.isLt))
    rw [v1, abs_abs, Int.toNat_natCast, e0, e1, e3, hP j hj d, hctr, hbox,
      show ι (P j d) * σ - (ctr d * σ + k * (ι (f.box d) * σ)) = (ι (P j d) - ctr d - k * ι (f.box d)) * σ by ring, abs_mul, abs_of_pos hσ,
      mul_lt_mul_iff_left₀ hσ] at q1
    have q2 := abs_lt.1 q1
    obtain ⟨k', q3, q4⟩ := hcube d
    have hcast : ι (P j d + ((k' - k : ℤ) : K) * f.box d) = ι (P j d) - k * ι (f.box d) + k' * ι (f.box d) := by
      rw [map_add, map_mul, map_intCast]
      push_cast
      ring
    refine ⟨k' - k, hι.lt_iff_lt.1 ?_, hι.lt_iff_lt.1 ?_⟩
    · rw [hcast]
      linarith [q2.1]
    · rw [hcast]
      linarith [q2.2]
  · obtain ⟨g1, g2, g3⟩ := hcuts d hd
    exact ⟨List.mem_map_of_mem hd, g1, g2, g3⟩

/-! ### A sphere around the corner of the box of the example file -/

private theorem corner_loads {α : Type} (ds : List α) (hd : ds.length = 6) :
    load (Mask.run exFile [.spatial [some [7 / 2, 1 / 2], none, none] false]) .contiguous ds 0 = .ok (select ds [0, 1, 4, 5]) := by
  obtain ⟨rows, hr⟩ := c115_mask_rows exFile exFile_wf [.spatial [some [7 / 2, 1 / 2], none, none] false] (by simp [IndicesOk]) 0
  have e : load (Mask.run exFile [.spatial [some [7 / 2, 1 / 2], none, none] false]) .contiguous (List.range 6) 0 = .ok [some 0, some 1, some 4, some 5] := by
    decide +kernel
  have e2 := hr ℕ (List.range 6) .contiguous rfl (by simp) (by simp)
  rw [e] at e2
  have e3 : rows = [0, 1, 4, 5] := by
    have at' : ∀ (i : Int) (j : Nat), valueAt (List.range 6) i = some j → i = j := by
      intro i j hi
      unfold valueAt at hi
      split_ifs at hi with h0
      obtain ⟨h1, h2⟩ := List.getElem?_eq_some_iff.1 hi
      rw [List.getElem_range] at h2
      omega
    have h := (Except.ok.inj e2).symm
    have hlen : rows.length = 4 := by simpa [select] using congrArg List.length h
    match rows, hlen, h with
    | [a, b, c, d], _, h =>
      simp only [select, List.map_cons, List.map_nil, List.cons.injEq, and_true] at h
      rw [at' a 0 h.1, at' b 1 h.2.1, at' c 4 h.2.2.1, at' d 5 h.2.2.2]
      rfl
  rw [hr α ds .contiguous (by rw [hd]; rfl) (by simp) (by simp), e3]

end

/-- Positions, centre, radius, box and masses; names for results. -/
private noncomputable def cornerState : Selections.State where
  shapes := fun i => match i with | 0 => [6, 3] | 1 => [3] | 2 => [] | 3 => [3] | 4 => [6] | _ => [0]
  env := fun i => match i with
    | 0 => ⟨sixRows.flatten, some true, some ⟨some 1, some (1 / 2)⟩, true⟩
    | 1 => ⟨[0, 1, 1], some false, some ⟨some 1, some (1 / 2)⟩, true⟩
    | 2 => ⟨[1 / 2], some true, some ⟨some 1, some (1 / 2)⟩, true⟩
    | 3 => ⟨[4, 4, 4], some true, some ⟨some 1, some (1 / 2)⟩, true⟩
    | 4 => ⟨massRows.flatten, some true, some ⟨some 0, some (1 / 2)⟩, true⟩
    | _ => ⟨[], some true, some ⟨some 0, some (1 / 2)⟩, true⟩

/-- The same with the rows that the region reads. -/
private noncomputable def cornerState' : Selections.State where
  shapes := fun i => match i with | 0 => [4, 3] | 1 => [3] | 2 => [] | 3 => [3] | 4 => [4] | _ => [0]
  env := fun i => match i with
    | 0 => ⟨[1 / 2, 2, 2, 3 / 4, 2, 2, 7 / 2, 2, 2, 15 / 4, 2, 2], some true, some ⟨some 1, some (1 / 2)⟩, true⟩
    | 1 => ⟨[0, 1, 1], some false, some ⟨some 1, some (1 / 2)⟩, true⟩
    | 2 => ⟨[1 / 2], some true, some ⟨some 1, some (1 / 2)⟩, true⟩
    | 3 => ⟨[4, 4, 4], some true, some ⟨some 1, some (1 / 2)⟩, true⟩
    | 4 => ⟨[1, 2, 5, 6], some true, some ⟨some 0, some (1 / 2)⟩, true⟩
    | _ => ⟨[], some true, some ⟨some 0, some (1 / 2)⟩, true⟩

private def cornerExponents : Nat → ℝ := fun i => match i with | 0 => 1 | 1 => 1 | 2 => 1 | 3 => 1 | _ => 0

private theorem cornerState_ok : ScriptState (1 / 2) cornerExponents cornerState := by
  refine ⟨fun i => ?_, fun i => ?_⟩
  · match i with
    | 0 => exact ⟨by norm_num, rfl, rfl, by simp [cornerState]⟩
    | 1 => exact ⟨by norm_num, rfl, rfl, by simp [cornerState]⟩
    | 2 => exact ⟨by norm_num, rfl, rfl, by simp [cornerState]⟩
    | 3 => exact ⟨by norm_num, rfl, rfl, by simp [cornerState]⟩
    | 4 => exact ⟨by norm_num, rfl, rfl, by simp [cornerState]⟩
    | i + 5 => exact ⟨by norm_num, rfl, rfl, by simp [cornerState]⟩
  · match i with
    | 0 => simp [cornerState, sixRows, tuples, List.range_succ]
    | 1 => simp [cornerState, tuples, List.range_succ]
    | 2 => simp [cornerState, tuples]
    | 3 => simp [cornerState, tuples, List.range_succ]
    | 4 => simp [cornerState, massRows, tuples, List.range_succ]
    | i + 5 => simp [cornerState, tuples]

/-- The last particle is inside of the sphere around the corner, a quarter away from the copy of the centre on the other side. -/
example {b : Flags} (hb : evalCond cornerState.shapes cornerState.env periodicSphere = .ok b) : valueAt b.val 5 = some true := by
  refine ((c135_inside (by norm_num) cornerState_ok (n := 6) (d := 3) rfl rfl rfl rfl rfl rfl rfl ?_ hb).2 5).2
    ⟨by norm_num, by norm_num, fun j => if j = 0 then 1 / 8 else 0, fun j hj => ?_, ?_⟩
  · intro j hj
    interval_cases j <;> simp [cornerState, Arr.phys]
  · interval_cases j
    · refine ⟨⟨1, ?_⟩, fun k => ?_⟩
      · simp [cornerState, sixRows, Arr.phys]
        norm_num
      · simp [cornerState, sixRows, Arr.phys]
        rcases le_or_gt k 0 with hk | hk
        · have : (k : ℝ) ≤ 0 := by exact_mod_cast hk
          rw [abs_of_nonneg (by linarith)]
          linarith
        · have : (1 : ℝ) ≤ k := by exact_mod_cast hk
          rw [abs_of_nonpos (by linarith)]
          linarith
    · refine ⟨⟨0, ?_⟩, fun k => ?_⟩
      · simp [cornerState, sixRows, Arr.phys]
      · simp
    · refine ⟨⟨0, ?_⟩, fun k => ?_⟩
      · simp [cornerState, sixRows, Arr.phys]
      · simp
  · simp [List.range_succ, cornerState, Arr.phys]
    rw [show ((8 : ℝ) ^ 2)⁻¹ = (1 / 8) ^ 2 by norm_num, ← Real.rpow_natCast, ← Real.rpow_mul (by norm_num)]
    norm_num

private theorem corner_scales : ∃ ls, ScriptScales cornerExponents ((([(5, .var 4)] : List (Nat × Shaped.Expr)).map fun d => (d.1, .select d.2 periodicSphere)) ++
    ([(6, .total List.sum (.var 5))] : List (Nat × Shaped.Expr)).map fun d => (d.1, .formula d.2)) ls := by
  have hv : ∀ (ks : Nat → ℝ) i, ShapedDimension ks (.var i) (ks i) := fun ks i => ShapedDimension.var (ks := ks) i
  have hc : ∀ ks : Nat → ℝ, ks 0 = ks 1 → ks 0 = ks 2 → ks 0 = ks 3 → CondScales ks periodicSphere := fun ks h h2 h3 =>
    .cmp .less (.formula (periodicRadii_scale h h3)) (by rw [h2]; exact .formula (hv ks 2))
  exact ⟨_, .cons (.select (hv _ 4) (fun h => h) (hc _ rfl rfl rfl)) (.cons (.formula (.total scales_sum (hv _ 5)) (fun h => h)) (.nil _))⟩

/-- The mass in the sphere around the corner, with the four particles that the inverted region reads and with all six. -/
example {t t' : Selections.State} (ht : run [(5, .select (.var 4) periodicSphere), (6, .formula (.total List.sum (.var 5)))] cornerState = .ok t)
    (ht' : run [(5, .select (.var 4) periodicSphere), (6, .formula (.total List.sum (.var 5)))] cornerState' = .ok t') : (t'.env 6).phys = (t.env 6).phys := by
  obtain ⟨ls, hls⟩ := corner_scales
  have h := c135_sphere exFile exFile_wf [some [7 / 2, 1 / 2], none, none] (fun d => if d = 0 then (7 / 2, 1 / 2) else (0, 4)) ?_ ?_ false 0 (fun _ => .contiguous)
    (fun _ => ⟨by simp, by simp⟩) (a := 1 / 2) (by norm_num) (ks := cornerExponents) (s := cornerState) (s' := cornerState') cornerState_ok
    (row := fun i => i == 0 || i == 4) (u := fun i => if i = 0 then [3] else []) (R := fun i => if i = 0 then sixRows else massRows)
    (R' := fun i => if i = 0 then [[1 / 2, 2, 2], [3 / 4, 2, 2], [7 / 2, 2, 2], [15 / 4, 2, 2]] else [[1], [2], [5], [6]]) ?_ ?_ ?_ rfl rfl rfl rfl rfl rfl rfl rfl
    rfl rfl rfl (Rat.castHom ℝ) Rat.cast_strictMono (σ := 1 / 2) (by norm_num) (P := sixAt) (ctr := fun d => if d = 0 then 0 else 2) (rad := 1 / 2) ?_ ?_ ?_ ?_ ?_ ?_
    (cuts := [(5, .var 4)]) (l := [(6, .total List.sum (.var 5))]) ?_ ?_ hls
  · have h : (∃ err, run [(5, .select (.var 4) periodicSphere), (6, .formula (.total List.sum (.var 5)))] cornerState = .error err ∧
        run [(5, .select (.var 4) periodicSphere), (6, .formula (.total List.sum (.var 5)))] cornerState' = .error err) ∨
        ∃ t t', run [(5, .select (.var 4) periodicSphere), (6, .formula (.total List.sum (.var 5)))] cornerState = .ok t ∧
        run [(5, .select (.var 4) periodicSphere), (6, .formula (.total List.sum (.var 5)))] cornerState' = .ok t' ∧
        ∀ i, (i == 0 || i == 4) = false → t'.shapes i = t.shapes i ∧ (t'.env i).phys = (t.env i).phys := h
    rw [ht, ht'] at h
    rcases h with ⟨err, h, -⟩ | ⟨_, _, h1, h2, h⟩
    · cases h
    · cases h1
      cases h2
      exact (h 6 rfl).2
  · refine ⟨rfl, fun d => ?_⟩
    fin_cases d <;> simp [exFile]
  · intro d
    fin_cases d <;> norm_num [exFile]
  · intro i hi
    match i with
    | 0 =>
      refine ⟨rfl, ⟨rfl, by simp [sixRows, tuples, List.range_succ], rfl⟩, ?_, rfl, ⟨rfl, by simp [tuples, List.range_succ], rfl⟩⟩
      refine (corner_loads _ rfl).trans ?_
      simp [select, valueAt, sixRows]
    | 1 => cases hi
    | 2 => cases hi
    | 3 => cases hi
    | 4 =>
      refine ⟨rfl, ⟨rfl, by simp [massRows, tuples], rfl⟩, ?_, rfl, ⟨rfl, by simp [tuples], rfl⟩⟩
      refine (corner_loads _ rfl).trans ?_
      simp [select, valueAt, massRows]
    | i + 5 => simp at hi
  · intro i hi
    match i with
    | 0 => cases hi
    | 1 => exact ⟨rfl, rfl⟩
    | 2 => exact ⟨rfl, rfl⟩
    | 3 => exact ⟨rfl, rfl⟩
    | 4 => cases hi
    | i + 5 => exact ⟨rfl, rfl⟩
  · intro i
    match i with
    | 0 => exact ⟨rfl, rfl, rfl⟩
    | 1 => exact ⟨rfl, rfl, rfl⟩
    | 2 => exact ⟨rfl, rfl, rfl⟩
    | 3 => exact ⟨rfl, rfl, rfl⟩
    | 4 => exact ⟨rfl, rfl, rfl⟩
    | i + 5 => exact ⟨rfl, rfl, rfl⟩
  · intro i hi d
    have hi : i < 6 := hi
    interval_cases i <;> fin_cases d <;> simp [cornerState, sixRows, sixAt, Arr.phys]
  · intro d
    fin_cases d <;> simp [cornerState, Arr.phys]
  · simp [cornerState, Arr.phys]
  · intro d
    fin_cases d <;> simp [cornerState, Arr.phys, exFile]
  · intro i hi
    have hi : i < 6 := hi
    interval_cases i
    · exact ⟨exCell 0 2 0, by simp [exFile], by simp [Holds, exCell], fun d => by fin_cases d <;> norm_num [exCell, sixAt]⟩
    · exact ⟨exCell 0 2 0, by simp [exFile], by simp [Holds, exCell], fun d => by fin_cases d <;> norm_num [exCell, sixAt]⟩
    · exact ⟨exCell 2 1 1, by simp [exFile], by simp [Holds, exCell], fun d => by fin_cases d <;> norm_num [exCell, sixAt]⟩
    · exact ⟨exCell 3 1 2, by simp [exFile], by simp [Holds, exCell], fun d => by fin_cases d <;> norm_num [exCell, sixAt]⟩
    · exact ⟨exCell 4 2 3, by simp [exFile], by simp [Holds, exCell], fun d => by fin_cases d <;> norm_num [exCell, sixAt]⟩
    · exact ⟨exCell 4 2 3, by simp [exFile], by simp [Holds, exCell], fun d => by fin_cases d <;> norm_num [exCell, sixAt]⟩
  · intro d
    refine ⟨if d = 0 then 1 else 0, ?_⟩
    fin_cases d <;> norm_num [exFile, wrapUpper]
  · intro d hd
    rw [List.mem_singleton] at hd
    subst hd
    exact ⟨by simp, rfl, fun rank _ => ⟨_, PerRow.var (rank := rank) (row := fun i => i == 0 || i == 4) 4⟩⟩
  · intro d hd
    rw [List.mem_singleton] at hd
    subst hd
    exact ⟨rfl, _, .total (PerRow.var (rank := fun j => (cornerState.shapes j).length) (row := fun i => i == 0 || i == 4) 5)⟩

end Verif.Props
