import Verif.Model.Cmaps

/-!
# C48: two-dimensional colour maps
-/

namespace Verif.Props
open Verif Verif.Scatter Verif.Cmaps

/-- Cell `i` of `n` along one direction is the one for the value `v`: cells are `1 / (n - 1)` wide, and values outside `[0, 1]`
count as the nearest end. -/
def Node (n : Nat) (v : ℝ) (i : Int) : Prop :=
  0 ≤ i ∧ i < n ∧ (v ≤ 0 → i = 0) ∧ (1 ≤ v → i = n - 1) ∧
    (0 ≤ v → v ≤ 1 → (i : ℝ) ≤ ((n : ℝ) - 1) * v ∧ ((n : ℝ) - 1) * v < i + 1)

/-- C48: every value, also outside `[0, 1]`, has exactly one cell. -/
theorem c48_node {n : Nat} (hn : 0 < n) (v : ℝ) : ∃! i, Node n v i := by
  have h1 : (0 : ℝ) ≤ (n : ℝ) - 1 := by
    have : (1 : ℝ) ≤ n := by exact_mod_cast hn
    linarith
  rcases le_total v 0 with h | h
  · refine ⟨0, ⟨le_rfl, by exact_mod_cast hn, fun _ => rfl, fun h' => by linarith, fun h' h'' => ?_⟩, fun i hi => hi.2.2.1 h⟩
    have : v = 0 := le_antisymm h h'
    simp [this]
  · rcases le_total 1 v with h' | h'
    · refine ⟨n - 1, ⟨by omega, by omega, fun h => by linarith, fun _ => rfl, fun _ h => ?_⟩, fun i hi => hi.2.2.2.1 h'⟩
      have : v = 1 := le_antisymm h h'
      subst this
      push_cast
      constructor <;> linarith
    · refine ⟨⌊((n : ℝ) - 1) * v⌋, ⟨Int.floor_nonneg.2 (mul_nonneg h1 h), ?_, fun h2 => ?_, fun h2 => ?_, fun _ _ => ⟨Int.floor_le _, Int.lt_floor_add_one _⟩⟩, ?_⟩
      · rw [Int.floor_lt]; push_cast; nlinarith
      · have : v = 0 := le_antisymm h2 h
        simp [this]
      · have : v = 1 := le_antisymm h' h2
        subst this
        rw [mul_one, Int.floor_eq_iff]
        push_cast
        constructor <;> linarith
      · intro i hi
        obtain ⟨a, b⟩ := hi.2.2.2.2 h h'
        exact (Int.floor_eq_iff.2 ⟨a, b⟩).symm

private theorem base_node {n : Nat} (hn : 0 < n) (v : ℝ) : Node n v (base n v) := by
  have h1 : (0 : ℝ) ≤ (n : ℝ) - 1 := by
    have : (1 : ℝ) ≤ n := by exact_mod_cast hn
    linarith
  obtain ⟨i, hi, _⟩ := c48_node hn v
  have hc : 0 ≤ min (max v 0) 1 := le_min (le_max_right _ _) zero_le_one
  have hb : base n v = ⌊((n : ℝ) - 1) * min (max v 0) 1⌋ := if_pos (mul_nonneg h1 hc)
  have : base n v = i := by
    rw [hb]
    obtain ⟨_, _, a, b, c⟩ := hi
    rcases le_total v 0 with h | h
    · rw [a h, max_eq_right h, min_eq_left zero_le_one, mul_zero, Int.floor_zero]
    · rcases le_total 1 v with h' | h'
      · rw [b h', max_eq_left h, min_eq_right h', mul_one, Int.floor_eq_iff]
        push_cast
        constructor <;> linarith
      · rw [max_eq_left h, min_eq_left h', Int.floor_eq_iff]
        exact c h h'
  rw [this]
  exact hi

private theorem lookup_ok {nx ny : Nat} (hx : 0 < nx) (hy : 0 < ny) {grid : Int → Int → Color} (hg : ∀ i j : Int, 0 ≤ i → i < nx → 0 ≤ j → j < ny → (grid i j).length = 4) (h v : ℝ) :
    lookup nx ny grid h v = .ok (grid (base nx h) (base ny v)) := by
  obtain ⟨a, b, _⟩ := base_node hx h
  obtain ⟨c, d, _⟩ := base_node hy v
  unfold lookup
  rw [if_pos ⟨a, b, c, d⟩, if_pos (hg _ _ a b c d)]

private theorem mapM_ok {α β : Type} {f : α → Except Err β} {g : α → β} : ∀ l : List α, (∀ x ∈ l, f x = .ok (g x)) → l.mapM f = .ok (l.map g) := by
  intro l
  induction l with
  | nil => intro _; rfl
  | cons a l ih =>
    intro h
    rw [List.mapM_cons, h a (by simp), ih (fun x hx => h x (by simp [hx]))]
    rfl

private theorem apply_ok {nx ny : Nat} (hx : 0 < nx) (hy : 0 < ny) {grid : Int → Int → Color} (hg : ∀ i j : Int, 0 ≤ i → i < nx → 0 ≤ j → j < ny → (grid i j).length = 4)
    (hs vs : List ℝ) (hl : hs.length ≤ vs.length) :
    applyColorMap nx ny grid hs vs = .ok ((hs.zip vs).map fun p => grid (base nx p.1) (base ny p.2)) := by
  unfold applyColorMap
  rw [mapM_ok (g := fun p => grid (base nx p.1) (base ny (vs.getD p.2 0)))]
  · congr 1
    apply List.ext_getElem
    · simp [hl]
    · intro i h1 h2
      have h3 : i < vs.length := by simp at h2; omega
      simp [List.getElem?_eq_getElem h3]
  · intro p hp
    obtain ⟨v, i⟩ := p
    have := List.mk_mem_zipIdx_iff_getElem?.1 hp
    have hi : i < vs.length := lt_of_lt_of_le (List.getElem?_eq_some_iff.1 this).1 hl
    simp only [List.getElem?_eq_getElem hi, List.getD_eq_getElem?_getD, Option.getD_some]
    exact lookup_ok hx hy hg _ _

/-- C48, any grid of colours with four channels: two arrays of one shape give an array of colours, four numbers longer in its
last direction. Each is the colour of the cell of its two values. Nothing is read outside the grid. -/
theorem c48_call {nx ny : Nat} (hx : 0 < nx) (hy : 0 < ny) {grid : Int → Int → Color} (hg : ∀ i j : Int, 0 ≤ i → i < nx → 0 ≤ j → j < ny → (grid i j).length = 4)
    (junk : Nat → ℝ) (shape : List Nat) (hs vs : List ℝ) (hl : hs.length = vs.length) :
    ∃ out, call nx ny grid junk (.array shape hs) (.array shape vs) = .ok (shape ++ [4], out) ∧ out.length = hs.length ∧
      ∀ (k : Nat) (h v : ℝ), hs[k]? = some h → vs[k]? = some v → ∃ i j, Node nx h i ∧ Node ny v j ∧ out[k]? = some (grid i j) := by
  refine ⟨(hs.zip vs).map fun p => grid (base nx p.1) (base ny p.2), ?_, ?_, ?_⟩
  · unfold call
    simp only [verticalValues, horizontalValues, bind, Except.bind]
    rw [apply_ok hx hy hg hs vs hl.le]
    rfl
  · simp [hl]
  · intro k h v hh hv
    refine ⟨_, _, base_node hx h, base_node hy v, ?_⟩
    rw [List.getElem?_map, List.getElem?_zip_eq_some (z := (h, v)) |>.2 ⟨hh, hv⟩]
    rfl

/-- C48: a list as first argument is an array of one axis, as long as the list. -/
theorem c48_call_list {nx ny : Nat} (hx : 0 < nx) (hy : 0 < ny) {grid : Int → Int → Color} (hg : ∀ i j : Int, 0 ≤ i → i < nx → 0 ≤ j → j < ny → (grid i j).length = 4)
    (junk : Nat → ℝ) (shape : List Nat) (hs vs : List ℝ) (hl : hs.length = vs.length) :
    ∃ out, call nx ny grid junk (.list hs) (.array shape vs) = .ok ([hs.length, 4], out) ∧ out.length = hs.length ∧
      ∀ (k : Nat) (h v : ℝ), hs[k]? = some h → vs[k]? = some v → ∃ i j, Node nx h i ∧ Node ny v j ∧ out[k]? = some (grid i j) := by
  obtain ⟨out, e, h2, h3⟩ := c48_call hx hy hg junk [hs.length] hs vs hl
  exact ⟨out, e, h2, h3⟩

/-! ## Linear segmented maps -/

/-- How near a place of the map is to an anchor: one at the anchor, zero at distance one and beyond. -/
noncomputable def nearness (p q : ℝ × ℝ) : ℝ := max (1 - Real.sqrt ((p.1 - q.1) ^ 2 + (p.2 - q.2) ^ 2)) 0

/-- Channel `k` of a colour given by up to four numbers: what is missing is black, and opaque. -/
def channel (color : List ℝ) (k : Nat) : ℝ := if h : k < color.length then color[k] else if k = 3 then 1 else 0

/-- The colour at a place: the mean of the anchors, weighted by nearness, over 1.0001. Places that are near to no anchor have no
colour. -/
def IsBlend (anchors : List (List ℝ × ℝ × ℝ)) (p : ℝ × ℝ) (c : Color) : Prop :=
  c.length = 4 ∧
  ((∀ a ∈ anchors, nearness p a.2 = 0) → ∀ k < 4, c[k]? = some none) ∧
  ((∃ a ∈ anchors, nearness p a.2 ≠ 0) → ∀ k < 4, ∃ x, c[k]? = some (some x) ∧
    x * (10001 / 10000) * (anchors.map fun a => nearness p a.2).sum = (anchors.map fun a => nearness p a.2 * channel a.1 k).sum)

private theorem weight_near (p : ℝ × ℝ) (q : ℝ × ℝ) : weight p.1 p.2 q = nearness p q := by
  unfold weight nearness
  rw [sq, sq]

private theorem near_nonneg (p q : ℝ × ℝ) : 0 ≤ nearness p q := le_max_right _ _

private theorem sum_near_pos {anchors : List (List ℝ × ℝ × ℝ)} {p : ℝ × ℝ} (h : ∃ a ∈ anchors, nearness p a.2 ≠ 0) :
    0 < (anchors.map fun a => nearness p a.2).sum := by
  obtain ⟨a, ha, hne⟩ := h
  have h1 : nearness p a.2 ≤ (anchors.map fun a => nearness p a.2).sum :=
    List.single_le_sum (by intro x hx; obtain ⟨b, _, rfl⟩ := List.mem_map.1 hx; exact near_nonneg _ _) _ (List.mem_map_of_mem ha)
  exact lt_of_lt_of_le (lt_of_le_of_ne (near_nonneg _ _) (Ne.symm hne)) h1

private theorem rgba_channel {color : List ℝ} (h : color.length ≤ 4) :
    ensureRgba color = .ok ((List.range 4).map (channel color)) := by
  unfold ensureRgba
  rw [if_pos h]
  congr 1
  apply List.map_congr_left
  intro k _
  unfold channel
  rw [List.getD_eq_getElem?_getD]
  by_cases hk : k < color.length
  · rw [List.getElem?_eq_getElem hk, Option.getD_some, dif_pos hk]
  · rw [List.getElem?_eq_none (by omega), Option.getD_none, dif_neg hk]

private theorem cell_blend (n : Nat) (anchors : List (List ℝ × ℝ × ℝ)) (i j : Int) :
    IsBlend anchors ((j : ℝ) / ((n : ℝ) - 1), (i : ℝ) / ((n : ℝ) - 1))
      (linearCell n (anchors.map fun a => ((List.range 4).map (channel a.1), a.2)) i j) := by
  set p : ℝ × ℝ := ((j : ℝ) / ((n : ℝ) - 1), (i : ℝ) / ((n : ℝ) - 1)) with hp
  have e0 : (List.map (fun a : List ℝ × ℝ × ℝ => weight ((j : ℝ) / ((n : ℝ) - 1)) ((i : ℝ) / ((n : ℝ) - 1)) a.2)
      (anchors.map fun a => ((List.range 4).map (channel a.1), a.2))) = anchors.map fun a => nearness p a.2 := by
    rw [List.map_map]
    apply List.map_congr_left
    intro a _
    exact weight_near p a.2
  refine ⟨by simp [linearCell], ?_, ?_⟩
  · intro h k hk
    unfold linearCell
    dsimp only
    have hz : (anchors.map (fun a => nearness p a.2)).sum = 0 := by
      have : anchors.map (fun a => nearness p a.2) = anchors.map fun _ => 0 := List.map_congr_left h
      rw [this]; simp
    rw [e0]
    simp only [hz, if_true]
    rw [List.getElem?_map, List.getElem?_range hk, Option.map_some]
  · intro h k hk
    have hs := sum_near_pos h
    unfold linearCell
    dsimp only
    rw [e0]
    rw [List.getElem?_map, List.getElem?_range hk, Option.map_some]
    simp only [hs.ne', if_false]
    refine ⟨_, rfl, ?_⟩
    · have e1 : (anchors.map fun a => ((List.range 4).map (channel a.1), a.2)).map
          (fun a => a.1.getD k 0 * weight ((j : ℝ) / ((n : ℝ) - 1)) ((i : ℝ) / ((n : ℝ) - 1)) a.2) =
          anchors.map fun a => nearness p a.2 * channel a.1 k := by
        rw [List.map_map]
        apply List.map_congr_left
        intro a _
        have := weight_near p a.2
        simp only [hp] at this
        simp only [Function.comp_def, this, List.getD_eq_getElem?_getD, List.getElem?_map, List.getElem?_range hk, Option.map_some,
          Option.getD_some, hp]
        ring
      rw [e1]
      field_simp

/-- C48, linear segmented maps: every value pair `(h, v)` has the blend of the anchors at its cell. The place of the cell has the
second value along the first coordinate of the anchors and the first value along the second one. -/
theorem c48_linear {n : Nat} (hn : 0 < n) (anchors : List (List ℝ × ℝ × ℝ)) (ha : ∀ a ∈ anchors, a.1.length ≤ 4)
    (junk : Nat → ℝ) (shape : List Nat) (hs vs : List ℝ) (hl : hs.length = vs.length) :
    ∃ out, linear n (anchors.map Prod.fst) (anchors.map Prod.snd) junk (.array shape hs) (.array shape vs) = .ok (shape ++ [4], out) ∧
      out.length = hs.length ∧ ∀ (k : Nat) (h v : ℝ), hs[k]? = some h → vs[k]? = some v → ∃ i j c, Node n h i ∧ Node n v j ∧
        out[k]? = some c ∧ IsBlend anchors ((j : ℝ) / ((n : ℝ) - 1), (i : ℝ) / ((n : ℝ) - 1)) c := by
  have h1 : (anchors.map Prod.fst).mapM ensureRgba = .ok ((anchors.map Prod.fst).map fun c => (List.range 4).map (channel c)) :=
    mapM_ok _ (by intro c hc; obtain ⟨a, h, rfl⟩ := List.mem_map.1 hc; exact rgba_channel (ha a h))
  have h2 : ((anchors.map Prod.fst).map fun c => (List.range 4).map (channel c)).zip (anchors.map Prod.snd) =
      anchors.map fun a => ((List.range 4).map (channel a.1), a.2) := by
    rw [List.map_map, List.zip_map']
    rfl
  obtain ⟨out, o1, o2, o3⟩ := c48_call hn hn (grid := linearCell n (anchors.map fun a => ((List.range 4).map (channel a.1), a.2)))
    (by intro i j _ _ _ _; simp [linearCell]) junk shape hs vs hl
  refine ⟨out, ?_, o2, ?_⟩
  · unfold linear
    rw [h1]
    simp only [bind, Except.bind]
    rw [h2]
    exact o1
  · intro k h v hh hv
    obtain ⟨i, j, a, b, c⟩ := o3 k h v hh hv
    exact ⟨i, j, _, a, b, c, cell_blend n anchors i j⟩

/-- C48: a blend of colours is a colour: channels stay in `[0, 1]`. -/
theorem c48_range {anchors : List (List ℝ × ℝ × ℝ)} (h01 : ∀ a ∈ anchors, ∀ x ∈ a.1, 0 ≤ x ∧ x ≤ 1) {p : ℝ × ℝ} {c : Color}
    (hc : IsBlend anchors p c) {k : Nat} {x : ℝ} (hk : c[k]? = some (some x)) : 0 ≤ x ∧ x ≤ 1 := by
  obtain ⟨h4, hnone, hsome⟩ := hc
  have hk4 : k < 4 := h4 ▸ (List.getElem?_eq_some_iff.1 hk).1
  by_cases h : ∃ a ∈ anchors, nearness p a.2 ≠ 0
  · obtain ⟨y, hy, e⟩ := hsome h k hk4
    rw [hk] at hy
    cases hy
    have hs := sum_near_pos h
    have hch : ∀ a ∈ anchors, 0 ≤ channel a.1 k ∧ channel a.1 k ≤ 1 := by
      intro a ha
      unfold channel
      split
      · exact h01 a ha _ (List.getElem_mem _)
      · split <;> norm_num
    have b1 : 0 ≤ (anchors.map fun a => nearness p a.2 * channel a.1 k).sum := List.sum_nonneg (by
      intro z hz
      obtain ⟨a, ha, rfl⟩ := List.mem_map.1 hz
      exact mul_nonneg (near_nonneg _ _) (hch a ha).1)
    have b2 : (anchors.map fun a => nearness p a.2 * channel a.1 k).sum ≤ (anchors.map fun a => nearness p a.2).sum :=
      List.sum_le_sum (fun a ha => mul_le_of_le_one_right (near_nonneg _ _) (hch a ha).2)
    rw [← e] at b1 b2
    constructor
    · by_contra hx
      push Not at hx
      have : x * (10001 / 10000) * (anchors.map fun a => nearness p a.2).sum < 0 := mul_neg_of_neg_of_pos (by linarith) hs
      linarith
    · by_contra hx
      push Not at hx
      have : (anchors.map fun a => nearness p a.2).sum < x * (10001 / 10000) * (anchors.map fun a => nearness p a.2).sum := by
        have : 1 < x * (10001 / 10000) := by linarith
        nlinarith
      linarith
  · push Not at h
    rw [hnone h k hk4] at hk
    simp at hk

private theorem sum_alone {anchors : List (List ℝ × ℝ × ℝ)} {p : ℝ × ℝ} (f : List ℝ × ℝ × ℝ → ℝ) {pre post : List (List ℝ × ℝ × ℝ)}
    {a : List ℝ × ℝ × ℝ} (he : anchors = pre ++ a :: post) (h : ∀ b ∈ pre ++ post, nearness p b.2 = 0) :
    (anchors.map fun b => nearness p b.2 * f b).sum = nearness p a.2 * f a := by
  subst he
  have e : ∀ l : List (List ℝ × ℝ × ℝ), (∀ b ∈ l, nearness p b.2 = 0) → (l.map fun b => nearness p b.2 * f b).sum = 0 := by
    intro l hl
    have : l.map (fun b => nearness p b.2 * f b) = l.map fun _ => 0 := List.map_congr_left (fun b hb => by rw [hl b hb, zero_mul])
    rw [this]; simp
  rw [List.map_append, List.map_cons, List.sum_append, List.sum_cons, e pre (fun b hb => h b (by simp [hb])),
    e post (fun b hb => h b (by simp [hb]))]
  ring

/-- C48, anchors: at the place of an anchor that has no other anchor within distance one the colour is that of the anchor, over
1.0001. What is missing for the full statement, the colour of the anchor for the values that are its coordinates: the factor,
other anchors (which are mixed in), and that values and coordinates are exchanged (`c48_transposed_fails`). -/
theorem c48_anchor_partial {anchors pre post : List (List ℝ × ℝ × ℝ)} {a : List ℝ × ℝ × ℝ} (he : anchors = pre ++ a :: post)
    (hfar : ∀ b ∈ pre ++ post, 1 ≤ (a.2.1 - b.2.1) ^ 2 + (a.2.2 - b.2.2) ^ 2) {c : Color} (hc : IsBlend anchors a.2 c) :
    c = (List.range 4).map fun k => some (channel a.1 k / (10001 / 10000)) := by
  have h1 : nearness a.2 a.2 = 1 := by simp [nearness]
  have h0 : ∀ b ∈ pre ++ post, nearness a.2 b.2 = 0 := by
    intro b hb
    apply max_eq_right
    have := Real.one_le_sqrt.2 (hfar b hb)
    linarith
  obtain ⟨h4, _, hs⟩ := hc
  apply List.ext_getElem?
  intro k
  by_cases hk : k < 4
  · obtain ⟨x, hx, e⟩ := hs ⟨a, by simp [he], by rw [h1]; norm_num⟩ k hk
    have e2 := sum_alone (p := a.2) (fun _ => 1) he h0
    simp only [mul_one] at e2
    rw [e2, sum_alone (p := a.2) (fun b => channel b.1 k) he h0, h1] at e
    rw [hx, List.getElem?_map, List.getElem?_range hk]
    simp only [Option.map_some, Option.some.injEq]
    rw [eq_div_iff (by norm_num)]
    linarith
  · rw [List.getElem?_eq_none (by omega), List.getElem?_eq_none (by simp; omega)]

/-! ## What does not hold -/

/-- `bower`, cmaps.py 431-435. -/
def bower : List (List ℝ × ℝ × ℝ) := [([1, 0, 0], 0, 0), ([0, 1, 0], 1, 0), ([0, 0, 1], 0, 1), ([0, 0, 0], 1, 1)]

/-- C48 fails for the built-in colour map: the values (1, 0) are the coordinates of green, but give blue. -/
theorem c48_transposed_fails (junk : Nat → ℝ) : ([0, 1, 0], 1, 0) ∈ bower ∧
    linear 256 (bower.map Prod.fst) (bower.map Prod.snd) junk (.array [1] [1]) (.array [1] [0]) =
      .ok ([1, 4], [[some 0, some 0, some (10000 / 10001), some (10000 / 10001)]]) := by
  refine ⟨by simp [bower], ?_⟩
  obtain ⟨out, h1, h2, h3⟩ := c48_linear (n := 256) (by norm_num) bower (by simp [bower]) junk [1] [1] [0] rfl
  obtain ⟨i, j, c, hi, hj, hc, hb⟩ := h3 0 1 0 rfl rfl
  have ei := hi.2.2.2.1 le_rfl
  have ej := hj.2.2.1 le_rfl
  subst ei ej
  have hp : (((0 : Int) : ℝ) / (((256 : Nat) : ℝ) - 1), ((((256 : Nat) : Int) - 1 : Int) : ℝ) / (((256 : Nat) : ℝ) - 1)) = ((0 : ℝ), (1 : ℝ)) := by
    norm_num
  rw [hp] at hb
  have := c48_anchor_partial (anchors := bower) (pre := [([1, 0, 0], 0, 0), ([0, 1, 0], 1, 0)]) (a := ([0, 0, 1], 0, 1))
    (post := [([0, 0, 0], 1, 1)]) rfl (by simp) hb
  rw [h1]
  match out, h2, hc with
  | [c'], _, hc =>
    simp only [List.getElem?_cons_zero, Option.some.injEq] at hc
    rw [hc, this]
    simp [List.range_succ, channel]

/-- C48 fails for anchors at a distance below one: the colour at an anchor is not that of the anchor. Here white, with black at
half the distance, comes out as a grey. -/
theorem c48_mixed_fails {c : Color} (hc : IsBlend [([1, 1, 1], 0, 0), ([0, 0, 0], 1 / 2, 0)] (0, 0) c) :
    c[0]? = some (some (2 / 3 / (10001 / 10000))) := by
  obtain ⟨x, hx, e⟩ := hc.2.2 ⟨([1, 1, 1], 0, 0), by simp, by simp [nearness]⟩ 0 (by norm_num)
  simp [nearness, channel] at e
  rw [hx]
  congr 2
  norm_num at e ⊢
  linarith

/-- C48 fails far from all anchors: there is no colour. -/
theorem c48_far_fails {c : Color} (hc : IsBlend [([1, 0, 0], 0, 0)] (1, 1) c) : c = [none, none, none, none] := by
  have h := hc.2.1 (by
    simp only [List.mem_singleton, forall_eq]
    apply max_eq_right
    have : (1 : ℝ) ≤ Real.sqrt ((1 - 0) ^ 2 + (1 - 0) ^ 2) := Real.one_le_sqrt.2 (by norm_num)
    linarith)
  apply List.ext_getElem?
  intro k
  by_cases hk : k < 4
  · rw [h k hk]
    rcases k with - | - | - | - | k <;> first | rfl | omega
  · rw [List.getElem?_eq_none (by have := hc.1; omega), List.getElem?_eq_none (by simp; omega)]

/-- C48 fails for lists: vertical values in a list are taken for the shape of an array. Fractions raise, for every map. -/
theorem c48_list_fails (nx ny : Nat) (grid : Int → Int → Color) (junk : Nat → ℝ) (h : Input) (vs : List ℝ) {v : ℝ} (hv : v ∈ vs)
    (hf : ∀ k : Int, v ≠ k) : call nx ny grid junk h (.list vs) = .error .typeErr := by
  unfold call verticalValues
  dsimp only
  rw [if_neg (by push Not; exact ⟨v, hv, hf⟩)]
  rfl

/-- C48 fails for lists of whole numbers too: the colours do not depend on the values. Here two different lists of values give the
colours of whatever was in memory. -/
theorem c48_list_whole_fails (nx ny : Nat) (grid : Int → Int → Color) (junk : Nat → ℝ) (h1 h2 : ℝ) :
    call nx ny grid junk (.list [h1, h2]) (.list [1, 2]) =
      call nx ny grid junk (.list [h1, h2]) (.list [2, 1]) := by
  have e1 : trunc (1 : ℝ) = 1 := by simp [trunc]
  have e2 : trunc (2 : ℝ) = 2 := by simp [trunc]
  unfold call verticalValues
  dsimp only
  rw [if_pos (by simp; exact ⟨⟨1, by norm_num⟩, ⟨2, by norm_num⟩⟩), if_pos (by simp), if_pos (by simp; exact ⟨⟨2, by norm_num⟩, ⟨1, by norm_num⟩⟩), if_pos (by simp)]
  simp [e1, e2]

/-- C48 fails for images without transparency: three channels do not fit. -/
theorem c48_three_channels_fails {nx ny : Nat} (hx : 0 < nx) (hy : 0 < ny) {grid : Int → Int → Color} (hg : ∀ i j, (grid i j).length = 3)
    (junk : Nat → ℝ) (h v : ℝ) : call nx ny grid junk (.array [1] [h]) (.array [1] [v]) = .error .value := by
  obtain ⟨a, b, _⟩ := base_node hx h
  obtain ⟨c, d, _⟩ := base_node hy v
  have : lookup nx ny grid h v = .error .value := by
    unfold lookup
    rw [if_pos ⟨a, b, c, d⟩, if_neg (by rw [hg]; norm_num)]
  simp [call, verticalValues, horizontalValues, applyColorMap, this, bind, Except.bind]

/-- Anchors that meet the hypotheses of `c48_linear` and `c48_range`. -/
example : (∀ a ∈ bower, a.1.length ≤ 4) ∧ (∀ a ∈ bower, ∀ x ∈ a.1, 0 ≤ x ∧ x ≤ 1) := by
  constructor <;> simp [bower]

end Verif.Props
