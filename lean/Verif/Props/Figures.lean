import Verif.Spec.Figures
import Verif.Props.Cmaps
import Verif.Props.VolumeVis

/-!
# C101: the figures of colour maps and of rendering functions
-/

namespace Verif.Props
open Verif Verif.Figures Verif.Cmaps Verif.Spec

private theorem near {n : Nat} (hn : 0 < n) {t : ℝ} (h0 : 0 ≤ t) (h1 : t < 1) :
    ∃ (r : Int) (h : ℝ), CoversPlace n t r ∧ 0 ≤ r ∧ r < n ∧ |h - t| ≤ 1 / n ∧ Node n h r := by
  have hn' : (0 : ℝ) < n := by exact_mod_cast hn
  have r0 : 0 ≤ ⌊t * n⌋ := Int.floor_nonneg.2 (by positivity)
  have r1 : ⌊t * n⌋ < (n : Int) := by
    rw [Int.floor_lt]
    push_cast
    nlinarith
  have hp : CoversPlace n t ⌊t * n⌋ := ⟨Int.floor_le _, Int.lt_floor_add_one _⟩
  generalize ⌊t * n⌋ = r at r0 r1 hp
  refine ⟨r, (r : ℝ) / ((n : ℝ) - 1), hp, r0, r1, ?_, ?_⟩
  · obtain ⟨a, b⟩ := hp
    by_cases h2 : n = 1
    · subst h2
      have : r = 0 := by omega
      subst this
      simp
      rw [abs_of_nonneg h0]
      exact h1.le
    · have hm : (0 : ℝ) < (n : ℝ) - 1 := by
        have : (2 : ℝ) ≤ n := by exact_mod_cast (by omega : 2 ≤ n)
        linarith
      have r0' : (0 : ℝ) ≤ r := by exact_mod_cast r0
      have r1' : (r : ℝ) ≤ (n : ℝ) - 1 := by
        have : r + 1 ≤ (n : Int) := r1
        have : (r : ℝ) + 1 ≤ n := by exact_mod_cast this
        linarith
      rw [abs_le]
      constructor
      · have : (r : ℝ) / ((n : ℝ) - 1) ≥ (r + 1) / n - 1 / n := by
          rw [← sub_div, ge_iff_le, div_le_div_iff₀ hn' hm]
          nlinarith
        have : t ≤ ((r : ℝ) + 1) / n := by rw [le_div_iff₀ hn']; exact b.le
        linarith
      · have h3 : (r : ℝ) / n ≤ t := by rw [div_le_iff₀ hn']; exact a
        have : (r : ℝ) / ((n : ℝ) - 1) ≤ r / n + 1 / n := by
          rw [← add_div, div_le_div_iff₀ hm hn']
          nlinarith
        linarith
  · refine ⟨r0, r1, fun h => ?_, fun h => ?_, fun _ _ => ?_⟩
    · by_cases h2 : n = 1
      · omega
      · have hm : (0 : ℝ) < (n : ℝ) - 1 := by
          have : (2 : ℝ) ≤ n := by exact_mod_cast (by omega : 2 ≤ n)
          linarith
        rw [div_le_iff₀ hm, zero_mul] at h
        have : r ≤ 0 := by exact_mod_cast h
        omega
    · by_cases h2 : n = 1
      · subst h2
        simp at h
        linarith
      · have hm : (0 : ℝ) < (n : ℝ) - 1 := by
          have : (2 : ℝ) ≤ n := by exact_mod_cast (by omega : 2 ≤ n)
          linarith
        rw [le_div_iff₀ hm, one_mul] at h
        have : (n : Int) - 1 ≤ r := by exact_mod_cast h
        omega
    · by_cases h2 : n = 1
      · subst h2
        have : r = 0 := by omega
        subst this
        simp
      · have hm : (n : ℝ) - 1 ≠ 0 := by
          have : (2 : ℝ) ≤ n := by exact_mod_cast (by omega : 2 ≤ n)
          linarith
        rw [mul_div_cancel₀ _ hm]
        exact ⟨le_rfl, by linarith⟩

private theorem grid_kept {A : Type} {generate : A → Except Err (Int → Int → Color)} {m : Cmap A} {g : Int → Int → Color}
    (hg : (m.grid generate).1 = .ok g) : (m.grid generate).2.kept = some g ∧ (m.grid generate).2.source = m.source := by
  unfold Cmap.grid at *
  cases hm : m.kept with
  | some g' =>
    rw [hm] at hg
    cases hg
    exact ⟨hm, rfl⟩
  | none =>
    rw [hm] at hg
    dsimp only at *
    cases h : generate m.source with
    | error e => rw [h] at hg; cases hg
    | ok g' => rw [h] at hg; cases hg; exact ⟨rfl, rfl⟩

private theorem grid_of_kept {A : Type} (generate : A → Except Err (Int → Int → Color)) {m : Cmap A} {g : Int → Int → Color}
    (hg : m.kept = some g) : m.grid generate = (.ok g, m) := by
  unfold Cmap.grid
  rw [hg]

/-- **C101**, the picture of a colour map: at every place `(x, y)` of the unit square it shows one colour, and that is the colour that the map
gives to the *horizontal* value `y` and the *vertical* value `x`, but for less than the size of a pixel. -/
theorem c101_image {rows columns : Nat} (hr : 0 < rows) (hc : 0 < columns) (generate : Anchors → Except Err (Int → Int → Color)) (m : Cmap Anchors)
    (includePoints : Bool) {g : Int → Int → Color} (hg : (m.grid generate).1 = .ok g)
    (h4 : ∀ i j : Int, 0 ≤ i → i < rows → 0 ≤ j → j < columns → (g i j).length = 4) (junk : Nat → ℝ) {x y : ℝ} (hx : 0 ≤ x ∧ x < 1) (hy : 0 ≤ y ∧ y < 1) :
    ∃ c, (∀ c', ShowsColour (plot rows columns generate m includePoints).2.1 x y c' ↔ c' = c) ∧ ∃ h v, |h - y| ≤ 1 / rows ∧ |v - x| ≤ 1 / columns ∧
      (apply rows columns generate junk (plot rows columns generate m includePoints).1 (.array [1] [h]) (.array [1] [v])).2 = .ok ([1, 4], [c]) := by
  obtain ⟨i, h, hi, i0, i1, hh, ni⟩ := near hr hy.1 hy.2
  obtain ⟨j, v, hj, j0, j1, hv, nj⟩ := near hc hx.1 hx.2
  have hnoimg : ∀ a : Anchors, ∀ R C G, Draw.image R C G ∉ (markers a).1 := by
    intro a R C G
    have hp : ∀ l : List (List ℝ × ℝ × ℝ), Draw.image R C G ∉ (points l).1 := by
      intro l
      induction l with
      | nil => simp [points]
      | cons p l ih =>
        obtain ⟨c, x, y⟩ := p
        unfold points
        cases ensureRgba c with
        | error e => simp
        | ok rgba => simpa using ih
    unfold markers
    cases a.colors with
    | none => simp
    | some cs =>
      cases a.coordinates with
      | none => simp
      | some ps => exact hp _
  have himg : ∀ R C G, Draw.image R C G ∈ (plot rows columns generate m includePoints).2.1 ↔ R = rows ∧ C = columns ∧ G = g := by
    intro R C G
    unfold plot
    rw [hg]
    dsimp only
    cases includePoints with
    | false => simp
    | true => simp [hnoimg]
  have pixel_unique : ∀ (n : Nat) (t : ℝ) (a b : Int), CoversPlace n t a → CoversPlace n t b → a = b := by
    rintro n t a b ⟨a1, a2⟩ ⟨b1, b2⟩
    have h1 : (a : ℝ) < b + 1 := by linarith
    have h2 : (b : ℝ) < a + 1 := by linarith
    have h1 : a < b + 1 := by exact_mod_cast h1
    have h2 : b < a + 1 := by exact_mod_cast h2
    omega
  refine ⟨g i j, fun c' => ⟨?_, ?_⟩, h, v, hh, hv, ?_⟩
  · rintro ⟨R, C, G, r, k, hmem, p1, p2, rfl⟩
    obtain ⟨rfl, rfl, rfl⟩ := (himg R C G).1 hmem
    rw [pixel_unique _ _ _ _ p1 hi, pixel_unique _ _ _ _ p2 hj]
  · rintro rfl
    exact ⟨rows, columns, g, i, j, (himg _ _ _).2 ⟨rfl, rfl, rfl⟩, hi, hj, rfl⟩
  · have hm : (plot rows columns generate m includePoints).1.grid generate = (.ok g, (m.grid generate).2) := by
      have : (plot rows columns generate m includePoints).1 = (m.grid generate).2 := by
        unfold plot
        rw [hg]
      rw [this]
      exact grid_of_kept generate (grid_kept hg).1
    unfold apply
    rw [hm]
    show call rows columns g junk (.array [1] [h]) (.array [1] [v]) = _
    obtain ⟨out, e, hl, hout⟩ := c48_call hr hc h4 junk [1] [h] [v] rfl
    obtain ⟨i', j', n1, n2, e'⟩ := hout 0 h v rfl rfl
    rw [(c48_node hr h).unique n1 ni, (c48_node hc v).unique n2 nj] at e'
    rw [e]
    match out, hl, e' with
    | [c], _, e' => simp only [List.getElem?_cons_zero, Option.some.injEq] at e'; rw [e']; rfl

/-- **C101**, the points: with `include_points` every anchor is drawn at its coordinates in its colour, after the picture and the two
labels, and without it nothing else is drawn. -/
theorem c101_points {rows columns : Nat} (generate : Anchors → Except Err (Int → Int → Color)) (m : Cmap Anchors)
    {g : Int → Int → Color} (hg : (m.grid generate).1 = .ok g) (anchors : List (List ℝ × ℝ × ℝ))
    (h1 : m.source.colors = some (anchors.map Prod.fst)) (h2 : m.source.coordinates = some (anchors.map Prod.snd)) (h4 : ∀ a ∈ anchors, a.1.length ≤ 4) :
    (plot rows columns generate m true).2 = ((plot rows columns generate m false).2.1 ++ anchors.map (fun a => .point a.2.1 a.2.2 ((List.range 4).map (channel a.1))), .ok ()) ∧
      (plot rows columns generate m false).2 = ([.image rows columns g, .xlabel "Horizontal Value (first index)", .ylabel "Vertical Value (second index)"], .ok ()) := by
  have hf : (plot rows columns generate m false).2 = ([.image rows columns g, .xlabel "Horizontal Value (first index)", .ylabel "Vertical Value (second index)"], .ok ()) := by
    unfold plot
    rw [hg]
    simp
  refine ⟨?_, hf⟩
  rw [hf]
  have hp : points anchors = (anchors.map (fun a => .point a.2.1 a.2.2 ((List.range 4).map (channel a.1))), .ok ()) := by
    clear h1 h2
    induction anchors with
    | nil => rfl
    | cons a l ih =>
      obtain ⟨c, x, y⟩ := a
      have hc : ensureRgba c = .ok ((List.range 4).map (channel c)) := by
        unfold ensureRgba
        rw [if_pos (h4 (c, x, y) List.mem_cons_self)]
        congr 1
        apply List.map_congr_left
        intro k _
        unfold channel
        by_cases h : k < c.length
        · rw [dif_pos h, List.getD_eq_getElem?_getD, List.getElem?_eq_getElem h, Option.getD_some]
        · rw [dif_neg h, List.getD_eq_getElem?_getD, List.getElem?_eq_none (by omega), Option.getD_none]
      unfold points
      rw [hc]
      dsimp only
      rw [ih fun a ha => h4 a (List.mem_cons_of_mem _ ha)]
      rfl
  have hz : (anchors.map Prod.fst).zip (anchors.map Prod.snd) = anchors := by
    rw [List.zip_map', show (fun a : List ℝ × ℝ × ℝ => (a.1, a.2)) = id from rfl, List.map_id]
  have hm : markers m.source = (anchors.map (fun a => .point a.2.1 a.2.2 ((List.range 4).map (channel a.1))), .ok ()) := by
    unfold markers
    rw [h1, h2]
    dsimp only
    rw [hz, hp]
  unfold plot
  rw [hg]
  simp only [if_true, hm]

/-- **C101**: a map without colours, such as one from an image, has no points to draw. -/
theorem c101_no_points {rows columns : Nat} (generate : Anchors → Except Err (Int → Int → Color)) (m : Cmap Anchors) (h : m.source.colors = none) :
    plot rows columns generate m true = plot rows columns generate m false := by
  unfold plot
  cases (m.grid generate).1 <;> simp [markers, h]

/-- **C101**: a colour with more than four channels ends the call with an error; the picture and the points before it are drawn. -/
theorem c101_bad_colour {rows columns : Nat} (generate : Anchors → Except Err (Int → Int → Color)) (m : Cmap Anchors)
    {g : Int → Int → Color} (hg : (m.grid generate).1 = .ok g) (good rest : List (List ℝ × ℝ × ℝ)) (bad : List ℝ × ℝ × ℝ)
    (h1 : m.source.colors = some ((good ++ bad :: rest).map Prod.fst)) (h2 : m.source.coordinates = some ((good ++ bad :: rest).map Prod.snd))
    (h4 : ∀ a ∈ good, a.1.length ≤ 4) (hb : 4 < bad.1.length) :
    ∃ e, (plot rows columns generate m true).2 = ((plot rows columns generate m false).2.1 ++
      good.map (fun a => .point a.2.1 a.2.2 ((List.range 4).map (channel a.1))), .error e) := by
  have hp : points (good ++ bad :: rest) = (good.map (fun a => .point a.2.1 a.2.2 ((List.range 4).map (channel a.1))), .error .index) := by
    clear h1 h2
    induction good with
    | nil =>
      obtain ⟨c, x, y⟩ := bad
      have : ensureRgba c = .error .index := by
        unfold ensureRgba
        rw [if_neg (by simpa using hb)]
      simp [points, this]
    | cons a l ih =>
      obtain ⟨c, x, y⟩ := a
      have hc : ensureRgba c = .ok ((List.range 4).map (channel c)) := by
        unfold ensureRgba
        rw [if_pos (h4 (c, x, y) List.mem_cons_self)]
        congr 1
        apply List.map_congr_left
        intro k _
        unfold channel
        by_cases h : k < c.length
        · rw [dif_pos h, List.getD_eq_getElem?_getD, List.getElem?_eq_getElem h, Option.getD_some]
        · rw [dif_neg h, List.getD_eq_getElem?_getD, List.getElem?_eq_none (by omega), Option.getD_none]
      rw [List.cons_append]
      unfold points
      rw [hc]
      dsimp only
      rw [ih fun a ha => h4 a (List.mem_cons_of_mem _ ha)]
      rfl
  have hz : ((good ++ bad :: rest).map Prod.fst).zip ((good ++ bad :: rest).map Prod.snd) = good ++ bad :: rest := by
    rw [List.zip_map', show (fun a : List ℝ × ℝ × ℝ => (a.1, a.2)) = id from rfl, List.map_id]
  refine ⟨.index, ?_⟩
  unfold plot
  rw [hg]
  simp only [if_true, markers, h1, h2, hz, hp]
  simp

/-- **C101**: a map with colours and without coordinates is drawn without points, and the call fails. -/
theorem c101_no_coordinates {rows columns : Nat} (generate : Anchors → Except Err (Int → Int → Color)) (m : Cmap Anchors)
    {g : Int → Int → Color} (hg : (m.grid generate).1 = .ok g) {cs : List (List ℝ)} (h1 : m.source.colors = some cs) (h2 : m.source.coordinates = none) :
    (plot rows columns generate m true).2 = ((plot rows columns generate m false).2.1, .error .typeErr) := by
  unfold plot
  rw [hg]
  simp [markers, h1, h2]

/-- **C101**: a linear map without colours or without coordinates has no grid, so nothing is drawn of it. -/
theorem c101_incomplete (n rows columns : Nat) (a : Anchors) (h : a.colors = none ∨ a.coordinates = none) (includePoints : Bool) :
    ∃ e, plot rows columns (linearGrid n) { source := a } includePoints = ({ source := a }, [], .error e) ∧
      (a.colors = none → e = .typeErr) := by
  have hl : ∃ e, linearGrid n a = .error e ∧ (a.colors = none → e = .typeErr) := by
    unfold linearGrid
    rcases a with ⟨_ | cs, _ | ps⟩
    · exact ⟨_, rfl, fun _ => rfl⟩
    · exact ⟨_, rfl, fun _ => rfl⟩
    · dsimp only
      cases cs.mapM ensureRgba with
      | error e => exact ⟨e, rfl, by simp⟩
      | ok rgba => exact ⟨_, rfl, by simp⟩
    · simp at h
  obtain ⟨e, he, h'⟩ := hl
  refine ⟨e, ?_, h'⟩
  simp [plot, Cmap.grid, he]

/-- **C101**: a map is the same after a use as after a plot, unless its vertical values are refused: then it is as before. -/
theorem c101_uses {rows columns : Nat} (generate : Anchors → Except Err (Int → Int → Color)) (junk : Nat → ℝ) (m : Cmap Anchors)
    (horizontal : Input) (shape : List Nat) (d l : List ℝ) (includePoints : Bool) :
    (apply rows columns generate junk m horizontal (.array shape d)).1 = (plot rows columns generate m includePoints).1 ∧
      ((∃ x ∈ l, ∀ k : Int, x ≠ k) → (apply rows columns generate junk m horizontal (.list l)) = (m, .error .typeErr)) := by
  constructor
  · unfold plot
    cases (m.grid generate).1 <;> simp [apply, verticalValues]
  · rintro ⟨x, hx, hk⟩
    have : ¬ ∀ x ∈ l, ∃ k : Int, x = k := fun h => by
      obtain ⟨k, e⟩ := h x hx
      exact hk k e
    simp only [apply, verticalValues]
    rw [if_neg this]

/-- **C101**: if there is no grid nothing is drawn, and the map is as before. -/
theorem c101_refused {rows columns : Nat} (generate : Anchors → Except Err (Int → Int → Color)) (m : Cmap Anchors) (includePoints : Bool) {e : Err}
    (hk : m.kept = none) (h : generate m.source = .error e) : plot rows columns generate m includePoints = (m, [], .error e) := by
  have : m.grid generate = (.error e, m) := by
    unfold Cmap.grid
    rw [hk]
    dsimp only
    rw [h]
  unfold plot
  rw [this]

/-- C101 fails: colours that are set after the first use of a map are drawn as points on the picture of the old ones. -/
theorem c101_stale_fails {rows columns : Nat} (generate : Anchors → Except Err (Int → Int → Color)) (m : Cmap Anchors)
    {g : Int → Int → Color} (hg : (m.grid generate).1 = .ok g) (includePoints : Bool) (anchors : List (List ℝ × ℝ × ℝ)) (h4 : ∀ a ∈ anchors, a.1.length ≤ 4) :
    (plot rows columns generate { (plot rows columns generate m includePoints).1 with
      source := ⟨some (anchors.map Prod.fst), some (anchors.map Prod.snd)⟩ } true).2 =
    ([.image rows columns g, .xlabel "Horizontal Value (first index)", .ylabel "Vertical Value (second index)"] ++
      anchors.map (fun a => .point a.2.1 a.2.2 ((List.range 4).map (channel a.1))), .ok ()) := by
  have hk : ({ (plot rows columns generate m includePoints).1 with
      source := ⟨some (anchors.map Prod.fst), some (anchors.map Prod.snd)⟩ } : Cmap Anchors).kept = some g := by
    have : (plot rows columns generate m includePoints).1 = (m.grid generate).2 := by
      unfold plot
      rw [hg]
    rw [this]
    exact (grid_kept hg).1
  have := c101_points (rows := rows) (columns := columns) generate _ (congrArg Prod.fst (grid_of_kept generate hk)) anchors rfl rfl h4
  rw [this.1, this.2]

/-- The built-in map. -/
private noncomputable def bowerMap : Cmap Anchors := { source := ⟨some (bower.map Prod.fst), some (bower.map Prod.snd)⟩ }

/-- C101 fails for the built-in map: the picture, whose axes are labelled with the horizontal value along `x` and the vertical value along
`y`, is green at the lower right, and the map gives blue to horizontal value one and vertical value zero. -/
theorem c101_labels_fails (junk : Nat → ℝ) :
    ShowsColour (plot 256 256 (linearGrid 256) bowerMap false).2.1 (511 / 512) 0 [some 0, some (10000 / 10001), some 0, some (10000 / 10001)] ∧
    Draw.xlabel "Horizontal Value (first index)" ∈ (plot 256 256 (linearGrid 256) bowerMap false).2.1 ∧
    (apply 256 256 (linearGrid 256) junk bowerMap (.array [1] [1]) (.array [1] [0])).2 =
      .ok ([1, 4], [[some 0, some 0, some (10000 / 10001), some (10000 / 10001)]]) := by
  obtain ⟨rgba, hr⟩ : ∃ rgba, (bower.map Prod.fst).mapM ensureRgba = .ok rgba := by
    refine ⟨[[1, 0, 0, 1], [0, 1, 0, 1], [0, 0, 1, 1], [0, 0, 0, 1]], ?_⟩
    simp [bower, ensureRgba, List.mapM_cons, List.range_succ]
    rfl
  have hgrid : (bowerMap.grid (linearGrid 256)).1 = .ok (linearCell 256 (rgba.zip (bower.map Prod.snd))) := by
    unfold Cmap.grid bowerMap linearGrid
    dsimp only
    rw [hr]
    rfl
  have hlin : ∀ h v : Input, linear 256 (bower.map Prod.fst) (bower.map Prod.snd) junk h v =
      call 256 256 (linearCell 256 (rgba.zip (bower.map Prod.snd))) junk h v := by
    intro h v
    unfold linear
    rw [hr]
    rfl
  have h4 : ∀ i j : Int, 0 ≤ i → i < (256 : Nat) → 0 ≤ j → j < (256 : Nat) → (linearCell 256 (rgba.zip (bower.map Prod.snd)) i j).length = 4 := by
    intro i j _ _ _ _
    simp [linearCell]
  refine ⟨⟨256, 256, linearCell 256 (rgba.zip (bower.map Prod.snd)), 0, 255, ?_, ?_, ?_, ?_⟩, ?_, ?_⟩
  · unfold plot
    rw [hgrid]
    simp
  · simp [CoversPlace]
  · constructor <;> norm_num
  · obtain ⟨out, e1, l1, o1⟩ := c48_linear (n := 256) (by norm_num) bower (by simp [bower]) junk [1] [0] [1] rfl
    obtain ⟨out', e2, l2, o2⟩ := c48_call (nx := 256) (ny := 256) (by norm_num) (by norm_num) h4 junk [1] [0] [1] rfl
    rw [hlin, e2] at e1
    have he : out' = out := by
      have := (Prod.mk.injEq _ _ _ _).mp (Except.ok.inj e1)
      exact this.2
    subst he
    obtain ⟨i, j, c, hi, hj, hc, hb⟩ := o1 0 0 1 rfl rfl
    obtain ⟨i', j', hi', hj', hc'⟩ := o2 0 0 1 rfl rfl
    have a1 := hi.2.2.1 le_rfl
    have a2 := hj.2.2.2.1 le_rfl
    have a3 := hi'.2.2.1 le_rfl
    have a4 := hj'.2.2.2.1 le_rfl
    subst a1 a2 a3 a4
    have hp : (((((256 : Nat) : Int) - 1 : Int) : ℝ) / (((256 : Nat) : ℝ) - 1), ((0 : Int) : ℝ) / (((256 : Nat) : ℝ) - 1)) = ((1 : ℝ), (0 : ℝ)) := by
      norm_num
    rw [hp] at hb
    have := c48_anchor_partial (anchors := bower) (pre := [([1, 0, 0], 0, 0)]) (a := ([0, 1, 0], 1, 0))
      (post := [([0, 0, 1], 0, 1), ([0, 0, 0], 1, 1)]) rfl (by simp) hb
    have hcc : c = linearCell 256 (rgba.zip (bower.map Prod.snd)) 0 ((256 : Nat) - 1) := Option.some.inj (hc.symm.trans hc')
    have h255 : (((256 : Nat) : Int) - 1) = 255 := by norm_num
    rw [h255] at hcc
    rw [← hcc, this]
    simp [List.range_succ, channel]
  · unfold plot
    rw [hgrid]
    simp
  · have : (apply 256 256 (linearGrid 256) junk bowerMap (.array [1] [1]) (.array [1] [0])).2 =
        call 256 256 (linearCell 256 (rgba.zip (bower.map Prod.snd))) junk (.array [1] [1]) (.array [1] [0]) := by
      unfold apply
      rw [hgrid]
      rfl
    rw [this, ← hlin]
    exact (c48_transposed_fails junk).2

/-! ## Rendering functions -/

private theorem abscissa {c w : ℝ} {i : Nat} (hi : i < 100) : (abscissae c w)[i]? = some (c - 5 * w + i * (10 * w / 99)) := by
  unfold abscissae
  rw [List.getElem?_map, List.getElem?_range hi, Option.map_some]
  congr 1
  ring

private theorem shows {c w : ℝ} (hw : w ≠ 0) (k : VolumeVis.Color) : ShowsFunction (drawFunction c w k) c w k := by
  refine ⟨_, _, rfl, by simp [abscissae], ?_, ?_, ?_, ?_⟩
  · rw [abscissa (by norm_num)]; simp
  · rw [abscissa (by norm_num)]; congr 1; push_cast; ring
  · intro i x y hx hy
    have hl : (abscissae c w).length = 100 := by simp [abscissae]
    have hi := (List.getElem?_eq_some_iff.1 hy).1
    rw [hl] at hi
    rw [abscissa (by omega), Option.some.injEq] at hx
    rw [abscissa (by omega), Option.some.injEq] at hy
    rw [← hx, ← hy]
    push_cast
    ring
  · apply List.map_congr_left
    intro x _
    unfold height normal
    rw [if_neg hw]
    congr 3
    rw [← neg_sub x c, neg_div]
    ring

/-- **C101**, a figure of rendering functions: each function that has a width has its line and its curve, in the colour in which
`visualise_render` shows it; nothing else is drawn. -/
theorem c101_functions (centers ws : List ℝ) (cmap : ℝ → VolumeVis.Color) (hw : ∀ w ∈ ws, w ≠ 0) :
    ∃ l : List (List Draw), renderOptions centers (.list ws) cmap = .ok l.flatten ∧ l.length = min centers.length ws.length ∧
      ∀ (m : Nat) d c w, l[m]? = some d → centers[m]? = some c → ws[m]? = some w → ShowsFunction d c w (cmap ((m : ℝ) / ((centers.length : ℝ) - 1))) := by
  suffices H : ∀ (cs ws : List ℝ) (ks : List VolumeVis.Color), (∀ w ∈ ws, w ≠ 0) → ks.length = cs.length →
      ∃ l : List (List Draw), drawAll cs ws ks = l.flatten ∧ l.length = min cs.length ws.length ∧
        ∀ (m : Nat) d c w k, l[m]? = some d → cs[m]? = some c → ws[m]? = some w → ks[m]? = some k → ShowsFunction d c w k by
    obtain ⟨l, e, hl, hall⟩ := H centers ws (VolumeVis.colors cmap centers.length) hw (by simp [VolumeVis.colors])
    refine ⟨l, congrArg Except.ok e, hl, fun m d c w hd hc hw' => hall m d c w _ hd hc hw' ?_⟩
    unfold VolumeVis.colors
    rw [List.getElem?_map, List.getElem?_range (List.getElem?_eq_some_iff.1 hc).1]
    rfl
  clear hw centers ws
  intro cs
  induction cs with
  | nil =>
    intro ws ks _ _
    exact ⟨[], by cases ws <;> simp [drawAll], by simp, by simp⟩
  | cons c cs ih =>
    intro ws ks hw hk
    cases ws with
    | nil => exact ⟨[], by simp [drawAll], by simp, by simp⟩
    | cons w ws =>
      cases ks with
      | nil => simp at hk
      | cons k ks =>
        obtain ⟨l, e, hl, hall⟩ := ih ws ks (fun w' h => hw w' (List.mem_cons_of_mem _ h)) (by simpa using hk)
        refine ⟨drawFunction c w k :: l, by simp [drawAll, e], by simp [hl], ?_⟩
        intro m d c' w' k' h1 h2 h3 h4
        cases m with
        | zero =>
          simp only [List.getElem?_cons_zero, Option.some.injEq] at h1 h2 h3 h4
          subst h1 h2 h3 h4
          exact shows (hw _ List.mem_cons_self) _
        | succ m =>
          simp only [List.getElem?_cons_succ] at h1 h2 h3 h4
          exact hall m d c' w' k' h1 h2 h3 h4

/-- **C101**: one width for all is that width for each; a whole number is refused. -/
theorem c101_one_width (centers : List ℝ) (w : ℝ) (n : Int) (cmap : ℝ → VolumeVis.Color) :
    renderOptions centers (.float w) cmap = renderOptions centers (.list (centers.map fun _ => w)) cmap ∧
      renderOptions centers (.int n) cmap = .error .typeErr := by
  refine ⟨?_, rfl⟩
  unfold renderOptions
  simp

/-- **C101**: what is drawn of a function at a value is what a render gives for one voxel of that value. -/
theorem c101_render {c w : ℝ} (hw : w ≠ 0) (x : ℝ) :
    ∃ g, VolumeVis.renderVoxels ⟨1, 1, 1, fun _ _ _ => x⟩ c w = .ok g ∧ height c w x = some (g.val 0 0) := by
  obtain ⟨g, e, -, -, h⟩ := c77_sight ⟨1, 1, 1, fun _ _ _ => x⟩ (c := c) hw rfl
  refine ⟨g, e, ?_⟩
  rw [h 0 (by norm_num) 0 (by norm_num)]
  simp only [Finset.sum_range_one, VolumeVis.Spec.density, height, if_neg hw]
  congr 3
  rw [← neg_sub x c, neg_div]
  ring

/-- **C101**: the greatest height that is drawn is that of two places next to the centre, `5 / 99` widths away from it: the peak of the
function, at the centre, is above the whole curve. -/
theorem c101_peak_fails {c w : ℝ} (hw : 0 < w) :
    (∀ x ∈ abscissae c w, normal c w x ≤ Real.exp (-(5 / 99) ^ 2 / 2) * normal c w c) ∧
      (∃ x ∈ abscissae c w, normal c w x = Real.exp (-(5 / 99) ^ 2 / 2) * normal c w c) ∧
      Real.exp (-(5 / 99) ^ 2 / 2) * normal c w c < normal c w c := by
  have hd : 0 < w * Real.sqrt (2 * Real.pi) := by positivity
  have hc : normal c w c = 1 / (w * Real.sqrt (2 * Real.pi)) := by simp [normal]
  have hx : ∀ i : Nat, normal c w (c - 5 * w + i * (10 * w / 99)) = Real.exp (-(((2 * (i : ℝ) - 99) * (5 / 99)) ^ 2) / 2) * normal c w c := by
    intro i
    rw [hc]
    unfold normal
    rw [mul_one_div]
    congr 3
    field_simp
    ring
  refine ⟨fun x hm => ?_, ⟨c - 5 * w + (50 : Nat) * (10 * w / 99), ?_, ?_⟩, ?_⟩
  · obtain ⟨i, hi⟩ := List.getElem?_of_mem hm
    have hl : (abscissae c w).length = 100 := by simp [abscissae]
    have hlt := (List.getElem?_eq_some_iff.1 hi).1
    rw [abscissa (hl ▸ hlt), Option.some.injEq] at hi
    rw [← hi, hx]
    refine mul_le_mul_of_nonneg_right (Real.exp_le_exp.2 ?_) (by rw [hc]; positivity)
    have h1 : (1 : ℝ) ≤ (2 * (i : ℝ) - 99) ^ 2 := by
      have : (1 : Int) ≤ (2 * (i : Int) - 99) ^ 2 := by
        have : (2 * (i : Int) - 99) ≠ 0 := by omega
        have := pow_pos (abs_pos.2 this) 2
        rw [sq_abs] at this
        omega
      exact_mod_cast this
    rw [mul_pow]
    nlinarith
  · exact List.mem_of_getElem? (abscissa (by norm_num))
  · rw [hx]
    congr 2
    norm_num
  · rw [hc]
    refine mul_lt_of_lt_one_left (by positivity) (by rw [Real.exp_lt_one_iff]; norm_num)

/-- C101 fails for a width of zero: `visualise_render` refuses it, and here every height is not a number. -/
theorem c101_zero_fails (c : ℝ) (cmap : ℝ → VolumeVis.Color) : ∃ xs ys k k', renderOptions [c] (.list [0]) cmap = .ok [.line c k, .curve xs ys k'] ∧
    (∀ x ∈ xs, x = c) ∧ ∀ y ∈ ys, y = none := by
  refine ⟨_, _, _, _, rfl, ?_, ?_⟩
  · intro x hx
    obtain ⟨i, -, rfl⟩ := List.mem_map.1 hx
    simp
  · intro y hy
    obtain ⟨x, -, rfl⟩ := List.mem_map.1 hy
    simp [height]

/-! Examples: the built-in map has four points, and two functions of one width. -/

example : ∃ g, (plot 256 256 (linearGrid 256) bowerMap true).2 =
    ([.image 256 256 g, .xlabel "Horizontal Value (first index)", .ylabel "Vertical Value (second index)",
      .point 0 0 [1, 0, 0, 1], .point 1 0 [0, 1, 0, 1], .point 0 1 [0, 0, 1, 1], .point 1 1 [0, 0, 0, 1]], .ok ()) := by
  have hr : (bower.map Prod.fst).mapM ensureRgba = .ok [[1, 0, 0, 1], [0, 1, 0, 1], [0, 0, 1, 1], [0, 0, 0, 1]] := by
    simp [bower, ensureRgba, List.mapM_cons, List.range_succ]
    rfl
  obtain ⟨g, hg⟩ : ∃ g, (bowerMap.grid (linearGrid 256)).1 = .ok g := by
    refine ⟨linearCell 256 (List.zip [[1, 0, 0, 1], [0, 1, 0, 1], [0, 0, 1, 1], [0, 0, 0, 1]] (bower.map Prod.snd)), ?_⟩
    unfold Cmap.grid bowerMap linearGrid
    dsimp only
    rw [hr]
    rfl
  obtain ⟨h1, h2⟩ := c101_points (rows := 256) (columns := 256) (linearGrid 256) bowerMap hg bower rfl rfl (by simp [bower])
  refine ⟨g, ?_⟩
  rw [h1, h2]
  simp [bower, List.range_succ, channel]

/-- A map with a colour of five channels, and values that are not whole numbers. -/
example : (4 < ([1, 0, 0, 1, 1] : List ℝ).length) ∧ ∃ x ∈ ([1 / 2] : List ℝ), ∀ k : Int, x ≠ k := by
  refine ⟨by simp, 1 / 2, by simp, fun k hk => ?_⟩
  have h : (2 * k : ℝ) = 1 := by rw [← hk]; norm_num
  have : (2 * k : Int) = 1 := by exact_mod_cast h
  omega

example (k : VolumeVis.Color) : ∃ d, renderOptions [1, 2] (.float (1 / 2)) (fun _ => k) = .ok d ∧ d.length = 4 :=
  ⟨_, rfl, rfl⟩

end Verif.Props
