import Verif.Spec.RowArrays
import Verif.Props.Slices

/-!
# C89: rows and columns of arrays with a mask, without one, and in a subset. C95: the values at given indices
-/

namespace Verif.Props
open Verif Verif.Spec Verif.RowArrays
open Verif.Accel (rangesFromArray Layout meanBelow writeAt extractRanges getChunkRanges gather mkOrderedSlices reorderResult serverAccepts splitLens)

variable {α : Type}

/-! ## Shapes that fit -/

private theorem expand_self (l : List Nat) : expandRev l l = .ok l := by
  induction l with
  | nil => rfl
  | cons a l ih =>
    unfold expandRev
    rw [if_pos (Or.inr rfl), ih]
    rfl

private theorem flatten_get {β : Type} (w : Nat) (rows : List (List β)) (h : ∀ r ∈ rows, r.length = w) (i j : Nat) (hj : j < w) :
    rows.flatten[i * w + j]? = (rows[i]?).bind (fun r => r[j]?) := by
  induction rows generalizing i with
  | nil => simp
  | cons r rs ih =>
    have hr := h r (by simp)
    cases i with
    | zero =>
      rw [List.flatten_cons, List.getElem?_append_left (by omega)]
      simp
    | succ i =>
      have e : (i + 1) * w + j = r.length + (i * w + j) := by
        rw [hr, Nat.succ_mul]
        omega
      rw [List.flatten_cons, e, List.getElem?_append_right (by omega), Nat.add_sub_cancel_left, ih fun r hr => h r (by simp [hr])]
      simp

private theorem spread_self (rows : List (List α)) (drow : List Nat) (h : ∀ r ∈ rows, r.length = drow.prod) :
    spread rows.length drow rows.length drow rows.flatten = rows.map (List.map some) := by
  unfold spread
  apply List.ext_getElem
  · simp
  · intro i h1 h2
    have hi : i < rows.length := by simpa using h2
    have hri := h rows[i] (List.getElem_mem hi)
    rw [List.getElem_map, List.getElem_map, List.getElem_range]
    apply List.ext_getElem
    · simp [hri]
    · intro j h3 h4
      have hj : j < drow.prod := by simpa using h3
      rw [List.getElem_map, List.getElem_map, List.getElem_range, Nat.mod_eq_of_lt hi, Nat.mod_eq_of_lt hj, flatten_get _ rows h i j hj,
        List.getElem?_eq_getElem hi]
      show rows[i][j]? = _
      rw [List.getElem?_eq_getElem (by omega)]

/-- A buffer of the simple model, as rows of a shape. -/
private def fill (drow : List Nat) (o : Option (List (Option α))) : List (Option α) := o.getD (List.replicate drow.prod none)

private theorem writeAt_map {β γ : Type} (f : β → γ) (buf : List β) (p : Nat) (vs : List β) :
    writeAt (buf.map f) p (vs.map f) = (writeAt buf p vs).map (List.map f) := by
  unfold writeAt
  by_cases h : p + vs.length ≤ buf.length
  · rw [if_pos (by simpa using h), if_pos h]
    simp [Except.map, List.map_take, List.map_drop]
  · rw [if_neg (by simpa using h), if_neg h]
    rfl

private theorem gather_map {β γ : Type} (f : β → γ) (arr : List β) (is : List Int) :
    gather (arr.map f) is = (gather arr is).map (List.map f) := by
  induction is with
  | nil => rfl
  | cons i is ih =>
    unfold gather
    by_cases h : i < 0
    · rw [if_pos h, if_pos h]
      rfl
    · rw [if_neg h, if_neg h, List.getElem?_map]
      cases arr[i.toNat]? with
      | none => rfl
      | some v =>
        simp only [Option.map_some, ih]
        cases gather arr is <;> rfl

private theorem extract_map {β γ : Type} (f : β → γ) (arr : List β) (chunks rs : List Rng) :
    extractRanges (arr.map f) chunks rs = (extractRanges arr chunks rs).map (List.map f) := by
  unfold extractRanges
  cases Accel.adjustRanges chunks (Accel.assignChunks 0 chunks rs) rs 0 with
  | error e => rfl
  | ok adj =>
    cases h : Accel.expandRanges adj with
    | error e => simp only [bind, Except.bind, h]; rfl
    | ok idx => simp only [bind, Except.bind, h, gather_map]

private theorem split_map {β γ : Type} (f : β → γ) (ls : List Nat) (arr : List β) :
    splitLens ls (arr.map f) = (splitLens ls arr).map (List.map f) := by
  induction ls generalizing arr with
  | nil => rfl
  | cons a ls ih =>
    cases ls with
    | nil => rfl
    | cons b ls =>
      show (arr.map f).take a :: splitLens (b :: ls) ((arr.map f).drop a) = _
      rw [← List.map_drop, ih, ← List.map_take]
      rfl

private theorem mapM_get_map {β γ : Type} (f : β → γ) (ps : List β) (is : List Nat) :
    is.mapM (fun i => (ps.map f)[i]?) = (is.mapM (fun i => ps[i]?)).map (List.map f) := by
  induction is with
  | nil => rfl
  | cons i is ih =>
    rw [List.mapM_cons, List.mapM_cons, ih, List.getElem?_map]
    cases ps[i]? with
    | none => rfl
    | some v =>
      cases is.mapM (fun i => ps[i]?) <;> rfl

private theorem reorder_map {β γ : Type} (f : β → γ) (os : Accel.OrderedSlices) (arr : List β) :
    reorderResult os (arr.map f) = (reorderResult os arr).map (List.map f) := by
  unfold reorderResult
  cases os.inverse with
  | none => rfl
  | some inv =>
    dsimp only
    rw [split_map, mapM_get_map]
    cases inv.mapM (fun i => (splitLens (os.lengths.map Int.toNat) arr)[i]?) with
    | none => rfl
    | some ps => simp [Except.map, List.map_flatten]

section
variable {d : Arr α} {col : Option Nat} {drow : List Nat}

/-- What the simple model reads: rows of the selected columns. -/
private def simple (d : Arr α) (col : Option Nat) : List (List (Option α)) := d.rows.map fun r => (partRow d.rowShape col r).map some

private theorem part_length (hr : Rect d) (hs : partShape d.rowShape col = .ok drow) :
    ∀ r ∈ d.rows, (partRow d.rowShape col r).length = drow.prod := by
  intro r hm
  have hl := hr r hm
  cases hsh : d.rowShape with
  | nil =>
    rw [hsh] at hs hl
    obtain rfl := Except.ok.inj hs
    exact hl
  | cons c rest =>
    rw [hsh] at hs hl
    cases col with
    | none =>
      obtain rfl := Except.ok.inj hs
      exact hl
    | some k =>
      unfold partShape at hs
      dsimp only at hs
      by_cases hk : k < c
      · rw [if_pos hk] at hs
        obtain rfl := Except.ok.inj hs
        show ((r.drop (k * rest.prod)).take rest.prod).length = _
        rw [List.length_take, List.length_drop, hl, List.prod_cons]
        have : (k + 1) * rest.prod ≤ c * rest.prod := Nat.mul_le_mul_right _ hk
        rw [Nat.succ_mul] at this
        omega
      · rw [if_neg hk] at hs
        cases hs

private theorem direct_simple (hr : Rect d) (hs : partShape d.rowShape col = .ok drow) (hz : 0 ∉ drow)
    (buf : List (Option (List (Option α)))) (r : Rng) (hne : r.2 ≠ r.1) (p : Nat) :
    readDirect d col drow (buf.map (fill drow)) r p =
      (Accel.readDirect (simple d col) buf r p).map (List.map (fill drow)) := by
  unfold readDirect Accel.readDirect
  have hlen : (simple d col).length = d.rows.length := by
    unfold simple
    rw [List.length_map]
  rw [hlen]
  by_cases h : 0 ≤ r.1 ∧ r.1 ≤ r.2 ∧ r.2 ≤ (d.rows.length : Int)
  · rw [if_pos h, if_pos h, hs]
    simp only [bind, Except.bind, expand_self, List.reverse_reverse]
    have hn : 0 < (r.2 - r.1).toNat := by omega
    rw [if_neg (by simp only [List.mem_cons, not_or]; exact ⟨by omega, hz⟩)]
    have hrows : (((d.rows.drop r.1.toNat).take (r.2 - r.1).toNat).map (partRow d.rowShape col)).length = (r.2 - r.1).toNat := by
      rw [List.length_map, List.length_take, List.length_drop]
      omega
    have hsp := spread_self (((d.rows.drop r.1.toNat).take (r.2 - r.1).toNat).map (partRow d.rowShape col)) drow (by
      intro x hx
      obtain ⟨y, hy, rfl⟩ := List.mem_map.1 hx
      exact part_length hr hs y (List.mem_of_mem_drop (List.mem_of_mem_take hy)))
    rw [hrows] at hsp
    have e : ((d.rows.drop r.1.toNat).take (r.2 - r.1).toNat).flatMap (partRow d.rowShape col) =
        (((d.rows.drop r.1.toNat).take (r.2 - r.1).toNat).map (partRow d.rowShape col)).flatten := by
      rw [List.flatMap_def]
    rw [e, hsp, ← writeAt_map]
    congr 1
    unfold simple
    rw [← List.map_drop, ← List.map_take, List.map_map, List.map_map, List.map_map]
    rfl
  · rw [if_neg h, if_neg h]
    rfl

private theorem loop_simple (hr : Rect d) (hs : partShape d.rowShape col = .ok drow) (hz : 0 ∉ drow) (rs : List Rng) (p : Nat)
    (buf : List (Option (List (Option α)))) :
    readLoop d col drow rs p (buf.map (fill drow)) = (Accel.readLoop (simple d col) rs p buf).map (List.map (fill drow)) := by
  induction rs generalizing p buf with
  | nil => rfl
  | cons r rs ih =>
    unfold readLoop Accel.readLoop
    by_cases h : r.2 = r.1
    · rw [if_pos h, if_pos h, ih]
    · rw [if_neg h, if_neg h, direct_simple hr hs hz buf r h p]
      cases Accel.readDirect (simple d col) buf r p with
      | error e => rfl
      | ok b => exact ih _ b

private theorem empty_map (n : Nat) : (empty n drow : List (List (Option α))) = (List.replicate n none).map (fill drow) := by
  unfold empty
  rw [List.map_replicate]
  rfl

private theorem stream_simple (hs : partShape d.rowShape col = .ok drow) (rs : List Rng) (n : Nat) :
    readStream d col rs n drow = (Accel.readStream (simple d col) rs n).map (List.map (fill drow)) := by
  unfold readStream Accel.readStream
  cases mkOrderedSlices rs with
  | error e => rfl
  | ok os =>
    have hf : fetch d col os.slices n drow = (Accel.fetchSlices (simple d col) os.slices n).map (List.map (fill drow)) := by
      unfold fetch Accel.fetchSlices Accel.requestSlices
      have hlen : (simple d col).length = d.rows.length := by
        unfold simple
        rw [List.length_map]
      rw [hlen]
      by_cases h1 : os.slices.length > 0
      · rw [if_pos h1, if_pos h1]
        by_cases h2 : serverAccepts (d.rows.length : Int) os.slices
        · rw [if_pos h2, if_pos h2, hs]
          have e : os.slices.flatMap (fun r => (((d.rows.drop r.1.toNat).take (r.2 - r.1).toNat).map (partRow d.rowShape col)).map
              (List.map some)) = (os.slices.flatMap (fun r => (((simple d col).drop r.1.toNat).take (r.2 - r.1).toNat).map some)).map
              (fill drow) := by
            rw [List.map_flatMap]
            congr 1
            funext r
            unfold simple
            rw [← List.map_drop, ← List.map_take, List.map_map, List.map_map, List.map_map]
            rfl
          simp only [bind, Except.bind]
          rw [e, List.length_map]
          by_cases h3 : (os.slices.flatMap (fun r => (((simple d col).drop r.1.toNat).take (r.2 - r.1).toNat).map some)).length = n
          · rw [if_pos ⟨h3, trivial⟩, if_pos h3]
            rfl
          · rw [if_neg fun h => h3 h.1, if_neg h3]
            rfl
        · rw [if_neg h2, if_neg h2]
          rfl
      · rw [if_neg h1, if_neg h1, empty_map]
        rfl
    simp only [bind, Except.bind, hf]
    cases Accel.fetchSlices (simple d col) os.slices n with
    | error e => rfl
    | ok b => exact reorder_map _ os b

/-- If the selected part of a row has the shape of a row of the buffer, the array is that of the simple model. -/
private theorem ranges_simple (lay : Layout) (hr : Rect d) (hs : partShape d.rowShape col = .ok drow) (hz : 0 ∉ drow)
    (h1 : drow.length ≤ 1) (rs : List Rng) (n : Nat) :
    readRanges lay d col rs n drow = (Accel.readRanges lay (simple d col) rs n).map fun l => ⟨drow, l.map (fill drow)⟩ := by
  have hu : readUnchunked d col rs n drow = (Accel.readUnchunked (simple d col) rs n).map (List.map (fill drow)) := by
    unfold readUnchunked Accel.readUnchunked
    rw [empty_map, loop_simple hr hs hz]
  have hc : chunkRow drow = drow := by
    match drow, h1 with
    | [], _ => rfl
    | [_], _ => rfl
  have hlen : (simple d col).length = d.rows.length := by
    unfold simple
    rw [List.length_map]
  unfold readRanges Accel.readRanges
  cases lay with
  | remote =>
    dsimp only
    rw [stream_simple hs]
    cases Accel.readStream (simple d col) rs n <;> rfl
  | contiguous =>
    dsimp only
    rw [hu]
    cases Accel.readUnchunked (simple d col) rs n <;> rfl
  | chunked c =>
    dsimp only
    by_cases hm : meanBelow rs 500000
    · rw [if_pos hm, if_pos hm, hc]
      unfold readChunked Accel.readChunked
      rw [hc, hlen]
      dsimp only
      rw [empty_map, loop_simple hr hs hz]
      generalize getChunkRanges rs (c : Int) (d.rows.length : Int) = ch
      cases Accel.readLoop (simple d col) ch 0 (List.replicate (ch.map (fun (b : Rng) => b.2 - b.1)).sum.toNat none) with
      | error e => rfl
      | ok b =>
        show Except.map _ (extractRanges (b.map (fill drow)) ch rs) = Except.map _ (extractRanges b ch rs)
        rw [extract_map]
        cases extractRanges b ch rs <;> rfl
    · rw [if_neg hm, if_neg hm, hu]
      cases Accel.readUnchunked (simple d col) rs n <;> rfl

/-- Where the selected part of a row begins. -/
private def start (shape : List Nat) : Option Nat → Nat
  | none => 0
  | some k => match shape with
    | [] => 0
    | _ :: rest => k * rest.prod

private theorem part_get (hr : Rect d) (hs : partShape d.rowShape col = .ok drow) (r : List α) (hm : r ∈ d.rows) (j : Nat)
    (hj : j < drow.prod) : ∃ x, r[start d.rowShape col + j]? = some x ∧ (partRow d.rowShape col r)[j]? = some x := by
  have hl := part_length hr hs r hm
  refine ⟨(partRow d.rowShape col r)[j]'(by omega), ?_, List.getElem?_eq_getElem _⟩
  rw [← List.getElem?_eq_getElem (by omega)]
  cases hsh : d.rowShape with
  | nil =>
    cases col with
    | none => simp [start, partRow]
    | some k => simp [start, partRow]
  | cons c rest =>
    rw [hsh] at hs
    cases col with
    | none => simp [start, partRow]
    | some k =>
      unfold partShape at hs
      dsimp only at hs
      by_cases hk : k < c
      · rw [if_pos hk] at hs
        obtain rfl := Except.ok.inj hs
        show _ = ((r.drop (k * rest.prod)).take rest.prod)[j]?
        rw [List.getElem?_take_of_lt hj, List.getElem?_drop]
        rfl
      · rw [if_neg hk] at hs
        cases hs

private theorem simple_length : (simple d col).length = d.rows.length := by
  unfold simple
  rw [List.length_map]

private theorem ranges_read (lay : Layout) (hr : Rect d) (hs : partShape d.rowShape col = .ok drow) (hz : 0 ∉ drow)
    (h1 : drow.length ≤ 1) (rs : List Rng) (hb : InBounds d.rows.length rs)
    (h : Accel.readRanges lay (simple d col) rs (rowsOf rs).length = .ok (Spec.select (simple d col) (rowsOf rs))) :
    ∃ out, readRanges lay d col rs (rowsOf rs).length drow = .ok out ∧ ShowsRows out d (rowsOf rs) drow (start d.rowShape col) := by
  rw [ranges_simple lay hr hs hz h1, h]
  refine ⟨_, rfl, rfl, ?_, ?_⟩
  · simp [Spec.select]
  · intro n i hn
    have hmem : i ∈ rowsOf rs := List.mem_of_getElem? hn
    obtain ⟨r, hr1, hr2, hr3⟩ := (Accel.mem_rowsOf rs i).mp hmem
    obtain ⟨b0, b1, b2⟩ := hb r hr1
    have hlt : i.toNat < d.rows.length := by omega
    have hrow := List.getElem_mem hlt
    refine ⟨by omega, d.rows[i.toNat], (partRow d.rowShape col d.rows[i.toNat]).map some, List.getElem?_eq_getElem hlt, ?_, ?_, ?_⟩
    · simp only [Spec.select, List.getElem?_map, hn, Option.map_some, valueAt, if_neg (by omega : ¬ i < 0), simple,
        List.getElem?_eq_getElem hlt]
      rfl
    · rw [List.length_map, part_length hr hs _ hrow]
    · intro j hj
      obtain ⟨x, h1, h2⟩ := part_get hr hs _ hrow j hj
      exact ⟨x, h1, by rw [List.getElem?_map, h2]; rfl⟩

private theorem ranges_shows (lay : Layout) (hlay : ∀ c, lay = .chunked c → 0 < c) (hr : Rect d)
    (hs : partShape d.rowShape col = .ok drow) (hz : 0 ∉ drow) (h1 : drow.length ≤ 1) (rs : List Rng) (hi : Increasing d.rows.length rs) :
    ∃ out, readRanges lay d col rs (rowsOf rs).length drow = .ok out ∧ ShowsRows out d (rowsOf rs) drow (start d.rowShape col) :=
  ranges_read lay hr hs hz h1 rs hi.bounds
    (c06_layout_irrelevant_partial lay hlay (simple d col) rs hi.nonempty (by rw [simple_length]; exact hi.bounds) hi.order)

end

/-- **C89**: with a mask, a dataset of one or two dimensions gives the selected rows, with the shape of the dataset, however it is
stored. -/
theorem c89_rows (lay : Layout) (hlay : ∀ c, lay = .chunked c → 0 < c) (d : Arr α) (hr : Rect d)
    (hd : d.rowShape = [] ∨ ∃ c, 0 < c ∧ d.rowShape = [c]) (rs : List Rng) (hi : Increasing d.rows.length rs) :
    ∃ out, masked lay d none rs (rowsOf rs).length = .ok out ∧ ShowsRows out d (rowsOf rs) d.rowShape 0 := by
  rcases hd with h | ⟨c, hc, h⟩
  · have hs : partShape d.rowShape none = .ok d.rowShape := by rw [h]; rfl
    have := ranges_shows lay hlay hr hs (by simp [h]) (by simp [h]) rs hi
    unfold masked
    have e : getterRow d.rowShape none = d.rowShape := by rw [h]; rfl
    rw [e]
    exact this
  · have hs : partShape d.rowShape none = .ok d.rowShape := by rw [h]; rfl
    have := ranges_shows lay hlay hr hs (by rw [h]; simp; omega) (by simp [h]) rs hi
    unfold masked
    have e : getterRow d.rowShape none = d.rowShape := by rw [h]; rfl
    rw [e]
    exact this

/-- **C89**: with a mask, a named column of a dataset of two dimensions gives one number for every selected row, the one of this
column. -/
theorem c89_column (lay : Layout) (hlay : ∀ c, lay = .chunked c → 0 < c) (d : Arr α) (hr : Rect d) (c k : Nat)
    (hd : d.rowShape = [c]) (hk : k < c) (rs : List Rng) (hi : Increasing d.rows.length rs) :
    ∃ out, masked lay d (some k) rs (rowsOf rs).length = .ok out ∧ ShowsRows out d (rowsOf rs) [] k := by
  have hs : partShape d.rowShape (some k) = .ok [] := by
    rw [hd]
    unfold partShape
    dsimp only
    rw [if_pos hk]
  have := ranges_shows lay hlay hr hs (by simp) (by simp) rs hi
  unfold masked
  have e : getterRow d.rowShape (some k) = [] := by rw [hd]; rfl
  have e2 : start d.rowShape (some k) = k := by rw [hd]; simp [start]
  rw [e]
  rw [e2] at this
  exact this

/-- **C89**: without a mask, datasets of any shape are read whole, and a column is that part of every row. -/
theorem c89_whole (d : Arr α) (hr : Rect d) :
    whole d none = .ok d ∧
    ∀ c rest k, d.rowShape = c :: rest → k < c → ∃ out : Arr α, whole d (some k) = .ok out ∧ out.rowShape = rest ∧
      out.rows.length = d.rows.length ∧ ∀ i (hi : i < d.rows.length), ∃ v, out.rows[i]? = some v ∧ v.length = rest.prod ∧
        ∀ j, j < rest.prod → v[j]? = (d.rows[i])[k * rest.prod + j]? := by
  constructor
  · unfold whole
    have h1 : partShape d.rowShape none = .ok d.rowShape := by
      cases d.rowShape <;> rfl
    have h2 : d.rows.map (partRow d.rowShape none) = d.rows := by
      have : (partRow d.rowShape none : List α → List α) = id := by
        funext r
        cases d.rowShape <;> rfl
      rw [this, List.map_id]
    rw [h1, h2]
    rfl
  · intro c rest k hd hk
    have hs : partShape d.rowShape (some k) = .ok rest := by
      rw [hd]
      unfold partShape
      dsimp only
      rw [if_pos hk]
    refine ⟨⟨rest, d.rows.map (partRow d.rowShape (some k))⟩, ?_, rfl, by simp, ?_⟩
    · unfold whole
      rw [hs]
      rfl
    · intro i hi
      have hrow := List.getElem_mem hi
      refine ⟨partRow d.rowShape (some k) d.rows[i], by simp [List.getElem?_eq_getElem hi], part_length hr hs _ hrow, ?_⟩
      intro j hj
      obtain ⟨x, h1, h2⟩ := part_get hr hs _ hrow j hj
      rw [h2, ← h1, hd]
      rfl

/-- **C89**: a subset holds, for datasets of one dimension and of two with more than one column, the same array as a masked read. -/
theorem c89_subset (lay : Layout) (d : Arr α) (hd : d.rowShape = [] ∨ ∃ c, c ≠ 1 ∧ d.rowShape = [c]) (hne : d.rows ≠ [])
    (rs : List Rng) (size : Nat) : subset lay d rs size = masked lay d none rs size := by
  unfold subset masked
  cases hrows : d.rows with
  | nil => exact absurd hrows hne
  | cons r rows =>
    dsimp only
    rcases hd with h | ⟨c, hc, h⟩
    · rw [h]
      rfl
    · rw [h]
      rw [if_pos (by simpa using hc)]
      simp [getterRow]

/-- **C89**: a column of the subset is the column of the masked read of the first file. -/
theorem c89_subset_column (lay lay' : Layout) (hlay : ∀ c, lay = .chunked c → 0 < c) (hlay' : ∀ c, lay' = .chunked c → 0 < c) (d : Arr α)
    (hr : Rect d) (c k : Nat) (hc : c ≠ 1) (hd : d.rowShape = [c]) (hk : k < c) (hne : d.rows ≠ []) (rs : List Rng)
    (hi : Increasing d.rows.length rs) :
    ∃ (new : Arr α) (v : Arr α), subset lay d rs (rowsOf rs).length = .ok ⟨new.rowShape, new.rows.map (List.map some)⟩ ∧
      whole new (some k) = .ok v ∧ masked lay' d (some k) rs (rowsOf rs).length = .ok ⟨v.rowShape, v.rows.map (List.map some)⟩ := by
  have hin : ∀ i ∈ rowsOf rs, 0 ≤ i ∧ i.toNat < d.rows.length := by
    intro i hm
    obtain ⟨r, h1, h2, h3⟩ := (Accel.mem_rowsOf rs i).mp hm
    obtain ⟨b0, b1, b2⟩ := hi.bounds r h1
    omega
  have arrays : ∀ (lay : Layout) (hlay : ∀ c, lay = .chunked c → 0 < c) (col : Option Nat) (drow : List Nat)
      (hs : partShape d.rowShape col = .ok drow) (hz : 0 ∉ drow) (h1 : drow.length ≤ 1),
      readRanges lay d col rs (rowsOf rs).length drow =
        .ok ⟨drow, ((rowsOf rs).map (fun i => partRow d.rowShape col (d.rows[i.toNat]?.getD []))).map (List.map some)⟩ := by
    intro lay hlay col drow hs hz h1
    have hlen : (simple d col).length = d.rows.length := by
      unfold simple
      rw [List.length_map]
    rw [ranges_simple lay hr hs hz h1,
      c06_layout_irrelevant_partial lay hlay (simple d col) rs hi.nonempty (by rw [hlen]; exact hi.bounds) hi.order]
    simp only [Except.map, Spec.select, List.map_map]
    congr 2
    apply List.map_congr_left
    intro i hm
    obtain ⟨h0, hl⟩ := hin i hm
    simp only [Function.comp, valueAt, if_neg (by omega : ¬ i < 0), simple, List.getElem?_map, List.getElem?_eq_getElem hl,
      Option.map_some, Option.getD_some]
    rfl
  have hs1 : partShape d.rowShape none = .ok [c] := by rw [hd]; rfl
  have hs2 : partShape d.rowShape (some k) = .ok [] := by
    rw [hd]
    unfold partShape
    dsimp only
    rw [if_pos hk]
  refine ⟨⟨[c], (rowsOf rs).map (fun i => partRow d.rowShape none (d.rows[i.toNat]?.getD []))⟩,
    ⟨[], (rowsOf rs).map (fun i => partRow d.rowShape (some k) (d.rows[i.toNat]?.getD []))⟩, ?_, ?_, ?_⟩
  · rw [c89_subset lay d (Or.inr ⟨c, hc, hd⟩) hne]
    unfold masked
    have e : getterRow d.rowShape none = [c] := by rw [hd]; rfl
    rw [e]
    exact arrays lay hlay none [c] hs1 (by simp; omega) (by simp)
  · unfold whole partShape
    dsimp only
    rw [if_pos hk, List.map_map, hd]
    rfl
  · unfold masked
    have e : getterRow d.rowShape (some k) = [] := by rw [hd]; rfl
    rw [e]
    exact arrays lay' hlay' (some k) [] hs2 (by simp) (by simp)

/-! ## Shapes that do not fit -/

private theorem expand_long (cs src : List Nat) (h : cs.length < src.length) (n : Nat) (hn : 2 ≤ n) (hl : src.getLast? = some n) :
    ∃ e, expandRev cs src = .error e := by
  induction cs generalizing src with
  | nil =>
    refine ⟨.typeErr, ?_⟩
    unfold expandRev
    rw [if_pos]
    rw [List.any_eq_true]
    exact ⟨n, List.mem_of_getLast? hl, by simp; omega⟩
  | cons c cs ih =>
    cases src with
    | nil => simp at h
    | cons t ts =>
      have hts : ts ≠ [] := by
        intro e
        subst e
        simp at h
      obtain ⟨e, he⟩ := ih ts (by simpa using h) (by rw [List.getLast?_cons] at hl; rw [List.getLast?_eq_some_getLast hts] at hl ⊢; simpa using hl)
      unfold expandRev
      by_cases hc : t = 1 ∨ c = t
      · rw [if_pos hc, he]
        exact ⟨e, rfl⟩
      · rw [if_neg hc]
        exact ⟨_, rfl⟩

private theorem loop_long (d : Arr α) (col : Option Nat) (s drow : List Nat) (hs : partShape d.rowShape col = .ok s)
    (hlen : drow.length < s.length) (rs : List Rng) (hr : ∃ r ∈ rs, r.1 + 2 ≤ r.2) (p : Nat) (buf : List (List (Option α))) :
    ∃ e, readLoop d col drow rs p buf = .error e := by
  induction rs generalizing p buf with
  | nil =>
    obtain ⟨r, h, -⟩ := hr
    cases h
  | cons r rs ih =>
    unfold readLoop
    by_cases h2 : r.1 + 2 ≤ r.2
    · rw [if_neg (by omega)]
      have : ∃ e, readDirect d col drow buf r p = .error e := by
        unfold readDirect
        by_cases hb : 0 ≤ r.1 ∧ r.1 ≤ r.2 ∧ r.2 ≤ (d.rows.length : Int)
        · rw [if_pos hb, hs]
          obtain ⟨e, he⟩ := expand_long ((r.2 - r.1).toNat :: drow).reverse ((r.2 - r.1).toNat :: s).reverse (by simpa using hlen)
            (r.2 - r.1).toNat (by omega) (by simp)
          simp only [bind, Except.bind, he]
          exact ⟨e, rfl⟩
        · rw [if_neg hb]
          exact ⟨_, rfl⟩
      obtain ⟨e, he⟩ := this
      rw [he]
      exact ⟨e, rfl⟩
    · have hr' : ∃ r ∈ rs, r.1 + 2 ≤ r.2 := by
        obtain ⟨x, hx, hx2⟩ := hr
        rcases List.mem_cons.1 hx with rfl | hx
        · exact absurd hx2 h2
        · exact ⟨x, hx, hx2⟩
      by_cases h0 : r.2 = r.1
      · rw [if_pos h0]
        exact ih hr' p buf
      · rw [if_neg h0]
        cases readDirect d col drow buf r p with
        | error e => exact ⟨e, rfl⟩
        | ok b => exact ih hr' _ b

/-- Two rows that follow one another lie in the same range of chunks. -/
private theorem chunks_long (rs : List Rng) (c : Nat) (n : Nat) (hc : 0 < c) (hi : Increasing n rs) (hr : ∃ r ∈ rs, r.1 + 2 ≤ r.2) :
    ∃ r ∈ getChunkRanges rs c n, r.1 + 2 ≤ r.2 := by
  obtain ⟨r, hm, h2⟩ := hr
  have ho : Ordered rs := hi.order.imp_of_mem fun {a b} ha hb h => by
    obtain ⟨a0, a1, a2⟩ := hi.bounds a ha
    obtain ⟨b0, b1, b2⟩ := hi.bounds b hb
    exact ⟨by omega, by omega⟩
  have m1 := c04_requested_rows_read rs c n hc hi.bounds ho r.1 ((Accel.mem_rowsOf rs _).mpr ⟨r, hm, le_refl _, by omega⟩)
  have m2 := c04_requested_rows_read rs c n hc hi.bounds ho (r.1 + 1) ((Accel.mem_rowsOf rs _).mpr ⟨r, hm, by omega, by omega⟩)
  obtain ⟨hb0, -, hp⟩ := c04_chunk_ranges_wellformed rs c n hc hi.bounds ho
  obtain ⟨a, ha, a1, a2⟩ := (Accel.mem_rowsOf _ _).mp m1
  obtain ⟨b, hb, b1, b2⟩ := (Accel.mem_rowsOf _ _).mp m2
  obtain ⟨i, hi1, rfl⟩ := List.getElem_of_mem ha
  obtain ⟨j, hj1, rfl⟩ := List.getElem_of_mem hb
  rcases Nat.lt_trichotomy i j with h | rfl | h
  · have := List.pairwise_iff_getElem.1 hp i j hi1 hj1 h
    omega
  · exact ⟨_, ha, by omega⟩
  · have := List.pairwise_iff_getElem.1 hp j i hj1 hi1 h
    omega

private theorem ranges_long (lay : Layout) (hlay : ∀ c, lay = .chunked c → 0 < c) (d : Arr α) (col : Option Nat) (s drow : List Nat)
    (hs : partShape d.rowShape col = .ok s) (hlen : drow.length < s.length) (rs : List Rng) (hi : Increasing d.rows.length rs)
    (hr : ∃ r ∈ rs, r.1 + 2 ≤ r.2) (size : Nat) : ∃ e, readRanges lay d col rs size drow = .error e := by
  have hu : ∃ e, readUnchunked d col rs size drow = .error e := loop_long d col s drow hs hlen rs hr 0 _
  unfold readRanges
  cases lay with
  | contiguous =>
    obtain ⟨e, he⟩ := hu
    dsimp only
    rw [he]
    exact ⟨e, rfl⟩
  | chunked c =>
    dsimp only
    by_cases hm : meanBelow rs 500000
    · rw [if_pos hm]
      unfold readChunked
      dsimp only
      have hl : (chunkRow drow).length < s.length := by
        cases drow with
        | nil => exact hlen
        | cons w ws =>
          simp only [List.length_cons] at hlen
          simp only [chunkRow, List.length_cons, List.length_nil]
          omega
      obtain ⟨e, he⟩ := loop_long d col s (chunkRow drow) hs hl (getChunkRanges rs (c : Int) (d.rows.length : Int))
        (chunks_long rs c d.rows.length (hlay c rfl) hi hr) 0
        (empty ((getChunkRanges rs (c : Int) (d.rows.length : Int)).map (fun (b : Rng) => b.2 - b.1)).sum.toNat (chunkRow drow))
      rw [he]
      exact ⟨e, rfl⟩
    · rw [if_neg hm]
      obtain ⟨e, he⟩ := hu
      rw [he]
      exact ⟨e, rfl⟩
  | remote =>
    dsimp only
    unfold readStream
    cases hos : mkOrderedSlices rs with
    | error e => exact ⟨e, rfl⟩
    | ok os =>
      obtain ⟨-, -, -, hperm⟩ := c05_slices_sent rs d.rows.length hi.nonempty hi.bounds os hos
      have hpos : os.slices.length > 0 := by
        obtain ⟨r, hm, h2⟩ := hr
        have m1 : r.1 ∈ rowsOf os.slices := hperm.mem_iff.mpr ((Accel.mem_rowsOf rs _).mpr ⟨r, hm, le_refl _, by omega⟩)
        obtain ⟨x, hx, -⟩ := (Accel.mem_rowsOf _ _).mp m1
        exact List.length_pos_of_mem hx
      have hf : ∃ e, fetch d col os.slices size drow = .error e := by
        unfold fetch
        rw [if_pos hpos]
        by_cases ha : serverAccepts (d.rows.length : Int) os.slices
        · rw [if_pos ha, hs]
          simp only [bind, Except.bind]
          rw [if_neg]
          · exact ⟨_, rfl⟩
          · rintro ⟨-, rfl⟩
            omega
        · rw [if_neg ha]
          exact ⟨_, rfl⟩
      obtain ⟨e, he⟩ := hf
      simp only [bind, Except.bind, he]
      exact ⟨e, rfl⟩

/-- **C89** fails for datasets of three dimensions and more: as soon as a range has two rows, neither the field nor a subset can be
made, however the dataset is stored. -/
theorem c89_rank_fails (lay : Layout) (hlay : ∀ c, lay = .chunked c → 0 < c) (d : Arr α) (c c' : Nat) (rest : List Nat)
    (hd : d.rowShape = c :: c' :: rest) (rs : List Rng) (hi : Increasing d.rows.length rs) (hr : ∃ r ∈ rs, r.1 + 2 ≤ r.2) (size : Nat) :
    (∃ e, masked lay d none rs size = .error e) ∧ (∀ k, k < c → ∃ e, masked lay d (some k) rs size = .error e) ∧
      ∃ e, subset lay d rs size = .error e := by
  have hs : partShape d.rowShape none = .ok (c :: c' :: rest) := by rw [hd]; rfl
  refine ⟨?_, ?_, ?_⟩
  · unfold masked
    exact ranges_long lay hlay d none _ _ hs (by rw [hd]; simp [getterRow]) rs hi hr size
  · intro k hk
    have hs' : partShape d.rowShape (some k) = .ok (c' :: rest) := by
      rw [hd]
      unfold partShape
      dsimp only
      rw [if_pos hk]
    unfold masked
    exact ranges_long lay hlay d (some k) _ _ hs' (by rw [hd]; simp [getterRow]) rs hi hr size
  · unfold subset
    cases d.rows with
    | nil => exact ⟨_, rfl⟩
    | cons r0 rows0 =>
      dsimp only
      refine ranges_long lay hlay d none _ _ hs ?_ rs hi hr size
      split <;> simp

/-- **C89** fails for datasets with one column: the masked field is as it should be, but a subset can not be made if a range has two
rows. -/
theorem c89_single_column_fails (lay : Layout) (hlay : ∀ c, lay = .chunked c → 0 < c) (d : Arr α) (hrect : Rect d)
    (hd : d.rowShape = [1]) (rs : List Rng) (hi : Increasing d.rows.length rs) (hr : ∃ r ∈ rs, r.1 + 2 ≤ r.2) :
    (∃ out, masked lay d none rs (rowsOf rs).length = .ok out ∧ ShowsRows out d (rowsOf rs) [1] 0) ∧
      ∀ size, ∃ e, subset lay d rs size = .error e := by
  refine ⟨?_, fun size => ?_⟩
  · have := c89_rows lay hlay d hrect (Or.inr ⟨1, by omega, hd⟩) rs hi
    rw [hd] at this
    exact this
  · unfold subset
    cases d.rows with
    | nil => exact ⟨_, rfl⟩
    | cons r0 rows0 =>
      dsimp only
      have hs : partShape d.rowShape none = .ok [1] := by rw [hd]; rfl
      refine ranges_long lay hlay d none _ _ hs ?_ rs hi hr size
      rw [hd]
      simp

/-! ## C95 -/

private theorem index_bounds (idx : List Int) (n : Nat) (hb : ∀ i ∈ idx, 0 ≤ i ∧ i < n) : InBounds n (rangesFromArray idx) := by
  have hrows := c01_rows_of_ranges idx
  intro r hr
  have hlt : r.1 < r.2 ∨ r = (0, 0) := by
    cases idx with
    | nil =>
      simp only [rangesFromArray, List.mem_cons, List.not_mem_nil, or_false] at hr
      exact Or.inr hr
    | cons a as => exact Or.inl (Accel.rfaLoop_first as a a r hr (Int.le_refl _))
  rcases hlt with h | rfl
  · have m1 := (Accel.mem_rowsOf (rangesFromArray idx) r.1).mpr ⟨r, hr, Int.le_refl _, h⟩
    have m2 := (Accel.mem_rowsOf (rangesFromArray idx) (r.2 - 1)).mpr ⟨r, hr, by omega, by omega⟩
    rw [hrows] at m1 m2
    have := hb _ m1
    have := hb _ m2
    omega
  · exact ⟨by decide, by decide, by show (0 : Int) ≤ n; omega⟩

private theorem index_ne (idx : List Int) : rangesFromArray idx ≠ [] := by
  intro h
  have h1 := c01_rows_of_ranges idx
  rw [h] at h1
  have h2 : idx = [] := h1.symm
  rw [h2] at h
  cases h

private theorem index_increasing (idx : List Int) (n : Nat) (hb : ∀ i ∈ idx, 0 ≤ i ∧ i < n) (hi : idx.Pairwise (· < ·)) :
    Increasing n (rangesFromArray idx) where
  nonempty := index_ne idx
  bounds := index_bounds idx n hb
  order := by
    by_cases h : idx = []
    · subst h
      exact List.pairwise_singleton _ _
    · exact (c02_ranges_separated idx h hi).2.imp fun h => Int.le_of_lt h

/-- The reads of a dataset with one dimension. -/
private theorem index_of (lay : Layout) (d : Arr α) (hr : Rect d) (hd : d.rowShape = []) (hne : d.rows ≠ []) (idx : List Int)
    (hb : ∀ i ∈ idx, 0 ≤ i ∧ i < d.rows.length)
    (h : Accel.readRanges lay (simple d none) (rangesFromArray idx) (rowsOf (rangesFromArray idx)).length =
      .ok (Spec.select (simple d none) (rowsOf (rangesFromArray idx)))) :
    ∃ out, indexDataset lay d idx = .ok out ∧ ShowsRows out d idx [] 0 := by
  have hs : partShape d.rowShape none = .ok [] := by rw [hd]; rfl
  have := ranges_read lay hr hs (by simp) (by simp) _ (index_bounds idx _ hb) h
  rw [c01_rows_of_ranges] at this
  unfold indexDataset
  cases hrows : d.rows with
  | nil => exact absurd hrows hne
  | cons r rows => exact this

/-- **C95**: for increasing indices, `index_dataset` gives the values at these indices, one after the other, however the dataset is
stored. -/
theorem c95_increasing (lay : Layout) (hlay : ∀ c, lay = .chunked c → 0 < c) (d : Arr α) (hr : Rect d) (hd : d.rowShape = [])
    (hne : d.rows ≠ []) (idx : List Int) (hb : ∀ i ∈ idx, 0 ≤ i ∧ i < d.rows.length) (hi : idx.Pairwise (· < ·)) :
    ∃ out, indexDataset lay d idx = .ok out ∧ ShowsRows out d idx [] 0 := by
  have hinc := index_increasing idx d.rows.length hb hi
  exact index_of lay d hr hd hne idx hb
    (c06_layout_irrelevant_partial lay hlay (simple d none) _ hinc.nonempty (by rw [simple_length]; exact hinc.bounds) hinc.order)

/-- **C95**: from a file on the disk, indices that are sorted may also be repeated. -/
theorem c95_repeats (lay : Layout) (hlay : ∀ c, lay = .chunked c → 0 < c) (hl : lay ≠ .remote) (d : Arr α) (hr : Rect d)
    (hd : d.rowShape = []) (hne : d.rows ≠ []) (idx : List Int) (hb : ∀ i ∈ idx, 0 ≤ i ∧ i < d.rows.length)
    (hi : idx.Pairwise (· ≤ ·)) : ∃ out, indexDataset lay d idx = .ok out ∧ ShowsRows out d idx [] 0 := by
  by_cases h0 : idx = []
  · subst h0
    exact c95_increasing lay hlay d hr hd hne [] hb List.Pairwise.nil
  · have hbd : InBounds (simple d none).length (rangesFromArray idx) := by
      rw [simple_length]
      exact index_bounds idx _ hb
    apply index_of lay d hr hd hne idx hb
    cases lay with
    | remote => exact absurd rfl hl
    | contiguous => exact c03_unchunked_read _ _ hbd
    | chunked c =>
      show (if _ then _ else _) = _
      split
      · exact c03_chunked_read _ c (hlay c rfl) _ (index_ne idx) hbd (c03_sorted_indices_ordered idx h0 hi d.rows.length hb).2
      · exact c03_unchunked_read _ _ hbd

/-- **C95**: from a file that is not chunked the indices may be in any order, with repetitions; the values are in the order of the
indices. -/
theorem c95_unordered (d : Arr α) (hr : Rect d) (hd : d.rowShape = []) (hne : d.rows ≠ []) (idx : List Int)
    (hb : ∀ i ∈ idx, 0 ≤ i ∧ i < d.rows.length) :
    ∃ out, indexDataset .contiguous d idx = .ok out ∧ ShowsRows out d idx [] 0 :=
  index_of .contiguous d hr hd hne idx hb
    (c03_unchunked_read _ _ (by rw [simple_length]; exact index_bounds idx _ hb))

private theorem disjoint_of_nodup (rs : List Rng) (h : (rowsOf rs).Nodup) : RowsDisjoint rs := by
  unfold RowsDisjoint
  induction rs with
  | nil => exact List.Pairwise.nil
  | cons r rs ih =>
    rw [show rowsOf (r :: rs) = rowsOf [r] ++ rowsOf rs by simp [rowsOf], List.nodup_append] at h
    obtain ⟨-, h2, h3⟩ := h
    refine List.pairwise_cons.2 ⟨fun b hb i hi => ?_, ih h2⟩
    exact h3 i ((Accel.mem_rowsOf _ _).mpr ⟨r, by simp, hi.1⟩) i ((Accel.mem_rowsOf _ _).mpr ⟨b, hb, hi.2⟩) rfl

private theorem nodup_of_disjoint (rs : List Rng) (h : RowsDisjoint rs) : (rowsOf rs).Nodup := by
  unfold RowsDisjoint at h
  induction rs with
  | nil => exact List.nodup_nil
  | cons r rs ih =>
    obtain ⟨h1, h2⟩ := List.pairwise_cons.1 h
    rw [show rowsOf (r :: rs) = rowsOf [r] ++ rowsOf rs by simp [rowsOf], List.nodup_append]
    refine ⟨?_, ih h2, ?_⟩
    · show (rowsOfRange r ++ []).Nodup
      rw [List.append_nil]
      exact (List.nodup_range).map fun a b hab => by
        have : r.1 + (a : Int) = r.1 + b := hab
        omega
    · rintro i h3 j h4 rfl
      obtain ⟨a, ha, ha'⟩ := (Accel.mem_rowsOf _ _).mp h3
      obtain ⟨b, hb, hb'⟩ := (Accel.mem_rowsOf _ _).mp h4
      rw [List.mem_singleton] at ha
      subst ha
      exact h1 b hb i ⟨ha', hb'⟩

/-- **C95**: from a server the indices may be in any order if none is repeated; if one is repeated this is a RuntimeError. -/
theorem c95_remote (d : Arr α) (hr : Rect d) (hd : d.rowShape = []) (hne : d.rows ≠ []) (idx : List Int)
    (hb : ∀ i ∈ idx, 0 ≤ i ∧ i < d.rows.length) :
    (idx.Nodup → ∃ out, indexDataset .remote d idx = .ok out ∧ ShowsRows out d idx [] 0) ∧
      (¬ idx.Nodup → indexDataset .remote d idx = .error .runtime) := by
  constructor
  · intro hnd
    refine index_of .remote d hr hd hne idx hb (c05_remote_read _ _ (index_ne idx) ?_ (disjoint_of_nodup _ ?_))
    · rw [simple_length]
      exact index_bounds idx _ hb
    · rw [c01_rows_of_ranges]
      exact hnd
  · intro hnd
    have := (c05_overlap_refused (rangesFromArray idx) (index_ne idx)).2 fun h => hnd (by
      rw [← c01_rows_of_ranges idx]
      exact nodup_of_disjoint _ h)
    unfold indexDataset
    cases hrows : d.rows with
    | nil => exact absurd hrows hne
    | cons r rows =>
      show (readStream d none _ _ _).map _ = _
      unfold readStream
      rw [this]
      rfl

/-- **C95** fails for a chunked file if the indices are not sorted: the rows of this dataset can be read one by one, but not in this
order. -/
theorem c95_unordered_fails : ∃ (d : Arr Nat) (idx : List Int), Rect d ∧ d.rowShape = [] ∧ (∀ i ∈ idx, 0 ≤ i ∧ i < d.rows.length) ∧
    idx.Nodup ∧ indexDataset (.chunked 5) d idx = .error .index ∧
    ∀ i ∈ idx, ∃ x, indexDataset (.chunked 5) d [i] = .ok ⟨[], [[some x]]⟩ := by
  refine ⟨⟨[], (List.range 20).map fun i => [i]⟩, [12, 2], ?_, rfl, by decide, by decide, by decide +kernel, ?_⟩
  · intro r hr
    obtain ⟨i, -, rfl⟩ := List.mem_map.1 hr
    rfl
  · intro i hi
    simp only [List.mem_cons, List.not_mem_nil, or_false] at hi
    rcases hi with rfl | rfl
    · exact ⟨12, by decide +kernel⟩
    · exact ⟨2, by decide +kernel⟩

/-- **C95**: a dataset without rows raises an IndexError, even for no indices. -/
theorem c95_no_rows (lay : Layout) (d : Arr α) (h : d.rows = []) (idx : List Int) : indexDataset lay d idx = .error .index := by
  unfold indexDataset
  rw [h]

private theorem loop_wide (d : Arr α) (c : Nat) (hc : 2 ≤ c) (hd : d.rowShape = [c]) (rs : List Rng) (hr : ∃ r ∈ rs, r.1 < r.2)
    (p : Nat) (buf : List (List (Option α))) : ∃ e, readLoop d none [] rs p buf = .error e := by
  induction rs generalizing p buf with
  | nil =>
    obtain ⟨r, h, -⟩ := hr
    cases h
  | cons r rs ih =>
    unfold readLoop
    by_cases h2 : r.1 < r.2
    · rw [if_neg (by omega)]
      have : ∃ e, readDirect d none [] buf r p = .error e := by
        unfold readDirect
        by_cases hb : 0 ≤ r.1 ∧ r.1 ≤ r.2 ∧ r.2 ≤ (d.rows.length : Int)
        · rw [if_pos hb, hd]
          have he : expandRev [(r.2 - r.1).toNat] [c, (r.2 - r.1).toNat] = .error .typeErr := by
            unfold expandRev
            by_cases h : c = 1 ∨ (r.2 - r.1).toNat = c
            · rw [if_pos h]
              unfold expandRev
              rw [if_pos (by simp only [List.any_cons, List.any_nil, Bool.or_false, decide_eq_true_eq]; omega)]
              rfl
            · rw [if_neg h]
          refine ⟨.typeErr, ?_⟩
          show (do let t ← expandRev [(r.2 - r.1).toNat] [c, (r.2 - r.1).toNat]; _) = _
          rw [he]
          rfl
        · rw [if_neg hb]
          exact ⟨_, rfl⟩
      obtain ⟨e, he⟩ := this
      rw [he]
      exact ⟨e, rfl⟩
    · have hr' : ∃ r ∈ rs, r.1 < r.2 := by
        obtain ⟨x, hx, hx2⟩ := hr
        rcases List.mem_cons.1 hx with rfl | hx
        · exact absurd hx2 h2
        · exact ⟨x, hx, hx2⟩
      by_cases h0 : r.2 = r.1
      · rw [if_pos h0]
        exact ih hr' p buf
      · rw [if_neg h0]
        cases readDirect d none [] buf r p with
        | error e => exact ⟨e, rfl⟩
        | ok b => exact ih hr' _ b

/-- **C95** fails for datasets with columns: if there are two columns or more, then no row at all can be read. -/
theorem c95_columns_fails (lay : Layout) (hlay : ∀ c, lay = .chunked c → 0 < c) (d : Arr α) (c : Nat) (hc : 2 ≤ c)
    (hd : d.rowShape = [c]) (idx : List Int) (h0 : idx ≠ []) (hb : ∀ i ∈ idx, 0 ≤ i ∧ i < d.rows.length) (hi : idx.Pairwise (· < ·)) :
    ∃ e, indexDataset lay d idx = .error e := by
  have hinc := index_increasing idx d.rows.length hb hi
  have hpos : ∃ r ∈ rangesFromArray idx, r.1 < r.2 := by
    cases idx with
    | nil => exact absurd rfl h0
    | cons a as =>
      have : a ∈ rowsOf (rangesFromArray (a :: as)) := by rw [c01_rows_of_ranges]; simp
      obtain ⟨r, hr, h1, h2⟩ := (Accel.mem_rowsOf _ _).mp this
      exact ⟨r, hr, by omega⟩
  have hu : ∃ e, readUnchunked d none (rangesFromArray idx) idx.length [] = .error e := loop_wide d c hc hd _ hpos 0 _
  unfold indexDataset
  cases hrows : d.rows with
  | nil => exact ⟨_, rfl⟩
  | cons r0 rows0 =>
    dsimp only
    unfold readRanges
    cases lay with
    | contiguous =>
      obtain ⟨e, he⟩ := hu
      dsimp only
      rw [he]
      exact ⟨e, rfl⟩
    | chunked k =>
      dsimp only
      by_cases hm : meanBelow (rangesFromArray idx) 500000
      · rw [if_pos hm]
        unfold readChunked
        dsimp only
        have hk : ∃ r ∈ getChunkRanges (rangesFromArray idx) k d.rows.length, r.1 < r.2 := by
          obtain ⟨r, hr, h1⟩ := hpos
          have ho : Ordered (rangesFromArray idx) := (c03_sorted_indices_ordered idx h0 (hi.imp fun h => Int.le_of_lt h) _ hb).2
          have := c04_requested_rows_read (rangesFromArray idx) k d.rows.length (hlay k rfl) hinc.bounds ho r.1
            ((Accel.mem_rowsOf _ _).mpr ⟨r, hr, Int.le_refl _, h1⟩)
          obtain ⟨x, hx, h2, h3⟩ := (Accel.mem_rowsOf _ _).mp this
          exact ⟨x, hx, by omega⟩
        obtain ⟨e, he⟩ := loop_wide d c hc hd _ hk 0
          (empty ((getChunkRanges (rangesFromArray idx) (k : Int) (d.rows.length : Int)).map (fun (b : Rng) => b.2 - b.1)).sum.toNat (chunkRow []))
        show ∃ e, Except.map _ (do let buf ← readLoop d none [] _ _ _; _) = .error e
        rw [he]
        exact ⟨e, rfl⟩
      · rw [if_neg hm]
        obtain ⟨e, he⟩ := hu
        rw [he]
        exact ⟨e, rfl⟩
    | remote =>
      dsimp only
      unfold readStream
      cases hos : mkOrderedSlices (rangesFromArray idx) with
      | error e => exact ⟨e, rfl⟩
      | ok os =>
        obtain ⟨-, -, -, hperm⟩ := c05_slices_sent _ d.rows.length hinc.nonempty hinc.bounds os hos
        have hsl : os.slices.length > 0 := by
          obtain ⟨r, hm, h2⟩ := hpos
          have m1 : r.1 ∈ rowsOf os.slices := hperm.mem_iff.mpr ((Accel.mem_rowsOf _ _).mpr ⟨r, hm, le_refl _, h2⟩)
          obtain ⟨x, hx, -⟩ := (Accel.mem_rowsOf _ _).mp m1
          exact List.length_pos_of_mem hx
        have hf : ∃ e, fetch d none os.slices idx.length [] = .error e := by
          unfold fetch
          rw [if_pos hsl]
          by_cases ha : serverAccepts (d.rows.length : Int) os.slices
          · rw [if_pos ha, hd]
            simp only [bind, Except.bind, partShape]
            rw [if_neg (by simp)]
            exact ⟨_, rfl⟩
          · rw [if_neg ha]
            exact ⟨_, rfl⟩
        obtain ⟨e, he⟩ := hf
        simp only [bind, Except.bind, he]
        exact ⟨e, rfl⟩

/-! ## Examples -/

/-- Seven rows of three columns. -/
private def exArr : Arr Nat := ⟨[3], (List.range 7).map fun i => [10 * i, 10 * i + 1, 10 * i + 2]⟩

/-- Seven rows of one column. -/
private def exOne : Arr Nat := ⟨[1], (List.range 7).map fun i => [10 * i]⟩

/-- Five rows of the shape (2, 2). -/
private def exCube : Arr Nat := ⟨[2, 2], (List.range 5).map fun i => [10 * i, 10 * i + 1, 10 * i + 2, 10 * i + 3]⟩

private theorem exArr_rect : Rect exArr := by
  intro r hr
  obtain ⟨i, -, rfl⟩ := List.mem_map.1 hr
  rfl

private theorem exOne_rect : Rect exOne := by
  intro r hr
  obtain ⟨i, -, rfl⟩ := List.mem_map.1 hr
  rfl

private theorem exCube_rect : Rect exCube := by
  intro r hr
  obtain ⟨i, -, rfl⟩ := List.mem_map.1 hr
  rfl

private theorem exRanges (n : Nat) (h : 5 ≤ n) : Increasing n [(1, 3), (4, 5)] where
  nonempty := by simp
  bounds := by
    intro r hr
    simp only [List.mem_cons, List.not_mem_nil, or_false] at hr
    rcases hr with rfl | rfl <;> exact ⟨by decide, by decide, by show (_ : Int) ≤ _; omega⟩
  order := by decide

example : masked (.chunked 2) exArr none [(1, 3), (4, 5)] 3 =
    .ok ⟨[3], [[some 10, some 11, some 12], [some 20, some 21, some 22], [some 40, some 41, some 42]]⟩ := by decide +kernel

example : masked .contiguous exArr (some 1) [(1, 3), (4, 5)] 3 = .ok ⟨[], [[some 11], [some 21], [some 41]]⟩ := by decide +kernel

example : masked .remote exArr (some 2) [(1, 3), (4, 5)] 3 = .ok ⟨[], [[some 12], [some 22], [some 42]]⟩ := by decide +kernel

/-- A column that does not exist. -/
example : masked .contiguous exArr (some 3) [(1, 3), (4, 5)] 3 = .error .index := by decide +kernel

example : ∃ out, masked (.chunked 2) exArr none [(1, 3), (4, 5)] 3 = .ok out ∧ ShowsRows out exArr (rowsOf [(1, 3), (4, 5)]) [3] 0 :=
  c89_rows (.chunked 2) (by rintro c h; cases h; decide) exArr exArr_rect (Or.inr ⟨3, by decide, rfl⟩) _ (exRanges 7 (by decide))

example : ∃ out, masked .remote exArr (some 1) [(1, 3), (4, 5)] 3 = .ok out ∧ ShowsRows out exArr (rowsOf [(1, 3), (4, 5)]) [] 1 :=
  c89_column .remote (by rintro c h; cases h) exArr exArr_rect 3 1 rfl (by decide) _ (exRanges 7 (by decide))

example : whole exCube (some 1) = .ok ⟨[2], [[2, 3], [12, 13], [22, 23], [32, 33], [42, 43]]⟩ := by decide +kernel

example : whole exCube none = .ok exCube := (c89_whole exCube exCube_rect).1

example : subset (.chunked 2) exArr [(1, 3), (4, 5)] 3 = masked (.chunked 2) exArr none [(1, 3), (4, 5)] 3 :=
  c89_subset _ exArr (Or.inr ⟨3, by decide, rfl⟩) (by decide) _ _

example : ∃ (new v : Arr Nat), subset .contiguous exArr [(1, 3), (4, 5)] 3 = .ok ⟨new.rowShape, new.rows.map (List.map some)⟩ ∧
    whole new (some 2) = .ok v ∧ masked .remote exArr (some 2) [(1, 3), (4, 5)] 3 = .ok ⟨v.rowShape, v.rows.map (List.map some)⟩ :=
  c89_subset_column .contiguous .remote (by rintro c h; cases h) (by rintro c h; cases h) exArr exArr_rect 3 2 (by decide) rfl
    (by decide) (by decide) _ (exRanges 7 (by decide))

/-- Three dimensions: h5py refuses to fit the rows into the buffer. -/
example : masked .contiguous exCube none [(1, 3), (4, 5)] 3 = .error .typeErr ∧
    masked .contiguous exCube (some 0) [(1, 3), (4, 5)] 3 = .error .typeErr ∧
    subset .contiguous exCube [(1, 3), (4, 5)] 3 = .error .typeErr := by decide +kernel

example : ∃ e, subset (.chunked 2) exCube [(1, 3), (4, 5)] 3 = .error e :=
  (c89_rank_fails (.chunked 2) (by rintro c h; cases h; decide) exCube 2 2 [] rfl _ (exRanges 5 (by decide))
    ⟨(1, 3), by simp, by decide⟩ 3).2.2

/-- One column: the masked field, the subset, and a subset of ranges with one row each, which has one dimension less. -/
example : masked .contiguous exOne none [(1, 3), (4, 5)] 3 = .ok ⟨[1], [[some 10], [some 20], [some 40]]⟩ ∧
    subset .contiguous exOne [(1, 3), (4, 5)] 3 = .error .typeErr ∧
    subset .contiguous exOne [(1, 2), (4, 5)] 2 = .ok ⟨[], [[some 10], [some 40]]⟩ := by decide +kernel

example : ∀ size, ∃ e, subset .remote exOne [(1, 3), (4, 5)] size = .error e :=
  (c89_single_column_fails .remote (by rintro c h; cases h) exOne exOne_rect rfl _ (exRanges 7 (by decide)) ⟨(1, 3), by simp, by decide⟩).2

/-- Twelve values. -/
private def exLine : Arr Nat := ⟨[], (List.range 12).map fun i => [100 + i]⟩

private theorem exLine_rect : Rect exLine := by
  intro r hr
  obtain ⟨i, -, rfl⟩ := List.mem_map.1 hr
  rfl

example : indexDataset (.chunked 4) exLine [1, 2, 7, 11] = .ok ⟨[], [[some 101], [some 102], [some 107], [some 111]]⟩ := by decide +kernel

example : ∃ out, indexDataset .remote exLine [1, 2, 7, 11] = .ok out ∧ ShowsRows out exLine [1, 2, 7, 11] [] 0 :=
  c95_increasing .remote (by rintro c h; cases h) exLine exLine_rect rfl (by decide) _ (by decide) (by decide)

example : ∃ out, indexDataset (.chunked 4) exLine [1, 1, 2, 11] = .ok out ∧ ShowsRows out exLine [1, 1, 2, 11] [] 0 :=
  c95_repeats (.chunked 4) (by rintro c h; cases h; decide) (by decide) exLine exLine_rect rfl (by decide) _ (by decide) (by decide)

example : ∃ out, indexDataset .contiguous exLine [7, 1, 7] = .ok out ∧ ShowsRows out exLine [7, 1, 7] [] 0 :=
  c95_unordered exLine exLine_rect rfl (by decide) _ (by decide)

example : indexDataset .remote exLine [7, 1, 8] = .ok ⟨[], [[some 107], [some 101], [some 108]]⟩ ∧
    indexDataset .remote exLine [7, 1, 7] = .error .runtime := by decide +kernel

example : ∃ out, indexDataset .remote exLine [7, 1, 8] = .ok out ∧ ShowsRows out exLine [7, 1, 8] [] 0 :=
  (c95_remote exLine exLine_rect rfl (by decide) _ (by decide)).1 (by decide)

example : indexDataset .contiguous exArr [1, 2] = .error .typeErr ∧ indexDataset .remote exArr [1] = .error .value := by decide +kernel

example : ∃ e, indexDataset (.chunked 2) exArr [1, 4] = .error e :=
  c95_columns_fails (.chunked 2) (by rintro c h; cases h; decide) exArr 3 (by decide) rfl _ (by decide) (by decide) (by decide)

example : indexDataset .contiguous (⟨[], []⟩ : Arr Nat) [] = .error .index := c95_no_rows _ _ rfl _

end Verif.Props
