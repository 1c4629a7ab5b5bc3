import Verif.Lemmas.Rows
import Mathlib.Data.List.Forall2

/-! Helper lemmas for the chunk-aligned read. -/

namespace Verif.Accel
open Verif Verif.Spec

def chLower (c : Int) (b : Rng) : Int := b.1 / c * c
def chUpper (c n : Int) (b : Rng) : Int := min (-((-b.2) / c) * c) n

/-- `get_chunk_ranges` with the last chunk range held separately. -/
def chunkGo (c n : Int) : Rng → List Rng → List Rng
  | cur, [] => [cur]
  | cur, b :: bs =>
    if chLower c b > cur.2 then cur :: chunkGo c n (chLower c b, chUpper c n b) bs
    else chunkGo c n (cur.1, chUpper c n b) bs

theorem chunkStep_concat (c n : Int) (acc : List Rng) (cur b : Rng) :
    chunkStep c n (acc ++ [cur]) b =
      if chLower c b > cur.2 then (acc ++ [cur]) ++ [(chLower c b, chUpper c n b)]
      else acc ++ [(cur.1, chUpper c n b)] := by
  unfold chunkStep
  simp only [List.getLast?_append, List.getLast?_singleton, Option.some_or, List.dropLast_concat]
  rfl

theorem foldl_chunkStep (c n : Int) (bs : List Rng) : ∀ (acc : List Rng) (cur : Rng),
    bs.foldl (chunkStep c n) (acc ++ [cur]) = acc ++ chunkGo c n cur bs := by
  induction bs with
  | nil => intro acc cur; rfl
  | cons b bs ih =>
    intro acc cur
    rw [List.foldl_cons, chunkStep_concat]
    unfold chunkGo
    split
    · rw [ih]; simp
    · rw [ih]

theorem getChunkRanges_cons (b : Rng) (bs : List Rng) (c n : Int) :
    getChunkRanges (b :: bs) c n = chunkGo c n (chLower c b, chUpper c n b) bs := by
  unfold getChunkRanges
  rw [List.foldl_cons]
  exact foldl_chunkStep c n bs [] _

theorem chLower_le {c : Int} (hc : 0 < c) (b : Rng) : chLower c b ≤ b.1 := by
  unfold chLower
  exact Int.ediv_mul_le _ (by omega)

theorem chLower_nonneg {c : Int} (hc : 0 < c) {b : Rng} (h : 0 ≤ b.1) : 0 ≤ chLower c b := by
  unfold chLower
  exact Int.mul_nonneg (Int.ediv_nonneg h (by omega)) (by omega)

theorem chLower_mono {c : Int} (hc : 0 < c) {a b : Rng} (h : a.1 ≤ b.1) : chLower c a ≤ chLower c b := by
  unfold chLower
  exact Int.mul_le_mul_of_nonneg_right (Int.ediv_le_ediv hc h) (by omega)

theorem le_chUpper {c n : Int} (hc : 0 < c) {b : Rng} (h : b.2 ≤ n) : b.2 ≤ chUpper c n b := by
  unfold chUpper
  have h1 : (-b.2) / c * c ≤ -b.2 := Int.ediv_mul_le _ (by omega)
  have h2 : -((-b.2) / c) * c = -((-b.2) / c * c) := by rw [Int.neg_mul]
  omega

theorem chUpper_le {c n : Int} (b : Rng) : chUpper c n b ≤ n := by
  unfold chUpper; omega

theorem chUpper_mono {c n : Int} (hc : 0 < c) {a b : Rng} (h : a.2 ≤ b.2) :
    chUpper c n a ≤ chUpper c n b := by
  unfold chUpper
  have h1 : (-b.2) / c * c ≤ (-a.2) / c * c :=
    Int.mul_le_mul_of_nonneg_right (Int.ediv_le_ediv hc (by omega)) (by omega)
  have h2 : -((-b.2) / c) * c = -((-b.2) / c * c) := by rw [Int.neg_mul]
  have h3 : -((-a.2) / c) * c = -((-a.2) / c * c) := by rw [Int.neg_mul]
  omega

/-- State of the merge loop: `cur` is the open chunk range, `bs` the ranges still to come. -/
structure Inv (c n : Int) (cur : Rng) (bs : List Rng) : Prop where
  nonneg : 0 ≤ cur.1
  le : cur.1 ≤ cur.2
  len : cur.2 ≤ n
  lower : ∀ b ∈ bs, cur.1 ≤ chLower c b
  upper : ∀ b ∈ bs, cur.2 ≤ chUpper c n b
  inb : InBounds n bs
  ord : Ordered bs

theorem Inv.new {c n : Int} (hc : 0 < c) {cur b : Rng} {bs : List Rng} (h : Inv c n cur (b :: bs)) :
    Inv c n (chLower c b, chUpper c n b) bs := by
  obtain ⟨b0, b1, b2⟩ := h.inb b (by simp)
  have hl := chLower_le hc b
  have hu := le_chUpper hc b2
  have ho := List.pairwise_cons.mp h.ord
  exact ⟨chLower_nonneg hc b0, by dsimp only; omega, chUpper_le b,
    fun x hx => chLower_mono hc (ho.1 x hx).1, fun x hx => chUpper_mono hc (ho.1 x hx).2,
    fun x hx => h.inb x (by simp [hx]), ho.2⟩

theorem Inv.merge {c n : Int} (hc : 0 < c) {cur b : Rng} {bs : List Rng} (h : Inv c n cur (b :: bs)) :
    Inv c n (cur.1, chUpper c n b) bs := by
  have h' := h.new hc
  have h1 := h.lower b (by simp)
  have h2 := h'.le
  exact ⟨h.nonneg, by have := h.lower b (by simp); dsimp only at *; omega, h'.len,
    fun x hx => h.lower x (by simp [hx]), h'.upper, h'.inb, h'.ord⟩

/-- The first chunk range starts where the open one starts and ends no earlier. -/
theorem chunkGo_head {c n : Int} (hc : 0 < c) (bs : List Rng) : ∀ (cur : Rng), Inv c n cur bs →
    ∃ u rest, chunkGo c n cur bs = (cur.1, u) :: rest ∧ cur.2 ≤ u := by
  induction bs with
  | nil => intro cur _; exact ⟨cur.2, [], rfl, Int.le_refl _⟩
  | cons b bs ih =>
    intro cur h
    unfold chunkGo
    split
    · exact ⟨cur.2, _, rfl, Int.le_refl _⟩
    · obtain ⟨u, rest, he, hu⟩ := ih _ (h.merge hc)
      refine ⟨u, rest, he, ?_⟩
      have := h.upper b (by simp)
      dsimp only at hu
      omega

theorem chunkGo_inBounds {c n : Int} (hc : 0 < c) (bs : List Rng) : ∀ (cur : Rng), Inv c n cur bs →
    InBounds n (chunkGo c n cur bs) := by
  induction bs with
  | nil => intro cur h r hr; simp [chunkGo] at hr; subst hr; exact ⟨h.nonneg, h.le, h.len⟩
  | cons b bs ih =>
    intro cur h
    unfold chunkGo
    split
    · intro r hr
      rcases List.mem_cons.mp hr with rfl | hr
      · exact ⟨h.nonneg, h.le, h.len⟩
      · exact ih _ (h.new hc) r hr
    · exact ih _ (h.merge hc)

/-- Index of the chunk range each remaining range falls in. -/
def groupIdx (c n : Int) : Nat → Rng → List Rng → List Nat
  | _, _, [] => []
  | ci, cur, b :: bs =>
    if chLower c b > cur.2 then (ci + 1) :: groupIdx c n (ci + 1) (chLower c b, chUpper c n b) bs
    else ci :: groupIdx c n ci (cur.1, chUpper c n b) bs

theorem assign_eq_groupIdx {c n : Int} (hc : 0 < c) (bs : List Rng) : ∀ (ci : Nat) (cur : Rng),
    Inv c n cur bs → assignChunks ci (chunkGo c n cur bs) bs = groupIdx c n ci cur bs := by
  induction bs with
  | nil => intro ci cur _; simp [assignChunks, groupIdx]
  | cons b bs ih =>
    intro ci cur h
    obtain ⟨b0, b1, b2⟩ := h.inb b (by simp)
    have hl := chLower_le hc b
    have hu := le_chUpper hc b2
    unfold chunkGo groupIdx
    split
    · rename_i hgt
      obtain ⟨u, rest, he, hu'⟩ := chunkGo_head hc bs _ (h.new hc)
      rw [assignChunks, if_neg (by omega)]
      have ih' := ih (ci + 1) _ (h.new hc)
      rw [he] at ih' ⊢
      rw [assignChunks, if_pos (by dsimp only at *; omega), ih']
    · obtain ⟨u, rest, he, hu'⟩ := chunkGo_head hc bs _ (h.merge hc)
      have ih' := ih ci _ (h.merge hc)
      have := h.lower b (by simp)
      rw [he] at ih' ⊢
      rw [assignChunks, if_pos (by dsimp only at *; omega), ih']

/-- Position of a chunk inside the buffer of all chunk ranges. -/
theorem buf_value {α : Type} (ds : List α) (pre post : List Rng) (ch : Rng)
    (hpre : InBounds ds.length pre) (k : Int) (h0 : 0 ≤ k) (h1 : k < ch.2 - ch.1) :
    valueAt (select ds (rowsOf (pre ++ ch :: post))) (total pre + k) = some (valueAt ds (ch.1 + k)) := by
  have hp := total_nonneg (rs := pre) (fun x hx => (hpre x hx).2.1)
  have hl := rowsOf_length (rs := pre) (fun x hx => (hpre x hx).2.1)
  obtain ⟨kn, rfl⟩ := Int.eq_ofNat_of_zero_le h0
  have : total pre + (kn : Int) = (((rowsOf pre).length + kn : Nat) : Int) := by omega
  rw [this, valueAt_natCast, rowsOf_append, rowsOf_cons]
  unfold select
  rw [List.getElem?_map, List.getElem?_append_right (by omega),
    List.getElem?_append_left (by rw [rowsOfRange_length]; omega)]
  have hk : kn < (ch.2 - ch.1).toNat := by omega
  simp [rowsOfRange, hk]

/-- What it means for an adjusted range to point at the right elements of the buffer. -/
def Points {α : Type} (ds : List α) (buf : List (Option α)) (a r : Rng) : Prop :=
  a.2 - a.1 = r.2 - r.1 ∧ ∀ k : Int, 0 ≤ k → k < r.2 - r.1 → valueAt buf (a.1 + k) = some (valueAt ds (r.1 + k))

theorem adjust_points {α : Type} (ds : List α) {c n : Int} (hc : 0 < c) (hn : n = ds.length)
    (bs : List Rng) : ∀ (pre : List Rng) (cur r : Rng), Inv c n cur bs → InBounds n pre →
    cur.1 ≤ r.1 → r.1 ≤ r.2 → r.2 ≤ cur.2 →
    ∃ adj, adjustRanges (pre ++ chunkGo c n cur bs) (pre.length :: groupIdx c n pre.length cur bs) (r :: bs)
        (total pre) = .ok adj ∧
      List.Forall₂ (Points ds (select ds (rowsOf (pre ++ chunkGo c n cur bs)))) adj (r :: bs) := by
  induction bs with
  | nil =>
    intro pre cur r h hpre h1 h2 h3
    refine ⟨[(r.1 - (cur.1 - total pre), r.2 - (cur.1 - total pre))], ?_, ?_⟩
    · simp [adjustRanges, chunkGo, groupIdx]
    · refine List.Forall₂.cons ⟨by dsimp only; omega, ?_⟩ List.Forall₂.nil
      intro k hk0 hk1
      subst hn
      have := buf_value ds pre [] cur hpre (r.1 - cur.1 + k) (by omega) (by omega)
      unfold chunkGo
      dsimp only
      rw [show r.1 - (cur.1 - total pre) + k = total pre + (r.1 - cur.1 + k) by omega, this]
      congr 2; omega
  | cons b bs ih =>
    intro pre cur r h hpre h1 h2 h3
    obtain ⟨b0, b1, b2⟩ := h.inb b (by simp)
    have hl := chLower_le hc b
    have hu := le_chUpper hc b2
    unfold chunkGo groupIdx
    split
    · -- a new chunk range is opened
      rename_i hgt
      have hpre' : InBounds n (pre ++ [cur]) := by
        intro x hx
        rcases List.mem_append.mp hx with hx | hx
        · exact hpre x hx
        · simp at hx; subst hx; exact ⟨h.nonneg, h.le, h.len⟩
      obtain ⟨adj, he, hp⟩ := ih (pre ++ [cur]) _ b (h.new hc) hpre' hl b1 hu
      have e1 : (pre ++ [cur]) ++ chunkGo c n (chLower c b, chUpper c n b) bs =
          pre ++ cur :: chunkGo c n (chLower c b, chUpper c n b) bs := by simp
      have e2 : total (pre ++ [cur]) = total pre + (cur.2 - cur.1) := by
        simp [total]
      rw [e1] at he hp
      rw [e2] at he
      simp only [List.length_append, List.length_singleton] at he
      refine ⟨(r.1 - (cur.1 - total pre), r.2 - (cur.1 - total pre)) :: adj, ?_, ?_⟩
      · simp only [adjustRanges]
        rw [List.getElem?_append_right (by omega)]
        simp [he]
        rfl
      · refine List.Forall₂.cons ⟨by dsimp only; omega, ?_⟩ hp
        intro k hk0 hk1
        subst hn
        have := buf_value ds pre (chunkGo c ds.length (chLower c b, chUpper c ds.length b) bs) cur hpre
          (r.1 - cur.1 + k) (by omega) (by omega)
        dsimp only
        rw [show r.1 - (cur.1 - total pre) + k = total pre + (r.1 - cur.1 + k) by omega, this]
        congr 2; omega
    · -- the open chunk range is extended
      rename_i hle
      have hlow := h.lower b (by simp)
      have hup := h.upper b (by simp)
      obtain ⟨adj, he, hp⟩ := ih pre _ b (h.merge hc) hpre (by dsimp only; omega) b1 hu
      obtain ⟨u, rest, heq, hu'⟩ := chunkGo_head hc bs _ (h.merge hc)
      dsimp only at heq hu'
      refine ⟨(r.1 - (cur.1 - total pre), r.2 - (cur.1 - total pre)) :: adj, ?_, ?_⟩
      · simp only [adjustRanges]
        rw [heq] at he ⊢
        rw [List.getElem?_append_right (by omega)]
        simp [he]
        rfl
      · refine List.Forall₂.cons ⟨by dsimp only; omega, ?_⟩ hp
        intro k hk0 hk1
        subst hn
        have := buf_value ds pre rest (cur.1, u) hpre
          (r.1 - cur.1 + k) (by omega) (by dsimp only; omega)
        rw [heq]
        dsimp only at this ⊢
        rw [show r.1 - (cur.1 - total pre) + k = total pre + (r.1 - cur.1 + k) by omega, this]
        congr 2; omega

theorem points_gather {α : Type} (ds : List α) (buf : List (Option α)) (adj rs : List Rng)
    (h : List.Forall₂ (Points ds buf) adj rs) :
    (rowsOf adj).map (valueAt buf) = (select ds (rowsOf rs)).map some := by
  induction h with
  | nil => rfl
  | @cons a r adj rs hp _ ih =>
    rw [rowsOf_cons, rowsOf_cons, select_append, List.map_append, List.map_append, ih]
    congr 1
    obtain ⟨h1, h2⟩ := hp
    unfold rowsOfRange select
    rw [h1]
    simp only [List.map_map]
    apply List.map_congr_left
    intro k hk
    rw [List.mem_range] at hk
    exact h2 k (by omega) (by omega)

theorem inv_init {c n : Int} (hc : 0 < c) {b : Rng} {bs : List Rng} (hb : InBounds n (b :: bs))
    (ho : Ordered (b :: bs)) : Inv c n (chLower c b, chUpper c n b) bs := by
  obtain ⟨b0, b1, b2⟩ := hb b (by simp)
  have hl := chLower_le hc b
  have hu := le_chUpper hc b2
  have ho' := List.pairwise_cons.mp ho
  exact ⟨chLower_nonneg hc b0, by dsimp only; omega, chUpper_le b,
    fun x hx => chLower_mono hc (ho'.1 x hx).1, fun x hx => chUpper_mono hc (ho'.1 x hx).2,
    fun x hx => hb x (by simp [hx]), ho'.2⟩

theorem readChunked_ok {α : Type} (ds : List α) (c : Int) (hc : 0 < c) (rs : List Rng) (hne : rs ≠ [])
    (hb : InBounds ds.length rs) (ho : Ordered rs) :
    readChunked ds c rs = .ok (select ds (rowsOf rs)) := by
  cases rs with
  | nil => exact absurd rfl hne
  | cons b bs =>
    obtain ⟨b0, b1, b2⟩ := hb b (by simp)
    have hinv := inv_init hc hb ho
    have hl := chLower_le hc b
    have hu := le_chUpper hc b2
    have hcb := chunkGo_inBounds hc bs _ hinv
    have hcle : ∀ r ∈ chunkGo c ds.length (chLower c b, chUpper c ds.length b) bs, r.1 ≤ r.2 :=
      fun r hr => (hcb r hr).2.1
    unfold readChunked
    rw [getChunkRanges_cons]
    have ht := total_nonneg hcle
    have hread := readLoop_ok ds _ 0 (List.replicate (total (chunkGo c ds.length (chLower c b, chUpper c ds.length b) bs)).toNat none) hcb
      (by simp only [List.length_replicate]; omega)
    simp only [List.take_zero, List.nil_append] at hread
    unfold total at hread
    simp only [hread]
    show extractRanges _ _ _ = _
    unfold extractRanges
    have hassign : assignChunks 0 (chunkGo c ds.length (chLower c b, chUpper c ds.length b) bs) (b :: bs) =
        0 :: groupIdx c ds.length 0 (chLower c b, chUpper c ds.length b) bs := by
      have h1 := assign_eq_groupIdx hc bs 0 _ hinv
      obtain ⟨u, rest, heq, hu'⟩ := chunkGo_head hc bs _ hinv
      rw [heq] at h1 ⊢
      rw [assignChunks, if_pos (by dsimp only at *; omega), h1]
    obtain ⟨adj, he, hp⟩ := adjust_points ds hc rfl bs [] _ b hinv (by intro x hx; simp at hx) hl b1 hu
    simp only [List.nil_append, List.length_nil] at he hp
    have ht0 : total [] = 0 := rfl
    rw [ht0] at he
    rw [hassign, he]
    show (expandRanges adj).bind _ = _
    have hle : ∀ a ∈ adj, a.1 ≤ a.2 := by
      intro a ha
      obtain ⟨i, hi, rfl⟩ := List.mem_iff_getElem.mp ha
      have hlen := hp.length_eq
      have hpt := hp.get (i := i) hi (hlen ▸ hi)
      have hmem : (b :: bs)[i]'(hlen ▸ hi) ∈ b :: bs := List.getElem_mem _
      have := (hb _ hmem).2.1
      have h3 := hpt.1
      simp only [List.get_eq_getElem] at h3
      omega
    rw [expandRanges_ok hle]
    show gather _ _ = _
    exact gather_ok _ _ _ (points_gather ds _ adj _ hp)

end Verif.Accel
