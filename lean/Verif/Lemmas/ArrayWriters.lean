import Verif.Lemmas.CosmoFunctions
import Verif.Model.ArrayWriters
import Verif.Spec.ArrayWriters

/-! Writers only move numbers; linear equations scale. -/

namespace Verif.Cosmo
open Verif

theorem zip_mask_map {β γ : Type} (f : β → γ) (m : List Bool) (d s : List β) :
    (m.zip ((d.map f).zip (s.map f))).map (fun q => if q.1 then q.2.2 else q.2.1) =
      ((m.zip (d.zip s)).map (fun q => if q.1 then q.2.2 else q.2.1)).map f := by
  induction m generalizing d s with
  | nil => simp
  | cons b m ih =>
    cases d with
    | nil => simp
    | cons x d => cases s with
      | nil => simp
      | cons y s =>
        simp only [List.map_cons, List.zip_cons_cons, ih]
        cases b <;> simp

theorem copytoNum_moves (mask : List Bool) : Moves (copytoNum mask) := by
  intro f d s
  unfold copytoNum
  simp only [List.length_map]
  split
  · rfl
  · split
    · rw [zip_mask_map]
      rfl
    · cases s with
      | nil => rfl
      | cons v s => cases s with
        | cons _ _ => rfl
        | nil =>
          simp only [List.map_cons, List.map_nil, Except.map, Except.ok.injEq, List.zip_map_right, List.map_map]
          refine List.map_congr_left fun q _ => ?_
          simp only [Function.comp, Prod.map, id]
          split <;> rfl

theorem getD_map' {β γ : Type} (f : β → γ) (v : List β) (n : Nat) (x : β) : (v.map f).getD n (f x) = f (v.getD n x) := by
  simp [List.getD, Option.getD_map]

theorem placeFrom_map {β γ : Type} (f : β → γ) (v : List β) (n : Nat) (m : List Bool) (d : List β) :
    placeFrom (v.map f) n m (d.map f) = (placeFrom v n m d).map f := by
  induction m generalizing n d with
  | nil => cases d <;> simp [placeFrom]
  | cons b m ih =>
    cases d with
    | nil => cases b <;> simp [placeFrom]
    | cons x d =>
      cases b
      · simp [placeFrom, ih]
      · simp only [List.map_cons, placeFrom, ih, List.length_map, getD_map']

theorem placeNum_moves (mask : List Bool) : Moves (placeNum mask) := by
  intro f d s
  unfold placeNum
  simp only [List.length_map, List.map_eq_nil_iff, placeFrom_map]
  split
  · rfl
  · split <;> rfl

theorem putmaskNum_moves (mask : List Bool) : Moves (putmaskNum mask) := by
  intro f d s
  unfold putmaskNum
  simp only [List.length_map]
  split
  · rfl
  · simp only [Except.map, Except.ok.injEq]
    refine List.ext_getElem? fun i => ?_
    simp only [List.getElem?_mapIdx, List.getElem?_map, Option.map_map]
    cases d[i]? with
    | none => rfl
    | some x =>
      simp only [Option.map_some, Function.comp, getD_map']
      split <;> rfl

theorem putFrom_map {β γ : Type} (f : β → γ) (v : List β) (j : Nat) (l : List Nat) (d : List β) :
    putFrom (v.map f) j l (d.map f) = (putFrom v j l d).map f := by
  induction l generalizing j d with
  | nil => rfl
  | cons i l ih =>
    simp only [putFrom, List.length_map, List.getElem?_map]
    rw [← ih]
    cases v[j % v.length]? <;> simp [List.map_set]

theorem putNum_moves (mode : PutMode) (ind : List Int) : Moves (putNum mode ind) := by
  intro f d s
  unfold putNum
  simp only [List.length_map, putFrom_map]
  cases List.mapM (putIndex mode d.length) ind <;> rfl

theorem putAlongNum_moves (ind : List Int) : Moves (putAlongNum ind) := by
  intro f d s
  unfold putAlongNum
  simp only [List.length_map]
  split
  · exact putNum_moves _ _ f d s
  · rfl

theorem fillDiagonalNum_moves (n : Nat) : Moves (fillDiagonalNum n) := by
  intro f d s
  unfold fillDiagonalNum
  simp only [List.length_map, List.map_eq_nil_iff, putFrom_map]
  split <;> rfl

theorem insertNum_moves (i : Int) : Moves (insertNum i) := by
  intro f d s
  unfold insertNum
  simp only [List.length_map]
  split
  · rfl
  · simp [Except.map, List.map_take, List.map_drop]

/-- Binary wrappers, without a condition on the function. -/
theorem wrap2_rel {a k l : ℝ} {o p : Opd} (ha : 0 < a)
    (ho : HasExp a o k) (hp : HasExp a p l) (hne : flags [o, p] ≠ []) :
    ∃ b u v, o.phys = u.map (fun t => t * scale a b k) ∧ p.phys = v.map (fun t => t * scale a b l) ∧
      ∀ (f : List ℝ → List ℝ → Except Err (List ℝ)) (rule : Option CF → Option CF → Except Err (Option CF)) (m : ℝ),
        rule o.cf p.cf = .ok (some ⟨some m, some a⟩) →
        (wrap2 rule f o p).map Arr.phys = (f u v).map (List.map (fun t => t * scale a b m)) ∧
          ∀ z, wrap2 rule f o p = .ok z → Conv a m z := by
  have hmix : ∀ q ∈ [o, p], Mix a q := by
    intro q hq
    rcases List.mem_pair.mp hq with rfl | rfl
    · exact ho.mix
    · exact hp.mix
  obtain ⟨r, b, e, hc, hvt, -, hf, -⟩ := prepare_mix hmix hne
  obtain ⟨o', p', hargs, h1, h2⟩ := forall2_two hf
  refine ⟨b, o'.vals, p'.vals, h1.phys ho, h2.phys hp, fun f rule m hr => ?_⟩
  unfold wrap2
  simp only [e, hr, hargs]
  cases f o'.vals p'.vals with
  | error q => simp [Except.map]
  | ok v =>
    simp only [Except.map, Except.ok.injEq]
    refine ⟨phys_result hc rfl, ?_⟩
    rintro z rfl
    exact ⟨ha, rfl, hvt, by simp [hc]⟩

theorem matVec_scale (n : Nat) (m x : List ℝ) (s t : ℝ) :
    matVec n (m.map (· * s)) (x.map (· * t)) = (matVec n m x).map (· * (s * t)) := by
  have g : ∀ (l : List ℝ) (i : Nat) (c : ℝ), (l.map (· * c)).getD i 0 = l.getD i 0 * c := fun l i c => by
    have := getD_map' (· * c) l i 0
    simpa using this
  unfold matVec
  simp only [List.length_map, List.map_map, g]
  refine List.map_congr_left fun i _ => ?_
  simp only [Function.comp, ← List.sum_map_mul_right]
  congr 1
  refine List.map_congr_left fun j _ => ?_
  ring

theorem squareError_scale (u v : List ℝ) (s : ℝ) :
    squareError (u.map (· * s)) (v.map (· * s)) = squareError u v * s ^ 2 := by
  unfold squareError
  induction u generalizing v with
  | nil => simp
  | cons x u ih => cases v with
    | nil => simp
    | cons y v =>
      simp only [List.map_cons, List.zipWith_cons_cons, List.sum_cons, ih]
      ring

theorem trapz_scale (s t : ℝ) (ys xs : List ℝ) : trapz (ys.map (· * s)) (xs.map (· * t)) = trapz ys xs * (s * t) := by
  fun_induction trapz ys xs with
  | case1 y y' l x x' m ih =>
    simp only [List.map_cons, trapz] at ih ⊢
    rw [ih]
    ring
  | case2 ys xs h =>
    rcases ys with _ | ⟨y, _ | ⟨y', l⟩⟩ <;> rcases xs with _ | ⟨x, _ | ⟨x', m⟩⟩ <;> simp [trapz]
    exact absurd rfl (h y y' l x x' m rfl)

theorem binOf_scale {s : ℝ} (hs : 0 < s) (x : ℝ) (es : List ℝ) : binOf (x * s) (es.map (· * s)) = binOf x es := by
  fun_induction binOf x es with
  | case1 e f h => simp [binOf, mul_le_mul_iff_left₀ hs, h]
  | case2 e f h => simp [binOf, mul_le_mul_iff_left₀ hs, h]
  | case3 e f g l h => simp [binOf, mul_le_mul_iff_left₀ hs, mul_lt_mul_iff_left₀ hs, h]
  | case4 e f g l h ih =>
    simp only [List.map_cons] at ih
    simp only [List.map_cons, binOf, mul_le_mul_iff_left₀ hs, mul_lt_mul_iff_left₀ hs, h, if_false, ih]
  | case5 es h1 h2 =>
    rcases es with _ | ⟨e, _ | ⟨f, _ | ⟨g, l⟩⟩⟩
    · rfl
    · rfl
    · exact absurd rfl (h1 e f)
    · exact absurd rfl (h2 e f g l)

theorem cellCount_scale {ds es : List (List ℝ × List ℝ)} (h : List.Forall₂ (fun d e => ∃ s : ℝ, 0 < s ∧
      e = (d.1.map (· * s), d.2.map (· * s))) ds es) (ws : List ℝ) (t : ℝ) (c : List Nat) :
    cellCount es (ws.map (· * t)) c = cellCount ds ws c * t := by
  have key : ∀ n : Nat, es.map (fun q => q.1[n]?.bind (fun x => binOf x q.2)) =
      ds.map (fun q => q.1[n]?.bind (fun x => binOf x q.2)) := by
    intro n
    induction h with
    | nil => rfl
    | cons h1 _ ih =>
      obtain ⟨s, hs, rfl⟩ := h1
      rw [List.map_cons, List.map_cons, ih]
      congr 1
      simp only [List.getElem?_map]
      cases (_ : List ℝ)[n]? with
      | none => rfl
      | some x => simp [binOf_scale hs]
  unfold cellCount
  have hs : ∀ l : List ℝ, l.sum * t = (l.map (· * t)).sum := fun l => by
    rw [List.sum_map_mul_right, List.map_id']
  rw [hs]
  congr 1
  refine List.ext_getElem? fun i => ?_
  simp only [List.getElem?_mapIdx, List.getElem?_map, Option.map_map]
  cases ws[i]? with
  | none => rfl
  | some w =>
    simp only [Option.map_some, Function.comp, key]
    split <;> simp

theorem grid_row {β : Type} (l : List β) (m i j : Nat) (hi : i < m) (hj : j < l.length) :
    ((List.replicate m l).flatten)[i * l.length + j]? = l[j]? := by
  induction m generalizing i with
  | zero => omega
  | succ m ih =>
    rw [List.replicate_succ, List.flatten_cons]
    cases i with
    | zero => rw [Nat.zero_mul, Nat.zero_add, List.getElem?_append_left hj]
    | succ i =>
      rw [List.getElem?_append_right (by rw [Nat.succ_mul]; omega), ← ih i (by omega)]
      congr 1
      rw [Nat.succ_mul]
      omega

theorem grid_col {β : Type} (l : List β) (n i j : Nat) (hi : i < l.length) (hj : j < n) :
    ((l.map (fun v => List.replicate n v)).flatten)[i * n + j]? = l[i]? := by
  induction l generalizing i with
  | nil => simp at hi
  | cons v l ih =>
    rw [List.map_cons, List.flatten_cons]
    cases i with
    | zero =>
      rw [Nat.zero_mul, Nat.zero_add, List.getElem?_append_left (by simpa using hj)]
      simp [hj]
    | succ i =>
      rw [List.getElem?_append_right (by rw [Nat.succ_mul, List.length_replicate]; omega), List.getElem?_cons_succ,
        ← ih i (by simpa using hi)]
      congr 1
      rw [Nat.succ_mul, List.length_replicate]
      omega

end Verif.Cosmo
