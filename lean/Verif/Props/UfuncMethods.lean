import Verif.Model.UfuncMethods
import Verif.Lemmas.ArrayWriters
import Verif.Lemmas.Memory
import Verif.Spec.Memory
import Verif.Props.Cosmo
import Verif.Props.CosmoFactor
import Mathlib.Algebra.BigOperators.Group.List.Basic

/-! C74: in-place operators, output arrays and `reduce`. -/

namespace Verif.Props
open Verif Verif.Cosmo Verif.Memory

private theorem stored {h : Heap} (hg : Good h) {k : Nat} {o : Obj} {z : Arr} (ho : h.objs[k]? = some o)
    (hl : z.val.length = o.cells.length) :
    (store h k o z).objs[k]? = some (o.relabel z) ∧ (o.relabel z).arr (store h k o z).mem = z := by
  refine ⟨List.getElem?_set_self (List.getElem?_eq_some_iff.1 ho).1, ?_⟩
  simp only [Obj.arr, Obj.relabel, store]
  rw [map_write (hg.nodup o (List.mem_of_getElem? ho)) hl]

/-- C74: a ufunc with an output array. The array given becomes the result, numbers and labels, whatever it was before; arrays
with other cells do not change; if the call raises, nothing changes. -/
theorem c74_out {h : Heap} (hg : Good h) {k : Nat} {o : Obj} (ho : h.objs[k]? = some o) (u : Ufunc)
    (num : List (List ℝ) → Except Err (List ℝ)) (args : List Opd) :
    (∀ e, (ufuncOut h u num args k).2 = some e → (ufuncOut h u num args k).1 = h) ∧
    ((ufuncOut h u num args k).2 = none ↔ ∃ z, ufunc u num args = .ok z ∧ z.val.length = o.cells.length) ∧
    (∀ z, ufunc u num args = .ok z → z.val.length = o.cells.length →
      ∃ n, (ufuncOut h u num args k).1.objs[k]? = some n ∧ n.arr (ufuncOut h u num args k).1.mem = z ∧ n.cells = o.cells) ∧
    (∀ (j : Nat) (p : Obj), j ≠ k → h.objs[j]? = some p → (ufuncOut h u num args k).1.objs[j]? = some p ∧
      (Apart o p → p.arr (ufuncOut h u num args k).1.mem = p.arr h.mem)) := by
  unfold ufuncOut
  simp only [ho]
  cases hz : ufunc u num args with
  | error e => exact ⟨fun _ _ => rfl, by simp, by simp, fun j p _ hp => ⟨hp, fun _ => rfl⟩⟩
  | ok z =>
    dsimp only
    by_cases hl : z.val.length = o.cells.length
    · simp only [if_pos hl]
      refine ⟨by simp, by simpa using hl, ?_, ?_⟩
      · rintro z' hz' -
        cases hz'
        obtain ⟨h1, h2⟩ := stored hg ho hl
        exact ⟨_, h1, h2, rfl⟩
      · intro j p hj hp
        refine ⟨by simp only [store]; rw [List.getElem?_set_ne (Ne.symm hj), hp], fun ha => arr_write_apart ha⟩
    · simp only [if_neg hl]
      refine ⟨fun _ _ => trivial, by simpa using hl, ?_, fun j p _ hp => ⟨hp, fun _ => trivial⟩⟩
      rintro z' hz' hl'
      cases hz'
      exact absurd hl' hl

private theorem inplace_eq {h : Heap} {i : Nat} {o : Obj} (ho : h.objs[i]? = some o) {y : Ref} {p : Opd} (hy : y.get h = some p)
    (u : Ufunc) (f : ℝ → ℝ → ℝ) : inplace h u f i y = ufuncOut h u (num2 f) [.cosmo (o.arr h.mem), p] i := by
  have hx : Ref.get h (.obj i) = some (.cosmo (o.arr h.mem)) := by simp [Ref.get, ho]
  simp only [inplace, hx, hy]

private theorem inplace_of {h : Heap} (hg : Good h) {i : Nat} {o : Obj} (ho : h.objs[i]? = some o) {a m : ℝ} {u : Ufunc}
    {f : ℝ → ℝ → ℝ} {y : Ref} {p : Opd} (hy : y.get h = some p) {r : List ℝ}
    (hc : (ufunc u (num2 f) [.cosmo (o.arr h.mem), p]).map Arr.phys = num2 f [(o.arr h.mem).phys, p.phys] ∧
      ∀ z, ufunc u (num2 f) [.cosmo (o.arr h.mem), p] = .ok z → Conv a m z)
    (hr : num2 f [(o.arr h.mem).phys, p.phys] = .ok r) (hl : r.length = o.cells.length) :
    ∃ n, (inplace h u f i y).2 = none ∧ (inplace h u f i y).1.objs[i]? = some n ∧ n.cells = o.cells ∧
      Conv a m (n.arr (inplace h u f i y).1.mem) ∧ (n.arr (inplace h u f i y).1.mem).phys = r := by
  rw [inplace_eq ho hy]
  obtain ⟨e, hcv⟩ := hc
  rw [hr] at e
  cases hz : ufunc u (num2 f) [.cosmo (o.arr h.mem), p] with
  | error q => simp [hz, Except.map] at e
  | ok z =>
    simp only [hz, Except.map, Except.ok.injEq] at e
    have hlz : z.val.length = o.cells.length := by rw [← phys_length z, e, hl]
    obtain ⟨-, h2, h3, -⟩ := c74_out hg ho u (num2 f) [.cosmo (o.arr h.mem), p]
    obtain ⟨n, h4, h5, h6⟩ := h3 z hz hlz
    exact ⟨n, h2.2 ⟨z, hz, hlz⟩, h4, h6, by rw [h5]; exact hcv z hz, by rw [h5, e]⟩

/-- C74: `x += y` and `x -= y`. The array holds the sum of the physical values and scales as before. -/
theorem c74_sums {h : Heap} (hg : Good h) {i j : Nat} {o p : Obj} (ho : h.objs[i]? = some o) (hp : h.objs[j]? = some p)
    {a k : ℝ} (hx : Conv a k (o.arr h.mem)) (hy : Conv a k (p.arr h.mem)) (u : Ufunc) (f : ℝ → ℝ → ℝ)
    (huf : (u, f) ∈ [(Ufunc.add, ((· + ·) : ℝ → ℝ → ℝ)), (.subtract, (· - ·))]) {r : List ℝ}
    (hr : num2 f [(o.arr h.mem).phys, (p.arr h.mem).phys] = .ok r) (hl : r.length = o.cells.length) :
    ∃ n, (inplace h u f i (.obj j)).2 = none ∧ (inplace h u f i (.obj j)).1.objs[i]? = some n ∧ n.cells = o.cells ∧
      Conv a k (n.arr (inplace h u f i (.obj j)).1.mem) ∧ (n.arr (inplace h u f i (.obj j)).1.mem).phys = r := by
  refine inplace_of hg ho (p := .cosmo (p.arr h.mem)) (by simp [Ref.get, hp]) ?_ hr hl
  simp only [List.mem_cons, Prod.mk.injEq, List.not_mem_nil, or_false] at huf
  rcases huf with ⟨rfl, rfl⟩ | ⟨rfl, rfl⟩
  · exact (c25_add_subtract hx hy).1
  · exact (c25_add_subtract hx hy).2

/-- C74: `x *= y`; `y` may be bare numbers. -/
theorem c74_multiply {h : Heap} (hg : Good h) {i : Nat} {o : Obj} (ho : h.objs[i]? = some o) {a k l : ℝ} {y : Ref} {p : Opd}
    (hy : y.get h = some p) (hx : Conv a k (o.arr h.mem)) (hp : HasExp a p l) {r : List ℝ}
    (hr : num2 (· * ·) [(o.arr h.mem).phys, p.phys] = .ok r) (hl : r.length = o.cells.length) :
    ∃ n, (inplace h .multiply (· * ·) i y).2 = none ∧ (inplace h .multiply (· * ·) i y).1.objs[i]? = some n ∧
      n.cells = o.cells ∧ Conv a (k + l) (n.arr (inplace h .multiply (· * ·) i y).1.mem) ∧
      (n.arr (inplace h .multiply (· * ·) i y).1.mem).phys = r :=
  inplace_of hg ho hy (c24_multiply (o := .cosmo (o.arr h.mem)) hx.pos hx hp (.inl ⟨_, rfl⟩)) hr hl

/-- C74: `x /= y`; `y` may be bare numbers. -/
theorem c74_divide {h : Heap} (hg : Good h) {i : Nat} {o : Obj} (ho : h.objs[i]? = some o) {a k l : ℝ} {y : Ref} {p : Opd}
    (hy : y.get h = some p) (hx : Conv a k (o.arr h.mem)) (hp : HasExp a p l) {r : List ℝ}
    (hr : num2 (· / ·) [(o.arr h.mem).phys, p.phys] = .ok r) (hl : r.length = o.cells.length) :
    ∃ n, (inplace h .divide (· / ·) i y).2 = none ∧ (inplace h .divide (· / ·) i y).1.objs[i]? = some n ∧
      n.cells = o.cells ∧ Conv a (k - l) (n.arr (inplace h .divide (· / ·) i y).1.mem) ∧
      (n.arr (inplace h .divide (· / ·) i y).1.mem).phys = r :=
  inplace_of hg ho hy (c24_divide (o := .cosmo (o.arr h.mem)) hx.pos hx hp (.inl ⟨_, rfl⟩)) hr hl

private theorem ufunc_frame {a k l : ℝ} {x y z : Arr} (hx : Conv a k x) (hy : Conv a l y) {u : Ufunc}
    {num : List (List ℝ) → Except Err (List ℝ)} (hz : ufunc u num [.cosmo x, .cosmo y] = .ok z) :
    z.comoving = some (!(x.comoving = some false ∧ y.comoving = some false : Bool)) := by
  have hmix : ∀ q ∈ [Opd.cosmo x, .cosmo y], Mix a q := by
    intro q hq
    rcases List.mem_pair.mp hq with rfl | rfl
    · exact ⟨k, hx⟩
    · exact ⟨l, hy⟩
  obtain ⟨p, b, e, hc, -, -, -, hb⟩ := prepare_mix hmix (by simp [flags])
  unfold ufunc at hz
  simp only [e] at hz
  split at hz
  · cases hz
  · split at hz
    · cases hz
    · cases hz
      simp only [hc, Option.some.injEq]
      cases b
      · have := hb.1 rfl
        simp [flags] at this
        simp [this.1, this.2]
      · have : ¬ (x.comoving = some false ∧ y.comoving = some false) := fun h => by
          have := hb.2 (by simp [flags, h.1, h.2])
          cases this
        simp [this]

/-- C74: the frame of an array after an in-place operation: physical if both operands are, comoving otherwise. -/
theorem c74_frame {h : Heap} (hg : Good h) {i j : Nat} {o p : Obj} (ho : h.objs[i]? = some o) (hp : h.objs[j]? = some p)
    {a k l : ℝ} (hx : Conv a k (o.arr h.mem)) (hy : Conv a l (p.arr h.mem)) (u : Ufunc) (f : ℝ → ℝ → ℝ)
    (hok : (inplace h u f i (.obj j)).2 = none) :
    ∃ n, (inplace h u f i (.obj j)).1.objs[i]? = some n ∧
      (n.comoving = some false ↔ o.comoving = some false ∧ p.comoving = some false) ∧
      (n.comoving = some true ↔ o.comoving = some true ∨ p.comoving = some true) := by
  rw [inplace_eq ho (p := .cosmo (p.arr h.mem)) (by simp [Ref.get, hp])] at hok ⊢
  obtain ⟨-, h2, h3, -⟩ := c74_out hg ho u (num2 f) [.cosmo (o.arr h.mem), .cosmo (p.arr h.mem)]
  obtain ⟨z, hz, hl⟩ := h2.1 hok
  obtain ⟨n, h4, h5, -⟩ := h3 z hz hl
  refine ⟨n, h4, ?_⟩
  have hf := ufunc_frame hx hy hz
  rw [← h5] at hf
  have e1 : (o.arr h.mem).comoving = o.comoving := rfl
  have e2 : (p.arr h.mem).comoving = p.comoving := rfl
  have e3 : (n.arr (ufuncOut h u (num2 f) [.cosmo (o.arr h.mem), .cosmo (p.arr h.mem)] i).1.mem).comoving = n.comoving := rfl
  rw [e1, e2, e3] at hf
  have c1 := hx.framed_cases
  have c2 := hy.framed_cases
  rw [e1] at c1
  rw [e2] at c2
  rw [hf]
  rcases c1 with c1 | c1 <;> rcases c2 with c2 | c2 <;> simp [c1, c2]

/-- C74: what a view of the array sees after an in-place operation: the new numbers under the old labels. -/
theorem c74_view {h : Heap} (hg : Good h) {i j v : Nat} {o p w : Obj} (ho : h.objs[i]? = some o) (hp : h.objs[j]? = some p)
    (hv : h.objs[v]? = some w) (hvi : v ≠ i) (hcells : w.cells = o.cells) (u : Ufunc) (f : ℝ → ℝ → ℝ)
    (hok : (inplace h u f i (.obj j)).2 = none) :
    ∃ n, (inplace h u f i (.obj j)).1.objs[i]? = some n ∧ (inplace h u f i (.obj j)).1.objs[v]? = some w ∧
      (w.arr (inplace h u f i (.obj j)).1.mem).val = (n.arr (inplace h u f i (.obj j)).1.mem).val ∧
      (w.arr (inplace h u f i (.obj j)).1.mem).comoving = w.comoving ∧ (w.arr (inplace h u f i (.obj j)).1.mem).cf = w.cf := by
  rw [inplace_eq ho (p := .cosmo (p.arr h.mem)) (by simp [Ref.get, hp])] at hok ⊢
  obtain ⟨-, h2, h3, h6⟩ := c74_out hg ho u (num2 f) [.cosmo (o.arr h.mem), .cosmo (p.arr h.mem)]
  obtain ⟨z, hz, hl⟩ := h2.1 hok
  obtain ⟨n, h4, h5, h7⟩ := h3 z hz hl
  refine ⟨n, h4, (h6 v w hvi hv).1, ?_, rfl, rfl⟩
  simp only [Obj.arr, hcells, h7]

/-- Three arrays at redshift one: a physical length of 4, another name for the same memory, and a comoving length of 2. -/
private noncomputable def shared : Heap :=
  ⟨fun c => if c = 0 then 4 else 2, 2,
    [⟨[0], 1, some false, some ⟨some 1, some (1 / 2)⟩, true⟩, ⟨[0], 1, some false, some ⟨some 1, some (1 / 2)⟩, true⟩,
     ⟨[1], 1, some true, some ⟨some 1, some (1 / 2)⟩, true⟩]⟩

private theorem shared_good : Good shared := by
  refine ⟨?_, ?_, ?_, ?_⟩ <;> simp [shared]

/-- C74 fails for the frame and for views: `x += y` with a physical `x` and a comoving `y` leaves `x` comoving, and another
array in the same memory, whose label stays physical, shows twice the length. -/
theorem c74_inplace_fails :
    ∃ n w, (inplace shared .add (· + ·) 0 (.obj 2)).2 = none ∧
      shared.objs[0]? = some w ∧ shared.objs[1]? = some w ∧ w.comoving = some false ∧
      (inplace shared .add (· + ·) 0 (.obj 2)).1.objs[0]? = some n ∧ n.comoving = some true ∧
      (n.arr (inplace shared .add (· + ·) 0 (.obj 2)).1.mem).phys = [5] ∧
      (inplace shared .add (· + ·) 0 (.obj 2)).1.objs[1]? = some w ∧
      (w.arr (inplace shared .add (· + ·) 0 (.obj 2)).1.mem).phys = [10] := by
  have hp : (0 : ℝ) < 1 / 2 := by norm_num
  have h0 : shared.objs[0]? = some ⟨[0], 1, some false, some ⟨some 1, some (1 / 2)⟩, true⟩ := rfl
  have h1 : shared.objs[1]? = some ⟨[0], 1, some false, some ⟨some 1, some (1 / 2)⟩, true⟩ := rfl
  have h2 : shared.objs[2]? = some ⟨[1], 1, some true, some ⟨some 1, some (1 / 2)⟩, true⟩ := rfl
  have c0 : Conv (1 / 2) 1 (Obj.arr shared.mem ⟨[0], 1, some false, some ⟨some 1, some (1 / 2)⟩, true⟩) :=
    ⟨hp, rfl, rfl, by simp [Obj.arr]⟩
  have c2 : Conv (1 / 2) 1 (Obj.arr shared.mem ⟨[1], 1, some true, some ⟨some 1, some (1 / 2)⟩, true⟩) :=
    ⟨hp, rfl, rfl, by simp [Obj.arr]⟩
  obtain ⟨n, hok, hn, hc, hcv, hphys⟩ := c74_sums shared_good h0 h2 c0 c2 .add (· + ·) (by simp) (r := [5]) (by
    norm_num [num2, bcast2, Arr.phys, Obj.arr, shared]) rfl
  obtain ⟨n', hn', -, hf⟩ := c74_frame shared_good h0 h2 c0 c2 .add (· + ·) hok
  obtain rfl : n' = n := by rw [hn] at hn'; exact (Option.some.inj hn').symm
  obtain ⟨n'', hn'', hw, hval, -, -⟩ := c74_view shared_good h0 h2 h1 (by decide) rfl .add (· + ·) hok
  obtain rfl : n'' = n' := by rw [hn] at hn''; exact (Option.some.inj hn'').symm
  have hcm : n''.comoving = some true := hf.2 (.inr rfl)
  refine ⟨n'', _, hok, h0, h1, rfl, hn, hcm, hphys, hw, ?_⟩
  rw [phys_false (x := Obj.arr _ ⟨[0], 1, some false, some ⟨some 1, some (1 / 2)⟩, true⟩) rfl, hval]
  rw [phys_true hcv hcm] at hphys
  have hlen := congrArg List.length hphys
  revert hphys hlen
  generalize (n''.arr _).val = v
  intro hphys hlen
  rcases v with _ | ⟨t, _ | ⟨_, _⟩⟩ <;> simp at hlen
  simp only [List.map_cons, List.map_nil, List.cons.injEq, and_true, Real.rpow_one] at hphys ⊢
  linarith

private theorem getD_scale (l : List ℝ) (i : Nat) (s : ℝ) : (l.map (· * s)).getD i 0 = l.getD i 0 * s := by
  have := getD_map' (· * s) l i 0
  simpa using this

private theorem lines_count {r c : Nat} {ax : Axis} {n : Nat} {ls : List (List Nat)} (ha : ax ≠ .absent)
    (hn : ax.count r c = .ok n) (hl : ax.lines r c = .ok ls) : ∀ l ∈ ls, l.length = n := by
  rcases ax with _ | _ | (_ | _ | i) | s <;> simp [Axis.count, Axis.lines] at hn hl ha
  · subst hn hl; simp
  · subst hn hl; simp
  · subst hn hl; simp

/-- A reduction is covariant if its factor has the exponent that the combination of a line has. -/
private theorem reduce_cov {a k m : ℝ} {x : Arr} {u : Ufunc} {g : List ℝ → ℝ} {r c : Nat} {ax : Axis} {ls : List (List Nat)}
    (hx : Conv a k x) (hr : reduceCF u r c ax (some ⟨some k, some a⟩) = .ok (some ⟨some m, some a⟩))
    (hl : ax.lines r c = .ok ls)
    (hg : ∀ (b : Bool) (t : List ℝ), (∃ l ∈ ls, t.length = l.length) → g (t.map (· * scale a b k)) = g t * scale a b m) :
    ∃ z, reduceCall u g r c ax x = .ok z ∧ Conv a m z ∧
      z.phys = ls.map (fun l => g (l.map (fun i => x.phys.getD i 0))) := by
  have hmix : ∀ q ∈ [Opd.cosmo x], Mix a q := by
    intro q hq
    rw [List.mem_singleton.mp hq]
    exact ⟨k, hx⟩
  obtain ⟨p, b, e, hc, hvt, -, hf, -⟩ := prepare_mix hmix (by simp [flags])
  obtain ⟨o, hargs, h1⟩ := forall2_one hf
  have e1 : x.phys = _ := h1.phys (o := .cosmo x) hx
  unfold reduceCall
  simp only [e, hx.cf, hr, hl, hargs]
  refine ⟨_, rfl, ⟨hx.pos, rfl, hvt, by simp [hc]⟩, ?_⟩
  rw [phys_result (m := m) (a := a) (b := b) hc rfl, e1, List.map_map]
  refine List.map_congr_left fun l hlm => ?_
  simp only [Function.comp]
  rw [← hg b _ ⟨l, hlm, by simp⟩, List.map_map]
  congr 1
  refine List.map_congr_left fun i _ => ?_
  simp only [Function.comp]
  exact (getD_scale _ _ _).symm

private theorem quotient_scale (s : ℝ) (hs : 0 < s) (t : List ℝ) (ht : t ≠ []) :
    quotient (t.map (· * s)) = quotient t * s ^ (2 - (t.length : ℝ)) := by
  cases t with
  | nil => exact absurd rfl ht
  | cons x l =>
    simp only [List.map_cons, quotient, List.length_cons]
    clear ht
    have key : ∀ (l : List ℝ) (y : ℝ), (l.map (· * s)).foldl (· / ·) y = l.foldl (· / ·) y * s ^ (-(l.length : ℝ)) := by
      intro l
      induction l with
      | nil => intro y; simp
      | cons z l ih =>
        intro y
        have hd : ∀ (m : List ℝ) (y w : ℝ), m.foldl (· / ·) (y / w) = m.foldl (· / ·) y / w := by
          intro m
          induction m with
          | nil => intro y w; rfl
          | cons q m ihm => intro y w; simp only [List.foldl_cons]; rw [div_right_comm, ihm]
        simp only [List.map_cons, List.foldl_cons, List.length_cons]
        rw [ih, hd, hd, Nat.cast_succ, neg_add, Real.rpow_add hs, Real.rpow_neg_one]
        field_simp
    rw [key, Nat.cast_succ]
    have hm : ∀ (m : List ℝ) (y w : ℝ), m.foldl (· / ·) (y * w) = m.foldl (· / ·) y * w := by
      intro m
      induction m with
      | nil => intro y w; rfl
      | cons q m ihm => intro y w; simp only [List.foldl_cons]; rw [mul_div_right_comm, ihm]
    rw [hm, mul_assoc]
    congr 1
    rw [show (2 : ℝ) - ((l.length : ℝ) + 1) = 1 + -(l.length : ℝ) by ring, Real.rpow_add hs, Real.rpow_one]

/-- C74: `multiply.reduce` over a given axis or over all elements: the product of the physical values, with the exponent
multiplied by the number of factors. -/
theorem c74_multiply_reduce {a k : ℝ} {x : Arr} (hx : Conv a k x) {r c n : Nat} {ax : Axis} {ls : List (List Nat)}
    (ha : ax ≠ .absent) (hn : ax.count r c = .ok n) (hl : ax.lines r c = .ok ls) :
    ∃ z, reduceCall .multiply List.prod r c ax x = .ok z ∧ Conv a (k * n) z ∧
      z.phys = ls.map (fun l => (l.map (fun i => x.phys.getD i 0)).prod) := by
  refine reduce_cov hx (by simp [reduceCF, hn, powerCF, CF.pow]) hl fun b t ht => ?_
  obtain ⟨l, hlm, e⟩ := ht
  rw [scale_pow hx.pos, Real.rpow_natCast, ← lines_count ha hn hl l hlm, ← e, List.prod_map_mul]
  simp

/-- C74: `divide.reduce` of lines that are not empty. -/
theorem c74_divide_reduce {a k : ℝ} {x : Arr} (hx : Conv a k x) {r c n : Nat} {ax : Axis} {ls : List (List Nat)}
    (ha : ax ≠ .absent) (hn : ax.count r c = .ok n) (hpos : 0 < n) (hl : ax.lines r c = .ok ls) :
    ∃ z, reduceCall .divide quotient r c ax x = .ok z ∧ Conv a (k * (2 - n)) z ∧
      z.phys = ls.map (fun l => quotient (l.map (fun i => x.phys.getD i 0))) := by
  refine reduce_cov hx (by simp [reduceCF, hn, powerCF, CF.pow]) hl fun b t ht => ?_
  obtain ⟨l, hlm, e⟩ := ht
  have hlen : t.length = n := e.trans (lines_count ha hn hl l hlm)
  rw [quotient_scale _ (scale_pos hx.pos b k) t (by rintro rfl; simp at hlen; omega), hlen, scale_pow hx.pos]

/-- C74: `add.reduce`, `maximum.reduce` and `minimum.reduce` over any axis keep the factor. -/
theorem c74_keep_reduce {a k : ℝ} {x : Arr} (hx : Conv a k x) {r c : Nat} {ax : Axis} {ls : List (List Nat)}
    (hl : ax.lines r c = .ok ls) (u : Ufunc) (hu : u ∈ [Ufunc.add, .maximum, .minimum, .fmax, .fmin]) (g : List ℝ → ℝ)
    (hg : ∀ (s : ℝ) (t : List ℝ), 0 < s → g (t.map (· * s)) = g t * s) :
    ∃ z, reduceCall u g r c ax x = .ok z ∧ Conv a k z ∧
      z.phys = ls.map (fun l => g (l.map (fun i => x.phys.getD i 0))) := by
  refine reduce_cov hx ?_ hl fun b t _ => hg _ _ (scale_pos hx.pos b k)
  simp only [List.mem_cons, List.not_mem_nil, or_false] at hu
  rcases hu with rfl | rfl | rfl | rfl | rfl <;>
    simp [reduceCF, handle, registry, reduce1, pure, Except.pure]

private theorem flatten_getD {c : Nat} : ∀ (rows : List (List ℝ)), (∀ row ∈ rows, row.length = c) → ∀ (i j : Nat) (hi : i < rows.length), j < c →
    rows.flatten.getD (i * c + j) 0 = (rows[i]).getD j 0
  | [], _, i, _, hi, _ => by simp at hi
  | row :: rows, h, 0, j, _, hj => by
    have hl : row.length = c := h row (by simp)
    simp [List.getD, List.getElem?_append, hl, hj]
  | row :: rows, h, i + 1, j, hi, hj => by
    have hl : row.length = c := h row (by simp)
    have ih := flatten_getD rows (fun q hq => h q (by simp [hq])) i j (by simpa using hi) hj
    have e : (i + 1) * c + j - c = i * c + j := by
      rw [Nat.succ_mul]
      omega
    have hn : ¬ (i + 1) * c + j < c := by
      rw [Nat.succ_mul]
      omega
    simp only [List.getD, List.flatten_cons, List.getElem?_append, hl, hn, if_false, e, List.getElem_cons_succ] at ih ⊢
    exact ih

/-- C74: the lines that are combined are the rows of the matrix for `axis=1`, its columns for `axis=0` and without an axis, and all elements for
`axis=None`. -/
theorem c74_lines (rows : List (List ℝ)) (c : Nat) (h : ∀ row ∈ rows, row.length = c) (ax : Axis) (ls : List (List Nat))
    (hl : ax.lines rows.length c = .ok ls) :
    ls.map (fun l => l.map fun i => rows.flatten.getD i 0) =
      if ax = .one 1 then rows else if ax = .all then [rows.flatten] else (List.range c).map fun j => rows.map fun row => row.getD j 0 := by
  have hcol : ((List.range c).map fun j => (List.range rows.length).map fun i => i * c + j).map (fun l => l.map fun i => rows.flatten.getD i 0) =
      (List.range c).map fun j => rows.map fun row => row.getD j 0 := by
    rw [List.map_map]
    refine List.map_congr_left fun j hj => ?_
    refine List.ext_getElem (by simp) fun i h1 h2 => ?_
    have hi : i < rows.length := by simpa using h2
    simp only [Function.comp, List.getElem_map, List.getElem_range]
    exact flatten_getD rows h i j hi (List.mem_range.1 hj)
  rcases ax with _ | _ | (_ | _ | i) | s
  · obtain rfl := Except.ok.inj hl
    simpa using hcol
  · obtain rfl := Except.ok.inj hl
    have hlen : rows.flatten.length = rows.length * c := by
      rw [List.length_flatten, List.map_congr_left h, List.map_const', List.sum_replicate, smul_eq_mul]
    simp only [reduceCtorEq, if_false, if_true, List.map_cons, List.map_nil, List.cons.injEq, and_true]
    refine List.ext_getElem (by simp [hlen]) fun i h1 h2 => ?_
    simp [List.getD, List.getElem?_eq_getElem h2]
  · obtain rfl := Except.ok.inj hl
    simpa using hcol
  · obtain rfl := Except.ok.inj hl
    simp only [if_true]
    refine List.ext_getElem (by simp) fun i h1 h2 => ?_
    simp only [List.getElem_map, List.getElem_range, List.map_map]
    have hr : (rows[i]).length = c := h _ (List.getElem_mem h2)
    refine List.ext_getElem (by simp [hr]) fun j h3 h4 => ?_
    simp only [List.getElem_map, List.getElem_range, Function.comp]
    rw [flatten_getD rows h i j h2 (hr ▸ h4)]
    simp [List.getD, List.getElem?_eq_getElem h4]
  · cases hl
  · cases hl

-- A matrix of two rows and three columns.
example : (∀ row ∈ ([[2, 4, 6], [8, 10, 12]] : List (List ℝ)), row.length = 3) ∧ Axis.lines 2 3 (.one 1) = .ok [[0, 1, 2], [3, 4, 5]] ∧
    Axis.lines 2 3 (.one 0) = .ok [[0, 3], [1, 4], [2, 5]] ∧ Axis.lines 2 3 .all = .ok [[0, 1, 2, 3, 4, 5]] :=
  ⟨by simp, rfl, rfl, rfl⟩

/-- C74 fails for `multiply.reduce(x)` without an axis: numpy multiplies the rows, but the exponent is multiplied by the
number of elements. For a comoving array of `r` rows the result means the product of the physical values only if there is
one column. -/
theorem c74_default_axis_fails {a k : ℝ} {x : Arr} (hx : Conv a k x) (r c : Nat) (hc : x.comoving = some true) :
    ∃ z, reduceCall .multiply List.prod r c .absent x = .ok z ∧ Conv a (k * (r * c : ℕ)) z ∧
      z.phys = (List.range c).map (fun j => ((List.range r).map (fun i => x.phys.getD (i * c + j) 0)).prod *
        a ^ (k * ((r * c : ℕ) - r))) := by
  obtain ⟨z, hz, hz1, hz2⟩ := c74_multiply_reduce hx (ax := .one 0) (by simp) (r := r) (c := c) rfl rfl
  have hz' : reduceCall .multiply List.prod r c .absent x = .ok { z with cf := some ⟨some (k * (r * c : ℕ)), some a⟩ } := by
    unfold reduceCall at hz ⊢
    split at hz
    · cases hz
    rename_i p hp
    simp only [reduceCF, Axis.count, Axis.lines, hx.cf, powerCF, CF.pow, Option.bind, Option.map_some] at hz ⊢
    split at hz
    · simp only [Except.ok.injEq] at hz
      subst hz
      rfl
    · cases hz
  have hzc : z.comoving = some true := by
    unfold reduceCall at hz
    simp only [prepare, flags, hc, List.append_nil, List.mem_singleton, forall_eq, reduceCF, Axis.count, Axis.lines, hx.cf,
      powerCF, CF.pow, Option.bind, Option.map_some, if_true, List.cons_ne_nil, if_false] at hz
    simp only [Except.ok.injEq] at hz
    rw [← hz]
  refine ⟨_, hz', ⟨hx.pos, rfl, hz1.vt, hz1.framed⟩, ?_⟩
  have hpos := hx.pos
  rw [phys_true (a := a) (k := k * (r * c : ℕ)) (x := { z with cf := some ⟨some (k * (r * c : ℕ)), some a⟩ })
    ⟨hx.pos, rfl, hz1.vt, hz1.framed⟩ hzc]
  rw [phys_true hz1 hzc, List.map_map] at hz2
  have e : z.val.map (fun v => v * a ^ (k * (r * c : ℕ))) =
      (z.val.map (fun v => v * a ^ (k * (r : ℝ)))).map (fun v => v * a ^ (k * ((r * c : ℕ) - r))) := by
    rw [List.map_map]
    refine List.map_congr_left fun v _ => ?_
    simp only [Function.comp]
    rw [mul_assoc, ← Real.rpow_add hpos]
    congr 2
    ring
  dsimp only
  rw [e, hz2, List.map_map]
  simp [Function.comp_def]

/-- C74 fails for a product over two axes: an error. -/
theorem c74_axes_fails {a k : ℝ} {x : Arr} (hx : Conv a k x) (g : List ℝ → ℝ) (r c : Nat) (l : List Nat) :
    reduceCall .multiply g r c (.several l) x = .error .typeErr := by
  have hp : ∃ p, prepare true [.cosmo x] [] = .ok p := by
    rcases hx.framed_cases with h | h <;> simp [prepare, flags, h]
  obtain ⟨p, hp⟩ := hp
  simp [reduceCall, hp, reduceCF, Axis.count]

/-- A comoving 2 by 2 matrix at redshift one: the product of each column, and the wrong one without an axis. -/
example : ∃ z y, reduceCall .multiply List.prod 2 2 (.one 0) ⟨[2, 4, 6, 8], some true, some ⟨some 1, some (1 / 2)⟩, true⟩ = .ok z ∧
    z.phys = [3, 8] ∧
    reduceCall .multiply List.prod 2 2 .absent ⟨[2, 4, 6, 8], some true, some ⟨some 1, some (1 / 2)⟩, true⟩ = .ok y ∧
    y.phys = [3 / 4, 2] := by
  have hx : Conv (1 / 2) 1 ⟨[2, 4, 6, 8], some true, some ⟨some 1, some (1 / 2)⟩, true⟩ := ⟨by norm_num, rfl, rfl, by simp⟩
  obtain ⟨z, hz, -, h1⟩ := c74_multiply_reduce hx (ax := .one 0) (by simp) (r := 2) (c := 2) rfl rfl
  obtain ⟨y, hy, -, h2⟩ := c74_default_axis_fails hx 2 2 rfl
  refine ⟨z, y, hz, ?_, hy, ?_⟩
  · rw [h1]
    norm_num [Arr.phys, List.range_succ]
  · rw [h2]
    norm_num [Arr.phys, List.range_succ]

/-- `x *= 3` on the physical length of 4: 12, and the comoving length is untouched. -/
example : ∃ n, (inplace shared .multiply (· * ·) 0 (.bare [3])).2 = none ∧
    (inplace shared .multiply (· * ·) 0 (.bare [3])).1.objs[0]? = some n ∧
    (n.arr (inplace shared .multiply (· * ·) 0 (.bare [3])).1.mem).phys = [12] := by
  have h0 : shared.objs[0]? = some ⟨[0], 1, some false, some ⟨some 1, some (1 / 2)⟩, true⟩ := rfl
  have c0 : Conv (1 / 2) 1 (Obj.arr shared.mem ⟨[0], 1, some false, some ⟨some 1, some (1 / 2)⟩, true⟩) :=
    ⟨by norm_num, rfl, rfl, by simp [Obj.arr]⟩
  obtain ⟨n, h1, h2, -, -, h3⟩ := c74_multiply shared_good h0 (y := .bare [3]) (l := 0) rfl c0 rfl (r := [12]) (by
    norm_num [num2, bcast2, Arr.phys, Opd.phys, Obj.arr, shared]) rfl
  exact ⟨n, h1, h2, h3⟩

/-- The sums of the rows of a comoving matrix. -/
example : ∃ z, reduceCall .add List.sum 2 2 (.one 1) ⟨[2, 4, 6, 8], some true, some ⟨some 1, some (1 / 2)⟩, true⟩ = .ok z ∧
    z.phys = [3, 7] := by
  have hx : Conv (1 / 2) 1 ⟨[2, 4, 6, 8], some true, some ⟨some 1, some (1 / 2)⟩, true⟩ := ⟨by norm_num, rfl, rfl, by simp⟩
  obtain ⟨z, hz, -, h1⟩ := c74_keep_reduce hx (ax := .one 1) (r := 2) (c := 2) rfl .add (by simp) List.sum
    (fun s t _ => by rw [List.sum_map_mul_right]; simp)
  refine ⟨z, hz, ?_⟩
  rw [h1]
  norm_num [Arr.phys, List.range_succ]

/-- A quotient of three physical lengths. -/
example : ∃ z, reduceCall .divide quotient 3 1 (.one 0) ⟨[12, 3, 2], some false, some ⟨some 1, some (1 / 2)⟩, true⟩ = .ok z ∧
    Conv (1 / 2) (-1) z ∧ z.phys = [2] := by
  have hx : Conv (1 / 2) 1 ⟨[12, 3, 2], some false, some ⟨some 1, some (1 / 2)⟩, true⟩ := ⟨by norm_num, rfl, rfl, by simp⟩
  obtain ⟨z, hz, h0, h1⟩ := c74_divide_reduce hx (ax := .one 0) (by simp) (r := 3) (c := 1) rfl (by omega) rfl
  refine ⟨z, hz, ?_, ?_⟩
  · have : (1 : ℝ) * (2 - (3 : ℕ)) = -1 := by norm_num
    rwa [this] at h0
  · rw [h1]
    norm_num [Arr.phys, List.range_succ, quotient]

end Verif.Props
