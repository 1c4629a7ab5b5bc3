import Verif.Spec.PropertyBounds
import Verif.Lemmas.MaskRows
import Verif.Props.Attributes
import Verif.Props.CosmoFactor

/-!
# Bounds of `constrain_property` with units and frames (C102)
-/

namespace Verif.Props
open Verif Verif.Mask Verif.Cosmo Verif.Attributes Verif.PropertyBounds
open Verif.Spec (fileValue Means)

private theorem compress_of_map {β γ : Type} (g : β → γ) : ∀ (ms : List Bool) (xs : List β), compress ms (xs.map g) = (compress ms xs).map g := by
  intro ms
  induction ms with
  | nil => intro xs; simp [compress]
  | cons c ms ih => intro xs; cases xs <;> cases c <;> simp [compress, ih]

private theorem bcast2_one {β : Type} (f : ℝ → ℝ → β) (xs : List ℝ) (w : ℝ) : bcast2 f xs [w] = .ok (xs.map fun u => f u w) := by
  unfold bcast2
  rcases xs with _ | ⟨x, _ | ⟨y, xs⟩⟩ <;> simp

private theorem numbers_eq (r : ℝ → ℝ → Bool) (x : Attributes.Field) (q : Bound) :
    inFirstUnit r x q = num2 fun u v => r u (v * (q.size / x.size)) := by
  funext l
  rcases l with _ | ⟨xs, _ | ⟨ys, _ | ⟨zs, l⟩⟩⟩ <;> simp only [inFirstUnit, num2]
  unfold bcast2
  rw [List.length_map]
  split
  · rw [List.zipWith_map_right]
  · rcases xs with _ | ⟨x0, _ | ⟨x1, xs⟩⟩ <;> rcases ys with _ | ⟨y0, _ | ⟨y1, ys⟩⟩ <;> simp

private theorem maskArray_eq (b : Base) (sf : ℝ) (a : Attrs) (v : List ℝ) :
    maskArray b sf a v = .ok ⟨⟨v, some (!(a.physical.getD 0 == 1)), some ⟨some (a.aScale.getD 0), some sf⟩, true⟩, a.dims, b.unit a.dims⟩ := by
  simp [maskArray, newPlain, parse, CF.create, Arr.verify, Except.map, readField, ite_rpow, Base.unit]

private theorem physical_iff (a : Attrs) : (a.physical.getD 0 == 1) = true ↔ a.physical = some 1 := by
  rcases a.physical with _ | p <;> simp

private theorem compare_eq {sf k w : ℝ} {q : Bound} (u : Ufunc) (hu : registry u = .comparison) (r : ℝ → ℝ → Bool)
    (hr : ∀ s u v : ℝ, 0 < s → r (u * s) (v * s) = r u v) (x : Attributes.Field) (hx : Conv sf k x.arr) (hs : 0 < x.size) (hq : Means sf k q w) :
    compareWith u r x q = .ok (x.arr.phys.map fun v => r (v * x.size) w) := by
  obtain ⟨h1, h2, h3, h4⟩ := hq
  have hc : Conv sf k q.arr := ⟨hx.pos, h1, h2, by rcases h4 with h | h <;> simp [Bound.arr, h.1]⟩
  have hp : ∃ p, q.arr.phys = [p] ∧ w = p * q.size := by
    rcases h4 with h | h
    · exact ⟨q.value * sf ^ k, by rw [phys_true hc h.1]; rfl, h.2⟩
    · exact ⟨q.value, by rw [phys_false h.1]; rfl, h.2⟩
  obtain ⟨p, hp, rfl⟩ := hp
  unfold compareWith
  rw [numbers_eq, c25_scale_free hu hx hc (fun s u v h => by rw [mul_right_comm, hr s _ _ h]), hp]
  simp only [num2, bcast2_one]
  congr 1
  refine List.map_congr_left fun v _ => ?_
  rw [← hr x.size _ _ hs]
  congr 1
  field_simp

private theorem above_scale (s u v : ℝ) (h : 0 < s) : above (u * s) (v * s) = above u v := by
  simp [above, h]

private theorem atMost_scale (s u v : ℝ) (h : 0 < s) : atMost (u * s) (v * s) = atMost u v := by
  simp [atMost, h]

private theorem newMask_eq {b : Base} {sf : ℝ} {a : Attrs} {vals : List ℝ} {lower upper : Bound} {w₁ w₂ : ℝ} (hb : BasePos b) (hsf : 0 < sf)
    (h₁ : Means sf (a.aScale.getD 0) lower w₁) (h₂ : Means sf (a.aScale.getD 0) upper w₂) (current : List Bool) :
    newMask b sf ⟨a, .column vals⟩ lower upper current =
      .ok (maskedAssign current ((compress current (vals.map (fileValue b sf a))).map fun v => decide (v > w₁) && decide (v ≤ w₂))) := by
  unfold newMask
  dsimp only
  rw [maskArray_eq]
  dsimp only
  have hx : ∀ v : List ℝ, Conv sf (a.aScale.getD 0)
      ⟨v, some (!(a.physical.getD 0 == 1)), some ⟨some (a.aScale.getD 0), some sf⟩, true⟩ := fun v => ⟨hsf, rfl, rfl, by simp⟩
  rw [compare_eq .greater rfl above above_scale _ (hx _) (Base_unit_pos hb _) h₁,
    compare_eq .lessEqual rfl atMost atMost_scale _ (hx _) (Base_unit_pos hb _) h₂]
  dsimp only
  have hp : ∀ v : List ℝ, (⟨v, some (!(a.physical.getD 0 == 1)), some ⟨some (a.aScale.getD 0), some sf⟩, true⟩ : Arr).phys.map
      (fun v => v * b.unit a.dims) = v.map (fileValue b sf a) := by
    intro v
    by_cases hc : a.physical = some 1
    · simp [Arr.phys, hc, fileValue, Base.unit]
    · have : (a.physical.getD 0 == 1) = false := by rw [← Bool.not_eq_true, physical_iff]; exact hc
      simp [Arr.phys, this, hc, fileValue, Base.unit]
      exact fun x _ => (mul_assoc _ _ _).symm
  have hz : ∀ (p q : ℝ → Bool) (l : List ℝ), List.zipWith (· && ·) (l.map p) (l.map q) = l.map fun v => p v && q v := by
    intro p q l
    induction l with
    | nil => rfl
    | cons x l ih => simp [ih]
  rw [hz, compress_of_map, ← hp]
  simp only [List.map_map, Numbers.take]
  rfl

/-- C102: after `constrain_property(group, field, lower, upper)` a row is selected exactly if it was before and the physical value of its
number is above the lower bound and at most the upper bound, whatever the units and frames of the file and of the bounds. -/
theorem c102_rows {b : Base} {sf : ℝ} {a : Attrs} {vals : List ℝ} {lower upper : Bound} {w₁ w₂ : ℝ} (hb : BasePos b) (hsf : 0 < sf)
    (h₁ : Means sf (a.aScale.getD 0) lower w₁) (h₂ : Means sf (a.aScale.getD 0) upper w₂) (current : List Bool) (hl : current.length = vals.length) :
    ∃ new, newMask b sf ⟨a, .column vals⟩ lower upper current = .ok new ∧ new.length = current.length ∧
      ∀ i : Nat, new[i]? = some true ↔ current[i]? = some true ∧ ∃ v, vals[i]? = some v ∧ w₁ < fileValue b sf a v ∧ fileValue b sf a v ≤ w₂ := by
  refine ⟨_, newMask_eq hb hsf h₁ h₂ current, maskedAssign_length _ _, fun i => ?_⟩
  rw [maskedAssign_get _ _ _ (by simpa using hl)]
  simp

/-- C102: the whole call is `constrain_property` of C03 on the physical values in cgs with the bounds in physical cgs. -/
theorem c102_refines {m : Nat} (f : Mask.File ℝ m) {b : Base} {sf : ℝ} {disk : String → String → Option OnDisk} {group quantity : String}
    {a : Attrs} {vals : List ℝ} {lower upper : Bound} {w₁ w₂ : ℝ} (hb : BasePos b) (hsf : 0 < sf)
    (hd : disk group quantity = some ⟨a, .column vals⟩) (hf : f.field group quantity = some (vals.map (fileValue b sf a)))
    (h₁ : Means sf (a.aScale.getD 0) lower w₁) (h₂ : Means sf (a.aScale.getD 0) upper w₂) (s : Mask.State m) :
    constrainProperty f b sf disk s group quantity lower upper = propertyBody f s group quantity w₁ w₂ := by
  unfold constrainProperty propertyBody
  dsimp only
  rw [hd, hf]
  cases f.group group with
  | none => rfl
  | some k =>
    dsimp only
    cases (toBool f s).rep with
    | ranges r => rfl
    | bools bs => dsimp only; rw [newMask_eq hb hsf h₁ h₂]

private theorem prepare_each (cm qcm : Option Bool) (cf qcf : Option CF) (vt qvt : Bool) (w : ℝ) :
    ∃ h : Except Err ((ℝ → ℝ) × ℝ), ∀ v, (prepare true [.cosmo ⟨v, cm, cf, vt⟩, .cosmo ⟨[w], qcm, qcf, qvt⟩] []).map
      (fun p => p.args.map Opd.vals) = h.map fun g => [v.map g.1, [g.2]] := by
  obtain ⟨F, hF⟩ : ∃ F, ∀ v c t, Arr.factor ⟨v, c, cf, t⟩ = F := ⟨Arr.factor ⟨[], none, cf, true⟩, fun _ _ _ => by simp [Arr.factor]⟩
  obtain ⟨G, hG⟩ : ∃ F, ∀ v c t, Arr.factor ⟨v, c, qcf, t⟩ = F := ⟨Arr.factor ⟨[], none, qcf, true⟩, fun _ _ _ => by simp [Arr.factor]⟩
  let c := fun v => (prepare true [.cosmo ⟨v, cm, cf, vt⟩, .cosmo ⟨[w], qcm, qcf, qvt⟩] []).map (fun p => p.args.map Opd.vals)
  refine ⟨(c []).map fun l => (fun x => match c [x] with | .ok [[y], _] => y | _ => 0, match l with | [_, [y]] => y | _ => 0), fun v => ?_⟩
  show c v = _
  rcases cm with _ | _ | _ <;> rcases qcm with _ | _ | _ <;> cases vt <;> cases qvt <;> rcases F with e | x <;> rcases G with e' | y <;>
    simp [c, prepare, flags, anyFixed, allToComoving, allToPhysical, Arr.toComoving, Arr.toPhysical, Arr.convertToComoving,
        Arr.convertToPhysical, hF, hG, Except.map, Opd.vals]

/-- A comparison with a bound looks at each number by itself, and is refused or not whatever the numbers are. -/
private theorem compare_each (u : Ufunc) (hu : registry u = .comparison) (r : ℝ → ℝ → Bool) (cm : Option Bool) (cf : Option CF) (vt : Bool) (e : Exps)
    (size : ℝ) (q : Bound) :
    ∃ h : Except Err (ℝ → Bool), ∀ v, compareWith u r ⟨⟨v, cm, cf, vt⟩, e, size⟩ q = h.map fun g => v.map g := by
  rcases q with ⟨w, qcm, qcf, qvt, qsize⟩
  obtain ⟨h, hp⟩ := prepare_each cm qcm cf qcf vt qvt w
  refine ⟨match h, without2 cf qcf with
    | .error e, _ => .error e
    | .ok _, .error e => .error e
    | .ok g, .ok _ => .ok fun x => r (g.1 x) (g.2 * (qsize / size)), fun v => ?_⟩
  have hv := hp v
  simp only [compareWith, ufuncBool, numbers_eq, Bound.arr]
  rcases hq : prepare true [.cosmo ⟨v, cm, cf, vt⟩, .cosmo ⟨[w], qcm, qcf, qvt⟩] [] with e | p
  · rcases h with e' | g <;> simp [hq, Except.map] at hv ⊢
    exact hv
  · rcases h with e' | g
    · simp [hq, Except.map] at hv
    · simp [hq, Except.map] at hv
      dsimp only
      rw [prepare_cfs hq, hv]
      simp only [hu, handle, List.map, Opd.cf]
      rcases without2 cf qcf with e | o
      · rfl
      · simp [num2, bcast2_one, Except.map]

/-- C102, the part that holds: for a field that can be converted (`convertible` is absent or 1 in the file) the rows are those that
`(field > lower) & (field <= upper)` selects on the array of the dataset, for any bounds for which these comparisons are possible. Full
statement: for any field. For fields that cannot be converted see `c102_fixed_fails`. -/
theorem c102_dataset_partial {b : Base} {sf : ℝ} {a : Attrs} {vals : List ℝ} {lower upper : Bound} (hc : a.convertible.getD 1 = 1)
    {l u : List Bool} (hl : compareWith .greater above (readField b sf (a, vals)) lower = .ok l)
    (hu : compareWith .lessEqual atMost (readField b sf (a, vals)) upper = .ok u) (current : List Bool) (hn : current.length = vals.length) :
    ∃ new, newMask b sf ⟨a, .column vals⟩ lower upper current = .ok new ∧ new.length = current.length ∧
      ∀ i : Nat, new[i]? = some true ↔ current[i]? = some true ∧ l[i]? = some true ∧ u[i]? = some true := by
  have hr : ∀ v, readField b sf (a, v) =
      ⟨⟨v, some (!(a.physical.getD 0 == 1)), some ⟨some (a.aScale.getD 0), some sf⟩, true⟩, a.dims, b.unit a.dims⟩ := by
    intro v; simp [readField, hc, CF.create, ite_rpow, Base.unit]
  rw [hr] at hl hu
  obtain ⟨g, hg⟩ := compare_each .greater rfl above (some (!(a.physical.getD 0 == 1))) (some ⟨some (a.aScale.getD 0), some sf⟩) true a.dims
    (b.unit a.dims) lower
  obtain ⟨k, hk⟩ := compare_each .lessEqual rfl atMost (some (!(a.physical.getD 0 == 1))) (some ⟨some (a.aScale.getD 0), some sf⟩) true a.dims
    (b.unit a.dims) upper
  rw [hg] at hl
  rw [hk] at hu
  rcases g with e | g
  · simp [Except.map] at hl
  rcases k with e | k
  · simp [Except.map] at hu
  simp only [Except.map, Except.ok.injEq] at hl hu
  subst hl hu
  have hz : ∀ (p q : ℝ → Bool) (l : List ℝ), List.zipWith (· && ·) (l.map p) (l.map q) = l.map fun v => p v && q v := by
    intro p q l
    induction l with
    | nil => rfl
    | cons x l ih => simp [ih]
  refine ⟨maskedAssign current ((compress current vals).map fun v => g v && k v), ?_, maskedAssign_length _ _, fun i => ?_⟩
  · unfold newMask
    dsimp only
    rw [maskArray_eq]
    dsimp only
    rw [hg, hk]
    simp only [Except.map, hz, Numbers.take]
  · rw [maskedAssign_get _ _ _ hn]
    simp only [List.getElem?_map, Option.map_eq_some_iff, Bool.and_eq_true]
    constructor
    · rintro ⟨h, x, hx, h1, h2⟩
      exact ⟨h, ⟨x, hx, h1⟩, ⟨x, hx, h2⟩⟩
    · rintro ⟨h, ⟨x, hx, h1⟩, ⟨y, hy, h2⟩⟩
      rw [hx] at hy
      cases hy
      exact ⟨h, x, hx, h1, h2⟩

/-- C102 fails for a field that cannot be converted: the attribute is not read here, so a comoving bound is compared with the converted
numbers, where the array of the dataset is compared as it is. At a = 1/2 the physical length 3 is comoving 6. -/
theorem c102_fixed_fails :
    let a : Attrs := ⟨⟨0, 1, 0, 0, 0⟩, some 1, some 1, some 0⟩
    let lower : Bound := ⟨4, some true, some ⟨some 1, some (1 / 2)⟩, true, 1⟩
    let upper : Bound := ⟨10, some true, some ⟨some 1, some (1 / 2)⟩, true, 1⟩
    newMask ⟨1, 1, 1, 1, 1⟩ (1 / 2) ⟨a, .column [3]⟩ lower upper [true] = .ok [true] ∧
      compareWith .greater above (readField ⟨1, 1, 1, 1, 1⟩ (1 / 2) (a, [3])) lower = .ok [false] := by
  intro a lower upper
  constructor
  · rw [newMask_eq (w₁ := 2) (w₂ := 5) ⟨by norm_num, by norm_num, by norm_num, by norm_num, by norm_num⟩ (by norm_num)
      ⟨rfl, rfl, by norm_num, .inl ⟨rfl, by norm_num [a, lower]⟩⟩ ⟨rfl, rfl, by norm_num, .inl ⟨rfl, by norm_num [a, upper]⟩⟩]
    norm_num [compress, maskedAssign, fileValue, a]
  · have hr : readField ⟨1, 1, 1, 1, 1⟩ (1 / 2) (a, [3]) = ⟨⟨[3], some false, some ⟨some 1, some (1 / 2)⟩, false⟩, a.dims, 1⟩ := by
      simp [readField, a, CF.create]
    rw [hr]
    simp [compareWith, numbers_eq, ufuncBool, prepare, lower, flags, Bound.arr, anyFixed, allToPhysical, Arr.toPhysical,
      Arr.convertToPhysical, Except.map, handle, registry, Opd.cf, without2, same_refl, num2, bcast2_one, Opd.vals, above]
    norm_num

/-- C102: a field with several numbers for each row (coordinates, velocities) is refused, whatever the bounds are, and the mask keeps the
rows it had. -/
theorem c102_vectors {m : Nat} (f : Mask.File ℝ m) (b : Base) (sf : ℝ) {disk : String → String → Option OnDisk} {group quantity : String}
    {a : Attrs} {rows : List (List ℝ)} (hd : disk group quantity = some ⟨a, .table rows⟩) (s : Mask.State m) (lower upper : Bound) :
    ∃ e, constrainProperty f b sf disk s group quantity lower upper = (toBool f s, some e) := by
  have hn : ∀ c, ∃ e, newMask b sf ⟨a, .table rows⟩ lower upper c = .error e := by
    intro c
    unfold newMask
    split
    · exact ⟨_, rfl⟩
    · split
      · exact ⟨_, rfl⟩
      · split <;> exact ⟨_, rfl⟩
  unfold constrainProperty
  dsimp only
  rw [hd]
  cases f.group group with
  | none => exact ⟨_, rfl⟩
  | some k =>
    dsimp only
    cases (toBool f s).rep with
    | ranges r => exact ⟨_, rfl⟩
    | bools bs =>
      obtain ⟨e, he⟩ := hn (bs k)
      exact ⟨e, by simp [he]⟩

/-- C102: a bound at another scale factor, or whose factor differs by more than the tolerance, is refused, and the mask keeps the rows it
had. -/
theorem c102_refused {m : Nat} (f : Mask.File ℝ m) (b : Base) {sf a' l : ℝ} (hsf : 0 < sf) {disk : String → String → Option OnDisk}
    {group quantity : String} {a : Attrs} {vals : List ℝ} (hd : disk group quantity = some ⟨a, .column vals⟩) {lower upper q : Bound}
    (hq : q = lower ∨ q = upper) (hc : Conv a' l q.arr)
    (hne : sf ≠ a' ∨ 1e-8 + 1e-6 * a' ^ l < |sf ^ (a.aScale.getD 0) - a' ^ l|) (s : Mask.State m) :
    ∃ e, constrainProperty f b sf disk s group quantity lower upper = (toBool f s, some e) := by
  have hn : ∀ c, ∃ e, newMask b sf ⟨a, .column vals⟩ lower upper c = .error e := by
    intro c
    unfold newMask
    rw [maskArray_eq]
    dsimp only
    have hx : Conv sf (a.aScale.getD 0) ⟨Numbers.take c (.column vals), some (!(a.physical.getD 0 == 1)),
        some ⟨some (a.aScale.getD 0), some sf⟩, true⟩ := ⟨hsf, rfl, rfl, by simp⟩
    rcases hq with rfl | rfl
    · obtain ⟨e, he⟩ := c26_comparisons hx hc hne .greater rfl
        (inFirstUnit above ⟨⟨Numbers.take c (.column vals), some (!(a.physical.getD 0 == 1)), some ⟨some (a.aScale.getD 0), some sf⟩, true⟩,
          a.dims, b.unit a.dims⟩ q)
      exact ⟨e, by simp only [compareWith]; rw [he]⟩
    · obtain ⟨e, he⟩ := c26_comparisons hx hc hne .lessEqual rfl
        (inFirstUnit atMost ⟨⟨Numbers.take c (.column vals), some (!(a.physical.getD 0 == 1)), some ⟨some (a.aScale.getD 0), some sf⟩, true⟩,
          a.dims, b.unit a.dims⟩ q)
      split
      · exact ⟨_, rfl⟩
      · simp only [compareWith]; rw [he]; exact ⟨_, rfl⟩
  unfold constrainProperty
  dsimp only
  rw [hd]
  cases f.group group with
  | none => exact ⟨_, rfl⟩
  | some k =>
    dsimp only
    cases (toBool f s).rep with
    | ranges r => exact ⟨_, rfl⟩
    | bools bs =>
      obtain ⟨e, he⟩ := hn (bs k)
      exact ⟨e, by simp [he]⟩

/-- Example: a length in a file at a = 1/2, comoving, in a unit of 2 cm; 3 and 5 there are 3 cm and 5 cm in physical cgs. Bounds of comoving
7 cm and physical 5 cm (in millimetres) are 3.5 cm and 5 cm. -/
example :
    let a : Attrs := ⟨⟨0, 1, 0, 0, 0⟩, some 1, some 0, some 1⟩
    let b : Base := ⟨1, 2, 1, 1, 1⟩
    let lower : Bound := ⟨7, some true, some ⟨some 1, some (1 / 2)⟩, true, 1⟩
    let upper : Bound := ⟨50, some false, some ⟨some 1, some (1 / 2)⟩, true, 1 / 10⟩
    Means (1 / 2) (a.aScale.getD 0) lower (7 / 2) ∧ Means (1 / 2) (a.aScale.getD 0) upper 5 ∧ BasePos b ∧
      newMask b (1 / 2) ⟨a, .column [3, 5, 4]⟩ lower upper [true, true, false] = .ok [false, true, false] := by
  intro a b lower upper
  have h₁ : Means (1 / 2) (a.aScale.getD 0) lower (7 / 2) := ⟨rfl, rfl, by norm_num [lower], .inl ⟨rfl, by norm_num [a, lower]⟩⟩
  have h₂ : Means (1 / 2) (a.aScale.getD 0) upper 5 := ⟨rfl, rfl, by norm_num [upper], .inr ⟨rfl, by norm_num [upper]⟩⟩
  have hb : BasePos b := ⟨by norm_num [b], by norm_num [b], by norm_num [b], by norm_num [b], by norm_num [b]⟩
  refine ⟨h₁, h₂, hb, ?_⟩
  rw [newMask_eq hb (by norm_num) h₁ h₂]
  norm_num [compress, maskedAssign, fileValue, a, b]

/-- Example for `c102_dataset_partial`: the comparisons of the dataset with these bounds are possible. -/
example :
    let a : Attrs := ⟨⟨0, 1, 0, 0, 0⟩, some 1, some 0, some 1⟩
    let lower : Bound := ⟨7, some true, some ⟨some 1, some (1 / 2)⟩, true, 1⟩
    compareWith .greater above (readField ⟨1, 2, 1, 1, 1⟩ (1 / 2) (a, [3, 5, 4])) lower = .ok [false, true, true] := by
  intro a lower
  have h₁ : Means (1 / 2) 1 lower (7 / 2) := ⟨rfl, rfl, by norm_num [lower], .inl ⟨rfl, by norm_num [lower]⟩⟩
  rw [compare_eq .greater rfl above above_scale _ ⟨by norm_num, by simp [readField, CF.create, a], by simp [readField, a], by simp [readField]⟩
    (by norm_num [readField, a]) h₁]
  have h0 : (some (!((0 : Int) == 1)) : Option Bool) = some true := rfl
  simp only [readField, a, Arr.phys, CF.create, Option.getD_some, h0]
  norm_num [above]

/-- Example for `c102_refused`: a bound at another scale factor. -/
example : Conv (1 / 4) 1 (Bound.arr ⟨7, some true, some ⟨some 1, some (1 / 4)⟩, true, 1⟩) ∧ (1 / 2 : ℝ) ≠ 1 / 4 :=
  ⟨⟨by norm_num, rfl, rfl, by simp [Bound.arr]⟩, by norm_num⟩

/-- Example for `c102_vectors` and `c102_refines`: coordinates and lengths in a file. -/
example : ∃ (disk : String → String → Option OnDisk) (a : Attrs),
    disk "gas" "coordinates" = some ⟨a, .table [[1, 2, 3]]⟩ ∧ disk "gas" "smoothing_lengths" = some ⟨a, .column [1]⟩ :=
  ⟨fun _ q => if q = "coordinates" then some ⟨⟨⟨0, 1, 0, 0, 0⟩, some 1, some 0, some 1⟩, .table [[1, 2, 3]]⟩
    else some ⟨⟨⟨0, 1, 0, 0, 0⟩, some 1, some 0, some 1⟩, .column [1]⟩, ⟨⟨0, 1, 0, 0, 0⟩, some 1, some 0, some 1⟩, by simp, by simp⟩

end Verif.Props
