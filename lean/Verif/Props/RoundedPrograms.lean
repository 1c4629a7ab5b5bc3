import Verif.Props.RoundedBounds
import Verif.Props.RoundedCuts

/-!
# C147: masks made of regions and cuts in double precision (`swiftsimio/masks.py`, `swiftsimio/reader.py`)
-/

namespace Verif.Props
open Verif Verif.Spec Verif.Accel Verif.Mask Verif.RoundedBounds

variable {K : Type} [Field K] [LinearOrder K] {m : Nat}

/-- The columns of the groups of the file have one number for each row. -/
def ColumnsFit (f : File K m) (disk : String → String → Option (Column K)) : Prop :=
  ∀ g q k c, f.group g = some k → disk g q = some c → c.numbers.length = f.rows k

/-- The row of a group has a number between the bounds of the call, after conversion and rounding. -/
def BetweenBounds (flx flq : K → K) (disk : String → String → Option (Column K)) (t : RoundedBounds.Call K) (i : Int) : Prop :=
  ∀ c, disk t.group t.quantity = some c → ∃ v, valueAt c.numbers i = some v ∧
    boundNumber flq c t.lower < dataNumber flx c t.lower v ∧ dataNumber flx c t.upper v ≤ boundNumber flq c t.upper

private def passes (flx flq : K → K) (c : Column K) (t : RoundedBounds.Call K) (v : K) : Bool :=
  decide (dataNumber flx c t.lower v > boundNumber flq c t.lower) && decide (dataNumber flx c t.upper v ≤ boundNumber flq c t.upper)

/-- the file with the result of the comparisons in place of the numbers of the field -/
private def flags (flx flq : K → K) (f : File K m) (disk : String → String → Option (Column K)) (t : RoundedBounds.Call K) : File K m :=
  { f with field := fun g q => (disk g q).map fun c => c.numbers.map fun v => if passes flx flq c t v then 1 else 0 }

private theorem compress_map' {α β : Type} (g : α → β) : ∀ (ms : List Bool) (xs : List α), compress ms (xs.map g) = (compress ms xs).map g
  | [], xs => by simp [compress]
  | b :: ms, [] => by cases b <;> simp [compress]
  | true :: ms, x :: xs => by simp [compress, compress_map' g ms xs]
  | false :: ms, x :: xs => by simp [compress, compress_map' g ms xs]

private theorem inv_flags {f : File K m} {flx flq : K → K} {disk : String → String → Option (Column K)} {t : RoundedBounds.Call K} {s : State m} {a : Abs m}
    (h : Inv f s a) : Inv (flags flx flq f disk t) s a :=
  ⟨h.last, h.cm, h.sub, h.all, h.bnd, h.fresh, h.ranges, h.bools⟩

private theorem inv_unflags {f : File K m} {flx flq : K → K} {disk : String → String → Option (Column K)} {t : RoundedBounds.Call K} {s : State m} {a : Abs m}
    (h : Inv (flags flx flq f disk t) s a) : Inv f s a :=
  ⟨h.last, h.cm, h.sub, h.all, h.bnd, h.fresh, h.ranges, h.bools⟩

private theorem wf_flags {f : File K m} (hf : WF f) {flx flq : K → K} {disk : String → String → Option (Column K)} (hd : ColumnsFit f disk)
    {t : RoundedBounds.Call K} : WF (flags flx flq f disk t) := by
  refine ⟨hf.box_pos, hf.contiguous, hf.near, fun g q k vals hg hq => ?_⟩
  obtain ⟨c, hc, rfl⟩ := Option.map_eq_some_iff.1 hq
  rw [List.length_map]
  exact hd g q k c hg hc

/-- The call names a group and a quantity of the file. -/
def Named (f : File K m) (disk : String → String → Option (Column K)) (t : RoundedBounds.Call K) : Prop :=
  (∃ k, f.group t.group = some k) ∧ ∃ c, disk t.group t.quantity = some c

/-- C147. A cut raises a key error exactly if the file has no such group or quantity. Either way the mask is made of booleans afterwards; the kind of
the constraint is remembered only if nothing was raised. -/
theorem c147_call (flx flq : K → K) (f : File K m) (disk : String → String → Option (Column K)) (s : State m) (t : RoundedBounds.Call K) :
    (Named f disk t → (RoundedBounds.property flx flq f disk s t).2 = none ∧ (RoundedBounds.property flx flq f disk s t).1.constrained = some .property) ∧
    (¬ Named f disk t → (RoundedBounds.property flx flq f disk s t).2 = some .key ∧
      (RoundedBounds.property flx flq f disk s t).1.constrained = s.constrained) ∧
    ∃ b, (RoundedBounds.property flx flq f disk s t).1.rep = .bools b := by
  have hb : ∃ b, (toBool f s).rep = .bools b := by
    unfold Mask.toBool
    cases h : s.rep with
    | bools b => exact ⟨b, h⟩
    | ranges r => exact ⟨_, rfl⟩
  have hcon : (toBool f s).constrained = s.constrained := by
    unfold Mask.toBool
    cases h : s.rep <;> rfl
  obtain ⟨b, hb⟩ := hb
  unfold RoundedBounds.property RoundedBounds.constrainProperty Named
  dsimp only
  cases hg : f.group t.group with
  | none => exact ⟨fun ⟨⟨k, hk⟩, _⟩ => by simp at hk, fun _ => ⟨rfl, hcon⟩, b, hb⟩
  | some k =>
    cases hd : disk t.group t.quantity with
    | none => exact ⟨fun ⟨_, c, hc⟩ => by simp at hc, fun _ => ⟨rfl, hcon⟩, b, hb⟩
    | some c =>
      dsimp only
      rw [hb]
      exact ⟨fun _ => ⟨rfl, rfl⟩, fun h => absurd ⟨⟨k, rfl⟩, c, rfl⟩ h, _, rfl⟩

/-- C147. So after all cuts the mask is of booleans and counts as cut if one of the calls did not raise. -/
theorem c147_kind (flx flq : K → K) (f : File K m) (disk : String → String → Option (Column K)) (s : State m) (cuts : List (RoundedBounds.Call K)) :
    ((∃ t ∈ cuts, Named f disk t) → (RoundedBounds.properties flx flq f disk s cuts).constrained = some .property) ∧
    ((¬ ∃ t ∈ cuts, Named f disk t) → (RoundedBounds.properties flx flq f disk s cuts).constrained = s.constrained) ∧
    (cuts ≠ [] → ∃ b, (RoundedBounds.properties flx flq f disk s cuts).rep = .bools b) := by
  induction cuts using List.reverseRecOn with
  | nil => exact ⟨fun ⟨t, ht, _⟩ => by simp at ht, fun _ => rfl, fun h => absurd rfl h⟩
  | append_singleton cuts t ih =>
    have e : RoundedBounds.properties flx flq f disk s (cuts ++ [t]) =
        (RoundedBounds.property flx flq f disk (RoundedBounds.properties flx flq f disk s cuts) t).1 := by
      simp [RoundedBounds.properties]
    obtain ⟨h1, h2, h3⟩ := c147_call flx flq f disk (RoundedBounds.properties flx flq f disk s cuts) t
    rw [e]
    refine ⟨fun ⟨u, hu, hn⟩ => ?_, fun hno => ?_, fun _ => h3⟩
    · by_cases ht : Named f disk t
      · exact (h1 ht).2
      · rw [(h2 ht).2]
        rcases List.mem_append.1 hu with hu | hu
        · exact ih.1 ⟨u, hu, hn⟩
        · exact absurd (List.mem_singleton.1 hu ▸ hn) ht
    · rw [(h2 fun ht => hno ⟨t, by simp, ht⟩).2]
      exact ih.2.1 fun ⟨u, hu, hn⟩ => hno ⟨u, List.mem_append_left _ hu, hn⟩

-- A call with a quantity that the file does not have, after one that it has.
example : Named exFile (fun g q => if g = "gas" ∧ q = "masses" then some ⟨true, 1, [1, 2, 3, 4, 5, 6]⟩ else none)
      ⟨"gas", "masses", ⟨2, true, 1, none⟩, ⟨4, true, 1, none⟩⟩ ∧
    ¬ Named exFile (fun g q => if g = "gas" ∧ q = "masses" then some ⟨true, 1, [1, 2, 3, 4, 5, 6]⟩ else none)
      ⟨"gas", "ages", ⟨2, true, 1, none⟩, ⟨4, true, 1, none⟩⟩ :=
  ⟨⟨⟨0, rfl⟩, _, rfl⟩, fun ⟨_, c, hc⟩ => by simp at hc⟩

section
variable [IsStrictOrderedRing K]

private theorem property_eq (flx flq : K → K) (f : File K m) (disk : String → String → Option (Column K)) (s : State m) (t : RoundedBounds.Call K) :
    RoundedBounds.property flx flq f disk s t = step (flags flx flq f disk t) s (.property t.group t.quantity (1 / 2) 1) := by
  have htb : toBool (flags flx flq f disk t) s = toBool f s := rfl
  have hgr : (flags flx flq f disk t).group = f.group := rfl
  have hfi : (flags flx flq f disk t).field t.group t.quantity =
      (disk t.group t.quantity).map fun c => c.numbers.map fun v => if passes flx flq c t v then 1 else 0 := rfl
  unfold RoundedBounds.property RoundedBounds.constrainProperty
  simp only [step, propertyBody]
  rw [htb, hgr, hfi]
  cases f.group t.group with
  | none => rfl
  | some k =>
    cases disk t.group t.quantity with
    | none => rfl
    | some c =>
      dsimp only [Option.map]
      cases (toBool f s).rep with
      | ranges r => rfl
      | bools b =>
        dsimp only
        have hn : RoundedBounds.newMask flx flq c t.lower t.upper (b k) = maskedAssign (b k)
            ((compress (b k) (c.numbers.map fun v => if passes flx flq c t v then (1 : K) else 0)).map
              fun v => decide (v > 1 / 2) && decide (v ≤ 1)) := by
          unfold RoundedBounds.newMask
          rw [compress_map', List.map_map]
          congr 1
          refine List.map_congr_left fun v _ => ?_
          change passes flx flq c t v = _
          dsimp only [Function.comp]
          have h1 : (1 : K) > 1 / 2 := by norm_num
          have h0 : ¬ (0 : K) > 1 / 2 := by norm_num
          by_cases hpv : passes flx flq c t v = true
          · simp only [hpv, if_true, h1, le_refl, decide_true, Bool.and_self]
          · have hpf : passes flx flq c t v = false := by simpa using hpv
            simp only [hpf, Bool.false_eq_true, if_false, h0, decide_false, Bool.false_and]
        rw [hn]

private theorem inv_rounded (flx flq : K → K) (f : File K m) (hf : WF f) (disk : String → String → Option (Column K)) (hd : ColumnsFit f disk)
    (s : State m) (a : Abs m) (h : Inv f s a) (t : RoundedBounds.Call K) :
    ∃ a', Inv f (RoundedBounds.property flx flq f disk s t).1 a' ∧ (a'.last = a.last ∨ a'.last = some .property) ∧
      ∀ k i, a'.sel k i ↔ a.sel k i ∧ (f.group t.group = some k → BetweenBounds flx flq disk t i) := by
  have hp := inv_property (flags flx flq f disk t) (wf_flags hf hd) s a (inv_flags h) t.group t.quantity (1 / 2) 1
  rw [← property_eq] at hp
  refine ⟨_, inv_unflags hp.1, ?_, fun k i => ?_⟩
  · unfold builtStep
    split
    · exact .inr rfl
    · exact .inl rfl
  · unfold builtStep
    by_cases hacc : Accepts (flags flx flq f disk t) a (.property t.group t.quantity (1 / 2) 1)
    · rw [if_pos hacc]
      simp only [builtApply, absApply]
      refine and_congr_right fun _ => imp_congr_right fun hg => ?_
      obtain ⟨-, vals, hv⟩ := hacc
      obtain ⟨c, hc, rfl⟩ := Option.map_eq_some_iff.1 hv
      have hval : ∀ w : K, valueAt (c.numbers.map fun v => if passes flx flq c t v then (1 : K) else 0) i = some w ↔
          ∃ v, valueAt c.numbers i = some v ∧ w = if passes flx flq c t v then 1 else 0 := by
        intro w
        unfold valueAt
        split_ifs
        · simp
        · rw [List.getElem?_map]
          constructor
          · intro h
            obtain ⟨v, h1, h2⟩ := Option.map_eq_some_iff.1 h
            exact ⟨v, h1, h2.symm⟩
          · rintro ⟨v, h1, rfl⟩
            rw [h1]
            rfl
      constructor
      · rintro ⟨vals, w, h1, h2, h3, h4⟩ c' hc'
        have e1 : c = c' := Option.some.inj (hc.symm.trans hc')
        subst e1
        have e2 : (c.numbers.map fun v => if passes flx flq c t v then (1 : K) else 0) = vals := Option.some.inj (hv.symm.trans h1)
        subst e2
        obtain ⟨v, h5, rfl⟩ := (hval w).1 h2
        refine ⟨v, h5, ?_⟩
        have : passes flx flq c t v = true := by
          by_contra hcon
          rw [if_neg hcon] at h3
          norm_num at h3
        unfold passes at this
        rw [Bool.and_eq_true, decide_eq_true_iff, decide_eq_true_iff] at this
        exact this
      · intro h
        obtain ⟨v, h1, h2, h3⟩ := h c hc
        refine ⟨_, 1, hv, (hval 1).2 ⟨v, h1, ?_⟩, by norm_num, le_refl _⟩
        have : passes flx flq c t v = true := by
          unfold passes
          rw [Bool.and_eq_true, decide_eq_true_iff, decide_eq_true_iff]
          exact ⟨h2, h3⟩
        rw [if_pos this]
    · rw [if_neg hacc]
      simp only [absRefuse]
      refine ⟨fun h => ⟨h, fun hg c hc => absurd ⟨⟨k, hg⟩, c.numbers.map fun v => if passes flx flq c t v then 1 else 0, ?_⟩ hacc⟩, fun h => h.1⟩
      change (disk t.group t.quantity).map _ = _
      rw [hc]
      rfl

private theorem inv_all (flx flq : K → K) (f : File K m) (hf : WF f) (disk : String → String → Option (Column K)) (hd : ColumnsFit f disk) :
    ∀ (cuts : List (RoundedBounds.Call K)) (s : State m) (a : Abs m), Inv f s a →
    ∃ a', Inv f (RoundedBounds.properties flx flq f disk s cuts) a' ∧ (a'.last = a.last ∨ a'.last = some .property) ∧
      ∀ k i, a'.sel k i ↔ a.sel k i ∧ ∀ t ∈ cuts, f.group t.group = some k → BetweenBounds flx flq disk t i
  | [], s, a, h => ⟨a, h, .inl rfl, fun k i => by simp⟩
  | t :: cuts, s, a, h => by
    obtain ⟨a1, h1, l1, s1⟩ := inv_rounded flx flq f hf disk hd s a h t
    obtain ⟨a2, h2, l2, s2⟩ := inv_all flx flq f hf disk hd cuts _ a1 h1
    refine ⟨a2, h2, ?_, fun k i => ?_⟩
    · rcases l2 with l2 | l2
      · rw [l2]
        exact l1
      · exact .inr l2
    · rw [s2, s1]
      simp only [List.mem_cons, forall_eq_or_imp]
      tauto

/-- the mask of a program of regions and cuts is a mask -/
theorem program_inv (fl flx flq : K → K) (f : File K m) (hf : WF f) (disk : String → String → Option (Column K)) (hd : ColumnsFit f disk)
    (regions : List (List (Option (List K)))) (cuts : List (RoundedBounds.Call K)) :
    ∃ a, Inv f (RoundedBounds.properties flx flq f disk (RoundedMask.spatials fl f regions) cuts) a := by
  obtain ⟨a, h, -⟩ := spatials_inv fl f hf regions
  obtain ⟨a', h', -⟩ := inv_all flx flq f hf disk hd cuts _ a h
  exact ⟨a', h'⟩

/-- C147. After any calls of `constrain_spatial` and then any calls of `constrain_property`, all of them rounded, the rows are those that the regions
select and whose numbers are between the bounds of all cuts on their group, as the numbers and bounds are after conversion. -/
theorem c147_rows (fl flx flq : K → K) (f : File K m) (hf : WF f) (disk : String → String → Option (Column K)) (hd : ColumnsFit f disk)
    (regions : List (List (Option (List K)))) (cuts : List (RoundedBounds.Call K)) (k : Fin m) (i : Int) :
    Selects (RoundedBounds.properties flx flq f disk (RoundedMask.spatials fl f regions) cuts) k i ↔
      Selects (RoundedMask.spatials fl f regions) k i ∧ ∀ t ∈ cuts, f.group t.group = some k → BetweenBounds flx flq disk t i := by
  obtain ⟨a, h, -⟩ := spatials_inv fl f hf regions
  obtain ⟨a', h', -, hs⟩ := inv_all flx flq f hf disk hd cuts _ a h
  rw [h'.selects, h.selects, hs]

/-- C147. A field that is read with this mask has the values of these rows, once each and in the order of the file. -/
theorem c147_read {α : Type} (fl flx flq : K → K) (f : File K m) (hf : WF f) (disk : String → String → Option (Column K)) (hd : ColumnsFit f disk)
    (regions : List (List (Option (List K)))) (cuts : List (RoundedBounds.Call K)) (k : Fin m) (ds : List α) (hds : ds.length = f.rows k) (lay : Layout)
    (hlay : lay ≠ .remote) (hc : ∀ c, lay = .chunked c → 0 < c) :
    ∃ rows : List Int, load (RoundedBounds.properties flx flq f disk (RoundedMask.spatials fl f regions) cuts) lay ds k = .ok (select ds rows) ∧
      rows.Pairwise (· < ·) ∧
      (∀ i, i ∈ rows ↔ Selects (RoundedMask.spatials fl f regions) k i ∧ ∀ t ∈ cuts, f.group t.group = some k → BetweenBounds flx flq disk t i) ∧
      ∀ i ∈ rows, 0 ≤ i ∧ i < ds.length := by
  obtain ⟨a, h, hlast⟩ := spatials_inv fl f hf regions
  obtain ⟨a', h0, hlast', hs⟩ := inv_all flx flq f hf disk hd cuts _ a h
  have hsel := c147_rows fl flx flq f hf disk hd regions cuts k
  generalize RoundedBounds.properties flx flq f disk (RoundedMask.spatials fl f regions) cuts = st at h0 hsel ⊢
  have h1 := inv_toRanges f _ _ h0
  have hrep : ∃ r, (toRanges st).rep = .ranges r := by
    cases hs : st.rep with
    | bools b => exact ⟨_, by unfold toRanges; rw [hs]⟩
    | ranges r => exact ⟨r, by unfold toRanges; rw [hs]; exact hs⟩
  obtain ⟨r, hr⟩ := hrep
  obtain ⟨_, hk⟩ := h1.ranges r hr
  obtain ⟨hg, hm, hsz, hst⟩ := hk k
  have hsize : ((toRanges st).size k).toNat = (rowsOf (r k)).length := by rw [hsz]; simp
  refine ⟨rowsOf (r k), ?_, ?_, ?_, ?_⟩
  · unfold load
    rw [hr]
    dsimp only
    rw [hsize]
    have hib : InBounds ds.length (r k) := by rw [hds]; exact hg.inb
    cases lay with
    | remote => exact absurd rfl hlay
    | contiguous => exact c03_unchunked_read ds (r k) hib
    | chunked c =>
      unfold readRanges
      dsimp only
      by_cases hmb : meanBelow (r k) 500000 = true
      · rw [if_pos hmb]
        refine c03_chunked_read ds c (hc c rfl) (r k) ?_ hib hg.ord
        intro he
        rw [he] at hmb
        simp [meanBelow] at hmb
      · rw [if_neg hmb]
        exact c03_unchunked_read ds (r k) hib
  · have hl : a'.last = none ∨ a'.last = some .spatial ∨ a'.last = some .property := by
      rcases hlast' with e | e
      · rw [e]
        rcases hlast with e' | e'
        · exact .inl e'
        · exact .inr (.inl e')
      · exact .inr (.inr e)
    refine (hst ?_ ?_).rows_sorted hg.inb
    · rcases hl with e | e | e <;> simp [e]
    · rcases hl with e | e | e <;> simp [e]
  · intro i
    rw [hm, ← hsel i, h0.selects k i]
  · intro i hi'
    rw [hds]
    exact h0.bnd k i ((hm i).mp hi')

/-- C147. The order of the calls and repeated calls do not matter; regions come before cuts. -/
theorem c147_order (fl flx flq : K → K) (f : File K m) (hf : WF f) (disk : String → String → Option (Column K)) (hd : ColumnsFit f disk)
    (regions : List (List (Option (List K)))) (cuts cuts' : List (RoundedBounds.Call K)) (hc : ∀ t, t ∈ cuts ↔ t ∈ cuts') (k : Fin m) (i : Int) :
    Selects (RoundedBounds.properties flx flq f disk (RoundedMask.spatials fl f regions) cuts) k i ↔
      Selects (RoundedBounds.properties flx flq f disk (RoundedMask.spatials fl f regions) cuts') k i := by
  rw [c147_rows fl flx flq f hf disk hd, c147_rows fl flx flq f hf disk hd]
  simp only [hc]

/-- C147. Further cuts only remove rows, and cuts on other groups change nothing. -/
theorem c147_further (fl flx flq : K → K) (f : File K m) (hf : WF f) (disk : String → String → Option (Column K)) (hd : ColumnsFit f disk)
    (regions : List (List (Option (List K)))) (cuts more : List (RoundedBounds.Call K)) (k : Fin m) (i : Int) :
    (Selects (RoundedBounds.properties flx flq f disk (RoundedMask.spatials fl f regions) (cuts ++ more)) k i →
      Selects (RoundedBounds.properties flx flq f disk (RoundedMask.spatials fl f regions) cuts) k i) ∧
    ((∀ t ∈ more, f.group t.group ≠ some k) →
      (Selects (RoundedBounds.properties flx flq f disk (RoundedMask.spatials fl f regions) (cuts ++ more)) k i ↔
        Selects (RoundedBounds.properties flx flq f disk (RoundedMask.spatials fl f regions) cuts) k i)) := by
  rw [c147_rows fl flx flq f hf disk hd, c147_rows fl flx flq f hf disk hd]
  refine ⟨fun h => ⟨h.1, fun t ht => h.2 t (List.mem_append_left _ ht)⟩, fun ho => ⟨fun h => ⟨h.1, fun t ht => h.2 t (List.mem_append_left _ ht)⟩,
    fun h => ⟨h.1, fun t ht hg => ?_⟩⟩⟩
  rcases List.mem_append.1 ht with ht | ht
  · exact h.2 t ht hg
  · exact absurd hg (ho t ht)

/-- C147. No row is read in two consecutive bins of a quantity, whatever the rounding, when the middle bound is the same. -/
theorem c147_bins (fl flx flq : K → K) (f : File K m) (hf : WF f) (disk : String → String → Option (Column K)) (hd : ColumnsFit f disk)
    (regions : List (List (Option (List K)))) (g q : String) (lower mid upper : Bound K) (k : Fin m) (hg : f.group g = some k) (c : Column K)
    (hc : disk g q = some c) (i : Int) :
    ¬ (Selects (RoundedBounds.properties flx flq f disk (RoundedMask.spatials fl f regions) [⟨g, q, lower, mid⟩]) k i ∧
      Selects (RoundedBounds.properties flx flq f disk (RoundedMask.spatials fl f regions) [⟨g, q, mid, upper⟩]) k i) := by
  rw [c147_rows fl flx flq f hf disk hd, c147_rows fl flx flq f hf disk hd]
  rintro ⟨⟨-, h1⟩, -, h2⟩
  obtain ⟨v, hv, -, hu⟩ := h1 _ (List.mem_singleton.2 rfl) hg c hc
  obtain ⟨w, hw, hl, -⟩ := h2 _ (List.mem_singleton.2 rfl) hg c hc
  obtain rfl := Option.some.inj (hv.symm.trans hw)
  exact absurd hl (not_lt.2 hu)

/-- C147. The rows of two consecutive bins are together the rows of the joined bin, for monotone roundings and bounds in one frame and unit. -/
theorem c147_joined (fl flx flq : K → K) (hfl : ∀ x y, x ≤ y → flq x ≤ flq y) (f : File K m) (hf : WF f)
    (disk : String → String → Option (Column K)) (hd : ColumnsFit f disk) (regions : List (List (Option (List K)))) (g q : String)
    (b0 b1 b2 : Bound K) (h01 : BelowBound b0 b1) (h12 : BelowBound b1 b2) (hp : PositiveBound b0) (k : Fin m) (i : Int) :
    Selects (RoundedBounds.properties flx flq f disk (RoundedMask.spatials fl f regions) [⟨g, q, b0, b2⟩]) k i ↔
      Selects (RoundedBounds.properties flx flq f disk (RoundedMask.spatials fl f regions) [⟨g, q, b0, b1⟩]) k i ∨
      Selects (RoundedBounds.properties flx flq f disk (RoundedMask.spatials fl f regions) [⟨g, q, b1, b2⟩]) k i := by
  have hp1 : PositiveBound b1 := by
    obtain ⟨-, e2, e3, -⟩ := h01
    exact ⟨e2 ▸ hp.1, e3 ▸ hp.2⟩
  simp only [c147_rows fl flx flq f hf disk hd, List.mem_singleton, forall_eq]
  rw [← and_or_left]
  refine and_congr_right fun _ => ?_
  by_cases hg : f.group g = some k
  · simp only [hg, true_imp_iff]
    rcases hc : disk g q with _ | c
    · simp [BetweenBounds, hc]
    · simp only [BetweenBounds, hc, Option.some.injEq, forall_eq']
      have m01 := bound_mono hfl c h01 hp
      have m12 := bound_mono hfl c h12 hp1
      simp only [data_same flx c h01, data_same flx c h12]
      constructor
      · rintro ⟨v, hv, h1, h2⟩
        by_cases h : dataNumber flx c b2 v ≤ boundNumber flq c b1
        · exact Or.inl ⟨v, hv, h1, h⟩
        · exact Or.inr ⟨v, hv, not_le.1 h, h2⟩
      · rintro (⟨v, hv, h1, h2⟩ | ⟨v, hv, h1, h2⟩)
        · exact ⟨v, hv, h1, h2.trans m12⟩
        · exact ⟨v, hv, m01.trans_lt h1, h2⟩
  · simp [hg]

private theorem rows_sub {l l' : List Int} (h : l.Pairwise (· < ·)) (h' : l'.Pairwise (· < ·)) (hs : ∀ i ∈ l, i ∈ l') : l.Sublist l' :=
  List.sublist_of_subperm_of_pairwise (r := (· ≤ ·)) (List.Nodup.subperm (h.imp fun h => ne_of_lt h) hs) (h.imp fun h => le_of_lt h)
    (h'.imp fun h => le_of_lt h)

open Classical in
/-- C147. Cutting in the mask and cutting after reading are the same to the last digit: what is read with the cuts is what is read without them,
less the rows whose numbers are not between the bounds. -/
theorem c147_after {α : Type} (fl flx flq : K → K) (f : File K m) (hf : WF f) (disk : String → String → Option (Column K)) (hd : ColumnsFit f disk)
    (regions : List (List (Option (List K)))) (cuts : List (RoundedBounds.Call K)) (k : Fin m) (ds : List α) (hds : ds.length = f.rows k)
    (lay lay' : Layout) (hlay : lay ≠ .remote) (hlay' : lay' ≠ .remote) (hc : ∀ c, lay = .chunked c → 0 < c) (hc' : ∀ c, lay' = .chunked c → 0 < c) :
    ∃ rows : List Int, load (RoundedMask.spatials fl f regions) lay ds k = .ok (select ds rows) ∧
      load (RoundedBounds.properties flx flq f disk (RoundedMask.spatials fl f regions) cuts) lay' ds k =
        .ok (select ds (rows.filter fun i => decide (∀ t ∈ cuts, f.group t.group = some k → BetweenBounds flx flq disk t i))) := by
  obtain ⟨l, r1, r2, r3, -⟩ := c138_read fl f hf regions k ds hds lay hlay hc
  obtain ⟨l', q1, q2, q3, -⟩ := c147_read fl flx flq f hf disk hd regions cuts k ds hds lay' hlay' hc'
  refine ⟨l, r1, ?_⟩
  rw [q1]
  have hm : ∀ i, i ∈ l' ↔ i ∈ l.filter fun i => decide (∀ t ∈ cuts, f.group t.group = some k → BetweenBounds flx flq disk t i) := by
    intro i
    rw [q3, List.mem_filter, r3, decide_eq_true_iff]
  rw [List.Sublist.antisymm (rows_sub q2 (r2.filter _) fun i h => (hm i).1 h) (rows_sub (r2.filter _) q2 fun i h => (hm i).2 h)]

end

/-- Masses and temperatures of the gas in the file of the example. -/
def cutDisk : String → String → Option (Column ℚ) := fun g q =>
  if g = "gas" ∧ q = "masses" then some ⟨true, 1, [1, 2, 3, 4, 5, 6]⟩
  else if g = "gas" ∧ q = "smoothing_lengths" then some ⟨true, 3152519739159347 / 4503599627370496, [3, 3, 2, 3, 4, 3]⟩ else none

/-- These columns have one number for each row. -/
theorem cutDisk_fits : ColumnsFit exFile cutDisk := by
  intro g q k c hg hc
  unfold cutDisk at hc
  simp only [exFile] at hg ⊢
  split_ifs at hc with h1 h2
  · obtain rfl := Option.some.inj hc
    rw [h1.1] at hg
    simp only [if_true, Option.some.injEq] at hg
    subst hg
    rfl
  · obtain rfl := Option.some.inj hc
    rw [h2.1] at hg
    simp only [if_true, Option.some.injEq] at hg
    subst hg
    rfl

-- The hypotheses can be met: a region and two cuts in double precision, the second with physical bounds on comoving lengths. The rows in the region
-- are 2 and 3. The physical bound was computed from the length 3, but is below it after conversion, so row 3 is lost.
example :
    let fl := nearest 53 (-1074) toEven
    let a : ℚ := 3152519739159347 / 4503599627370496
    WF exFile ∧ ColumnsFit exFile cutDisk ∧
      rowsLoaded (RoundedMask.spatials fl exFile [[some [5 / 4, 9 / 4], none, none]]) 0 6 = .ok [some 2, some 3] ∧
      rowsLoaded (RoundedBounds.properties fl fl exFile cutDisk (RoundedMask.spatials fl exFile [[some [5 / 4, 9 / 4], none, none]])
        [⟨"gas", "masses", ⟨2, true, 1, none⟩, ⟨4, true, 1, none⟩⟩]) 0 6 = .ok [some 2, some 3] ∧
      rowsLoaded (RoundedBounds.properties fl fl exFile cutDisk (RoundedMask.spatials fl exFile [[some [5 / 4, 9 / 4], none, none]])
        [⟨"gas", "masses", ⟨2, true, 1, none⟩, ⟨4, true, 1, none⟩⟩,
          ⟨"gas", "smoothing_lengths", ⟨1, false, a, none⟩, ⟨fl (3 * a), false, a, none⟩⟩]) 0 6 = .ok [some 2] := by
  exact ⟨exFile_wf, cutDisk_fits, by decide +kernel, by decide +kernel, by decide +kernel⟩

-- Two bins of the masses and the joined bin in a region: no row is in both, and together they are the joined bin. A cut on stars changes nothing.
example :
    let fl := nearest 53 (-1074) toEven
    let b : ℚ → Bound ℚ := fun v => ⟨v, true, 1, none⟩
    let s := RoundedMask.spatials fl exFile [[some [5 / 4, 9 / 4], none, none]]
    BelowBound (b 2) (b 3) ∧ BelowBound (b 3) (b 4) ∧ PositiveBound (b 2) ∧
      rowsLoaded (RoundedBounds.properties fl fl exFile cutDisk s [⟨"gas", "masses", b 2, b 3⟩]) 0 6 = .ok [some 2] ∧
      rowsLoaded (RoundedBounds.properties fl fl exFile cutDisk s [⟨"gas", "masses", b 3, b 4⟩]) 0 6 = .ok [some 3] ∧
      rowsLoaded (RoundedBounds.properties fl fl exFile cutDisk s [⟨"gas", "masses", b 2, b 4⟩]) 0 6 = .ok [some 2, some 3] ∧
      exFile.group "stars" ≠ some 0 ∧
      rowsLoaded (RoundedBounds.properties fl fl exFile cutDisk s [⟨"gas", "masses", b 2, b 4⟩, ⟨"stars", "masses", b 8, b 9⟩]) 0 6 =
        .ok [some 2, some 3] := by
  refine ⟨⟨rfl, rfl, rfl, by decide +kernel⟩, ⟨rfl, rfl, rfl, by decide +kernel⟩, ?_, by decide +kernel, by decide +kernel, by decide +kernel,
    by decide +kernel, by decide +kernel⟩
  simp [PositiveBound]

end Verif.Props
