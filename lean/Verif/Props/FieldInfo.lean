import Verif.Spec.FieldInfo
import Mathlib.Algebra.Field.Rat
import Mathlib.Algebra.BigOperators.Group.List.Basic

/-!
# C98: what is attached to a field

A field that is read has the unit, factor, frame, description and compression of its attributes; without an exponent, or without the
description of a mask, it is `None`. The objects for named columns are equal if they have the same columns and name.
-/

namespace Verif.Props
open Verif Verif.Header Verif.Names Verif.FieldInfo Verif.Spec
open Verif.Units (Dim)

set_option linter.unusedSectionVars false

variable {K D : Type} [DivisionRing K] [DecidableEq K]

private theorem firstNumber_array (x : K) (l : List K) : firstNumber (.array (x :: l)) = .ok x := rfl

private theorem addUnit_ok {attrs : Dict (Raw K)} {u : List (Dim × K)} {s : String} {d : Dim} {x : K}
    (h : HasNumber attrs ("U_" ++ s ++ " exponent") x) : addUnit attrs u (s, d) = .ok (if x ≠ 0 then u ++ [(d, x)] else u) := by
  obtain ⟨l, hl⟩ := h
  simp only [addUnit, entry, hl]
  rfl

private theorem powerOf_add (u : List (Dim × K)) (d e : Dim) (x : K) :
    powerOf (if x ≠ 0 then u ++ [(d, x)] else u) e = powerOf u e + if d = e then x else 0 := by
  unfold powerOf
  by_cases hx : x = 0
  · simp [hx]
  · by_cases hd : d = e <;> simp [hx, hd, List.filter_append, List.filter_cons]

/-- The unit of a field. -/
private theorem loadUnits_ok {attrs : Dict (Raw K)} {x : Dim → K} (h : ∀ d, HasNumber attrs (exponentName d) (x d)) :
    ∃ u, loadUnits attrs = .ok u ∧ ∀ d, powerOf u d = x d := by
  have hI := fun u => addUnit_ok (attrs := attrs) (u := u) (s := "I") (d := .current) (h .current)
  have hL := fun u => addUnit_ok (attrs := attrs) (u := u) (s := "L") (d := .length) (h .length)
  have hM := fun u => addUnit_ok (attrs := attrs) (u := u) (s := "M") (d := .mass) (h .mass)
  have hT := fun u => addUnit_ok (attrs := attrs) (u := u) (s := "T") (d := .temperature) (h .temperature)
  have ht := fun u => addUnit_ok (attrs := attrs) (u := u) (s := "t") (d := .time) (h .time)
  let add := fun (u : List (Dim × K)) (d : Dim) => if x d ≠ 0 then u ++ [(d, x d)] else u
  refine ⟨add (add (add (add (add [] .current) .length) .mass) .temperature) .time, ?_, ?_⟩
  · unfold loadUnits unitTypes
    simp only [List.foldlM, hI, hL, hM, hT, ht, bind, Except.bind]
    rfl
  · intro d
    simp only [add, powerOf_add]
    cases d <;> simp [powerOf]

private theorem loadUnits_key {attrs : Dict (Raw K)} (h : ∀ d, attrs (exponentName d) = none ∨ ∃ x, HasNumber attrs (exponentName d) x)
    (d : Dim) (hd : attrs (exponentName d) = none) : loadUnits attrs = .error .key := by
  have one : ∀ (s : String) (e : Dim), exponentName e = "U_" ++ s ++ " exponent" →
      (∀ u, addUnit attrs u (s, e) = .error .key) ∨ (attrs (exponentName e) ≠ none ∧ ∀ u, ∃ v, addUnit attrs u (s, e) = .ok v) := by
    intro s e hs
    rcases h e with h0 | ⟨x, hx⟩
    · left
      intro u
      rw [hs] at h0
      simp only [addUnit, entry, h0]
      rfl
    · right
      refine ⟨by obtain ⟨l, hl⟩ := hx; rw [hl]; simp, fun u => ⟨_, addUnit_ok (by rw [← hs]; exact hx)⟩⟩
  have step : ∀ (l : List (String × Dim)), (∀ p ∈ l, exponentName p.2 = "U_" ++ p.1 ++ " exponent") → (∃ p ∈ l, p.2 = d) →
      ∀ u, l.foldlM (addUnit attrs) u = .error .key := by
    intro l
    induction l with
    | nil => intro _ ⟨p, hp, _⟩; simp at hp
    | cons p l ih =>
      intro hn ⟨q, hq, hqd⟩ u
      rw [List.foldlM_cons]
      rcases one p.1 p.2 (hn p (by simp)) with h1 | ⟨h1, h2⟩
      · rw [show addUnit attrs u p = .error .key from h1 u]; rfl
      · obtain ⟨v, hv⟩ := h2 u
        rw [show addUnit attrs u p = .ok v from hv]
        refine ih (fun p hp => hn p (by simp [hp])) ⟨q, ?_, hqd⟩ v
        rcases List.mem_cons.mp hq with hq | hq
        · subst hq; rw [hqd] at h1; exact absurd hd h1
        · exact hq
  refine step unitTypes ?_ ?_ []
  · decide
  · cases d <;> decide

private theorem loadExponent_ok {attrs : Dict (Raw K)} {k : K} (h : NumberOr attrs "a-scale exponent" 0 k) : loadExponent attrs = .ok k := by
  unfold loadExponent
  rcases h with ⟨l, h⟩ | ⟨h, rfl⟩ <;> rw [h] <;> rfl

private theorem isOne_array (x : K) (l : List K) : isOne (.array (x :: l)) = .ok (decide (x = 1)) := by
  simp [isOne, item, Except.map]

private theorem loadPhysical_ok {attrs : Dict (Raw K)} {p : K} (h : NumberOr attrs "Value stored as physical" 0 p) :
    loadPhysical attrs = .ok (decide (p = 1)) := by
  unfold loadPhysical
  rcases h with ⟨l, h⟩ | ⟨h, rfl⟩ <;> rw [h] <;> exact isOne_array _ _

private theorem loadValid_ok {attrs : Dict (Raw K)} {v : K} (h : NumberOr attrs "Property can be converted to comoving" 1 v) :
    loadValid attrs = .ok (decide (v = 1)) := by
  unfold loadValid
  rcases h with ⟨l, h⟩ | ⟨h, rfl⟩ <;> rw [h] <;> exact isOne_array _ _

private theorem decode_says {lib : Lib D} {r : Raw K} {s : String} (h : Says lib r s) : decode lib r = .ok (.text s) := by
  rcases h with rfl | ⟨b, rfl, hb⟩
  · rfl
  · simp [decode, hb]

private theorem decode_or {lib : Lib D} {attrs : Dict (Raw K)} {n d s : String} (h : TextOr lib attrs n d s) :
    decode lib ((attrs n).getD (.text d)) = .ok (.text s) := by
  rcases h with ⟨r, h, hr⟩ | ⟨h, rfl⟩
  · rw [h]; exact decode_says hr
  · rw [h]; rfl

private theorem truth_or {attrs : Dict (Raw K)} {n : String} {d b : Bool} {x : K} (hx : truth (.scalar x) = .ok d) (h : SwitchOr attrs n d b) :
    truth ((attrs n).getD (.scalar x)) = .ok b := by
  rcases h with ⟨y, h, hy⟩ | ⟨h, rfl⟩
  · rw [h]
    simp only [Option.getD_some, truth]
    cases b <;> simp_all
  · rw [h]; exact hx

private theorem join_eq (sep : Str) : ∀ l : List Str, joined sep l = List.intercalate sep l
  | [] => by simp [joined, List.intercalate]
  | [n] => by simp [joined, List.intercalate]
  | n :: m :: l => by
    have := join_eq sep (m :: l)
    unfold joined
    rw [this]
    simp [List.intercalate, List.intersperse]

private theorem maskText_ok {print : Raw K → Str} {attrs : Dict (Raw K)} {m : Str} (h : MaskSays attrs print m) : maskText print attrs = .ok m := by
  have t0 : truth (.scalar (0 : K)) = .ok false := by simp [truth]
  rcases h with ⟨h, rfl⟩ | ⟨h, l, x, hl, hx, rfl⟩
  · simp only [maskText, truth_or t0 h]
    rfl
  · simp only [maskText, truth_or t0 h, entry, hl, hx, joinPlus, join_eq]
    rfl

private theorem loadDescription_ok {lib : Lib D} {print : Raw K → Str} {attrs : Dict (Raw K)} {d : String} {m : Str}
    (hd : TextOr lib attrs "Description" "No description available." d) (hm : MaskSays attrs print m) :
    loadDescription lib print attrs = .ok (d.toList ++ " ".toList ++ m) := by
  simp only [loadDescription, decode_or hd, maskText_ok hm]
  rfl

private theorem loadCompression_ok {lib : Lib D} {attrs : Dict (Raw K)} {c : String} (h : CompressionSays lib attrs c) :
    loadCompression lib attrs = .ok (.text c) := by
  have t1 : truth (.scalar (1 : K)) = .ok true := by simp [truth]
  rcases h with ⟨h, rfl⟩ | ⟨h, ht⟩
  · simp only [loadCompression, truth_or t1 h]
    rfl
  · simp only [loadCompression, truth_or t1 h]
    exact decode_or ht

/-- C98. A field whose attributes say what they have to say is read with their unit, exponent of the scale factor, frame, description and
compression. Without a mask the description also has the number and the name of the column. -/
theorem c98_field (lib : Lib D) (print : Raw K → Str) (attrs : Dict (Raw K)) (masked : Bool) (column : Option Nat) (name : Str) {V : Type} (v : V)
    (x : Dim → K) (hx : ∀ d, HasNumber attrs (exponentName d) (x d)) (k : K) (hk : NumberOr attrs "a-scale exponent" 0 k) (p : K)
    (hp : NumberOr attrs "Value stored as physical" 0 p) (q : K) (hq : NumberOr attrs "Property can be converted to comoving" 1 q)
    (d : String) (hd : TextOr lib attrs "Description" "No description available." d) (m : Str) (hm : MaskSays attrs print m)
    (c : String) (hc : CompressionSays lib attrs c) :
    ∃ i, FieldInfo.field lib print attrs masked column name (.ok v) = .ok (some (i, v)) ∧ (∀ e, powerOf i.unit e = x e) ∧ i.exponent = k ∧
      (i.comoving = true ↔ p ≠ 1) ∧ (i.valid = true ↔ q = 1) ∧ i.compression = .text c ∧
      (masked = true → i.name = d.toList ++ [' '] ++ m) ∧
      (masked = false → i.name = d.toList ++ [' '] ++ m ++ " [Column ".toList ++ (match column with
        | none => "None".toList
        | some n => Nat.toDigits 10 n) ++ ", ".toList ++ name ++ "]".toList) := by
  obtain ⟨u, hu, hpow⟩ := loadUnits_ok hx
  have hi : info lib print attrs masked column name = .ok ⟨u, k, if masked then d.toList ++ " ".toList ++ m else
      d.toList ++ " ".toList ++ m ++ columnText column name, .text c, !decide (p = 1), decide (q = 1)⟩ := by
    simp only [info, hu, loadExponent_ok hk, loadDescription_ok hd hm, loadCompression_ok hc, loadPhysical_ok hp, loadValid_ok hq]
    rfl
  refine ⟨⟨u, k, if masked then d.toList ++ " ".toList ++ m else d.toList ++ " ".toList ++ m ++ columnText column name, .text c,
    !decide (p = 1), decide (q = 1)⟩, by simp only [FieldInfo.field, hi, Except.bind, Except.map], hpow, rfl, ?_, ?_, rfl, ?_, ?_⟩
  · show (!decide (p = 1)) = true ↔ p ≠ 1
    simp
  · show decide (q = 1) = true ↔ q = 1
    simp
  · intro h
    subst h
    rfl
  · intro h
    subst h
    show d.toList ++ " ".toList ++ m ++ columnText column name = _
    unfold columnText
    cases column <;> simp only [Text.orNone, List.append_assoc] <;> rfl

private theorem switch_of {attrs : Dict (Raw K)} {n : String} (d : Bool) (h : attrs n = none ∨ ∃ x, attrs n = some (.scalar x)) :
    ∃ b, SwitchOr attrs n d b := by
  rcases h with h | ⟨x, h⟩
  · exact ⟨d, .inr ⟨h, rfl⟩⟩
  · exact ⟨decide (x ≠ 0), .inl ⟨x, h, by simp⟩⟩

private theorem text_of {lib : Lib D} {attrs : Dict (Raw K)} {n : String} (d : String)
    (h : attrs n = none ∨ ∃ r s, attrs n = some r ∧ Says lib r s) : ∃ s, TextOr lib attrs n d s := by
  rcases h with h | ⟨r, s, h, hr⟩
  · exact ⟨d, .inr ⟨h, rfl⟩⟩
  · exact ⟨s, .inl ⟨r, h, hr⟩⟩

private theorem number_of {attrs : Dict (Raw K)} {n : String} (d : K) (h : attrs n = none ∨ ∃ x, HasNumber attrs n x) : ∃ x, NumberOr attrs n d x := by
  rcases h with h | ⟨x, h⟩
  · exact ⟨d, .inr ⟨h, rfl⟩⟩
  · exact ⟨x, .inl h⟩

/-- C98. If all attributes are of the right kinds, reading raises nothing; the result is `None` exactly if an exponent is missing, or
one of the two descriptions of a mask. -/
theorem c98_none (lib : Lib D) (print : Raw K → Str) (attrs : Dict (Raw K)) (hr : RightKinds lib attrs) (ht : ∀ r, attrs "Mask Threshold" = some r → ∃ y, r = .scalar y)
    (masked : Bool) (column : Option Nat) (name : Str) {V : Type} (v : V) :
    (Incomplete attrs ∧ FieldInfo.field lib print attrs masked column name (.ok v) = .ok none) ∨
    (¬ Incomplete attrs ∧ ∃ i, FieldInfo.field lib print attrs masked column name (.ok v) = .ok (some (i, v))) := by
  have hkey : ∀ {β : Type}, info lib print attrs masked column name = .error .key →
      FieldInfo.field lib print attrs masked column name (.ok v) = .ok none := by
    intro _ h
    simp only [FieldInfo.field, h, Except.bind]
    rfl
  by_cases he : ∃ d, attrs (exponentName d) = none
  · left
    obtain ⟨d, hd⟩ := he
    refine ⟨.inl ⟨d, hd⟩, hkey (β := Unit) ?_⟩
    simp only [info, loadUnits_key (fun d => hr.numbers _ (.inr (.inr (.inr ⟨d, rfl⟩)))) d hd]
    rfl
  have hx : ∀ d, ∃ x, HasNumber attrs (exponentName d) x := by
    intro d
    rcases hr.numbers _ (.inr (.inr (.inr ⟨d, rfl⟩))) with h | h
    · exact absurd ⟨d, h⟩ he
    · exact h
  choose x hx using hx
  obtain ⟨k, hk⟩ := number_of 0 (hr.numbers _ (.inl rfl))
  obtain ⟨p, hp⟩ := number_of 0 (hr.numbers _ (.inr (.inl rfl)))
  obtain ⟨q, hq⟩ := number_of 1 (hr.numbers _ (.inr (.inr (.inl rfl))))
  obtain ⟨d, hd⟩ := text_of "No description available." (hr.texts _ (by simp : "Description" ∈ _))
  obtain ⟨f, hf⟩ := text_of "No compression info available" (hr.texts _ (by simp : "Lossy compression filter" ∈ _))
  obtain ⟨b, hb⟩ := switch_of true (hr.switches _ (by simp : "Is Compressed" ∈ _))
  have hc : ∃ c, CompressionSays lib attrs c := by
    cases b
    · exact ⟨_, .inl ⟨hb, rfl⟩⟩
    · exact ⟨f, .inr ⟨hb, hf⟩⟩
  obtain ⟨c, hc⟩ := hc
  obtain ⟨u, hu, -⟩ := loadUnits_ok hx
  have t0 : truth (.scalar (0 : K)) = .ok false := by simp [truth]
  by_cases hi : Incomplete attrs
  · left
    refine ⟨hi, hkey (β := Unit) ?_⟩
    rcases hi with hi | ⟨⟨y, hy, hm⟩, hi⟩
    · exact absurd hi he
    · have hsw : truth ((attrs "Masked").getD (.scalar (0 : K))) = .ok true :=
        truth_or t0 (.inl ⟨y, hm, by simp [hy]⟩)
      have hmt : maskText print attrs = .error .key := by
        rcases hr.maskNames with h0 | ⟨l, hl⟩
        · simp only [maskText, hsw, entry, h0]
          rfl
        · rcases hi with hi | hi
          · rw [hl] at hi; cases hi
          · simp only [maskText, hsw, entry, hl, hi, joinPlus]
            rfl
      have hld : loadDescription lib print attrs = .error .key := by
        simp only [loadDescription, decode_or hd, hmt]
        rfl
      simp only [info, hu, loadExponent_ok hk, hld]
      rfl
  · right
    refine ⟨hi, ?_⟩
    have hm : ∃ m, MaskSays attrs print m := by
      rcases hr.switches _ (by simp : "Masked" ∈ _) with h | ⟨y, h⟩
      · exact ⟨_, .inl ⟨.inr ⟨h, rfl⟩, rfl⟩⟩
      · by_cases hy : y = 0
        · exact ⟨_, .inl ⟨.inl ⟨y, h, by simp [hy]⟩, rfl⟩⟩
        · rcases hr.maskNames with h0 | ⟨l, hl⟩
          · exact absurd (.inr ⟨⟨y, hy, h⟩, .inl h0⟩) hi
          · cases h1 : attrs "Mask Threshold" with
            | none => exact absurd (.inr ⟨⟨y, hy, h⟩, .inr h1⟩) hi
            | some r =>
              obtain ⟨z, rfl⟩ := ht r h1
              exact ⟨_, .inr ⟨.inl ⟨y, h, by simp [hy]⟩, l, z, hl, h1, rfl⟩⟩
    obtain ⟨m, hm⟩ := hm
    obtain ⟨i, h, -⟩ := c98_field lib print attrs masked column name v x hx k hk p hp q hq d hd m hm c hc
    exact ⟨i, h⟩

private theorem bind_key {α β : Type} {x : Except Err α} {f : α → Except Err β} (h : x.bind f = .error .key) :
    x = .error .key ∨ ∃ a, x = .ok a ∧ f a = .error .key := by
  cases x with
  | error e => exact .inl (by cases h; rfl)
  | ok a => exact .inr ⟨a, rfl, h⟩

private theorem item_key (r : Raw K) (i : Nat) : item r i ≠ .error .key := by
  intro h
  cases r with
  | scalar x => cases h
  | array l => unfold item at h; dsimp only at h; split at h <;> cases h
  | bytes l => unfold item at h; dsimp only at h; split at h <;> cases h
  | text l => unfold item at h; dsimp only at h; split at h <;> cases h
  | words l => unfold item at h; dsimp only at h; split at h <;> cases h

private theorem firstNumber_key (r : Raw K) : firstNumber r ≠ .error .key := by
  intro h
  rcases bind_key h with h | ⟨a, -, h⟩
  · exact item_key _ _ h
  · cases a <;> cases h

private theorem decode_key (lib : Lib D) (r : Raw K) : decode lib r ≠ .error .key := by
  intro h
  cases r with
  | bytes b => unfold decode at h; dsimp only at h; split at h <;> cases h
  | _ => cases h

private theorem truth_key (r : Raw K) : truth r ≠ .error .key := by
  intro h
  unfold truth at h
  split at h <;> cases h

private theorem joinPlus_key (r : Raw K) : joinPlus r ≠ .error .key := by
  intro h
  unfold joinPlus at h
  split at h <;> cases h

private theorem entry_key {attrs : Dict (Raw K)} {n : String} {e : Err} (h : entry attrs n = .error e) : attrs n = none := by
  unfold entry at h
  split at h
  · cases h
  · assumption

private theorem addUnit_key {attrs : Dict (Raw K)} {u : List (Dim × K)} {p : String × Dim} (h : addUnit attrs u p = .error .key) :
    attrs ("U_" ++ p.1 ++ " exponent") = none := by
  rcases bind_key (show (entry attrs _).bind _ = _ from h) with h | ⟨a, -, h⟩
  · exact entry_key h
  · rcases bind_key (show (firstNumber a).bind _ = _ from h) with h | ⟨b, -, h⟩
    · exact absurd h (firstNumber_key _)
    · cases h

private theorem foldUnits_key {attrs : Dict (Raw K)} : ∀ {l : List (String × Dim)} {u : List (Dim × K)}, l.foldlM (addUnit attrs) u = .error .key →
    ∃ p ∈ l, attrs ("U_" ++ p.1 ++ " exponent") = none
  | [], _, h => nomatch h
  | p :: l, u, h => by
    rw [List.foldlM_cons] at h
    rcases bind_key (show (addUnit attrs u p).bind _ = _ from h) with h | ⟨a, -, h⟩
    · exact ⟨p, List.mem_cons_self, addUnit_key h⟩
    · obtain ⟨q, hq, h⟩ := foldUnits_key h
      exact ⟨q, List.mem_cons_of_mem _ hq, h⟩

private theorem maskText_key {print : Raw K → Str} {attrs : Dict (Raw K)} (h : maskText print attrs = .error .key) :
    attrs "Masked" ≠ none ∧ (attrs "Mask Datasets" = none ∨ attrs "Mask Threshold" = none) := by
  rcases bind_key (show (truth _).bind _ = _ from h) with h | ⟨a, ha, h⟩
  · exact absurd h (truth_key _)
  · cases a with
    | false => cases h
    | true =>
      refine ⟨fun h0 => ?_, ?_⟩
      · rw [h0] at ha
        simp [truth] at ha
      · rcases bind_key (show (entry attrs _).bind _ = _ from h) with h | ⟨b, -, h⟩
        · exact .inl (entry_key h)
        · rcases bind_key (show (joinPlus b).bind _ = _ from h) with h | ⟨c, -, h⟩
          · exact absurd h (joinPlus_key _)
          · rcases bind_key (show (entry attrs _).bind _ = _ from h) with h | ⟨d, -, h⟩
            · exact .inr (entry_key h)
            · cases h

/-- C98. Whatever the attributes are, the result is `None` only if an exponent is missing, or one of the two descriptions of a mask
that there is: attributes of a wrong kind raise. -/
theorem c98_none_only (lib : Lib D) (print : Raw K → Str) (attrs : Dict (Raw K)) (masked : Bool) (column : Option Nat) (name : Str) {V : Type}
    (v : V) (h : FieldInfo.field lib print attrs masked column name (.ok v) = .ok none) :
    (∃ d, attrs (exponentName d) = none) ∨ attrs "Masked" ≠ none ∧ (attrs "Mask Datasets" = none ∨ attrs "Mask Threshold" = none) := by
  have h : info lib print attrs masked column name = .error .key := by
    cases hi : info lib print attrs masked column name with
    | ok i => simp [FieldInfo.field, hi, Except.bind, Except.map] at h
    | error e =>
      simp only [FieldInfo.field, hi, Except.bind] at h
      split at h
      · simp_all
      · cases h
  rcases bind_key (show (loadUnits attrs).bind _ = _ from h) with h | ⟨u, -, h⟩
  · obtain ⟨p, hp, h⟩ := foldUnits_key h
    simp only [unitTypes, List.mem_cons, List.not_mem_nil, or_false] at hp
    left
    rcases hp with rfl | rfl | rfl | rfl | rfl
    · exact ⟨.current, h⟩
    · exact ⟨.length, h⟩
    · exact ⟨.mass, h⟩
    · exact ⟨.temperature, h⟩
    · exact ⟨.time, h⟩
  rcases bind_key (show (loadExponent attrs).bind _ = _ from h) with h | ⟨k, -, h⟩
  · exact absurd h (firstNumber_key _)
  rcases bind_key (show (loadDescription lib print attrs).bind _ = _ from h) with h | ⟨d, -, h⟩
  · rcases bind_key (show (decode lib _).bind _ = _ from h) with h | ⟨t, -, h⟩
    · exact absurd h (decode_key _ _)
    · rcases bind_key (show (maskText print attrs).bind _ = _ from h) with h | ⟨m, -, h⟩
      · exact .inr (maskText_key h)
      · cases h
  rcases bind_key (show (loadCompression lib attrs).bind _ = _ from h) with h | ⟨c, -, h⟩
  · rcases bind_key (show (truth _).bind _ = _ from h) with h | ⟨b, -, h⟩
    · exact absurd h (truth_key _)
    · cases b with
      | true => exact absurd h (decode_key _ _)
      | false => cases h
  have one : ∀ r : Raw K, isOne r ≠ .error .key := by
    intro r h
    unfold isOne at h
    cases hr : item r 0 with
    | error e => rw [hr] at h; cases h; exact item_key _ _ hr
    | ok x => rw [hr] at h; cases h
  rcases bind_key (show (loadPhysical attrs).bind _ = _ from h) with h | ⟨p, -, h⟩
  · exact absurd h (one _)
  rcases bind_key (show (loadValid attrs).bind _ = _ from h) with h | ⟨q, -, h⟩
  · exact absurd h (one _)
  · cases h

example : FieldInfo.field (K := ℚ) (⟨fun _ => none, fun _ => none, fun _ => none⟩ : Lib Unit) (fun _ => []) (fun _ => none) false none [] (.ok ()) = .ok none := by
  decide +kernel

/-- C98. A field that could be read with some numbers raises what is raised while the numbers are read, except for a KeyError. -/
theorem c98_raised (lib : Lib D) (print : Raw K → Str) (attrs : Dict (Raw K)) (masked : Bool) (column : Option Nat) (name : Str) {V : Type}
    (r : Info K × V) (v : V) (h : FieldInfo.field lib print attrs masked column name (.ok v) = .ok (some r)) (e : Err) :
    FieldInfo.field lib print attrs masked column name (.error e : Except Err V) = if e = .key then .ok none else .error e := by
  cases hi : info lib print attrs masked column name with
  | error e' =>
    simp only [FieldInfo.field, hi, Except.bind] at h
    split at h <;> cases h
  | ok i => simp only [FieldInfo.field, hi, Except.bind, Except.map]

/-- C98, negation: the description depends on whether there is a mask, for every field. -/
theorem c98_name_fails (lib : Lib D) (print : Raw K → Str) (attrs : Dict (Raw K)) (column : Option Nat) (name : Str) {V : Type} (v w : V)
    (i j : Info K × V) (hi : FieldInfo.field lib print attrs true column name (.ok v) = .ok (some i))
    (hj : FieldInfo.field lib print attrs false column name (.ok w) = .ok (some j)) : i.1.name ≠ j.1.name := by
  have get : ∀ (b : Bool) (v : V) (i : Info K × V), FieldInfo.field lib print attrs b column name (.ok v) = .ok (some i) →
      info lib print attrs b column name = .ok i.1 := by
    intro b v i h
    cases hb : info lib print attrs b column name with
    | error e =>
      simp only [FieldInfo.field, hb, Except.bind] at h
      split at h <;> cases h
    | ok r =>
      simp only [FieldInfo.field, hb, Except.bind, Except.map] at h
      cases h
      rfl
  have h1 := get _ _ _ hi
  have h2 := get _ _ _ hj
  simp only [info] at h1 h2
  cases hu : loadUnits attrs with
  | error e => rw [hu] at h1; cases h1
  | ok u =>
  cases hk : loadExponent attrs with
  | error e => rw [hu, hk] at h1; cases h1
  | ok k =>
  cases hd : loadDescription lib print attrs with
  | error e => rw [hu, hk, hd] at h1; cases h1
  | ok d =>
  cases hc : loadCompression lib attrs with
  | error e => rw [hu, hk, hd, hc] at h1; cases h1
  | ok c =>
  cases hp : loadPhysical attrs with
  | error e => rw [hu, hk, hd, hc, hp] at h1; cases h1
  | ok p =>
  cases hq : loadValid attrs with
  | error e => rw [hu, hk, hd, hc, hp, hq] at h1; cases h1
  | ok q =>
    rw [hu, hk, hd, hc, hp, hq] at h1 h2
    have e1 : i.1.name = d := by rw [← Except.ok.inj h1]; rfl
    have e2 : j.1.name = d ++ columnText column name := by rw [← Except.ok.inj h2]; rfl
    rw [e1, e2]
    intro h
    have h3 := congrArg List.length h
    have h4 : 0 < (columnText column name).length := by
      unfold columnText
      rw [List.length_append, show "]".toList.length = 1 by decide]
      omega
    rw [List.length_append] at h3
    omega

/-- C98, negation: exponents that are stored as numbers and not as arrays of one number cannot be read. -/
theorem c98_scalar_fails (lib : Lib D) (print : Raw K → Str) (attrs : Dict (Raw K)) (masked : Bool) (column : Option Nat) (name : Str)
    {V : Type} (v : V) (x : K) (h : attrs "U_I exponent" = some (.scalar x)) :
    FieldInfo.field lib print attrs masked column name (.ok v) = .error .index := by
  have hu : loadUnits attrs = .error .index := by
    have h' : attrs ("U_" ++ "I" ++ " exponent") = some (.scalar x) := h
    simp only [loadUnits, unitTypes, List.foldlM, addUnit, entry, h']
    rfl
  simp only [FieldInfo.field, info, hu]
  rfl

/-- C98, negation: the name of a mask that is a text and not a list of texts is taken apart into letters. -/
theorem c98_letters_fails : ∃ attrs : Dict (Raw ℚ), attrs "Mask Datasets" = some (.text "ab") ∧
    maskText (fun _ => "1".toList) attrs = .ok "Only computed for objects where a + b >= 1.".toList := by
  refine ⟨fun n => if n = "Masked" then some (.scalar 1) else if n = "Mask Datasets" then some (.text "ab")
    else if n = "Mask Threshold" then some (.scalar 1) else none, by simp, by decide +kernel⟩

/-- A dictionary of attributes as SOAP writes them. -/
private def sample : Dict (Raw ℚ) := fun n =>
  if n = "U_I exponent" then some (.array [0]) else if n = "U_L exponent" then some (.array [-3]) else if n = "U_M exponent" then some (.array [1])
  else if n = "U_T exponent" then some (.array [0]) else if n = "U_t exponent" then some (.array [0])
  else if n = "a-scale exponent" then some (.array [-3]) else if n = "Description" then some (.text "Density.")
  else if n = "Masked" then some (.scalar 1) else if n = "Mask Datasets" then some (.words ["N0", "N1"])
  else if n = "Mask Threshold" then some (.scalar 100) else none

example : FieldInfo.field (⟨fun _ => none, fun _ => none, fun _ => none⟩ : Lib Unit) (fun _ => "100".toList) sample true none
    "density".toList (.ok [1, 2, 3]) = .ok (some (⟨[(.length, -3), (.mass, 1)], -3,
      "Density. Only computed for objects where N0 + N1 >= 100.".toList, .text "No compression info available", true, true⟩, [1, 2, 3])) := by
  decide +kernel

example : FieldInfo.field (⟨fun _ => none, fun _ => none, fun _ => none⟩ : Lib Unit) (fun _ => "100".toList)
    (fun n => if n = "U_t exponent" then none else sample n) false none "density".toList (.ok [1, 2, 3]) = .ok none := by
  decide +kernel

/-! ## Objects for named columns -/

/-- C98, named columns: equal exactly if they have the same columns in the same order and the same name; the number of columns. -/
theorem c98_columns (x y : Columns) :
    (columnsEq x (.columns y) = .ok true ↔ x.namedColumns = y.namedColumns ∧ x.name = y.name) ∧
    columnsEq x (.columns y) = columnsEq y (.columns x) ∧
    (columnsEq x (.columns y) = .ok true → columnsLen x = columnsLen y ∧ columnsText x = columnsText y) := by
  refine ⟨by simp [columnsEq], by simp [columnsEq, eq_comm], ?_⟩
  intro h
  have h' : x.namedColumns = y.namedColumns ∧ x.name = y.name := by simpa [columnsEq] using h
  unfold columnsLen columnsText
  rw [h'.1, h'.2]
  exact ⟨rfl, rfl⟩

/-- C98, negation: columns of different fields of different files can be equal, and named columns cannot be compared with anything else. -/
theorem c98_columns_fails : (∃ x y : Columns, x.filename ≠ y.filename ∧ x.fieldPath ≠ y.fieldPath ∧ columnsEq x (.columns y) = .ok true) ∧
    ∀ x, columnsEq x .thing = .error .attribute :=
  ⟨⟨⟨"a".toList, "/PartType0/X".toList, ["h".toList], "x".toList⟩, ⟨"b".toList, "/PartType4/X".toList, ["h".toList], "x".toList⟩,
    by decide, by decide, by decide⟩, fun _ => rfl⟩

private theorem quoted_plain {s : Str} (h : Unquoted s) : quoted s = '\'' :: (s ++ ['\'']) := by
  have h1 : s.flatMap (fun c => if c = '\'' then ['\\', '\''] else [c]) = s := by
    have : ∀ t : Str, '\'' ∉ t → t.flatMap (fun c => if c = '\'' then ['\\', '\''] else [c]) = t := by
      intro t
      induction t with
      | nil => intro _; rfl
      | cons c t ih =>
        intro ht
        have hc : c ≠ '\'' := fun e => ht (by simp [e])
        rw [List.flatMap_cons, ih (fun e => ht (List.mem_cons_of_mem _ e)), if_neg hc]
        rfl
    exact this s h.1
  have h2 : s.contains '\'' = false := by
    simpa using h.1
  unfold quoted
  rw [h1, h2]
  simp

private theorem split_quote : ∀ {a b x y : Str}, '\'' ∉ a → '\'' ∉ b → a ++ '\'' :: x = b ++ '\'' :: y → a = b ∧ x = y
  | [], [], _, _, _, _, h => by simpa using h
  | [], d :: b, x, y, _, hb, h => by
    have := (List.cons.inj h).1
    exact absurd (by rw [← this]; simp) hb
  | d :: a, [], x, y, ha, _, h => by
    have := (List.cons.inj h).1
    exact absurd (by simp [this]) ha
  | d :: a, e :: b, x, y, ha, hb, h => by
    obtain ⟨h1, h2⟩ := List.cons.inj h
    have := split_quote (a := a) (b := b) (fun h => ha (List.mem_cons_of_mem _ h)) (fun h => hb (List.mem_cons_of_mem _ h)) h2
    exact ⟨by rw [h1, this.1], this.2⟩

private theorem join_quoted_inj : ∀ {l m : List Str} {x y : Str}, (∀ s ∈ l, Unquoted s) → (∀ s ∈ m, Unquoted s) →
    joined ", ".toList (l.map quoted) ++ ']' :: x = joined ", ".toList (m.map quoted) ++ ']' :: y → l = m ∧ x = y
  | [], [], x, y, _, _, h => by simpa [joined] using h
  | [], [t], x, y, _, hm, h => by
    have h' : ']' :: x = quoted t ++ ']' :: y := h
    rw [quoted_plain (hm t (by simp))] at h'
    simp at h'
  | [], t :: t' :: m, x, y, _, hm, h => by
    have h' : ']' :: x = quoted t ++ ", ".toList ++ joined ", ".toList ((t' :: m).map quoted) ++ ']' :: y := h
    rw [quoted_plain (hm t (by simp))] at h'
    simp at h'
  | [s], [], x, y, hl, _, h => by
    have h' : quoted s ++ ']' :: x = ']' :: y := h
    rw [quoted_plain (hl s (by simp))] at h'
    simp at h'
  | s :: s' :: l, [], x, y, hl, _, h => by
    have h' : quoted s ++ ", ".toList ++ joined ", ".toList ((s' :: l).map quoted) ++ ']' :: x = ']' :: y := h
    rw [quoted_plain (hl s (by simp))] at h'
    simp at h'
  | [s], [t], x, y, hl, hm, h => by
    have h' : quoted s ++ ']' :: x = quoted t ++ ']' :: y := h
    rw [quoted_plain (hl s (by simp)), quoted_plain (hm t (by simp))] at h'
    have h'' : s ++ '\'' :: (']' :: x) = t ++ '\'' :: (']' :: y) := by simpa using h'
    obtain ⟨h1, h2⟩ := split_quote (hl s (by simp)).1 (hm t (by simp)).1 h''
    exact ⟨by rw [h1], (List.cons.inj h2).2⟩
  | [s], t :: t' :: m, x, y, hl, hm, h => by
    have h' : quoted s ++ ']' :: x = quoted t ++ ", ".toList ++ joined ", ".toList ((t' :: m).map quoted) ++ ']' :: y := h
    rw [quoted_plain (hl s (by simp)), quoted_plain (hm t (by simp))] at h'
    have h'' : s ++ '\'' :: (']' :: x) = t ++ '\'' :: (',' :: (' ' :: (joined ", ".toList ((t' :: m).map quoted) ++ ']' :: y))) := by
      simpa using h'
    have := (split_quote (hl s (by simp)).1 (hm t (by simp)).1 h'').2
    simp at this
  | s :: s' :: l, [t], x, y, hl, hm, h => by
    have h' : quoted s ++ ", ".toList ++ joined ", ".toList ((s' :: l).map quoted) ++ ']' :: x = quoted t ++ ']' :: y := h
    rw [quoted_plain (hl s (by simp)), quoted_plain (hm t (by simp))] at h'
    have h'' : s ++ '\'' :: (',' :: (' ' :: (joined ", ".toList ((s' :: l).map quoted) ++ ']' :: x))) = t ++ '\'' :: (']' :: y) := by
      simpa using h'
    have := (split_quote (hl s (by simp)).1 (hm t (by simp)).1 h'').2
    simp at this
  | s :: s' :: l, t :: t' :: m, x, y, hl, hm, h => by
    have h' : quoted s ++ ", ".toList ++ joined ", ".toList ((s' :: l).map quoted) ++ ']' :: x
        = quoted t ++ ", ".toList ++ joined ", ".toList ((t' :: m).map quoted) ++ ']' :: y := h
    rw [quoted_plain (hl s (by simp)), quoted_plain (hm t (by simp))] at h'
    have h'' : s ++ '\'' :: (',' :: (' ' :: (joined ", ".toList ((s' :: l).map quoted) ++ ']' :: x)))
        = t ++ '\'' :: (',' :: (' ' :: (joined ", ".toList ((t' :: m).map quoted) ++ ']' :: y))) := by
      simpa using h'
    obtain ⟨h1, h2⟩ := split_quote (hl s (by simp)).1 (hm t (by simp)).1 h''
    have h3 := (List.cons.inj (List.cons.inj h2).2).2
    obtain ⟨h4, h5⟩ := join_quoted_inj (fun k hk => hl k (List.mem_cons_of_mem _ hk)) (fun k hk => hm k (List.mem_cons_of_mem _ hk)) h3
    exact ⟨by rw [h1, h4], h5⟩

/-- C98, named columns: the text of named columns without quotes in their names determines the columns and the name. -/
theorem c98_columns_text (x y : Columns) (hx : ∀ s ∈ x.namedColumns, Unquoted s) (hy : ∀ s ∈ y.namedColumns, Unquoted s)
    (h : columnsText x = columnsText y) : x.namedColumns = y.namedColumns ∧ x.name = y.name := by
  unfold columnsText at h
  simp only [List.append_assoc] at h
  have h1 := List.append_cancel_left h
  have e : "] available for \"".toList = ']' :: " available for \"".toList := by decide
  rw [e] at h1
  simp only [List.cons_append] at h1
  obtain ⟨h2, h3⟩ := join_quoted_inj hx hy h1
  exact ⟨h2, List.append_cancel_right (List.append_cancel_left h3)⟩

/-- C98, named columns: the text. -/
theorem c98_columns_shown (x : Columns) (hx : ∀ s ∈ x.namedColumns, Unquoted s) :
    columnsText x = "Named columns instance with [".toList
      ++ List.intercalate ", ".toList (x.namedColumns.map fun s => ['\''] ++ s ++ ['\'']) ++ "] available for \"".toList ++ x.name ++ "\"".toList := by
  unfold columnsText
  rw [join_eq]
  congr 4
  congr 1
  exact List.map_congr_left fun s hs => by rw [quoted_plain (hx s hs)]; simp

example : columnsText ⟨"a.hdf5".toList, "/PartType0/ElementMassFractions".toList, ["hydrogen".toList, "helium".toList],
    "element_mass_fractions".toList⟩ = "Named columns instance with ['hydrogen', 'helium'] available for \"element_mass_fractions\"".toList := by
  decide +kernel

/-- C98, named columns: the length counts the columns. -/
theorem c98_columns_len (x : Columns) (i : Nat) : (∃ s, x.namedColumns[i]? = some s) ↔ i < columnsLen x := by
  unfold columnsLen
  constructor
  · rintro ⟨s, hs⟩
    exact (List.getElem?_eq_some_iff.1 hs).1
  · intro h
    exact ⟨_, List.getElem?_eq_getElem h⟩

/-- C98, named columns: a name with a single quote is shown in double quotes, unless it has both. -/
theorem c98_columns_quotes (s file path name : Str) (h1 : '\'' ∈ s) (h2 : '"' ∉ s) :
    columnsText ⟨file, path, [s], name⟩ = "Named columns instance with [\"".toList ++ s ++ "\"] available for \"".toList ++ name ++ "\"".toList := by
  have e1 : "Named columns instance with [\"".toList = "Named columns instance with [".toList ++ ['"'] := by decide +kernel
  have e2 : "\"] available for \"".toList = '"' :: "] available for \"".toList := by decide +kernel
  have hq : quoted s = '"' :: s ++ ['"'] := by
    unfold quoted
    rw [if_pos (by simp [List.contains_eq_mem, h1, h2])]
  unfold columnsText
  simp only [List.map_cons, List.map_nil, hq]
  rw [e1, e2]
  simp [joined]

end Verif.Props
