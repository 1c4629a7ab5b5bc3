import Verif.Spec.Text
import Verif.Lemmas.Cosmo
import Mathlib.Algebra.Order.Floor.Ring
import Mathlib.Data.Rat.Floor
import Mathlib.Tactic.Linarith
import Mathlib.Tactic.NormNum
import Mathlib.Tactic.Ring
import Mathlib.Tactic.Positivity
import Mathlib.Tactic.FieldSimp

/-!
# C93: printed text

The text of an array says its frame, `repr` also its factor; the text of an object that lists names determines the names; the
descriptions of the schemes have the entries of the file, numbers with two decimals.
-/

namespace Verif.Props
open Verif Verif.Cosmo Verif.Header Verif.CommandLine Verif.Names Verif.Text Verif.Spec

set_option linter.unusedSectionVars false

private theorem cut_first {α : Type} {c : α} : ∀ {a b x y : List α}, c ∉ a → c ∉ b → a ++ c :: x = b ++ c :: y → a = b ∧ x = y
  | [], [], _, _, _, _, h => by simpa using h
  | [], d :: b, x, y, _, hb, h => by
    have := (List.cons.inj h).1
    exact absurd (by simp [this]) hb
  | d :: a, [], x, y, ha, _, h => by
    have := (List.cons.inj h).1
    exact absurd (by simp [this]) ha
  | d :: a, e :: b, x, y, ha, hb, h => by
    obtain ⟨h1, h2⟩ := List.cons.inj h
    have := cut_first (a := a) (b := b) (fun h => ha (List.mem_cons_of_mem _ h)) (fun h => hb (List.mem_cons_of_mem _ h)) h2
    exact ⟨by rw [h1, this.1], this.2⟩

private theorem cut_last {α : Type} {c : α} {a b x y : List α} (ha : c ∉ a) (hb : c ∉ b) (h : x ++ c :: a = y ++ c :: b) :
    x = y ∧ a = b := by
  have h' := congrArg List.reverse h
  simp only [List.reverse_append, List.reverse_cons, List.append_assoc, List.singleton_append] at h'
  obtain ⟨h1, h2⟩ := cut_first (by simpa using ha) (by simpa using hb) h'
  exact ⟨List.reverse_injective h2, List.reverse_injective h1⟩

private theorem cut_end {α : Type} {x y s t : List α} (hl : s.length = t.length) (h : x ++ s = y ++ t) : x = y ∧ s = t :=
  List.append_inj' h hl

/-! ## Arrays -/

/-- C93, `str` of an array. The text determines the frame and what is printed of the numbers, whatever is printed of them. -/
theorem c93_str (b b' : Str) (x y : Arr) (h : arrayStr b x = arrayStr b' y) : x.comoving = y.comoving ∧ b = b' := by
  unfold arrayStr at h
  have e0 : "(Physical/comoving not set)".toList = "(Physical/comovin".toList ++ "g not set)".toList := by decide
  have key : ∀ {p q : Str} {s t : Str}, s.length = t.length → s ≠ t → p ++ s ≠ q ++ t := by
    intro p q s t hl hne he
    exact hne (cut_end hl he).2
  rcases hx : x.comoving with _ | (_ | _) <;> rcases hy : y.comoving with _ | (_ | _) <;> rw [hx, hy] at h <;> dsimp only at h
  · exact ⟨rfl, List.append_cancel_right (List.append_cancel_right h)⟩
  · rw [e0, ← List.append_assoc] at h
    exact absurd h (key (by decide) (by decide))
  · rw [e0, ← List.append_assoc] at h
    exact absurd h (key (by decide) (by decide))
  · rw [e0, ← List.append_assoc _ "(Physical/comovin".toList] at h
    exact absurd h (key (by decide) (by decide))
  · exact ⟨rfl, List.append_cancel_right (List.append_cancel_right h)⟩
  · exact absurd h (key (by decide) (by decide))
  · rw [e0, ← List.append_assoc _ "(Physical/comovin".toList] at h
    exact absurd h (key (by decide) (by decide))
  · exact absurd h (key (by decide) (by decide))
  · exact ⟨rfl, List.append_cancel_right (List.append_cancel_right h)⟩

/-- The text of a comoving array. -/
example : arrayStr "[1. 2.] kpc".toList ⟨[1, 2], some true, some (CF.create 1 1), true⟩ = "[1. 2.] kpc (Comoving)".toList := by
  unfold arrayStr
  dsimp only
  decide

/-- C93, `np.array2string`. The text determines the frame and what comes before it. -/
theorem c93_array2string (b b' u u' : Str) (x y : Arr) (h : array2string b u x = array2string b' u' y) :
    x.comoving = y.comoving ∧ b ++ ", units='".toList ++ u = b' ++ ", units='".toList ++ u' := by
  unfold array2string at h
  have e1 : " (comoving)".toList = " (comoving".toList ++ ")".toList := by decide
  have e2 : " (physical)".toList = " (physical".toList ++ ")".toList := by decide
  have key : ∀ {p q : Str} {s t : Str}, s.length = t.length → s ≠ t → p ++ s ≠ q ++ t := by
    intro p q s t hl hne he
    exact hne (cut_end hl he).2
  rcases hx : x.comoving with _ | (_ | _) <;> rcases hy : y.comoving with _ | (_ | _) <;> rw [hx, hy] at h <;> dsimp only at h <;>
    try simp only [List.append_nil] at h
  · exact ⟨rfl, List.append_cancel_right h⟩
  · rw [e2, ← List.append_assoc] at h
    exact absurd h (key (by decide) (by decide))
  · rw [e1, ← List.append_assoc] at h
    exact absurd h (key (by decide) (by decide))
  · rw [e2, ← List.append_assoc _ " (physical".toList] at h
    exact absurd h (key (by decide) (by decide))
  · exact ⟨rfl, List.append_cancel_right (List.append_cancel_right h)⟩
  · exact absurd h (key (by decide) (by decide))
  · rw [e1, ← List.append_assoc _ " (comoving".toList] at h
    exact absurd h (key (by decide) (by decide))
  · exact absurd h (key (by decide) (by decide))
  · exact ⟨rfl, List.append_cancel_right (List.append_cancel_right h)⟩

/-- A printer that can be read back: different powers and numbers have different texts, none is "None", and there are no quotes or
signs of equality in them. -/
structure Readable (p : Printer) : Prop where
  power : ∀ k l, p.power k = p.power l → k = l
  float : ∀ a b, p.float a = p.float b → a = b
  powerNone : ∀ k, p.power k ≠ "None".toList
  floatNone : ∀ a, p.float a ≠ "None".toList
  powerPlain : ∀ k, '\'' ∉ p.power k ∧ '=' ∉ p.power k
  floatPlain : ∀ a, '\'' ∉ p.float a ∧ '=' ∉ p.float a

private theorem orNone_inj {α : Type} {f : α → Str} (hf : ∀ a b, f a = f b → a = b) (hn : ∀ a, f a ≠ "None".toList) :
    ∀ {x y : Option α}, orNone f x = orNone f y → x = y
  | none, none, _ => rfl
  | none, some b, h => absurd h.symm (hn b)
  | some a, none, h => absurd h (hn a)
  | some a, some b, h => by rw [hf a b h]

private theorem orNone_free {α : Type} {f : α → Str} {c : Char} (hf : ∀ a, c ∉ f a) (hc : c ∉ "None".toList) :
    ∀ x : Option α, c ∉ orNone f x
  | none => hc
  | some a => hf a

/-- C93, factors. The text of a factor determines it, and so does its `repr`. -/
theorem c93_factor (p : Printer) (hp : Readable p) (f g : CF) :
    (factorText p f = factorText p g → f = g) ∧ (factorRepr p f = factorRepr p g → f = g) := by
  have e1 : " at a=".toList = " at a".toList ++ ['='] := by decide
  have e2 : ", scale_factor=".toList = ", scale_factor".toList ++ ['='] := by decide
  have hq : ∀ x : Option ℝ, '=' ∉ orNone p.float x := orNone_free (fun a => (hp.floatPlain a).2) (by decide)
  constructor
  · intro h
    unfold factorText at h
    rw [e1] at h
    simp only [List.append_assoc, List.singleton_append] at h
    rw [← List.append_assoc, ← List.append_assoc (orNone p.power g.expr)] at h
    obtain ⟨h1, h2⟩ := cut_last (hq _) (hq _) h
    exact CF.ext (orNone_inj hp.power hp.powerNone (List.append_cancel_right h1)) (orNone_inj hp.float hp.floatNone h2)
  · intro h
    unfold factorRepr at h
    have h := List.append_cancel_right h
    rw [e2] at h
    simp only [List.append_assoc, List.singleton_append] at h
    have h := List.append_cancel_left h
    rw [← List.append_assoc, ← List.append_assoc (orNone p.power g.expr)] at h
    obtain ⟨h1, h2⟩ := cut_last (hq _) (hq _) h
    exact CF.ext (orNone_inj hp.power hp.powerNone (List.append_cancel_right h1)) (orNone_inj hp.float hp.floatNone h2)

private theorem boolText_inj : ∀ {a b : Bool}, boolText a = boolText b → a = b
  | true, true, _ => rfl
  | false, false, _ => rfl
  | true, false, h => absurd h (by decide)
  | false, true, h => absurd h (by decide)

private theorem boolText_free (b : Bool) : '\'' ∉ boolText b := by cases b <;> decide

private theorem factorText_free {p : Printer} (hp : Readable p) (f : CF) : '\'' ∉ factorText p f := by
  unfold factorText
  rw [List.mem_append, List.mem_append, not_or, not_or]
  exact ⟨⟨orNone_free (fun a => (hp.powerPlain a).1) (by decide) _, by decide⟩,
    orNone_free (fun a => (hp.floatPlain a).1) (by decide) _⟩

private theorem factorText_ne {p : Printer} (f : CF) : factorText p f ≠ "None".toList := by
  intro h
  have : '=' ∈ "None".toList := by rw [← h]; unfold factorText; simp
  exact absurd this (by decide)

/-- C93, `repr` of an array. The text determines the frame, the factor, whether the array can be converted, and what unyt prints
before its closing bracket. -/
theorem c93_repr (p : Printer) (hp : Readable p) (b b' : Str) (x y : Arr) (h : arrayRepr p b x = arrayRepr p b' y) :
    x.comoving = y.comoving ∧ x.cf = y.cf ∧ x.vt = y.vt ∧ b.dropLast = b'.dropLast := by
  unfold arrayRepr at h
  have h := List.append_cancel_right h
  have q1 : ", comoving='".toList = ", comoving=".toList ++ ['\''] := by decide
  have q2 : "', cosmo_factor='".toList = "', cosmo_factor=".toList ++ ['\''] := by decide
  have q3 : "', valid_transform='".toList = "', valid_transform=".toList ++ ['\''] := by decide
  rw [q1, q2, q3] at h
  simp only [List.append_assoc, List.cons_append, List.nil_append] at h
  have shape : ∀ (u v w z t : Str) (m n : Str), u ++ (v ++ '\'' :: (w ++ (m ++ '\'' :: (z ++ (n ++ '\'' :: t)))))
      = (u ++ v ++ '\'' :: (w ++ m ++ '\'' :: (z ++ n))) ++ '\'' :: t := by
    intro u v w z t m n; simp
  rw [shape, shape] at h
  obtain ⟨h, h3⟩ := cut_last (boolText_free _) (boolText_free _) h
  have shape2 : ∀ (u v w z : Str) (m n : Str), u ++ v ++ '\'' :: (w ++ m ++ '\'' :: (z ++ n))
      = (u ++ v ++ '\'' :: (w ++ m)) ++ '\'' :: z ++ n := by
    intro u v w z m n; simp
  rw [shape2, shape2] at h
  have h := List.append_cancel_right h
  have hf : ∀ c : Option CF, '\'' ∉ orNone (factorText p) c := orNone_free (factorText_free hp) (by decide)
  obtain ⟨h, h2⟩ := cut_last (hf _) (hf _) h
  have shape3 : ∀ (u v w : Str) (m : Str), u ++ v ++ '\'' :: (w ++ m) = (u ++ v) ++ '\'' :: w ++ m := by
    intro u v w m; simp
  rw [shape3, shape3] at h
  have h := List.append_cancel_right h
  have hb : ∀ c : Option Bool, '\'' ∉ orNone boolText c := orNone_free boolText_free (by decide)
  obtain ⟨h, h1⟩ := cut_last (hb _) (hb _) h
  exact ⟨orNone_inj (fun _ _ => boolText_inj) (by intro a; cases a <;> decide) h1,
    orNone_inj (fun f g => (c93_factor p hp f g).1) factorText_ne h2, boolText_inj h3, List.append_cancel_right h⟩

/-- C93: the last thing that `repr` says is whether the array can be converted, and before the factor stands the frame. -/
theorem c93_repr_words (p : Printer) (b : Str) (x : Arr) :
    ("valid_transform='True')".toList <:+ arrayRepr p b x ↔ x.vt = true) ∧ ("valid_transform='False')".toList <:+ arrayRepr p b x ↔ x.vt = false) ∧
    (x.comoving = some true → b.dropLast ++ ", comoving='True', cosmo_factor=".toList <+: arrayRepr p b x) ∧
    (x.comoving = some false → b.dropLast ++ ", comoving='False', cosmo_factor=".toList <+: arrayRepr p b x) ∧
    (x.comoving = none → b.dropLast ++ ", comoving='None', cosmo_factor=".toList <+: arrayRepr p b x) := by
  have no : ∀ {s t u v : Str}, s.length = t.length → s ≠ t → ¬ (u ++ s = v ++ t) := fun hl hne he => hne (cut_end hl he).2
  have et : ∀ w : Str, w ++ "', valid_transform='".toList ++ boolText true ++ "')".toList = (w ++ "', ".toList) ++ "valid_transform='True')".toList := by
    intro w
    rw [show "', valid_transform='".toList = "', ".toList ++ "valid_transform='".toList by decide]
    simp only [List.append_assoc]
    rfl
  have ef : ∀ w : Str, w ++ "', valid_transform='".toList ++ boolText false ++ "')".toList = (w ++ "', ".toList) ++ "valid_transform='False')".toList := by
    intro w
    rw [show "', valid_transform='".toList = "', ".toList ++ "valid_transform='".toList by decide]
    simp only [List.append_assoc]
    rfl
  refine ⟨⟨?_, ?_⟩, ⟨?_, ?_⟩, ?_, ?_, ?_⟩
  · rintro ⟨u, hu⟩
    cases hv : x.vt with
    | true => rfl
    | false =>
      unfold arrayRepr at hu
      rw [hv, ef, show "valid_transform='False')".toList = "v".toList ++ "alid_transform='False')".toList by decide, ← List.append_assoc] at hu
      exact absurd hu (no (by decide) (by decide))
  · intro hv
    unfold arrayRepr
    rw [hv, et]
    exact ⟨_, rfl⟩
  · rintro ⟨u, hu⟩
    cases hv : x.vt with
    | false => rfl
    | true =>
      unfold arrayRepr at hu
      rw [hv, et, show "valid_transform='False')".toList = "v".toList ++ "alid_transform='False')".toList by decide, ← List.append_assoc] at hu
      exact absurd hu (no (by decide) (by decide))
  · intro hv
    unfold arrayRepr
    rw [hv, ef]
    exact ⟨_, rfl⟩
  all_goals
    intro hc
    refine ⟨"'".toList ++ orNone (factorText p) x.cf ++ "', valid_transform='".toList ++ boolText x.vt ++ "')".toList, ?_⟩
    unfold arrayRepr
    rw [hc]
    simp only [List.append_assoc]
    rfl

/-- C93 fails for `str` and `np.savetxt`: two arrays with the same text, and with the same saved text, whose physical values differ. -/
theorem c93_str_fails : ∃ x y : Arr, (∀ b, arrayStr b x = arrayStr b y) ∧ (∀ u b, array2string b u x = array2string b u y) ∧
    (∀ f, savetxt f x = savetxt f y) ∧ (x.convertToPhysical.map Arr.val) = .ok [2] ∧ (y.convertToPhysical.map Arr.val) = .ok [8] := by
  refine ⟨⟨[1], some true, some (CF.create 2 1), true⟩, ⟨[1], some true, some (CF.create 2 3), true⟩, fun _ => rfl, fun _ _ => rfl,
    fun _ => rfl, ?_, ?_⟩
  · simp [Arr.convertToPhysical, Arr.factor, CF.aFactor, CF.create, Except.map]
  · simp only [Arr.convertToPhysical, Arr.factor, CF.aFactor, CF.create, Except.map, List.map_cons, List.map_nil]
    norm_num

/-- C93 fails for `np.savetxt` in a second way: the saved text is that of the numbers in their order, for both frames. -/
theorem c93_savetxt_fails (f : List ℝ → Str) (v : List ℝ) (c : Option CF) (t : Bool) :
    savetxt f ⟨v, some true, c, t⟩ = f v ∧ savetxt f ⟨v, some false, c, t⟩ = f v := ⟨rfl, rfl⟩

/-! ## Lists of names -/

private theorem commas_inj : ∀ {l l' : List Str}, ListNames l → ListNames l' → commas l = commas l' → l = l'
  | [], [], _, _, _ => rfl
  | [], [n], _, h', e => absurd e.symm (h' n (by simp)).1
  | [], n :: m :: l, _, _, e => by simp [commas] at e
  | [n], [], h, _, e => absurd e (h n (by simp)).1
  | n :: m :: l, [], _, _, e => by simp [commas] at e
  | [n], [n'], _, _, e => by simp only [commas] at e; rw [e]
  | [n], n' :: m' :: l', h, _, e => by
    have : ',' ∈ n := by
      have e' : n = _ := e
      rw [e']; simp [commas]
    exact absurd this (h n (by simp)).2.1
  | n :: m :: l, [n'], _, h', e => by
    have : ',' ∈ n' := by
      have e' : _ = n' := e
      rw [← e']; simp [commas]
    exact absurd this (h' n' (by simp)).2.1
  | n :: m :: l, n' :: m' :: l', h, h', e => by
    have e' : n ++ ',' :: (' ' :: commas (m :: l)) = n' ++ ',' :: (' ' :: commas (m' :: l')) := by
      have := e
      simp only [commas] at this
      simpa using this
    obtain ⟨h1, h2⟩ := cut_first (h n (by simp)).2.1 (h' n' (by simp)).2.1 e'
    have h3 := commas_inj (fun k hk => h k (List.mem_cons_of_mem _ hk)) (fun k hk => h' k (List.mem_cons_of_mem _ hk)) (List.cons.inj h2).2
    rw [h1, h3]

private theorem commas_free : ∀ {l : List Str}, ListNames l → ':' ∉ commas l
  | [], _ => by simp [commas]
  | [n], h => (h n (by simp)).2.2
  | n :: m :: l, h => by
    have h1 := (h n (by simp)).2.2
    have h2 := commas_free (fun k hk => h k (List.mem_cons_of_mem _ hk)) (l := m :: l)
    unfold commas
    rw [List.mem_append, List.mem_append, not_or, not_or]
    exact ⟨⟨h1, by decide⟩, h2⟩

private theorem listing_inj {a b : Str} {s : Str} (hs : s = a ++ ':' :: [' ']) {f f' : Str} {l l' : List Str} (h : ListNames l) (h' : ListNames l')
    (e : b ++ f ++ s ++ commas l = b ++ f' ++ s ++ commas l') : f = f' ∧ l = l' := by
  rw [hs] at e
  have shape : ∀ (f : Str) (l : List Str), b ++ f ++ (a ++ ':' :: [' ']) ++ commas l = (b ++ f ++ a) ++ ':' :: (' ' :: commas l) := by
    intro f l; simp
  rw [shape, shape] at e
  have free : ∀ {l : List Str}, ListNames l → ':' ∉ ' ' :: commas l := by
    intro l h hc
    rcases List.mem_cons.mp hc with hc | hc
    · exact absurd hc (by decide)
    · exact commas_free h hc
  obtain ⟨h1, h2⟩ := cut_last (free h) (free h') e
  exact ⟨List.append_cancel_left (List.append_cancel_right h1), commas_inj h h' (List.cons.inj h2).2⟩

/-- C93, lists. The text of a group, a dataset and a statistics file determines the file name and the names it lists. -/
theorem c93_lists (f f' : Str) (l l' : List Str) (h : ListNames l) (h' : ListNames l') :
    (groupText f l = groupText f' l' → f = f' ∧ l = l') ∧ (datasetText f l = datasetText f' l' → f = f' ∧ l = l') ∧
    (statisticsText f l = statisticsText f' l' → f = f' ∧ l = l') :=
  ⟨fun e => listing_inj (a := ". \nAvailable fields".toList) (by decide) h h' e,
    fun e => listing_inj (a := ". \nAvailable groups".toList) (by decide) h h' e,
    fun e => listing_inj (a := ", containing fields".toList) (by decide) h h' e⟩

/-- C93, kinds. Texts of objects of different kinds differ. -/
theorem c93_kinds (f f' : Str) (l l' : List Str) (h : ListNames l) (h' : ListNames l') :
    groupText f l ≠ datasetText f' l' ∧ groupText f l ≠ statisticsText f' l' ∧ datasetText f l ≠ statisticsText f' l' := by
  refine ⟨?_, ?_, ?_⟩
  · intro e
    have a1 : ". \nAvailable fields: ".toList = ". \nAvailable ".toList ++ "fields".toList ++ ':' :: [' '] := by decide
    have a2 : ". \nAvailable groups: ".toList = ". \nAvailable ".toList ++ "groups".toList ++ ':' :: [' '] := by decide
    unfold groupText datasetText at e
    rw [a1, a2] at e
    have shape : ∀ (b f a c : Str) (l : List Str), b ++ f ++ (a ++ c ++ ':' :: [' ']) ++ commas l
        = (b ++ f ++ a ++ c) ++ ':' :: (' ' :: commas l) := by intro b f a c l; simp
    rw [shape, shape] at e
    have free : ∀ {l : List Str}, ListNames l → ':' ∉ ' ' :: commas l := by
      intro l h hc
      rcases List.mem_cons.mp hc with hc | hc
      · exact absurd hc (by decide)
      · exact commas_free h hc
    exact absurd (cut_end (by decide) (cut_last (free h) (free h') e).1).2 (by decide)
  · intro e
    have := congrArg (fun t : Str => t.take 2) e
    unfold groupText statisticsText at this
    simp at this
  · intro e
    have := congrArg (fun t : Str => t.take 2) e
    unfold datasetText statisticsText at this
    simp at this

/-- Two groups of one file. -/
example : groupText "snap.hdf5".toList ["coordinates".toList, "masses".toList]
      = "SWIFT dataset at snap.hdf5. \nAvailable fields: coordinates, masses".toList ∧
    ListNames ["coordinates".toList, "masses".toList] := by
  refine ⟨by decide, ?_⟩
  intro n hn
  simp only [List.mem_cons, List.not_mem_nil, or_false] at hn
  rcases hn with rfl | rfl <;> decide

/-- C93 fails for names with a comma: two groups with different fields and one text. -/
theorem c93_lists_fails (f : Str) : groupText f ["a".toList, "b".toList] = groupText f ["a, b".toList] := by
  unfold groupText commas commas
  rfl

/-! ## Numbers with two decimals -/

section
variable {K : Type} [Field K] [LinearOrder K] [IsStrictOrderedRing K] [FloorRing K]

private theorem nearestEven_close (y : K) (hy : 0 ≤ y) :
    |y - (nearestEven y : K)| ≤ 1 / 2 ∧ (|y - (nearestEven y : K)| = 1 / 2 → nearestEven y % 2 = 0) := by
  have hf0 : 0 ≤ ⌊y⌋ := Int.floor_nonneg.mpr hy
  have hc : ((⌊y⌋.toNat : Nat) : K) = (⌊y⌋ : K) := by
    rw [← Int.cast_natCast, Int.toNat_of_nonneg hf0]
  have h1 : (⌊y⌋ : K) ≤ y := Int.floor_le y
  have h2 : y < (⌊y⌋ : K) + 1 := Int.lt_floor_add_one y
  unfold nearestEven
  dsimp only
  split_ifs with ha hb he
  · rw [hc] at ha ⊢
    refine ⟨by rw [abs_le]; constructor <;> linarith, fun h => ?_⟩
    rw [abs_of_nonneg (by linarith)] at h
    linarith
  · rw [hc] at ha hb; push_cast; rw [hc]
    refine ⟨by rw [abs_le]; constructor <;> linarith, fun h => ?_⟩
    rw [abs_of_nonpos (by linarith)] at h
    linarith
  · rw [hc] at ha hb ⊢
    exact ⟨by rw [abs_le]; constructor <;> linarith, fun _ => he⟩
  · rw [hc] at ha hb; push_cast; rw [hc]
    exact ⟨by rw [abs_le]; constructor <;> linarith, fun _ => by omega⟩

private theorem numeral_eq (t : Str) : numeral t = Nat.ofDigitChars 10 t 0 := by
  rw [Nat.ofDigitChars_eq_foldl]; rfl

private theorem numeral_two (n : Nat) :
    numeral (Nat.toDigits 10 (n / 100) ++ [(n / 10 % 10).digitChar, (n % 10).digitChar]) = n := by
  rw [numeral_eq, Nat.ofDigitChars_append, Nat.ofDigitChars_ten_toDigits,
    Nat.ofDigitChars_cons_digitChar_of_lt_ten (by omega), Nat.ofDigitChars_cons_digitChar_of_lt_ten (by omega), Nat.ofDigitChars_nil]
  omega

private theorem head_digits (n : Nat) : (Nat.toDigits 10 n).head? = some '0' → n = 0 := by
  induction n using Nat.strong_induction_on with
  | _ n ih =>
    intro h
    rw [Nat.toDigits_eq_if (by decide)] at h
    split_ifs at h with hn
    · simpa using h
    · rw [List.head?_append_of_ne_nil _ Nat.toDigits_ne_nil] at h
      have := ih (n / 10) (by omega) h
      omega

private theorem digits_toDigits (n : Nat) : Digits (Nat.toDigits 10 n) :=
  ⟨Nat.toDigits_ne_nil, fun _ hc => Nat.isDigit_of_mem_toDigits (by decide) (by decide) hc, fun h => by
    rw [head_digits n h, Nat.toDigits_zero]⟩

/-- C93, numbers. A number is printed with two decimals, as near to it as two decimals can be, and halves go to the even digit. -/
theorem c93_number (x : K) : Rounded x (fixed2 x) := by
  have hy : (0 : K) ≤ 100 * |x| := by positivity
  obtain ⟨h1, h2⟩ := nearestEven_close (100 * |x|) hy
  have hn : fixed2 x = (if x < 0 then ['-'] else []) ++ Nat.toDigits 10 (nearestEven (100 * |x|) / 100)
      ++ ['.', (nearestEven (100 * |x|) / 10 % 10).digitChar, (nearestEven (100 * |x|) % 10).digitChar] := by
    unfold fixed2
    dsimp only
    rw [List.leftpad, show 4 - _ = 0 from ?_, List.replicate_zero, List.nil_append]
    have := Nat.length_toDigits_pos (b := 10) (n := nearestEven (100 * |x|) / 100)
    simp only [List.length_append, List.length_cons, List.length_nil]
    omega
  generalize nearestEven (100 * |x|) = n at h1 h2 hn
  have e : |x| - (n : K) / 100 = (100 * |x| - n) / 100 := by ring
  have e2 : |(|x| - (n : K) / 100)| = |100 * |x| - n| / 100 := by
    rw [e, abs_div]; norm_num
  refine ⟨Nat.toDigits 10 (n / 100), (n / 10 % 10).digitChar, (n % 10).digitChar, digits_toDigits _, ?_, ?_, hn, ?_, ?_⟩
  · rw [Nat.isDigit_digitChar]; exact decide_eq_true (by omega)
  · rw [Nat.isDigit_digitChar]; exact decide_eq_true (by omega)
  · rw [numeral_two, e2]; linarith
  · rw [numeral_two, e2]
    intro h
    exact h2 (by linarith)

/-- C93, numbers that have two decimals are printed exactly. -/
theorem c93_exact (n : Nat) : ∃ whole a b, fixed2 ((n : K) / 100) = whole ++ ['.', a, b] ∧ Digits whole ∧ numeral (whole ++ [a, b]) = n := by
  obtain ⟨w, a, b, hw, _, _, ht, hc, _⟩ := c93_number ((n : K) / 100)
  have h0 : (0 : K) ≤ (n : K) / 100 := by positivity
  rw [if_neg (not_lt.mpr h0), List.nil_append] at ht
  refine ⟨w, a, b, ht, hw, ?_⟩
  rw [abs_of_nonneg h0, ← sub_div, abs_div, abs_of_pos (by norm_num : (0 : K) < 100), div_le_div_iff₀ (by norm_num) (by norm_num)] at hc
  have hc' : |(n : K) - (numeral (w ++ [a, b]) : K)| < 1 := by linarith
  have : |((n : Int) - (numeral (w ++ [a, b]) : Int))| < 1 := by exact_mod_cast hc'
  rw [Int.abs_lt_one_iff] at this
  omega

end

/-- 0.125 and -1.005 with two decimals. -/
example : fixed2 (1/8 : ℚ) = "0.12".toList ∧ fixed2 (-201/200 : ℚ) = "-1.00".toList ∧ fixed2 (48 : ℚ) = "48.00".toList := by
  decide +kernel

/-- C93 fails for small numbers: numbers that differ are printed alike, and positive numbers as zero. -/
theorem c93_small_fails : ∃ x y : ℚ, x ≠ y ∧ 0 < x ∧ 0 < y ∧ fixed2 x = fixed2 y ∧ fixed2 x = fixed2 (0 : ℚ) :=
  ⟨1/300, 1/400, by norm_num, by norm_num, by norm_num, by decide +kernel, by decide +kernel⟩

/-! ## Descriptions -/

section
variable {K D : Type} [Field K] [LinearOrder K] [IsStrictOrderedRing K] [FloorRing K]

private theorem string_of {lib : Lib D} {d : Meta K D} {g : Dict (Raw K)} (hg : d.groups "hydro_scheme" = some (some g)) {n s : String}
    (h : HasText lib g n s) : schemeString lib d n = .ok s.toList := by
  obtain ⟨b, h1, h2⟩ := h
  unfold schemeString
  rw [hg]; dsimp only; rw [h1]; dsimp only; rw [h2]

private theorem float_of {d : Meta K D} {g : Dict (Raw K)} (hg : d.groups "hydro_scheme" = some (some g)) {n : String} {x : K}
    (h : HasNumber g n x) : schemeFloat d n = .ok (fixed2 x) := by
  obtain ⟨l, h1⟩ := h
  unfold schemeFloat schemeItem
  rw [hg]; dsimp only; rw [h1]; rfl

private theorem int_of {d : Meta K D} {g : Dict (Raw K)} (hg : d.groups "hydro_scheme" = some (some g)) {n : String} {k : Nat}
    (h : HasNumber g n (k : K)) : schemeInt d n = .ok (Nat.toDigits 10 k) := by
  obtain ⟨l, h1⟩ := h
  have e : schemeInt d n = .ok (intText (truncated (k : K))) := by
    unfold schemeInt schemeItem
    rw [hg]; dsimp only; rw [h1]; rfl
  have ht : truncated (k : K) = k := by
    unfold truncated
    rw [if_pos (Nat.cast_nonneg k), Int.floor_natCast]
  rw [e, ht]
  unfold intText
  rw [if_neg (by omega), Int.natAbs_natCast]

private theorem string_some {lib : Lib D} {d : Meta K D} {g : Dict (Raw K)} (hg : d.groups "hydro_scheme" = some (some g)) {n : String}
    {t : Str} (h : schemeString lib d n = .ok t) : (g n).isSome := by
  cases hn : g n with
  | some r => rfl
  | none => unfold schemeString at h; rw [hg] at h; dsimp only at h; rw [hn] at h; cases h

private theorem item_some {d : Meta K D} {g : Dict (Raw K)} (hg : d.groups "hydro_scheme" = some (some g)) {n : String} {f : Raw K → Except Err Str}
    {t : Str} (h : (schemeItem d n).bind f = .ok t) : (g n).isSome := by
  cases hn : g n with
  | some r => rfl
  | none => unfold schemeItem at h; rw [hg] at h; dsimp only at h; rw [hn] at h; cases h

private theorem bind_ok {α β : Type} {x : Except Err α} {f : α → Except Err β} {t : β} (h : (x >>= f) = .ok t) :
    ∃ a, x = .ok a ∧ f a = .ok t := by
  cases x with
  | error e => cases h
  | ok a => exact ⟨a, rfl, h⟩

/-- C93, the hydrodynamics scheme. With all entries in the file the description has them, numbers with two decimals; without one of
them there is no description. -/
theorem c93_hydro (lib : Lib D) (d : Meta K D) (hk : d.kind = .snapshot ∨ d.kind = .lineOfSight) (g : Dict (Raw K))
    (hg : d.groups "hydro_scheme" = some (some g)) :
    (∀ (scheme kernel : String) (dim : Nat) (eta ngb cfl : K), HasText lib g "Scheme" scheme → HasText lib g "Kernel function" kernel →
      HasNumber g "Dimension" (dim : K) → HasNumber g "Kernel eta" eta → HasNumber g "Kernel target N_ngb" ngb →
      HasNumber g "CFL parameter" cfl → ∃ t1 t2 t3, Rounded eta t1 ∧ Rounded ngb t2 ∧ Rounded cfl t3 ∧
        hydroInfo lib d = .ok (scheme.toList ++ "\n".toList ++ kernel.toList ++ " in ".toList ++ Nat.toDigits 10 dim
          ++ "D\n$\\eta$ = ".toList ++ t1 ++ " (".toList ++ t2 ++ " $N_{ngb}$)\n$C_{\\rm CFL}$ = ".toList ++ t3)) ∧
    (∀ t, hydroInfo lib d = .ok t → ∀ n ∈ ["Scheme", "Kernel function", "Dimension", "Kernel eta", "Kernel target N_ngb",
      "CFL parameter"], (g n).isSome) := by
  have hi : hasInfo d.kind = true := by rcases hk with h | h <;> rw [h] <;> rfl
  constructor
  · intro scheme kernel dim eta ngb cfl h1 h2 h3 h4 h5 h6
    refine ⟨fixed2 eta, fixed2 ngb, fixed2 cfl, c93_number _, c93_number _, c93_number _, ?_⟩
    unfold hydroInfo
    rw [if_pos hi, string_of hg h1, string_of hg h2, int_of hg h3, float_of hg h4, float_of hg h5, float_of hg h6]
    rfl
  · intro t ht n hn
    unfold hydroInfo at ht
    rw [if_pos hi] at ht
    obtain ⟨_, e1, ht⟩ := bind_ok ht
    obtain ⟨_, e2, ht⟩ := bind_ok ht
    obtain ⟨_, e3, ht⟩ := bind_ok ht
    obtain ⟨_, e4, ht⟩ := bind_ok ht
    obtain ⟨_, e5, ht⟩ := bind_ok ht
    obtain ⟨_, e6, ht⟩ := bind_ok ht
    simp only [List.mem_cons, List.not_mem_nil, or_false] at hn
    rcases hn with rfl | rfl | rfl | rfl | rfl | rfl
    · exact string_some hg e1
    · exact string_some hg e2
    · exact item_some hg e3
    · exact item_some hg e4
    · exact item_some hg e5
    · exact item_some hg e6

/-- C93, the viscosity. -/
theorem c93_viscosity (lib : Lib D) (d : Meta K D) (hk : d.kind = .snapshot ∨ d.kind = .lineOfSight) (g : Dict (Raw K))
    (hg : d.groups "hydro_scheme" = some (some g)) :
    (∀ (model : String) (a l b lo hi : K), HasText lib g "Viscosity Model" model → HasNumber g "Alpha viscosity" a →
      HasNumber g "Viscosity decay length [internal units]" l → HasNumber g "Beta viscosity" b →
      HasNumber g "Alpha viscosity (min)" lo → HasNumber g "Alpha viscosity (max)" hi →
      ∃ t1 t2 t3 t4 t5, Rounded a t1 ∧ Rounded l t2 ∧ Rounded b t3 ∧ Rounded lo t4 ∧ Rounded hi t5 ∧
        viscosityInfo lib d = .ok (model.toList ++ "\n$\\alpha_{V, 0}$ = ".toList ++ t1 ++ ", $\\ell_V$ = ".toList ++ t2
          ++ ", $\\beta_V$ = ".toList ++ t3 ++ "\n".toList ++ t4 ++ " < $\\alpha_V$ < ".toList ++ t5)) ∧
    (∀ t, viscosityInfo lib d = .ok t → ∀ n ∈ ["Viscosity Model", "Alpha viscosity", "Viscosity decay length [internal units]",
      "Beta viscosity", "Alpha viscosity (min)", "Alpha viscosity (max)"], (g n).isSome) := by
  have hi : hasInfo d.kind = true := by rcases hk with h | h <;> rw [h] <;> rfl
  constructor
  · intro model a l b lo hi' h1 h2 h3 h4 h5 h6
    refine ⟨fixed2 a, fixed2 l, fixed2 b, fixed2 lo, fixed2 hi', c93_number _, c93_number _, c93_number _, c93_number _, c93_number _, ?_⟩
    unfold viscosityInfo
    rw [if_pos hi, string_of hg h1, float_of hg h2, float_of hg h3, float_of hg h4, float_of hg h5, float_of hg h6]
    rfl
  · intro t ht n hn
    unfold viscosityInfo at ht
    rw [if_pos hi] at ht
    obtain ⟨_, e1, ht⟩ := bind_ok ht
    obtain ⟨_, e2, ht⟩ := bind_ok ht
    obtain ⟨_, e3, ht⟩ := bind_ok ht
    obtain ⟨_, e4, ht⟩ := bind_ok ht
    obtain ⟨_, e5, ht⟩ := bind_ok ht
    obtain ⟨_, e6, ht⟩ := bind_ok ht
    simp only [List.mem_cons, List.not_mem_nil, or_false] at hn
    rcases hn with rfl | rfl | rfl | rfl | rfl | rfl
    · exact string_some hg e1
    · exact item_some hg e2
    · exact item_some hg e3
    · exact item_some hg e4
    · exact item_some hg e5
    · exact item_some hg e6

/-- C93, the diffusion. -/
theorem c93_diffusion (d : Meta K D) (hk : d.kind = .snapshot ∨ d.kind = .lineOfSight) (g : Dict (Raw K))
    (hg : d.groups "hydro_scheme" = some (some g)) :
    (∀ (a b lo hi : K), HasNumber g "Diffusion alpha" a → HasNumber g "Diffusion beta" b → HasNumber g "Diffusion alpha (min)" lo →
      HasNumber g "Diffusion alpha (max)" hi → ∃ t1 t2 t3 t4, Rounded a t1 ∧ Rounded b t2 ∧ Rounded lo t3 ∧ Rounded hi t4 ∧
        diffusionInfo d = .ok ("$\\alpha_{D, 0}$ = ".toList ++ t1 ++ ", $\\beta_D$ = ".toList ++ t2 ++ "\n$".toList ++ t3
          ++ " < \\alpha_D < ".toList ++ t4 ++ "$".toList)) ∧
    (∀ t, diffusionInfo d = .ok t → ∀ n ∈ ["Diffusion alpha", "Diffusion beta", "Diffusion alpha (min)", "Diffusion alpha (max)"],
      (g n).isSome) := by
  have hi : hasInfo d.kind = true := by rcases hk with h | h <;> rw [h] <;> rfl
  constructor
  · intro a b lo hi' h1 h2 h3 h4
    refine ⟨fixed2 a, fixed2 b, fixed2 lo, fixed2 hi', c93_number _, c93_number _, c93_number _, c93_number _, ?_⟩
    unfold diffusionInfo
    rw [if_pos hi, float_of hg h1, float_of hg h2, float_of hg h3, float_of hg h4]
    rfl
  · intro t ht n hn
    unfold diffusionInfo at ht
    rw [if_pos hi] at ht
    obtain ⟨_, e1, ht⟩ := bind_ok ht
    obtain ⟨_, e2, ht⟩ := bind_ok ht
    obtain ⟨_, e3, ht⟩ := bind_ok ht
    obtain ⟨_, e4, ht⟩ := bind_ok ht
    simp only [List.mem_cons, List.not_mem_nil, or_false] at hn
    rcases hn with rfl | rfl | rfl | rfl
    · exact item_some hg e1
    · exact item_some hg e2
    · exact item_some hg e3
    · exact item_some hg e4

private theorem string_inv {lib : Lib D} {d : Meta K D} {g : Dict (Raw K)} (hg : d.groups "hydro_scheme" = some (some g)) {n : String}
    {t : Str} (h : schemeString lib d n = .ok t) : ∃ s : String, HasText lib g n s ∧ t = s.toList := by
  unfold schemeString at h
  rw [hg] at h
  dsimp only at h
  cases hn : g n with
  | none => rw [hn] at h; cases h
  | some r =>
    rw [hn] at h
    cases r with
    | bytes b =>
      dsimp only at h
      cases hb : lib.utf8 b with
      | none => rw [hb] at h; cases h
      | some s => rw [hb] at h; cases h; exact ⟨s, ⟨b, hn, hb⟩, rfl⟩
    | scalar x => cases h
    | array l => cases h
    | text s => cases h
    | words l => cases h

private theorem item_inv {d : Meta K D} {g : Dict (Raw K)} (hg : d.groups "hydro_scheme" = some (some g)) {n : String} {r : Raw K}
    (h : schemeItem d n = .ok r) : (∃ x, r = .scalar x ∧ FirstNumber g n x) ∨ (∃ c l s, r = .text (Char.toString c) ∧ g n = some (.text s) ∧ s.toList = c :: l) ∨
      ∃ w l, r = .text w ∧ g n = some (.words (w :: l)) := by
  unfold schemeItem at h
  rw [hg] at h
  dsimp only at h
  cases hn : g n with
  | none => rw [hn] at h; cases h
  | some q =>
    rw [hn] at h
    cases q with
    | scalar x => cases h
    | array l =>
      cases l with
      | nil => cases h
      | cons x l => cases h; exact .inl ⟨x, rfl, .inl ⟨l, hn⟩⟩
    | bytes l =>
      cases l with
      | nil => cases h
      | cons x l => cases h; exact .inl ⟨_, rfl, .inr ⟨x, l, hn, rfl⟩⟩
    | text s =>
      dsimp only [item] at h
      cases hs : s.toList with
      | nil => rw [hs] at h; cases h
      | cons c l => rw [hs] at h; cases h; exact .inr (.inl ⟨c, l, s, rfl, rfl, hs⟩)
    | words l =>
      cases l with
      | nil => cases h
      | cons x l => cases h; exact .inr (.inr ⟨x, l, rfl, rfl⟩)

private theorem float_inv {d : Meta K D} {g : Dict (Raw K)} (hg : d.groups "hydro_scheme" = some (some g)) {n : String} {t : Str}
    (h : schemeFloat d n = .ok t) : ∃ x, FirstNumber g n x ∧ Rounded x t := by
  unfold schemeFloat at h
  cases hi : schemeItem d n with
  | error e => rw [hi] at h; cases h
  | ok r =>
    rw [hi] at h
    rcases item_inv hg hi with ⟨x, rfl, hx⟩ | ⟨c, l, s, rfl, -⟩ | ⟨w, l, rfl, -⟩
    · cases h
      exact ⟨x, hx, c93_number x⟩
    · cases h
    · cases h

private theorem whole_part (x : K) : WholePart x (intText (truncated x)) := by
  have hd : ∀ n : Nat, numeral (Nat.toDigits 10 n) = n := fun n => by rw [numeral_eq]; simp
  have hc : ((truncated x).natAbs : K) = |((truncated x : Int) : K)| := by rw [Nat.cast_natAbs, Int.cast_abs]
  refine ⟨Nat.toDigits 10 (truncated x).natAbs, digits_toDigits _, ?_, ?_, ?_⟩
  · rw [hd, hc]
    unfold truncated
    split
    case isTrue h =>
      rw [abs_of_nonneg h, abs_of_nonneg (by exact_mod_cast Int.floor_nonneg.2 h)]
      exact Int.floor_le x
    case isFalse h =>
      have h := not_le.1 h
      have : (⌈x⌉ : K) ≤ 0 := by exact_mod_cast Int.ceil_le.2 (by simpa using h.le)
      rw [abs_of_neg h, abs_of_nonpos this]
      linarith [Int.le_ceil x]
  · rw [hd, hc]
    unfold truncated
    split
    case isTrue h =>
      rw [abs_of_nonneg h, abs_of_nonneg (by exact_mod_cast Int.floor_nonneg.2 h)]
      exact Int.lt_floor_add_one x
    case isFalse h =>
      have h := not_le.1 h
      have : (⌈x⌉ : K) ≤ 0 := by exact_mod_cast Int.ceil_le.2 (by simpa using h.le)
      rw [abs_of_neg h, abs_of_nonpos this]
      linarith [Int.ceil_lt_add_one x]
  · have e : truncated x < 0 ↔ x ≤ -1 := by
      unfold truncated
      split
      case isTrue h =>
        constructor
        · intro h'
          exact absurd (Int.floor_nonneg.2 h) (by omega)
        · intro h'
          linarith
      case isFalse h =>
        rw [show ⌈x⌉ < 0 ↔ ⌈x⌉ ≤ -1 by omega, Int.ceil_le]
        simp
    unfold intText
    by_cases h : truncated x < 0
    · rw [if_pos h, if_pos (e.1 h)]; rfl
    · rw [if_neg h, if_neg fun h' => h (e.2 h')]; rfl

private theorem digit_char {c : Char} (h : c.isDigit = true) : Nat.toDigits 10 (Nat.ofDigitChars 10 [c] 0) = [c] := by
  have h : 48 ≤ c.toNat ∧ c.toNat ≤ 57 := by simpa [Char.isDigit, UInt32.le_iff_toNat_le] using h
  have e : c = Char.ofNat c.toNat := (Char.ofNat_toNat c).symm
  obtain ⟨h1, h2⟩ := h
  generalize c.toNat = n at e h1 h2
  subst e
  have e : n = 48 ∨ n = 49 ∨ n = 50 ∨ n = 51 ∨ n = 52 ∨ n = 53 ∨ n = 54 ∨ n = 55 ∨ n = 56 ∨ n = 57 := by omega
  rcases e with rfl | rfl | rfl | rfl | rfl | rfl | rfl | rfl | rfl | rfl <;> decide

private theorem int_inv {d : Meta K D} {g : Dict (Raw K)} (hg : d.groups "hydro_scheme" = some (some g)) {n : String} {t : Str}
    (h : schemeInt d n = .ok t) : FirstWhole g n t := by
  unfold schemeInt at h
  cases hi : schemeItem d n with
  | error e => rw [hi] at h; cases h
  | ok r =>
    rw [hi] at h
    rcases item_inv hg hi with ⟨x, rfl, hx⟩ | ⟨c, l, s, rfl, hs, hl⟩ | ⟨w, l, rfl, hw⟩
    · cases h
      exact .inl ⟨x, hx, whole_part x⟩
    · dsimp only [Except.bind] at h
      split at h
      case isTrue hc =>
        have hc : c.isDigit = true := by simpa using hc.2
        cases h
        exact .inr (.inl ⟨c, l, s, hs, hl, hc, by simpa using digit_char hc⟩)
      · cases h
    · dsimp only [Except.bind] at h
      split at h
      case isTrue hc =>
        cases h
        refine .inr (.inr ⟨w, l, hw, hc.1, by simpa using hc.2, digits_toDigits _, ?_⟩)
        rw [numeral_eq, numeral_eq]
        simp
      · cases h

/-- C93. A description is only made of entries that can be shown: text that can be decoded, numbers (with two decimals) and, for the
dimension, an integer or digits. -/
theorem c93_shown (lib : Lib D) (d : Meta K D) (hk : d.kind = .snapshot ∨ d.kind = .lineOfSight) (g : Dict (Raw K))
    (hg : d.groups "hydro_scheme" = some (some g)) (t : Str) :
    (hydroInfo lib d = .ok t → ∃ (scheme kernel : String) (dim : Str) (eta ngb cfl : K) (t1 t2 t3 : Str), HasText lib g "Scheme" scheme ∧
      HasText lib g "Kernel function" kernel ∧ FirstWhole g "Dimension" dim ∧ FirstNumber g "Kernel eta" eta ∧ FirstNumber g "Kernel target N_ngb" ngb ∧
      FirstNumber g "CFL parameter" cfl ∧ Rounded eta t1 ∧ Rounded ngb t2 ∧ Rounded cfl t3 ∧
      t = scheme.toList ++ "\n".toList ++ kernel.toList ++ " in ".toList ++ dim ++ "D\n$\\eta$ = ".toList ++ t1 ++ " (".toList ++ t2
        ++ " $N_{ngb}$)\n$C_{\\rm CFL}$ = ".toList ++ t3) ∧
    (viscosityInfo lib d = .ok t → ∃ (model : String) (a l b lo hi : K) (t1 t2 t3 t4 t5 : Str), HasText lib g "Viscosity Model" model ∧
      FirstNumber g "Alpha viscosity" a ∧ FirstNumber g "Viscosity decay length [internal units]" l ∧ FirstNumber g "Beta viscosity" b ∧
      FirstNumber g "Alpha viscosity (min)" lo ∧ FirstNumber g "Alpha viscosity (max)" hi ∧ Rounded a t1 ∧ Rounded l t2 ∧ Rounded b t3 ∧
      Rounded lo t4 ∧ Rounded hi t5 ∧ t = model.toList ++ "\n$\\alpha_{V, 0}$ = ".toList ++ t1 ++ ", $\\ell_V$ = ".toList ++ t2
        ++ ", $\\beta_V$ = ".toList ++ t3 ++ "\n".toList ++ t4 ++ " < $\\alpha_V$ < ".toList ++ t5) ∧
    (diffusionInfo d = .ok t → ∃ (a b lo hi : K) (t1 t2 t3 t4 : Str), FirstNumber g "Diffusion alpha" a ∧ FirstNumber g "Diffusion beta" b ∧
      FirstNumber g "Diffusion alpha (min)" lo ∧ FirstNumber g "Diffusion alpha (max)" hi ∧ Rounded a t1 ∧ Rounded b t2 ∧ Rounded lo t3 ∧
      Rounded hi t4 ∧ t = "$\\alpha_{D, 0}$ = ".toList ++ t1 ++ ", $\\beta_D$ = ".toList ++ t2 ++ "\n$".toList ++ t3
          ++ " < \\alpha_D < ".toList ++ t4 ++ "$".toList) := by
  have hi : hasInfo d.kind = true := by rcases hk with h | h <;> rw [h] <;> rfl
  refine ⟨fun ht => ?_, fun ht => ?_, fun ht => ?_⟩
  · unfold hydroInfo at ht
    rw [if_pos hi] at ht
    obtain ⟨_, e1, ht⟩ := bind_ok ht
    obtain ⟨_, e2, ht⟩ := bind_ok ht
    obtain ⟨_, e3, ht⟩ := bind_ok ht
    obtain ⟨_, e4, ht⟩ := bind_ok ht
    obtain ⟨_, e5, ht⟩ := bind_ok ht
    obtain ⟨_, e6, ht⟩ := bind_ok ht
    obtain ⟨a, a1, rfl⟩ := string_inv hg e1
    obtain ⟨b, b1, rfl⟩ := string_inv hg e2
    obtain ⟨x, x1, x2⟩ := float_inv hg e4
    obtain ⟨y, y1, y2⟩ := float_inv hg e5
    obtain ⟨z, z1, z2⟩ := float_inv hg e6
    cases ht
    exact ⟨a, b, _, x, y, z, _, _, _, a1, b1, int_inv hg e3, x1, y1, z1, x2, y2, z2, rfl⟩
  · unfold viscosityInfo at ht
    rw [if_pos hi] at ht
    obtain ⟨_, e1, ht⟩ := bind_ok ht
    obtain ⟨_, e2, ht⟩ := bind_ok ht
    obtain ⟨_, e3, ht⟩ := bind_ok ht
    obtain ⟨_, e4, ht⟩ := bind_ok ht
    obtain ⟨_, e5, ht⟩ := bind_ok ht
    obtain ⟨_, e6, ht⟩ := bind_ok ht
    obtain ⟨a, a1, rfl⟩ := string_inv hg e1
    obtain ⟨b, b1, b2⟩ := float_inv hg e2
    obtain ⟨c, c1, c2⟩ := float_inv hg e3
    obtain ⟨x, x1, x2⟩ := float_inv hg e4
    obtain ⟨y, y1, y2⟩ := float_inv hg e5
    obtain ⟨z, z1, z2⟩ := float_inv hg e6
    cases ht
    exact ⟨a, b, c, x, y, z, _, _, _, _, _, a1, b1, c1, x1, y1, z1, b2, c2, x2, y2, z2, rfl⟩
  · unfold diffusionInfo at ht
    rw [if_pos hi] at ht
    obtain ⟨_, e2, ht⟩ := bind_ok ht
    obtain ⟨_, e3, ht⟩ := bind_ok ht
    obtain ⟨_, e4, ht⟩ := bind_ok ht
    obtain ⟨_, e5, ht⟩ := bind_ok ht
    obtain ⟨b, b1, b2⟩ := float_inv hg e2
    obtain ⟨c, c1, c2⟩ := float_inv hg e3
    obtain ⟨x, x1, x2⟩ := float_inv hg e4
    obtain ⟨y, y1, y2⟩ := float_inv hg e5
    cases ht
    exact ⟨b, c, x, y, _, _, _, _, b1, c1, x1, y1, b2, c2, x2, y2, rfl⟩

/-- C93, the libraries: a description exactly if the file says the versions of all three. -/
theorem c93_library (lib : Lib D) (d : Meta K D) (hk : d.kind = .snapshot ∨ d.kind = .lineOfSight) (g : Dict (Raw K))
    (hg : d.groups "code" = some (some g)) (t : Str) :
    libraryInfo lib d = .ok t ↔ ∃ a b c, HasText lib g "FFTW library version" a ∧ HasText lib g "GSL library version" b ∧
      HasText lib g "HDF5 library version" c ∧ t = "FFTW v".toList ++ a.toList ++ "\nGSL v".toList ++ b.toList ++ "\nHDF5 v".toList ++ c.toList := by
  have hi : hasInfo d.kind = true := by rcases hk with h | h <;> rw [h] <;> rfl
  have hs : ∀ n s, codeString lib d n = .ok s ↔ HasText lib g n s := by
    intro n s
    unfold codeString HasText
    rw [hg]; dsimp only
    cases hn : g n with
    | none => simp
    | some r =>
      cases r with
      | bytes b =>
        dsimp only
        cases hu : lib.utf8 b with
        | none => simp [hu]
        | some s' => simp [hu]
      | scalar x => simp
      | array l => simp
      | text s' => simp
      | words l => simp
  unfold libraryInfo
  rw [if_pos hi]
  constructor
  · intro h
    obtain ⟨a, e1, h⟩ := bind_ok h
    obtain ⟨b, e2, h⟩ := bind_ok h
    obtain ⟨c, e3, h⟩ := bind_ok h
    exact ⟨a, b, c, (hs _ _).mp e1, (hs _ _).mp e2, (hs _ _).mp e3, (Except.ok.inj h).symm⟩
  · rintro ⟨a, b, c, h1, h2, h3, rfl⟩
    rw [(hs _ _).mpr h1, (hs _ _).mpr h2, (hs _ _).mpr h3]
    rfl

/-- C93, other files: SOAP and FOF files have none of the four descriptions. -/
theorem c93_other (lib : Lib D) (d : Meta K D) (hk : d.kind = .soap ∨ d.kind = .fof) : libraryInfo lib d = .error .attribute ∧
    hydroInfo lib d = .error .attribute ∧ viscosityInfo lib d = .error .attribute ∧ diffusionInfo d = .error .attribute := by
  have hi : ¬ hasInfo d.kind = true := by rcases hk with h | h <;> rw [h] <;> decide
  unfold libraryInfo hydroInfo viscosityInfo diffusionInfo
  rw [if_neg hi, if_neg hi, if_neg hi, if_neg hi]
  exact ⟨rfl, rfl, rfl, rfl⟩

/-- C93 fails for texts that are not bytes: a file with the scheme as a string of variable length has no description. -/
theorem c93_text_fails (lib : Lib D) (d : Meta K D) (hk : d.kind = .snapshot) (g : Dict (Raw K))
    (hg : d.groups "hydro_scheme" = some (some g)) (s : String) (hs : g "Scheme" = some (.text s)) :
    hydroInfo lib d = .error .attribute := by
  have hi : hasInfo d.kind = true := by rw [hk]; rfl
  have e : schemeString lib d "Scheme" = .error .attribute := by
    unfold schemeString
    rw [hg]; dsimp only; rw [hs]
  unfold hydroInfo
  rw [if_pos hi, e]
  rfl

private theorem bind_key {α β : Type} {x : Except Err α} {f : α → Except Err β} (h : x.bind f = .error .key) :
    x = .error .key ∨ ∃ a, x = .ok a ∧ f a = .error .key := by
  cases x with
  | error e => exact .inl (by cases h; rfl)
  | ok a => exact .inr ⟨a, rfl, h⟩

private theorem item_key (r : Raw K) (i : Nat) : item r i ≠ .error .key := by
  intro h
  cases r with
  | scalar x => cases h
  | array l => unfold item at h; dsimp only at h; split at h <;> cases h
  | bytes l => unfold item at h; dsimp only at h; split at h <;> cases h
  | text l => unfold item at h; dsimp only at h; split at h <;> cases h
  | words l => unfold item at h; dsimp only at h; split at h <;> cases h

private theorem schemeString_key {lib : Lib D} {d : Meta K D} {n : String} (h : schemeString lib d n = .error .key) :
    ∃ g, d.groups "hydro_scheme" = some (some g) ∧ g n = none := by
  unfold schemeString at h
  split at h
  · rename_i g hg
    refine ⟨g, hg, ?_⟩
    split at h
    · assumption
    · split at h <;> cases h
    · cases h
  · cases h
  · cases h

private theorem codeString_key {lib : Lib D} {d : Meta K D} {n : String} (h : codeString lib d n = .error .key) :
    ∃ g, d.groups "code" = some (some g) ∧ g n = none := by
  unfold codeString at h
  split at h
  · rename_i g hg
    refine ⟨g, hg, ?_⟩
    split at h
    · assumption
    · split at h <;> cases h
    · cases h
  · cases h
  · cases h

private theorem schemeItem_key {d : Meta K D} {n : String} (h : schemeItem d n = .error .key) :
    ∃ g, d.groups "hydro_scheme" = some (some g) ∧ g n = none := by
  unfold schemeItem at h
  split at h
  · rename_i g hg
    refine ⟨g, hg, ?_⟩
    split at h
    · assumption
    · exact absurd h (item_key _ _)
  · cases h
  · cases h

private theorem schemeFloat_key {d : Meta K D} {n : String} (h : schemeFloat d n = .error .key) :
    ∃ g, d.groups "hydro_scheme" = some (some g) ∧ g n = none := by
  rcases bind_key h with h | ⟨a, -, h⟩
  · exact schemeItem_key h
  · cases a <;> cases h

private theorem schemeInt_key {d : Meta K D} {n : String} (h : schemeInt d n = .error .key) :
    ∃ g, d.groups "hydro_scheme" = some (some g) ∧ g n = none := by
  rcases bind_key h with h | ⟨a, -, h⟩
  · exact schemeItem_key h
  · cases a with
    | text s =>
      dsimp only at h
      split at h <;> cases h
    | _ => cases h

/-- C93. A KeyError says that the file has the group but one of the entries is missing, whatever is in the others. -/
theorem c93_missing (lib : Lib D) (d : Meta K D) :
    (libraryInfo lib d = .error .key → ∃ g, d.groups "code" = some (some g) ∧
      ∃ n ∈ ["FFTW library version", "GSL library version", "HDF5 library version"], g n = none) ∧
    (hydroInfo lib d = .error .key → ∃ g, d.groups "hydro_scheme" = some (some g) ∧
      ∃ n ∈ ["Scheme", "Kernel function", "Dimension", "Kernel eta", "Kernel target N_ngb", "CFL parameter"], g n = none) ∧
    (viscosityInfo lib d = .error .key → ∃ g, d.groups "hydro_scheme" = some (some g) ∧
      ∃ n ∈ ["Viscosity Model", "Alpha viscosity", "Viscosity decay length [internal units]", "Beta viscosity", "Alpha viscosity (min)",
        "Alpha viscosity (max)"], g n = none) ∧
    (diffusionInfo d = .error .key → ∃ g, d.groups "hydro_scheme" = some (some g) ∧
      ∃ n ∈ ["Diffusion alpha", "Diffusion beta", "Diffusion alpha (min)", "Diffusion alpha (max)"], g n = none) := by
  have close : ∀ {grp n : String} {l : List String}, n ∈ l → (∃ g, d.groups grp = some (some g) ∧ g n = none) →
      ∃ g, d.groups grp = some (some g) ∧ ∃ n ∈ l, g n = none := by
    rintro grp n l hn ⟨g, hg, h⟩
    exact ⟨g, hg, n, hn, h⟩
  refine ⟨fun h => ?_, fun h => ?_, fun h => ?_, fun h => ?_⟩
  · unfold libraryInfo at h
    split at h
    · rcases bind_key h with h | ⟨a1, -, h⟩
      · exact close (by simp) (codeString_key h)
      rcases bind_key h with h | ⟨a2, -, h⟩
      · exact close (by simp) (codeString_key h)
      rcases bind_key h with h | ⟨a3, -, h⟩
      · exact close (by simp) (codeString_key h)
      · cases h
    · cases h
  · unfold hydroInfo at h
    split at h
    · rcases bind_key h with h | ⟨a1, -, h⟩
      · exact close (by simp) (schemeString_key h)
      rcases bind_key h with h | ⟨a2, -, h⟩
      · exact close (by simp) (schemeString_key h)
      rcases bind_key h with h | ⟨a3, -, h⟩
      · exact close (by simp) (schemeInt_key h)
      rcases bind_key h with h | ⟨a4, -, h⟩
      · exact close (by simp) (schemeFloat_key h)
      rcases bind_key h with h | ⟨a5, -, h⟩
      · exact close (by simp) (schemeFloat_key h)
      rcases bind_key h with h | ⟨a6, -, h⟩
      · exact close (by simp) (schemeFloat_key h)
      · cases h
    · cases h
  · unfold viscosityInfo at h
    split at h
    · rcases bind_key h with h | ⟨a1, -, h⟩
      · exact close (by simp) (schemeString_key h)
      rcases bind_key h with h | ⟨a2, -, h⟩
      · exact close (by simp) (schemeFloat_key h)
      rcases bind_key h with h | ⟨a3, -, h⟩
      · exact close (by simp) (schemeFloat_key h)
      rcases bind_key h with h | ⟨a4, -, h⟩
      · exact close (by simp) (schemeFloat_key h)
      rcases bind_key h with h | ⟨a5, -, h⟩
      · exact close (by simp) (schemeFloat_key h)
      rcases bind_key h with h | ⟨a6, -, h⟩
      · exact close (by simp) (schemeFloat_key h)
      · cases h
    · cases h
  · unfold diffusionInfo at h
    split at h
    · rcases bind_key h with h | ⟨a1, -, h⟩
      · exact close (by simp) (schemeFloat_key h)
      rcases bind_key h with h | ⟨a2, -, h⟩
      · exact close (by simp) (schemeFloat_key h)
      rcases bind_key h with h | ⟨a3, -, h⟩
      · exact close (by simp) (schemeFloat_key h)
      rcases bind_key h with h | ⟨a4, -, h⟩
      · exact close (by simp) (schemeFloat_key h)
      · cases h
    · cases h

/-- C93. A file without the group of the hydrodynamics scheme has no descriptions of it: the metadata holds `None`, which cannot be
indexed. -/
theorem c93_no_group (lib : Lib D) (d : Meta K D) (hk : d.kind = .snapshot ∨ d.kind = .lineOfSight) (hg : d.groups "hydro_scheme" = some none) :
    hydroInfo lib d = .error .typeErr ∧ viscosityInfo lib d = .error .typeErr ∧ diffusionInfo d = .error .typeErr := by
  have hi : hasInfo d.kind = true := by rcases hk with h | h <;> rw [h] <;> rfl
  unfold hydroInfo viscosityInfo diffusionInfo schemeString schemeFloat schemeItem
  rw [if_pos hi, if_pos hi, if_pos hi, hg]
  exact ⟨rfl, rfl, rfl⟩

/-- C93, mapping tables. The text says the two names and the number of rows and of columns of the first row; a table without rows
has no text. -/
theorem c93_mapping (x y : Str) (data : List (List K)) :
    (data = [] ∧ mappingText x y data = .error .index) ∨
    ∃ r l t1 t2, data = r :: l ∧ Digits t1 ∧ Digits t2 ∧ numeral t1 = data.length ∧ numeral t2 = r.length ∧
      mappingText x y data = .ok ("Mapping table from ".toList ++ x ++ " to ".toList ++ y ++ ", containing ".toList ++ t1 ++ " by ".toList
        ++ t2 ++ " elements.".toList) := by
  cases data with
  | nil => exact Or.inl ⟨rfl, rfl⟩
  | cons r l =>
    refine Or.inr ⟨r, l, _, _, rfl, digits_toDigits _, digits_toDigits _, ?_, ?_, rfl⟩
    · rw [numeral_eq, Nat.ofDigitChars_ten_toDigits]
    · rw [numeral_eq, Nat.ofDigitChars_ten_toDigits]

end

/-- A file with the entries of the diffusion. -/
example : diffusionInfo (K := ℚ) (D := Unit) ⟨.snapshot, fun n => if n = "hydro_scheme" then some (some fun n =>
      if n = "Diffusion alpha" then some (.array [1/10]) else if n = "Diffusion beta" then some (.array [1/3])
      else if n = "Diffusion alpha (min)" then some (.array [0]) else if n = "Diffusion alpha (max)" then some (.array [1]) else none)
    else none, fun _ => [], fun _ => none, none⟩
    = .ok "$\\alpha_{D, 0}$ = 0.10, $\\beta_D$ = 0.33\n$0.00 < \\alpha_D < 1.00$".toList := by
  decide +kernel

/-- A file without the last of the entries of the diffusion. -/
example : diffusionInfo (K := ℚ) (D := Unit) ⟨.snapshot, fun n => if n = "hydro_scheme" then some (some fun n =>
      if n = "Diffusion alpha (max)" then none else some (.array [1])) else none, fun _ => [], fun _ => none, none⟩ = .error .key := by
  decide +kernel

/-- A file with the entries of the hydrodynamics scheme. -/
example : hydroInfo (K := ℚ) (D := Unit) ⟨fun b => if b = [1] then some "SPHENIX" else some "Quartic spline", fun _ => none, fun _ => none⟩
    ⟨.lineOfSight, fun n => if n = "hydro_scheme" then some (some fun n =>
      if n = "Scheme" then some (.bytes [1]) else if n = "Kernel function" then some (.bytes [2])
      else if n = "Dimension" then some (.array [3]) else if n = "Kernel eta" then some (.array [1234/1000])
      else if n = "Kernel target N_ngb" then some (.array [57289/1000]) else if n = "CFL parameter" then some (.array [1/5]) else none)
    else none, fun _ => [], fun _ => none, none⟩
    = .ok "SPHENIX\nQuartic spline in 3D\n$\\eta$ = 1.23 (57.29 $N_{ngb}$)\n$C_{\\rm CFL}$ = 0.20".toList := by
  decide +kernel

/-- A file with versions of the libraries, and one without that of HDF5. -/
example : libraryInfo (K := ℚ) (D := Unit) ⟨fun b => if b = [1] then some "3.3.8" else some "2.7", fun _ => none, fun _ => none⟩
    ⟨.snapshot, fun n => if n = "code" then some (some fun n =>
      if n = "FFTW library version" then some (.bytes [1]) else some (.bytes [2])) else none, fun _ => [], fun _ => none, none⟩
      = .ok "FFTW v3.3.8\nGSL v2.7\nHDF5 v2.7".toList ∧
    libraryInfo (K := ℚ) (D := Unit) ⟨fun _ => some "2.7", fun _ => none, fun _ => none⟩
    ⟨.snapshot, fun n => if n = "code" then some (some fun n =>
      if n = "HDF5 library version" then none else some (.bytes [2])) else none, fun _ => [], fun _ => none, none⟩ = .error .key := by
  constructor <;> decide +kernel

/-- A table of three elements by two species, and an empty one. -/
example : mappingText "Elements".toList "Species".toList [[(1 : ℚ), 0], [0, 1], [1, 1]]
      = .ok "Mapping table from Elements to Species, containing 3 by 2 elements.".toList ∧
    mappingText "Elements".toList "Species".toList ([] : List (List ℚ)) = .error .index := by
  constructor <;> decide +kernel

end Verif.Props
