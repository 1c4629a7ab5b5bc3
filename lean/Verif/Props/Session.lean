import Verif.Model.Session
import Verif.Props.Frame

/-!
# C59: making an image does not disturb the data
-/

namespace Verif.Props
open Verif Verif.Scatter Verif.Frame Verif.Session

set_option linter.unusedSectionVars false

section
variable {K : Type} [Field K] [LinearOrder K] [IsStrictOrderedRing K] [FloorRing K]

/-- The particle is in the box. -/
def InBox (box : K × K × K) (p : Part K) : Prop :=
  (0 ≤ p.x ∧ p.x < box.1) ∧ (0 ≤ p.y ∧ p.y < box.2.1) ∧ (0 ≤ p.z ∧ p.z < box.2.2)

/-- `q` is a periodic copy of `p`. -/
def CopyOf (box : K × K × K) (p q : Part K) : Prop :=
  ∃ i j k : Int, q = (⟨p.x + i * box.1, p.y + j * box.2.1, p.z + k * box.2.2, p.m, p.h⟩ : Part K)

/-- All sides of the box are positive. -/
def Box (box : K × K × K) : Prop := 0 < box.1 ∧ 0 < box.2.1 ∧ 0 < box.2.2

private theorem pmod_self {b a : K} (h : 0 ≤ a ∧ a < b) : pmod a b = a := by
  have hb : 0 < b := lt_of_le_of_lt h.1 h.2
  have : ⌊a / b⌋ = 0 := by
    rw [Int.floor_eq_iff]
    exact ⟨by push_cast; exact div_nonneg h.1 hb.le, by push_cast; rw [zero_add, div_lt_one hb]; exact h.2⟩
  simp [pmod, this]

private theorem wrapped_inBox {box : K × K × K} (hb : Box box) (p : Part K) : InBox box (wrapped box true p) := by
  simp only [wrapped, if_true, InBox]
  exact ⟨pmod_mem hb.1 _, pmod_mem hb.2.1 _, pmod_mem hb.2.2 _⟩

private theorem wrapped_of_inBox {box : K × K × K} {p : Part K} (h : InBox box p) : wrapped box true p = p := by
  obtain ⟨hx, hy, hz⟩ := h
  simp [wrapped, pmod_self hx, pmod_self hy, pmod_self hz]

private theorem wrapped_twice {box : K × K × K} (hb : Box box) (p : Part K) :
    wrapped box true (wrapped box true p) = wrapped box true p := wrapped_of_inBox (wrapped_inBox hb p)

private theorem wrapped_copy (box : K × K × K) (p : Part K) : CopyOf box p (wrapped box true p) := by
  refine ⟨-⌊p.x / box.1⌋, -⌊p.y / box.2.1⌋, -⌊p.z / box.2.2⌋, ?_⟩
  simp only [wrapped, if_true, pmod_eq]

/-- The data after an image are the data before, or all particles wrapped into the box; the latter only after periodic images. -/
private theorem shoot_data {β : Type} (box : K × K × K) (data : List (Part K)) (s : Shot K β) :
    (shoot box data s).1 = data ∨ (s.periodic = true ∧ (shoot box data s).1 = data.map (wrapped box true)) := by
  unfold shoot coordinates
  split
  · exact .inl rfl
  · rcases s.rotation with _ | r <;> cases hp : s.periodic <;> simp

private theorem map_wrapped {box : K × K × K} {data : List (Part K)} (h : ∀ p ∈ data, InBox box p) :
    data.map (wrapped box true) = data :=
  (List.map_congr_left fun p hp => (wrapped_of_inBox (h p hp) : _ = id p)).trans (List.map_id _)

/-- Data in the box stay as they are, whatever images are made of them and whatever errors occur. -/
theorem c59_inside {β : Type} (box : K × K × K) (data : List (Part K)) (h : ∀ p ∈ data, InBox box p) (shots : List (Shot K β)) :
    (session box data shots).1 = data := by
  induction shots with
  | nil => rfl
  | cons s l ih =>
    have e : (shoot box data s).1 = data := by
      rcases shoot_data box data s with e | ⟨_, e⟩
      · exact e
      · rw [e, map_wrapped h]
    simp only [session, e, ih]

/-- Images that are not periodic leave any data as they are. -/
theorem c59_not_periodic {β : Type} (box : K × K × K) (data : List (Part K)) (shots : List (Shot K β))
    (h : ∀ s ∈ shots, s.periodic = false) : (session box data shots).1 = data := by
  induction shots with
  | nil => rfl
  | cons s l ih =>
    have e : (shoot box data s).1 = data := by
      rcases shoot_data box data s with e | ⟨hp, _⟩
      · exact e
      · rw [h s (List.mem_cons_self ..)] at hp; cases hp
    simp only [session, e, ih fun t ht => h t (List.mem_cons_of_mem _ ht)]

/-- In all cases every particle is replaced by a periodic copy of itself with the same mass and smoothing length, and nothing is
added, lost or reordered. -/
theorem c59_copies {β : Type} (box : K × K × K) (data : List (Part K)) (shots : List (Shot K β)) :
    List.Forall₂ (CopyOf box) data (session box data shots).1 := by
  induction shots generalizing data with
  | nil =>
    refine List.forall₂_same.2 fun p _ => ⟨0, 0, 0, ?_⟩
    simp
  | cons s l ih =>
    simp only [session]
    rcases shoot_data box data s with e | ⟨_, e⟩
    · rw [e]; exact ih data
    · rw [e]
      have h2 := ih (data.map (wrapped box true))
      rw [List.forall₂_map_left_iff] at h2
      refine h2.imp fun p q hpq => ?_
      obtain ⟨i, j, k, rfl⟩ := hpq
      obtain ⟨i', j', k', e'⟩ := wrapped_copy box p
      refine ⟨i' + i, j' + j, k' + k, ?_⟩
      rw [e']
      simp only [Part.mk.injEq, and_true]
      push_cast
      exact ⟨by ring, by ring, by ring⟩

private theorem shoot_wrapped {β : Type} {box : K × K × K} (hb : Box box) (data : List (Part K)) (s : Shot K β)
    (hp : s.periodic = true) : (shoot box (data.map (wrapped box true)) s).2 = (shoot box data s).2 := by
  unfold shoot
  rw [hp]
  split
  · rfl
  · cases s.rotation with
    | none => simp [coordinates, List.map_map, Function.comp_def, wrapped_twice hb]
    | some r => simp [coordinates]

/-- Every periodic image of a session is the image that would be made of the data as they were read, whatever images were made
before it. -/
theorem c59_periodic_images {β : Type} {box : K × K × K} (hb : Box box) (data : List (Part K)) (before : List (Shot K β))
    (s : Shot K β) (hp : s.periodic = true) : (shoot box (session box data before).1 s).2 = (shoot box data s).2 := by
  have key : (session box data before).1 = data ∨ (session box data before).1 = data.map (wrapped box true) := by
    induction before generalizing data with
    | nil => exact .inl rfl
    | cons t l ih =>
      simp only [session]
      rcases shoot_data box data t with e | ⟨_, e⟩
      · rw [e]; exact ih data
      · rw [e]
        have : (data.map (wrapped box true)).map (wrapped box true) = data.map (wrapped box true) := by
          simp [List.map_map, Function.comp_def, wrapped_twice hb]
        rcases ih (data.map (wrapped box true)) with e2 | e2
        · exact .inr e2
        · exact .inr (e2.trans this)
  rcases key with e | e
  · rw [e]
  · rw [e, shoot_wrapped hb data s hp]

/-- For data in the box this holds for all images, periodic or not. -/
theorem c59_images {β : Type} (box : K × K × K) (data : List (Part K)) (h : ∀ p ∈ data, InBox box p) (before : List (Shot K β))
    (s : Shot K β) : (shoot box (session box data before).1 s).2 = (shoot box data s).2 := by
  rw [c59_inside box data h before]

private theorem zip_map_left {α β γ : Type} (f : α → β) (l : List α) (m : List γ) :
    (l.map f).zip m = (l.zip m).map fun p => (f p.1, p.2) := by
  induction l generalizing m with
  | nil => rfl
  | cons a l ih => cases m with
    | nil => rfl
    | cons b m => simp [ih]

/-- The three front ends are images in the sense of this file: without rotation they are those of C53, with a rotation they are
those of the rotated particles, and a periodic image with a rotation is refused. -/
theorem c59_project (scatter : Nat → K → K → List (Part K) → Except Err (Int × Int → K)) (box : K × K × K)
    (region : Option (List K)) (periodic framed : Bool) (res : Nat) (data : List (Part K)) (mask : List Bool) :
    (shoot box data (projectShot scatter box region none periodic framed res mask)).2 =
      project scatter box region periodic framed res (data.zip mask) := by
  unfold shoot project
  simp only [projectShot, coordinates]
  cases regionInfo box region false periodic with
  | error e => rfl
  | ok info => cases periodic <;> simp [zip_map_left, wrapped, bind, Except.bind]

theorem c59_slice (scatter : K → Nat → Nat → K → K → K → List (Part K) → Except Err (Int × Int → K)) (box : K × K × K)
    (region : Option (List K)) (zs : K) (periodic framed : Bool) (res : Nat) (data : List (Part K)) (mask : List Bool) :
    (shoot box data (sliceShot scatter region none zs periodic framed res mask)).2 =
      sliceGrid scatter box region zs periodic framed res (data.zip mask) := by
  unfold shoot sliceGrid
  simp only [sliceShot, coordinates]
  cases regionInfo box region false periodic with
  | error e => rfl
  | ok info =>
    cases periodic <;> simp [zip_map_left, wrapped, bind, Except.bind, List.filter_map, Function.comp_def]

theorem c59_render (scatter : Nat → K → K → K → List (Part K) → Except Err (Int × Int × Int → K)) (box : K × K × K)
    (region : Option (List K)) (periodic framed : Bool) (res : Nat) (data : List (Part K)) (mask : List Bool) :
    (shoot box data (renderShot scatter region none periodic framed res mask)).2 =
      renderGrid scatter box region periodic framed res (data.zip mask) := by
  unfold shoot renderGrid
  simp only [renderShot, coordinates]
  cases regionInfo box region true periodic with
  | error e => rfl
  | ok info =>
    cases periodic <;> simp [zip_map_left, wrapped, bind, Except.bind, List.filter_map, Function.comp_def]

theorem c59_rotated {β : Type} (box : K × K × K) (data : List (Part K)) (s : Shot K β) (r : K × K × K → K × K × K)
    (hr : s.rotation = some r) :
    (s.periodic = false → (shoot box data s).2 = (shoot box (data.map fun p =>
        { p with x := (r (p.x, p.y, p.z)).1, y := (r (p.x, p.y, p.z)).2.1, z := (r (p.x, p.y, p.z)).2.2 }) { s with rotation := none }).2) ∧
      (s.periodic = true → ∃ e, (shoot box data s).2 = .error e) := by
  unfold shoot
  constructor
  · intro hp
    simp only [hr, hp, coordinates]
    split <;> simp <;> rfl
  · intro hp
    simp only [hr, hp, coordinates]
    split
    · exact ⟨_, rfl⟩
    · exact ⟨.value, by simp⟩

end

/-- A particle half a side outside the box. -/
private def stray : Part ℚ := ⟨15, 5, 5, 1, 1⟩

private def count (periodic : Bool) : Shot ℚ (Grid ℚ) :=
  projectShot histogram (10, 10, 10) (some [0, 20, 0, 20]) none periodic false 4 [true]

/-- The claim for all data fails: a periodic image moves a particle of the dataset that is outside the box. -/
theorem c59_data_fails : (session (10, 10, 10) [stray] [count true]).1 ≠ [stray] := by decide +kernel

/-- And then a later image that is not periodic is not the image of the data as they were read: the particle is in another
pixel. -/
theorem c59_image_fails : ((shoot (10, 10, 10) [stray] (count false)).2.toOption.map fun g => (g.img (3, 1), g.img (1, 1))) = some (16, 0) ∧
    ((shoot (10, 10, 10) (session (10, 10, 10) [stray] [count true]).1 (count false)).2.toOption.map fun g =>
      (g.img (3, 1), g.img (1, 1))) = some (0, 16) := by decide +kernel

/-- Data as the theorems ask for. -/
example : (∀ p ∈ [(⟨3, 4, 9, 1, 1⟩ : Part ℚ), ⟨0, 0, 0, 2, 1⟩], InBox (10, 10, 10) p) ∧ Box ((10, 10, 10) : ℚ × ℚ × ℚ) ∧
    (count true).periodic = true ∧ (count false).periodic = false := by
  refine ⟨?_, ?_, rfl, rfl⟩
  · simp [InBox]; norm_num
  · simp [Box]

end Verif.Props
