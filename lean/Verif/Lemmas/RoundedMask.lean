import Verif.Model.RoundedMask
import Verif.Spec.RoundedMask
import Verif.Lemmas.CellMask

namespace Verif.RoundedMask
open Verif Verif.Spec Verif.Mask

variable {K : Type} [Field K] [LinearOrder K]

/-- what one axis of the loop decides for a cell -/
def keeps (fl : K → K) (box : Fin 3 → K) (reg : Fin 3 → K × K) (d : Fin 3) (c : Cell K) : Bool :=
  if |fl ((reg d).2 - (reg d).1)| > box d then true
  else axisKeep fl (box d) (normaliseAxis fl (box d) (reg d).1 (reg d).2).1
    (normaliseAxis fl (box d) (reg d).1 (reg d).2).2 (c.lo d) (c.hi d)

theorem axisStep_map (fl : K → K) (box : Fin 3 → K) (reg : Fin 3 → K × K) (cells : List (Cell K)) (p : Cell K → Bool)
    (d : Fin 3) : axisStep fl box reg cells (cells.map p) d = cells.map (fun c => p c && keeps fl box reg d c) := by
  unfold axisStep
  by_cases h : |fl ((reg d).2 - (reg d).1)| > box d
  · simp [h, keeps]
  · simp only [h, if_false, keeps]
    rw [compress_map, maskedAssign_map]

theorem cellMaskOf_eq (fl : K → K) (box : Fin 3 → K) (reg : Fin 3 → K × K) (cells : List (Cell K)) :
    cellMaskOf fl box reg cells
      = cells.map (fun c => keeps fl box reg 0 c && keeps fl box reg 1 c && keeps fl box reg 2 c) := by
  have h' : List.replicate cells.length true = cells.map (fun _ => true) := by simp
  unfold cellMaskOf
  rw [h']
  simp only [List.foldl_cons, List.foldl_nil]
  rw [axisStep_map, axisStep_map, axisStep_map]
  simp [Bool.and_assoc]

theorem regionOk_iff (fl : K → K) (box : Fin 3 → K) (reg : Fin 3 → K × K) :
    regionOk fl box reg = true ↔ ∀ d, windowOk fl (box d) (reg d).1 (reg d).2 = true := by
  unfold regionOk
  simp only [List.all_cons, List.all_nil, Bool.and_true, Bool.and_eq_true]
  constructor
  · intro hw d
    fin_cases d
    · exact hw.1
    · exact hw.2.1
    · exact hw.2.2
  · exact fun h => ⟨h 0, h 1, h 2⟩

theorem cellMask_eq (fl : K → K) (box : Fin 3 → K) (reg : Fin 3 → K × K) (cells : List (Cell K)) (mask : List Bool)
    (h : cellMask fl box reg cells = .ok mask) :
    (∀ d, windowOk fl (box d) (reg d).1 (reg d).2 = true) ∧
    mask = cells.map (fun c => keeps fl box reg 0 c && keeps fl box reg 1 c && keeps fl box reg 2 c) := by
  unfold cellMask at h
  split_ifs at h with hw
  cases h
  exact ⟨(regionOk_iff fl box reg).mp hw, cellMaskOf_eq fl box reg cells⟩

theorem keeps_all (fl : K → K) (box : Fin 3 → K) (reg : Fin 3 → K × K) (c : Cell K) :
    (keeps fl box reg 0 c && keeps fl box reg 1 c && keeps fl box reg 2 c) = true ↔ ∀ d, keeps fl box reg d c = true := by
  simp only [Bool.and_eq_true]
  constructor
  · rintro ⟨⟨h0, h1⟩, h2⟩ d
    fin_cases d
    · exact h0
    · exact h1
    · exact h2
  · exact fun h => ⟨⟨h 0, h 1⟩, h 2⟩

theorem selected_iff (fl : K → K) (box : Fin 3 → K) (reg : Fin 3 → K × K) (cells : List (Cell K)) (mask : List Bool)
    (h : cellMask fl box reg cells = .ok mask) (n : Nat) (c : Cell K) (hn : cells[n]? = some c) :
    mask[n]? = some true ↔ ∀ d, keeps fl box reg d c = true := by
  rw [(cellMask_eq fl box reg cells mask h).2, List.getElem?_map, hn]
  simp only [Option.map_some, Option.some.injEq, Bool.and_eq_true]
  constructor
  · rintro ⟨⟨h0, h1⟩, h2⟩ d
    fin_cases d
    · exact h0
    · exact h1
    · exact h2
  · exact fun h => ⟨⟨h 0, h 1⟩, h 2⟩

theorem axisKeep_iff {fl : K → K} {L : K} (h0 : fl 0 = 0) (h1 : fl L = L) (h2 : fl (-L) = -L) (lower upper lo hi : K) :
    axisKeep fl L lower upper lo hi = true ↔
      (lower < fl (hi + -L) ∧ fl (lo + -L) < upper) ∨ (lower < fl hi ∧ fl lo < upper) ∨
      (lower < fl (hi + L) ∧ fl (lo + L) < upper) := by
  simp [axisKeep, h0, h1, h2]

theorem window_iff (fl : K → K) (L lower upper : K) :
    windowOk fl L lower upper = true ↔
      fl (-L / 2) ≤ lower ∧ fl (-L / 2) ≤ upper ∧ lower ≤ fl (fl (3 * L) / 2) ∧ upper ≤ fl (fl (3 * L) / 2) := by
  simp [windowOk, and_assoc]

end Verif.RoundedMask
