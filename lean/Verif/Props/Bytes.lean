import Verif.Spec.Bytes

/-! # C54: conversion to native byte order -/

namespace Verif.Props
open Verif Verif.Bytes

private theorem big_reverse (b : List UInt8) : bigEndian b.reverse = littleEndian b := by
  unfold bigEndian
  rw [List.foldl_reverse]
  induction b with
  | nil => rfl
  | cons x l ih => simp only [List.foldr_cons, ih, littleEndian]; omega

private theorem little_reverse (b : List UInt8) : littleEndian b.reverse = bigEndian b := by
  rw [← big_reverse, List.reverse_reverse]

private theorem word_reverse (le : Bool) (b : List UInt8) : word le .native b.reverse = word le .swapped b := by
  cases le <;> simp [word, big_reverse, little_reverse]

private theorem word_one (b : List UInt8) (h : b.length = 1) :
    b.reverse = b := by
  match b, h with
  | [_], _ => rfl

mutual
private theorem toNative_native : ∀ d : DType, d.toNative.isNative = true
  | .plain .swapped => rfl
  | .plain .native => rfl
  | .plain .irrelevant => rfl
  | .struct l => by simpa [DType.toNative, DType.isNative] using allToNative_native l
private theorem allToNative_native : ∀ l : List DType, allNative (allToNative l) = true
  | [] => rfl
  | d :: l => by simp [allToNative, allNative, toNative_native d, allToNative_native l]
end

mutual
private theorem toNative_of_native : ∀ d : DType, d.isNative = true → d.toNative = d
  | .plain .swapped, h => by simp [DType.isNative] at h
  | .plain .native, _ => rfl
  | .plain .irrelevant, _ => rfl
  | .struct l, h => by
    simp only [DType.isNative] at h
    simp [DType.toNative, allToNative_of_native l h]
private theorem allToNative_of_native : ∀ l : List DType, allNative l = true → allToNative l = l
  | [], _ => rfl
  | d :: l, h => by
    simp only [allNative, Bool.and_eq_true] at h
    simp [allToNative, toNative_of_native d h.1, allToNative_of_native l h.2]
end

mutual
private theorem swap_value (le : Bool) : ∀ (d : DType) (i : Item), d.uniform → fits d i →
    value le d.toNative i.byteswap = value le d i
  | .plain .swapped, .words w, _, _ => by
    simp [DType.toNative, Item.byteswap, value, word_reverse]
  | .plain .native, _, h, _ => by simp [DType.uniform] at h
  | .plain .irrelevant, .words w, _, hw => by
    simp only [fits] at hw
    simp only [DType.toNative, Item.byteswap, value, List.map_map, Option.some.injEq, Val.numbers.injEq]
    refine List.map_congr_left fun b hb => ?_
    simp [word_one b (hw b hb)]
  | .plain o, .fields l, _, _ => by cases o <;> simp [DType.toNative, Item.byteswap, value]
  | .struct ds, .words w, _, _ => by simp [DType.toNative, Item.byteswap, value]
  | .struct ds, .fields l, h, hw => by
    simp only [DType.uniform] at h
    simp only [fits] at hw
    simp [DType.toNative, Item.byteswap, value, swap_values le ds l h hw]
private theorem swap_values (le : Bool) : ∀ (ds : List DType) (l : List Item), allUniform ds → allFit ds l →
    values le (allToNative ds) (allByteswap l) = values le ds l
  | [], [], _, _ => rfl
  | [], _ :: _, _, hw => by simp [allFit] at hw
  | _ :: _, [], _, hw => by simp [allFit] at hw
  | d :: ds, i :: l, h, hw => by
    simp only [allUniform] at h
    simp only [allFit] at hw
    simp [allToNative, allByteswap, values, swap_value le d i h.1 hw.1, swap_values le ds l h.2 hw.2]
end

private theorem fields_value (le : Bool) (ds : List DType) (l : List Item)
    (h : ∀ d ∈ ds, d.isNative = true ∨ d.uniform) (hw : allFit ds l) :
    values le (allToNative ds) (swapFields ds l) = values le ds l := by
  induction ds generalizing l with
  | nil => cases l <;> rfl
  | cons d ds ih =>
    cases l with
    | nil => simp [allFit] at hw
    | cons i l =>
      simp only [allFit] at hw
      have h2 := ih l (fun x hx => h x (List.mem_cons_of_mem _ hx)) hw.2
      simp only [allToNative, swapFields, values, h2]
      by_cases hn : d.isNative = true
      · simp only [hn, if_true]
        rw [toNative_of_native d hn]
      · simp only [hn, Bool.false_eq_true, if_false]
        rw [swap_value le d i ((h d List.mem_cons_self).resolve_left hn) hw.1]

/-- C54: the numbers of an array of any plain type, or of a structured type in which every field is either native or has no
native parts, do not change, on any machine. -/
theorem c54_values (le : Bool) (a : Array') (hs : a.dtype.simple) (hw : ∀ i ∈ a.items, fits a.dtype i) :
    (toNative a).value le = a.value le := by
  obtain ⟨d, items⟩ := a
  unfold toNative
  by_cases hn : d.isNative = true
  · simp [hn]
  · cases d with
    | plain o =>
      have hu : (DType.plain o).uniform := by
        cases o <;> simp_all [DType.isNative, DType.uniform]
      simp only [hn, Bool.false_eq_true, if_false, Array'.value, List.map_map]
      exact List.map_congr_left fun i hi => swap_value le _ i hu (hw i hi)
    | struct ds =>
      simp only [hn, Bool.false_eq_true, if_false, Array'.value, List.map_map]
      refine List.map_congr_left fun i hi => ?_
      have hi' := hw i hi
      cases i with
      | words w => simp [fits] at hi'
      | fields l =>
        simp only [fits] at hi'
        simp [DType.toNative, value, fields_value le ds l hs hi']

/-- C54: arrays that are already native are left as they are. -/
theorem c54_native (a : Array') (h : a.dtype.isNative = true) : toNative a = a := by simp [toNative, h]

/-- C54: afterwards the type is native, and converting again changes nothing. -/
theorem c54_idempotent (a : Array') : (toNative a).dtype.isNative = true ∧ toNative (toNative a) = toNative a := by
  have h : (toNative a).dtype.isNative = true := by
    obtain ⟨d, items⟩ := a
    unfold toNative
    by_cases hn : d.isNative = true
    · simp [hn]
    · cases d with
      | plain o => simpa [hn] using toNative_native _
      | struct ds => simpa [hn] using toNative_native _
  exact ⟨h, c54_native _ h⟩

/-- Structured types without nesting are simple. -/
theorem c54_flat_simple (os : List Order) : (DType.struct (os.map .plain)).simple := by
  intro d hd
  obtain ⟨o, -, rfl⟩ := List.mem_map.mp hd
  cases o
  · exact .inl rfl
  · exact .inr (by simp [DType.uniform])
  · exact .inl rfl

example : fits (.struct [.plain .swapped, .plain .native, .plain .irrelevant])
      (.fields [.words [[1, 2]], .words [[3, 4]], .words [[5], [6]]]) ∧
    (toNative ⟨.struct [.plain .swapped, .plain .native, .plain .irrelevant],
      [.fields [.words [[1, 2]], .words [[3, 4]], .words [[5], [6]]]]⟩).items =
        [.fields [.words [[2, 1]], .words [[3, 4]], .words [[5], [6]]]] := by
  constructor
  · simp [fits, allFit]
  · simp [toNative, DType.isNative, allNative, swapFields, Item.byteswap]

/-- C54 fails for a nested structure with mixed byte orders: all of it is swapped, also the parts that were native. -/
theorem c54_nested_fails :
    ∃ a : Array', (∀ i ∈ a.items, fits a.dtype i) ∧ ∀ le, (toNative a).value le ≠ a.value le := by
  refine ⟨⟨.struct [.struct [.plain .swapped, .plain .native]], [.fields [.fields [.words [[1, 2]], .words [[3, 4]]]]]⟩, ?_, ?_⟩
  · intro i hi
    rw [List.mem_singleton.mp hi]
    simp [fits, allFit]
  · intro le h
    have e : toNative ⟨.struct [.struct [.plain .swapped, .plain .native]],
        [.fields [.fields [.words [[1, 2]], .words [[3, 4]]]]]⟩ =
        ⟨.struct [.struct [.plain .native, .plain .native]], [.fields [.fields [.words [[2, 1]], .words [[4, 3]]]]]⟩ := rfl
    rw [e] at h
    simp only [Array'.value, List.map_cons, List.map_nil] at h
    cases le <;> simp [value, values, word, bigEndian, littleEndian] at h

end Verif.Props
