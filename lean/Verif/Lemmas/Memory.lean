import Verif.Spec.Memory
import Verif.Lemmas.Cosmo

/-! Lemmas on memory and conversions in place. -/

namespace Verif.Memory
open Verif Verif.Cosmo

theorem write_of_not_mem {m : Nat → ℝ} {cs : List Nat} {vs : List ℝ} {c : Nat} (h : c ∉ cs) : write m cs vs c = m c := by
  induction cs generalizing m vs with
  | nil => rfl
  | cons d cs ih =>
    cases vs with
    | nil => rfl
    | cons v vs =>
      rw [write, ih (fun hc => h (List.mem_cons_of_mem _ hc)),
        Function.update_of_ne (fun e : c = d => h (by rw [e]; exact List.mem_cons_self))]

theorem map_write {m : Nat → ℝ} {cs : List Nat} {vs : List ℝ} (hn : cs.Nodup) (hl : vs.length = cs.length) :
    cs.map (write m cs vs) = vs := by
  induction cs generalizing m vs with
  | nil => simpa using (List.length_eq_zero_iff.1 hl).symm
  | cons d cs ih =>
    cases vs with
    | nil => simp at hl
    | cons v vs =>
      rw [List.nodup_cons] at hn
      simp only [List.map_cons, write]
      rw [ih hn.2 (by simpa using hl), write_of_not_mem hn.1, Function.update_self]

theorem write_self {m : Nat → ℝ} {cs : List Nat} : write m cs (cs.map m) = m := by
  induction cs with
  | nil => rfl
  | cons d cs ih =>
    simp only [List.map_cons, write, Function.update_eq_self, ih]

theorem write_map {m : Nat → ℝ} {cs : List Nat} (f : ℝ → ℝ) (hn : cs.Nodup) (c : Nat) :
    write m cs (cs.map (fun d => f (m d))) c = if c ∈ cs then f (m c) else m c := by
  by_cases h : c ∈ cs
  · rw [if_pos h]
    have e := map_write (m := m) (vs := cs.map (fun d => f (m d))) hn (by simp)
    exact List.map_inj_left.1 e c h
  · rw [if_neg h, write_of_not_mem h]

theorem arr_write_apart {m : Nat → ℝ} {cs : List Nat} {vs : List ℝ} {p : Obj} (h : ∀ c ∈ cs, c ∉ p.cells) :
    p.arr (write m cs vs) = p.arr m := by
  unfold Obj.arr
  congr 1
  exact List.map_congr_left fun c hc => write_of_not_mem fun hc' => h c hc' hc

theorem phys_write_apart {m : Nat → ℝ} {cs : List Nat} {vs : List ℝ} {p : Obj} (h : ∀ c ∈ cs, c ∉ p.cells) :
    p.phys (write m cs vs) = p.phys m := by
  unfold Obj.phys
  rw [arr_write_apart h]

/-- What a conversion that succeeds does. -/
theorem frame_ok {c : Bool} {x y : Arr} (e : frame c x = .ok y) :
    y.cf = x.cf ∧ y.vt = x.vt ∧ y.comoving = some c ∧ y.val.length = x.val.length ∧
      ((x.comoving = some c ∧ y = x) ∨
        ∃ k a, x.comoving = some (!c) ∧ x.cf = some ⟨some k, some a⟩ ∧
          y.val = x.val.map (fun v => if c then v / a ^ k else v * a ^ k)) := by
  obtain ⟨v, cm, cf, vt⟩ := x
  cases c <;> rcases cm with _ | ⟨_ | _⟩ <;> rcases cf with _ | ⟨_ | k, _ | a⟩ <;> cases vt <;>
    simp [frame, Arr.convertToComoving, Arr.convertToPhysical, Arr.factor, CF.aFactor] at e <;> subst e <;> simp

theorem frame_phys {c : Bool} {x y : Arr} (hp : ∀ f, x.cf = some f → ∀ a, f.sf = some a → 0 < a) (e : frame c x = .ok y) :
    y.phys = x.phys := by
  obtain ⟨h1, h2, h3, h4, ⟨hc, rfl⟩ | ⟨k, a, hc, hf, hv⟩⟩ := frame_ok e
  · rfl
  · have ha : 0 < a := hp _ hf a rfl
    have hk : a ^ k ≠ 0 := (Real.rpow_pos_of_pos ha k).ne'
    rw [hf] at h1
    cases c
    · simp only [Arr.phys, h3, h1, hf, hc, hv]
      simp
    · simp only [Arr.phys, h3, h1, hf, hc, hv]
      simp [List.map_map, Function.comp_def, hk]

theorem phys_length (x : Arr) : x.phys.length = x.val.length := by
  unfold Arr.phys
  split <;> simp

end Verif.Memory
