import Verif.Spec.RereadPrograms
import Verif.Props.UnitPrograms
import Verif.Props.Reread

/-!
# Programs with fields that were written to a file and read again (C129)
-/

namespace Verif.Props
open Verif Verif.Cosmo Verif.Attributes Verif.UnitFormulas Verif.Spec
open Verif.Writer (Name)
open Verif.WriterHeader (Conf)
open Verif.Header (Lib)
open Verif.Units (Dim)
open Verif.Reread (Stored Op H5 Opened writeAll openFile getField baseOf given_fields pos_base)
open Verif.Formulas (Bin)
open Verif.UnitPrograms (Stmt Runs)

variable {D : Type} [AddCommGroup D] [Module ℝ D]

private theorem amounts_cgs (dim : Exps → D) (x : Field) : amounts (asArray dim x) = cgs x := rfl

private theorem read_good {A : Type} {lib : Lib A} {table : Dim → List ℝ} (ht : ∀ d : Dim, ∀ x ∈ table d, 0 < x) (hne : ∀ d, table d ≠ [])
    {base : Dim → ℝ} (hb : ∀ d, 0 < base d) (h5 : ∀ d, d = .length ∨ d = .mass ∨ d = .time → FiveDigitUnit table base d) {c : Conf ℝ} (hp : Plain c)
    {ops : List Op} {h : H5} {o : Opened} (hw : writeAll base c (Reread.run base c.scaleFactor ops) = .ok h) (ho : openFile lib table h = .ok o)
    {f : Assigned} {k : ℝ} (hf : f.Good ops c.scaleFactor k) (hk : k ≠ 0) :
    ∃ y : Field, getField o f.typeName.toList f.attr.toList = .ok (extents f.array, y) ∧ y.dims = f.array.field.dims ∧ 0 < y.size ∧
      Conv c.scaleFactor k y.arr ∧ cgs y = cgs f.array.field := by
  obtain ⟨y, e1, e2, e3, e4, e5, e6⟩ := c85_field_partial ht hne hb h5 hp hw ho hf.typeName hf.attr hf.needed hf.given hf.conv hf.dims hk
  obtain ⟨z, z1, -, -, z4, z5, -⟩ := given_fields (pos_base hb) hf.given hf.conv hf.dims
  obtain ⟨k', a', y', -, g2, -, -, g5, -⟩ := c85_numbers hp hw ho hf.typeName hf.attr hf.needed z1
  rw [g2] at e1
  have hy : y' = y := by
    simp only [Except.ok.injEq, Prod.mk.injEq] at e1
    exact e1.2
  subst hy
  obtain ⟨-, ⟨-, u1⟩, ⟨-, u2⟩, ⟨-, u3⟩⟩ := c85_units ht hne hb hp hw ho
  refine ⟨y', g2.trans e1, e2, ?_, ⟨hf.conv.pos, e5.trans hf.conv.cf, e4.trans hf.conv.vt, by rw [e3]; exact nofun⟩, e6⟩
  have hu : o.base.unit f.array.field.dims = (baseOf base).unit f.array.field.dims :=
    unit_same (b' := baseOf base) (u1 (h5 _ (.inl rfl))) (u2 (h5 _ (.inr (.inl rfl)))) (u3 (h5 _ (.inr (.inr rfl)))) hf.dims
  rw [g5]
  dsimp only
  rw [z4, hu]
  exact Base_unit_pos (pos_base hb) _

/-- C129. A program with units that works on fields read from a snapshot that was written with the snapshot writer does what it does with
the arrays that were assigned to the writer: it ends in the same way, and all variables have the same amounts, dimensions and exponents.
Partly: no field has the exponent zero, and the units are numbers of five digits times a unit of the reader. -/
theorem c129_programs_partial {A : Type} {lib : Lib A} {table : Dim → List ℝ} (ht : ∀ d : Dim, ∀ x ∈ table d, 0 < x) (hne : ∀ d, table d ≠ [])
    {base : Dim → ℝ} (hb : ∀ d, 0 < base d) (h5 : ∀ d, d = .length ∨ d = .mass ∨ d = .time → FiveDigitUnit table base d) {c : Conf ℝ} (hp : Plain c)
    {ops : List Op} {h : H5} {o : Opened} (hw : writeAll base c (Reread.run base c.scaleFactor ops) = .ok h) (ho : openFile lib table h = .ok o)
    (dim : Exps → D) {fs : Nat → Assigned} {ks : Nat → ℝ} (hf : ∀ l, (fs l).Good ops c.scaleFactor (ks l)) (hk : ∀ l, ks l ≠ 0) (vars : Nat → Nat)
    (next : Nat) : ∃ ys : Nat → Field, (∀ l, getField o (fs l).typeName.toList (fs l).attr.toList = .ok (extents (fs l).array, ys l)) ∧
      ∀ {strict : Bool} {p : Stmt D} {q : Option Err} {σ' : Account D},
        Performs c.scaleFactor strict ⟨vars, ks, fun l => dim (fs l).array.field.dims, fun l => amounts (asArray dim (fs l).array.field), next⟩ p q σ' →
        (∃ t', Runs ⟨vars, fun l => asArray dim (ys l), next⟩ p q t') ∧
        ∀ q1 q2 s' t', Runs ⟨vars, fun l => asArray dim (fs l).array.field, next⟩ p q1 s' → Runs ⟨vars, fun l => asArray dim (ys l), next⟩ p q2 t' →
          q1 = q ∧ q2 = q ∧ s'.vars = t'.vars ∧ (∀ i, amounts (t'.env i) = amounts (s'.env i)) ∧ (∀ i, (t'.env i).2.dim = (s'.env i).2.dim) ∧
            ∀ i, (t'.env i).1.cf = (s'.env i).1.cf := by
  choose ys y1 y2 y3 y4 y5 using fun l => read_good ht hne hb h5 hp hw ho (hf l) (hk l)
  refine ⟨ys, y1, fun {strict p q σ'} hm => ?_⟩
  have bs : Balances c.scaleFactor (⟨vars, fun l => asArray dim (fs l).array.field, next⟩ : UnitPrograms.State D)
      ⟨vars, ks, fun l => dim (fs l).array.field.dims, fun l => amounts (asArray dim (fs l).array.field), next⟩ :=
    ⟨rfl, rfl, fun l => (hf l).conv, fun l => (hf l).size, fun l => rfl, fun l => rfl⟩
  have bt : Balances c.scaleFactor (⟨vars, fun l => asArray dim (ys l), next⟩ : UnitPrograms.State D)
      ⟨vars, ks, fun l => dim (fs l).array.field.dims, fun l => amounts (asArray dim (fs l).array.field), next⟩ :=
    ⟨rfl, rfl, y4, y3, fun l => congrArg dim (y2 l), fun l => y5 l⟩
  refine ⟨(c126_programs bt hm).1, fun q1 q2 s' t' rs rt => ?_⟩
  obtain ⟨-, u2, u3, u4, u5⟩ := c126_units bs bt hm rs rt
  exact ⟨((c126_programs bs hm).2 _ _ rs).1, ((c126_programs bt hm).2 _ _ rt).1, u2, fun i => (u3 i).symm, fun i => (u4 i).symm, fun i => (u5 i).symm⟩

/-- C129 fails for masses and velocities, whose exponent is zero: the sum of the array that was assigned and the field that is read from
the file is refused unless the scale factor is close to one, and the field alone is wrong by the scale factor. -/
theorem c129_exponent_zero_fails {A : Type} {lib : Lib A} {table : Dim → List ℝ} (ht : ∀ d : Dim, ∀ x ∈ table d, 0 < x) (hne : ∀ d, table d ≠ [])
    {base : Dim → ℝ} (hb : ∀ d, 0 < base d) (h5 : ∀ d, d = .length ∨ d = .mass ∨ d = .time → FiveDigitUnit table base d) {c : Conf ℝ} (hp : Plain c)
    {ops : List Op} {h : H5} {o : Opened} (hw : writeAll base c (Reread.run base c.scaleFactor ops) = .ok h) (ho : openFile lib table h = .ok o)
    (dim : Exps → D) {f : Assigned} (hf : f.Good ops c.scaleFactor 0) (ha : 1e-8 + 1e-6 * c.scaleFactor < |1 - c.scaleFactor|) :
    ∃ y : Field, getField o f.typeName.toList f.attr.toList = .ok (extents f.array, y) ∧
      amounts (asArray dim y) = (amounts (asArray dim f.array.field)).map (fun v => v * c.scaleFactor) ∧
      ∀ env : Nat → Arr × U D, env 0 = asArray dim f.array.field → env 1 = asArray dim y → ∀ g : Bin, g ∉ [Bin.multiply, .divide] →
        evalU env (.two g (.var 0) (.var 1)) = .error .value := by
  obtain ⟨y, e1, e2, e3⟩ := c85_exponent_zero_fails ht hne hb h5 hp hw ho hf.typeName hf.attr hf.needed hf.given hf.conv hf.dims
  obtain ⟨z, z1, -, -, z4, z5, -⟩ := given_fields (pos_base hb) hf.given hf.conv hf.dims
  obtain ⟨k', a', y', -, g2, -, g4, g5, g6, g7, -⟩ := c85_numbers hp hw ho hf.typeName hf.attr hf.needed z1
  rw [g2] at e1
  have hy : y' = y := by
    simp only [Except.ok.injEq, Prod.mk.injEq] at e1
    exact e1.2
  subst hy
  obtain ⟨-, ⟨-, u1⟩, ⟨-, u2⟩, ⟨-, u3⟩⟩ := c85_units ht hne hb hp hw ho
  have hpos : 0 < y'.size := by
    have hu : o.base.unit f.array.field.dims = (baseOf base).unit f.array.field.dims :=
      unit_same (b' := baseOf base) (u1 (h5 _ (.inl rfl))) (u2 (h5 _ (.inr (.inl rfl)))) (u3 (h5 _ (.inr (.inr rfl)))) hf.dims
    rw [g5]
    dsimp only
    rw [z4, hu]
    exact Base_unit_pos (pos_base hb) _
  have hc : Conv c.scaleFactor 1 y'.arr := ⟨hf.conv.pos, e2, g7, by rw [g6]; exact nofun⟩
  refine ⟨y', g2.trans e1, by rw [amounts_cgs, amounts_cgs, e3], fun env h0 h1 g hg => ?_⟩
  have he : ∀ i : Nat, Conv c.scaleFactor (if i = 0 then 0 else 1) ((fun i : Nat => if i = 0 then env 0 else env 1) i).1 := by
    intro i
    by_cases hi : i = 0
    · simp only [hi, if_true, h0]; exact hf.conv
    · simp only [hi, if_false, h1]; exact hc
  have hs : ∀ i : Nat, 0 < ((fun i : Nat => if i = 0 then env 0 else env 1) i).2.size := by
    intro i
    by_cases hi : i = 0
    · simp only [hi, if_true, h0]; exact hf.size
    · simp only [hi, if_false, h1]; exact hpos
  have hfar : (1e-8 : ℝ) + 1e-6 * |c.scaleFactor ^ (1 : ℝ)| < |c.scaleFactor ^ (0 : ℝ) - c.scaleFactor ^ (1 : ℝ)| := by
    rw [Real.rpow_one, Real.rpow_zero, abs_of_pos hf.conv.pos]
    exact ha
  have key := c125_factor_refused hf.conv.pos he hs (ds := fun i => ((fun i : Nat => if i = 0 then env 0 else env 1) i).2.dim) (fun _ => rfl)
    (k := 0) (l := 1) hfar (.var 0) (.var 1) (.var (ks := fun i : Nat => if i = 0 then (0 : ℝ) else 1) 0)
    (.var (ks := fun i : Nat => if i = 0 then (0 : ℝ) else 1) 1) (fun h => h) (fun h => h) rfl rfl hg
  exact key

/-! The dark matter particles of `sampleOps`, at scale factor 1/2. -/

private noncomputable def massesA : Assigned := ⟨1, "dark_matter", .masses, "masses", sampleMasses⟩

private noncomputable def velocitiesA : Assigned :=
  ⟨1, "dark_matter", .velocities, "velocities", ⟨some [3], 2, sampleField 0 (Reread.dimsOf .velocities) [1, 2, 3, 4, 5, 6] 1⟩⟩

private theorem massesA_good : massesA.Good sampleOps sampleConf.scaleFactor 3 :=
  ⟨rfl, by simp [massesA, fieldNames], by simp [massesA, needs], sampleOps_masses,
    ⟨by norm_num [sampleConf], rfl, rfl, by simp [massesA, sampleMasses, sampleField]⟩, rfl, by norm_num [massesA, sampleMasses, sampleField]⟩

private theorem velocitiesA_good : velocitiesA.Good sampleOps sampleConf.scaleFactor 0 :=
  ⟨rfl, by simp [velocitiesA, fieldNames], by simp [velocitiesA, needs], ⟨[_], [_], rfl, by simp [velocitiesA, About]⟩,
    ⟨by norm_num [sampleConf], rfl, rfl, by simp [velocitiesA, sampleField]⟩, rfl, by norm_num [velocitiesA, sampleField]⟩

/-- `z = x + x` with masses that are read. -/
example (lib : Lib Nat) (dim : Exps → D) : ∃ (h : H5) (o : Opened) (y : Field) (t' : UnitPrograms.State D),
    writeAll (fun _ => 1) sampleConf (Reread.run (fun _ => 1) sampleConf.scaleFactor sampleOps) = .ok h ∧ openFile lib (fun _ => [1]) h = .ok o ∧
    getField o "dark_matter".toList "masses".toList = .ok ([2], y) ∧
    Runs ⟨id, fun _ => asArray dim y, 1⟩ (.assign 1 (.two .add (.var 0) (.var 0))) none t' ∧ amounts (t'.env 1) = [20, 28] := by
  obtain ⟨h, hw⟩ := c85_writes (base := fun _ => 1) (base' := fun _ => 1) (by simp) (c := sampleConf) sampleOps_fine sampleOps_complete
  obtain ⟨o, ho⟩ := c85_opens lib (table := fun _ => [1]) (by simp) (by simp) (by simp) rfl hw
  have hp : Plain sampleConf := by simp [Plain, sampleConf]
  obtain ⟨ys, e1, e2⟩ := c129_programs_partial (by simp) (by simp) (by simp) (fun d _ => sampleUnits d) hp hw ho dim (fs := fun _ => massesA)
    (ks := fun _ => 3) (fun _ => massesA_good) (fun _ => by norm_num) id 1
  have hy : ∀ l, ys l = ys 0 := by
    intro l
    have := (e1 l).symm.trans (e1 0)
    simp only [Except.ok.injEq, Prod.mk.injEq] at this
    exact this.2
  have hs : (fun l => asArray dim (ys l)) = fun _ => asArray dim (ys 0) := funext fun l => by rw [hy l]
  rw [hs] at e2
  have hb : Balances sampleConf.scaleFactor (⟨id, fun _ => asArray dim massesA.array.field, 1⟩ : UnitPrograms.State D)
      ⟨id, fun _ => 3, fun _ => dim massesA.array.field.dims, fun _ => amounts (asArray dim massesA.array.field), 1⟩ :=
    ⟨rfl, rfl, fun _ => massesA_good.conv, fun _ => massesA_good.size, fun _ => rfl, fun _ => rfl⟩
  have hm := Performs.assign (a := sampleConf.scaleFactor) (strict := true)
    (⟨id, fun _ => 3, fun _ => dim massesA.array.field.dims, fun _ => amounts (asArray dim massesA.array.field), 1⟩ : Account D) 1
    (.two .add (.var 0) (.var 0)) 3 (dim massesA.array.field.dims) _ (by intro y h; cases h)
    ⟨.sum (by simp) (.var (ks := fun _ => 3) 0) (.var (ks := fun _ => 3) 0),
      .like (by decide) (.var (ds := fun _ => dim massesA.array.field.dims) 0) (.var (ds := fun _ => dim massesA.array.field.dims) 0)⟩ (fun h => h.1) rfl
  obtain ⟨⟨s', rs⟩, hu⟩ := c126_programs hb hm
  obtain ⟨⟨t', rt⟩, h3⟩ := e2 hm
  refine ⟨h, o, ys 0, t', hw, ho, e1 0, rt, ?_⟩
  rw [(h3 _ _ _ _ rs rt).2.2.2.1 1, congrFun (balance_vals (hu _ _ rs).2) 1]
  simp [Account.vals, asArray, amounts, Arr.phys, massesA, sampleMasses, sampleField, numbers2]
  norm_num

/-- The velocities that were assigned minus those that are read: refused. -/
example (lib : Lib Nat) (dim : Exps → D) : ∃ (h : H5) (o : Opened) (y : Field),
    writeAll (fun _ => 1) sampleConf (Reread.run (fun _ => 1) sampleConf.scaleFactor sampleOps) = .ok h ∧ openFile lib (fun _ => [1]) h = .ok o ∧
    getField o "dark_matter".toList "velocities".toList = .ok ([2, 3], y) ∧
    evalU (fun i => if i = 0 then asArray dim velocitiesA.array.field else asArray dim y) (.two .subtract (.var 0) (.var 1)) = .error .value := by
  obtain ⟨h, hw⟩ := c85_writes (base := fun _ => 1) (base' := fun _ => 1) (by simp) (c := sampleConf) sampleOps_fine sampleOps_complete
  obtain ⟨o, ho⟩ := c85_opens lib (table := fun _ => [1]) (by simp) (by simp) (by simp) rfl hw
  have hp : Plain sampleConf := by simp [Plain, sampleConf]
  obtain ⟨y, e1, -, e3⟩ := c129_exponent_zero_fails (by simp) (by simp) (by simp) (fun d _ => sampleUnits d) hp hw ho dim velocitiesA_good
    (by norm_num [sampleConf, abs_of_pos])
  exact ⟨h, o, y, hw, ho, e1, e3 _ rfl rfl .subtract (by decide)⟩

end Verif.Props
