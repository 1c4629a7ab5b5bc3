import Verif.Model.CommandLine
import Verif.Spec.CommandLine
import Verif.Props.Header
import Verif.Props.Reread

/-!
# C88: the command `swiftsnap` and `validate_file`
-/

set_option linter.unusedSectionVars false

namespace Verif.Props
open Verif Verif.Spec Verif.Header Verif.Names Verif.CommandLine

variable {K D : Type} [NatCast K] [Zero K] [One K] [DecidableEq K]

/-! ## Validation -/

/-- **C88**, `validate_file`: it accepts the files that say that SWIFT wrote them, and raises OSError for all others, whether they
exist or not. (The mark is a string; for arrays the comparison is not defined.) -/
theorem c88_validate (f : Option (Input K)) (hf : PlainMark f) :
    (validate f = .isSwift ↔ Marked f) ∧ (validate f = .notSwift ↔ ¬Marked f) := by
  have key : (Marked f ∧ validate f = .isSwift) ∨ (¬Marked f ∧ validate f = .notSwift) := by
    cases f with
    | none => exact Or.inr ⟨by (rintro ⟨i, d, h, -⟩; cases h), rfl⟩
    | some i =>
      cases hg : i.file.group "Code" with
      | none =>
        refine Or.inr ⟨?_, by (unfold validate; dsimp only; rw [hg])⟩
        rintro ⟨i', d, h, h', -⟩
        obtain rfl := Option.some.inj h
        rw [hg] at h'
        cases h'
      | some d =>
        cases hd : d "Code" with
        | none =>
          refine Or.inr ⟨?_, by (unfold validate; dsimp only; rw [hg]; dsimp only; rw [hd])⟩
          rintro ⟨i', d', h, h', h''⟩
          obtain rfl := Option.some.inj h
          rw [hg] at h'
          obtain rfl := Option.some.inj h'
          rw [hd] at h''
          cases h''
        | some r =>
          have hp := hf i d r rfl hg hd
          have hv : validate (some i) = match differs r with
              | .ok true => .notSwift
              | .ok false => .isSwift
              | .error e => .raised e := by
            unfold validate
            dsimp only
            rw [hg]
            dsimp only
            rw [hd]
            dsimp only
            cases differs r with
            | ok b => cases b <;> rfl
            | error e => rfl
          have hm : Marked (some i) ↔ r = .bytes [83, 87, 73, 70, 84] := by
            constructor
            · rintro ⟨i', d', h, h', h''⟩
              obtain rfl := Option.some.inj h
              rw [hg] at h'
              obtain rfl := Option.some.inj h'
              rw [hd] at h''
              exact Option.some.inj h''
            · rintro rfl
              exact ⟨i, d, rfl, hg, hd⟩
          rw [hm, hv]
          cases r with
          | scalar x => exact Or.inr ⟨by simp, rfl⟩
          | text t => exact Or.inr ⟨by simp, rfl⟩
          | array l => exact absurd rfl (hp.1 l)
          | words l => exact absurd rfl (hp.2 l)
          | bytes b =>
            by_cases hb : b = [83, 87, 73, 70, 84]
            · subst hb
              exact Or.inl ⟨rfl, rfl⟩
            · refine Or.inr ⟨by simpa using hb, ?_⟩
              have : differs (.bytes b : Raw K) = .ok true := by
                unfold differs swiftBytes
                simp [hb]
              rw [this]
  rcases key with ⟨h1, h2⟩ | ⟨h1, h2⟩
  · rw [h2]
    exact ⟨⟨fun _ => h1, fun _ => rfl⟩, ⟨fun h => (by cases h), fun h => absurd h1 h⟩⟩
  · rw [h2]
    exact ⟨⟨fun h => (by cases h), fun h => absurd h h1⟩, ⟨fun _ => h1, fun _ => rfl⟩⟩

private theorem marked_valid {f : Option (Input K)} (h : Marked f) : validate f = .isSwift := by
  obtain ⟨i, d, rfl, h2, h3⟩ := h
  unfold validate
  dsimp only
  rw [h2]
  dsimp only
  rw [h3]
  rfl

private theorem checkAll_marked (disk : String → Option (Input K)) (files : List String) (h : ∀ n ∈ files, Marked (disk n)) :
    checkAll disk files = none := by
  induction files with
  | nil => rfl
  | cons n ns ih =>
    unfold checkAll
    rw [marked_valid (h n (by simp))]
    exact ih fun m hm => h m (by simp [hm])

/-- **C88**: if some file is not from SWIFT, the command prints one line with the name of the first such file, nothing about the
files before it, and ends with status 1, with any options. -/
theorem c88_refused (lib : Lib D) (fmt : Fmt K D) (disk : String → Option (Input K)) (redshift scaleFactor : Bool)
    (before after : List String) (n : String) (hb : ∀ x ∈ before, Marked (disk x)) (hp : PlainMark (disk n)) (hn : ¬Marked (disk n)) :
    swiftsnap lib fmt disk redshift scaleFactor (before ++ n :: after) = ([n ++ " is not a SWIFT snapshot."], .exit 1) := by
  have : checkAll disk (before ++ n :: after) = some ([n ++ " is not a SWIFT snapshot."], .exit 1) := by
    induction before with
    | nil =>
      show checkAll disk (n :: after) = _
      unfold checkAll
      rw [(c88_validate _ hp).2.2 hn]
    | cons x xs ih =>
      show checkAll disk (x :: (xs ++ n :: after)) = _
      unfold checkAll
      rw [marked_valid (hb x (by simp))]
      exact ih fun y hy => hb y (by simp [hy])
  unfold swiftsnap
  rw [this]

/-! ## Reading -/

private theorem type_ok (lib : Lib D) (h : Dict (Raw K)) (t : String) (ht : TextAt lib h "OutputType" "" t)
    (hm : t ∈ ["", "FullVolume", "VolumeSubset", "LineOfSight", "SOAP", "SOAPSubset", "FOF", "FOFSubset"])
    (hne : h "OutputType" ≠ none → t ≠ "") :
    ∃ o k, outputType lib h = .ok o ∧ discriminate o = .ok k ∧ (hasInfo k = true ↔ t ∈ ["", "FullVolume", "VolumeSubset", "LineOfSight"]) := by
  rcases ht with ⟨r, hr, hs⟩ | ⟨hr, rfl⟩
  · have hd : decode lib r = .ok (.text t) := by
      rcases hs with rfl | ⟨b, rfl, hb⟩
      · rfl
      · unfold decode
        dsimp only
        rw [hb]
    refine ⟨some t, ?_⟩
    have : outputType lib h = .ok (some t) := by
      unfold outputType
      rw [hr]
      dsimp only
      rw [hd]
    rw [this]
    have hne' := hne (by rw [hr]; simp)
    simp only [List.mem_cons, List.not_mem_nil, or_false] at hm
    rcases hm with rfl | rfl | rfl | rfl | rfl | rfl | rfl | rfl
    · exact absurd rfl hne'
    · exact ⟨.snapshot, rfl, by decide +kernel, by decide +kernel⟩
    · exact ⟨.snapshot, rfl, by decide +kernel, by decide +kernel⟩
    · exact ⟨.lineOfSight, rfl, by decide +kernel, by decide +kernel⟩
    · exact ⟨.soap, rfl, by decide +kernel, by decide +kernel⟩
    · exact ⟨.soap, rfl, by decide +kernel, by decide +kernel⟩
    · exact ⟨.fof, rfl, by decide +kernel, by decide +kernel⟩
    · exact ⟨.fof, rfl, by decide +kernel, by decide +kernel⟩
  · refine ⟨none, .snapshot, ?_, by decide +kernel, by decide +kernel⟩
    unfold outputType
    rw [hr]

/-- What is known of the metadata of a file that opens. -/
private theorem reads (lib : Lib D) (i : Input K) (h : Dict (Raw K)) (ho : Opens lib i h) :
    ∃ d : Meta K D, readMeta lib i = .ok d ∧ d.groups = getMetadata i.file ∧ d.names = i.names ∧ postprocess lib i.file = .ok d.attrs ∧
      cosmologyOf i.file = .ok d.cosmology ∧
      ∀ t, TextAt lib h "OutputType" "" t → (hasInfo d.kind = true ↔ t ∈ ["", "FullVolume", "VolumeSubset", "LineOfSight"]) := by
  obtain ⟨t, ht, hm, hne⟩ := ho.type
  obtain ⟨o, k, e1, e2, e3⟩ := type_ok lib h t ht hm hne
  obtain ⟨s, hs⟩ := c64_succeeds lib i.file h ho.header ho.wellFormed ho.light
  obtain ⟨c, hc⟩ := ho.cosmology
  refine ⟨⟨k, getMetadata i.file, i.names, s, c⟩, ?_, rfl, rfl, hs, hc, ?_⟩
  · unfold readMeta
    rw [ho.header]
    simp only [e1, e2, hs, hc, ho.rest, bind, Except.bind]
  · intro t' ht'
    have : t' = t := by
      have hd : ∀ (r : Raw K) u, Says lib r u → decode lib r = .ok (.text u) := by
        rintro r u (rfl | ⟨b, rfl, hb⟩)
        · rfl
        · unfold decode
          dsimp only
          rw [hb]
      rcases ht with ⟨r, hr, hs⟩ | ⟨hr, rfl⟩ <;> rcases ht' with ⟨r', hr', hs'⟩ | ⟨hr', rfl⟩
      · rw [hr] at hr'
        obtain rfl := Option.some.inj hr'
        have := (hd r t hs).symm.trans (hd r t' hs')
        simpa using this.symm
      · rw [hr] at hr'
        cases hr'
      · rw [hr] at hr'
        cases hr'
      · rfl
    rw [this]
    exact e3

private theorem readAll_ok (lib : Lib D) (disk : String → Option (Input K)) (files : List String)
    (ho : ∀ n ∈ files, ∃ i h, disk n = some i ∧ Opens lib i h) :
    ∃ ms : List (Meta K D), readAll lib disk files = .ok ms ∧
      List.Forall₂ (fun n d => ∃ i, disk n = some i ∧ readMeta lib i = .ok d) files ms := by
  have h1 : ∃ is : List (Input K), files.mapM (opened disk) = .ok is ∧ List.Forall₂ (fun n i => disk n = some i) files is := by
    induction files with
    | nil => exact ⟨[], rfl, .nil⟩
    | cons n ns ih =>
      obtain ⟨is, e, hf⟩ := ih fun m hm => ho m (by simp [hm])
      obtain ⟨i, h, hi, hop⟩ := ho n (by simp)
      refine ⟨i :: is, ?_, .cons hi hf⟩
      have h1 : opened disk n = .ok i := by
        unfold opened
        rw [hi]
        dsimp only
        rw [hop.units]
      rw [List.mapM_cons, e, h1]
      rfl
  obtain ⟨is, e, hf⟩ := h1
  have h2 : ∃ ms : List (Meta K D), is.mapM (readMeta lib) = .ok ms ∧
      List.Forall₂ (fun n d => ∃ i, disk n = some i ∧ readMeta lib i = .ok d) files ms := by
    clear e
    induction hf with
    | nil => exact ⟨[], rfl, .nil⟩
    | @cons n i ns is hi hf ih =>
      obtain ⟨ms, e, hg⟩ := ih fun m hm => ho m (by simp [hm])
      obtain ⟨i', h, hi', hop⟩ := ho n (by simp)
      rw [hi] at hi'
      obtain rfl := Option.some.inj hi'
      obtain ⟨d, hd, -⟩ := reads lib i h hop
      refine ⟨d :: ms, ?_, .cons ⟨i, hi, hd⟩ hg⟩
      rw [List.mapM_cons, hd, e]
      rfl
  obtain ⟨ms, e', hg⟩ := h2
  refine ⟨ms, ?_, hg⟩
  unfold readAll
  rw [e]
  exact e'

/-! ## The short forms -/

private theorem numbers_ok (fmt : Fmt K D) (name : String) (ms : List (Meta K D)) (texts : List String)
    (h : List.Forall₂ (fun d s => ∃ v, d.attrs name = some v ∧ fmt.g4 v = .ok s) ms texts) :
    numbers fmt name ms = ([String.intercalate "\n" texts], .exit 0) := by
  have : ms.mapM (fun d => (attr d name).bind fmt.g4) = .ok texts := by
    induction h with
    | nil => rfl
    | @cons d s ms texts hd _ ih =>
      obtain ⟨v, h1, h2⟩ := hd
      rw [List.mapM_cons, ih]
      have : (attr d name).bind fmt.g4 = .ok s := by
        unfold attr
        rw [h1]
        exact h2
      rw [this]
      rfl
  unfold numbers
  rw [this]

private theorem forall₂_meta (lib : Lib D) (disk : String → Option (Input K)) (P : Input K → Dict (Raw K) → String → Prop)
    (Q : Meta K D → String → Prop)
    (hPQ : ∀ i h s d, Opens lib i h → P i h s → readMeta lib i = .ok d → Q d s) :
    ∀ (files : List String) (ms : List (Meta K D)) (texts : List String),
      List.Forall₂ (fun n d => ∃ i, disk n = some i ∧ readMeta lib i = .ok d) files ms →
      List.Forall₂ (fun n s => ∃ i h, disk n = some i ∧ Opens lib i h ∧ P i h s) files texts → List.Forall₂ Q ms texts := by
  intro files
  induction files with
  | nil =>
    intro ms texts h1 h2
    cases h1
    cases h2
    exact .nil
  | cons n ns ih =>
    intro ms texts h1 h2
    cases h1 with
    | cons a b =>
      cases h2 with
      | cons c d =>
        obtain ⟨i, e1, e2⟩ := a
        obtain ⟨i', h, e3, e4, e5⟩ := c
        rw [e1] at e3
        obtain rfl := Option.some.inj e3
        exact .cons (hPQ i h _ _ e4 e5 e2) (ih _ _ b d)

private theorem forall₂_opens {lib : Lib D} {disk : String → Option (Input K)} {α : Type} {P : Input K → Dict (Raw K) → α → Prop}
    {files : List String} {texts : List α}
    (h2 : List.Forall₂ (fun n s => ∃ i h, disk n = some i ∧ Opens lib i h ∧ P i h s) files texts) :
    ∀ n ∈ files, ∃ i h, disk n = some i ∧ Opens lib i h := by
  induction h2 with
  | nil => intro n hn; cases hn
  | cons a _ ih =>
    intro n hn
    rcases List.mem_cons.1 hn with rfl | hn
    · obtain ⟨i, h, h1, h2, -⟩ := a
      exact ⟨i, h, h1, h2⟩
    · exact ih n hn

/-- **C88**, `swiftsnap -r`: the redshifts of all files in the order of the command line, one on each line, whether `-a` is given as
well or not, for files of all kinds; the status is 0. -/
theorem c88_redshift (lib : Lib D) (fmt : Fmt K D) (disk : String → Option (Input K)) (scaleFactor : Bool) (files : List String)
    (hm : ∀ n ∈ files, Marked (disk n)) (texts : List String)
    (ht : List.Forall₂ (fun n s => ∃ i h, disk n = some i ∧ Opens lib i h ∧
      ∃ x l, h "Redshift" = some (.array (x :: l)) ∧ fmt.g4 (.raw (.scalar x)) = .ok s) files texts) :
    swiftsnap lib fmt disk true scaleFactor files = ([String.intercalate "\n" texts], .exit 0) := by
  obtain ⟨ms, e, hf⟩ := readAll_ok (D := D) lib disk files (forall₂_opens ht)
  unfold swiftsnap
  rw [checkAll_marked disk files hm]
  dsimp only
  rw [e]
  refine numbers_ok fmt "z" ms texts ?_
  refine forall₂_meta lib disk (fun _ h s => ∃ x l, h "Redshift" = some (.array (x :: l)) ∧ fmt.g4 (.raw (.scalar x)) = .ok s) _ ?_
    files ms texts hf ht
  intro i h s d ho hP hr
  obtain ⟨d', e1, -, -, e2, -⟩ := reads lib i h ho
  obtain rfl := Except.ok.inj (e1.symm.trans hr)
  obtain ⟨x, l, hx, hg⟩ := hP
  exact ⟨_, (c64_numbers ho.header e2 "z" "Redshift" (by decide +kernel)).1 x l hx, hg⟩

/-- **C88**, `swiftsnap -a`: the scale factors, with 1 for files without one. -/
theorem c88_scale_factor (lib : Lib D) (fmt : Fmt K D) (disk : String → Option (Input K)) (files : List String)
    (hm : ∀ n ∈ files, Marked (disk n)) (texts : List String)
    (ht : List.Forall₂ (fun n s => ∃ i h, disk n = some i ∧ Opens lib i h ∧
      ∃ x, ((∃ l, h "Scale-factor" = some (.array (x :: l))) ∨ (h "Scale-factor" = none ∧ x = 1)) ∧
        fmt.g4 (.raw (.scalar x)) = .ok s) files texts) :
    swiftsnap lib fmt disk false true files = ([String.intercalate "\n" texts], .exit 0) := by
  obtain ⟨ms, e, hf⟩ := readAll_ok (D := D) lib disk files (forall₂_opens ht)
  unfold swiftsnap
  rw [checkAll_marked disk files hm]
  dsimp only
  rw [e]
  refine numbers_ok fmt "a" ms texts ?_
  refine forall₂_meta lib disk (fun _ h s => ∃ x, ((∃ l, h "Scale-factor" = some (.array (x :: l))) ∨
    (h "Scale-factor" = none ∧ x = 1)) ∧ fmt.g4 (.raw (.scalar x)) = .ok s) _ ?_ files ms texts hf ht
  intro i h s d ho hP hr
  obtain ⟨d', e1, -, -, e2, -⟩ := reads lib i h ho
  obtain rfl := Except.ok.inj (e1.symm.trans hr)
  obtain ⟨x, hx, hg⟩ := hP
  rcases hx with ⟨l, hx⟩ | ⟨hx, rfl⟩
  · exact ⟨_, ((c64_scale_factor ho.header e2).1 x l hx).2, hg⟩
  · exact ⟨_, ((c64_scale_factor ho.header e2).2 hx).2, hg⟩

/-! ## The report -/

private theorem printAll_append (l1 l2 : List (Except Err (List String))) (o : List String) (h : printAll l1 = (o, .returned)) :
    printAll (l1 ++ l2) = (o ++ (printAll l2).1, (printAll l2).2) := by
  induction l1 generalizing o with
  | nil =>
    cases h
    rfl
  | cons x xs ih =>
    cases x with
    | error e => cases h
    | ok l =>
      unfold printAll at h
      have h1 := congrArg Prod.fst h
      have h2 := congrArg Prod.snd h
      dsimp only at h1 h2
      have := ih (printAll xs).1 (Prod.ext rfl h2)
      have e : printAll (.ok l :: (xs ++ l2)) = (l ++ (printAll (xs ++ l2)).1, (printAll (xs ++ l2)).2) := by
        rw [printAll]
      show printAll (.ok l :: (xs ++ l2)) = _
      rw [e, this, ← h1]
      simp

private theorem printAll_ok (l : List (Except Err (List String))) (ls : List (List String)) (h : l = ls.map .ok) :
    printAll l = (ls.flatten, .returned) := by
  subst h
  induction ls with
  | nil => rfl
  | cons x xs ih =>
    show printAll (.ok x :: xs.map .ok) = _
    unfold printAll
    rw [ih]
    rfl

private theorem decode_says (lib : Lib D) (fmt : Fmt K D) (r : Raw K) (t : String) (h : Says lib r t) : decodeRaw lib fmt r = .ok t := by
  rcases h with rfl | ⟨b, rfl, hb⟩
  · rfl
  · unfold decodeRaw
    dsimp only
    rw [hb]

private theorem codeString_ok (lib : Lib D) (d : Meta K D) (g : Dict (Raw K)) (hd : d.groups "code" = some (some g)) (k t : String)
    (h : BytesAt lib g k t) : codeString lib d k = .ok t := by
  obtain ⟨b, h1, h2⟩ := h
  unfold codeString
  rw [hd]
  dsimp only
  rw [h1]
  dsimp only
  rw [h2]

private theorem groupOf_ok (i : Input K) (d : Meta K D) (hd : d.groups = getMetadata i.file) (a n : String)
    (ha : (a, n) ∈ Spec.groupAttributes) (g : Dict (Raw K)) (hg : i.file.group n = some g) :
    groupOf d a = .ok g ∧ d.groups a = some (some g) := by
  have h := (c64_groups i.file).1 (a, n) ha
  have h' : d.groups a = some (some g) := by
    rw [hd, h, hg]
  refine ⟨?_, h'⟩
  unfold groupOf
  rw [h']

private theorem policies_ok (g : Dict (Raw K)) (names : List String) (h : ∀ n ∈ names, ∃ x, g n = some (.array [x])) :
    activePolicies g names = .ok (names.filter (fun n => g n ≠ some (.array [0]))) := by
  induction names with
  | nil => rfl
  | cons n ns ih =>
    obtain ⟨x, hx⟩ := h n (by simp)
    unfold activePolicies
    rw [hx]
    dsimp only
    rw [ih fun m hm => h m (by simp [hm])]
    by_cases h0 : x = 0
    · subst h0
      have : truth (.array [(0 : K)]) = .ok false := by
        simp [truth]
      rw [this]
      simp [hx]
    · have : truth (.array [x]) = .ok true := by
        simp [truth, h0]
      rw [this]
      simp [hx, h0]

private theorem schemeLine_ok (lib : Lib D) (fmt : Fmt K D) (d : Meta K D) (label group : String) (g : Dict (Raw K))
    (hg : groupOf d group = .ok g) (t : String) (ht : TextAt lib g "Scheme" "None" t) :
    schemeLine lib fmt d label group = .ok (label ++ ": " ++ t) := by
  unfold schemeLine
  rw [hg]
  rcases ht with ⟨r, hr, hs⟩ | ⟨hr, rfl⟩
  · simp only [hr, decode_says lib fmt r t hs, bind, Except.bind, pure, Except.pure]
  · simp only [hr, bind, Except.bind, pure, Except.pure]

private theorem subgrid_ok (lib : Lib D) (fmt : Fmt K D) (g : Dict (Raw K)) (names : List String) (ps : List (String × String))
    (h : List.Forall₂ (fun (n : String) (p : String × String) => p.1 = n ∧ ∃ r, g n = some r ∧ Says lib r p.2)
      (names.filter (fun n => n ≠ "NamedColumns")) ps) :
    ((items g names).filter (fun p => p.1 ≠ "NamedColumns")).map (fun p => (subgridLine lib fmt p.1 p.2).map (fun s => [s])) =
      (ps.map (fun p => [p.1.replace "Model" "model" ++ ": " ++ p.2])).map .ok := by
  induction names generalizing ps with
  | nil =>
    cases h
    rfl
  | cons n ns ih =>
    by_cases hn : n = "NamedColumns"
    · have e : (n :: ns).filter (fun n => n ≠ "NamedColumns") = ns.filter (fun n => n ≠ "NamedColumns") := by
        simp [hn]
      rw [e] at h
      rw [← ih ps h]
      unfold items
      cases hg : g n with
      | none => simp [List.filterMap_cons, hg]
      | some r =>
        have e2 : (n :: ns).filterMap (fun n => (g n).map (fun r => (n, r))) = (n, r) :: ns.filterMap (fun n => (g n).map (fun r => (n, r))) := by
          rw [List.filterMap_cons, hg]
          rfl
        rw [e2]
        simp [hn]
    · have e : (n :: ns).filter (fun n => n ≠ "NamedColumns") = n :: ns.filter (fun n => n ≠ "NamedColumns") := by
        simp [hn]
      rw [e] at h
      cases h with
      | @cons _ p _ ps' a b =>
        obtain ⟨h1, r, h2, h3⟩ := a
        have e1 : (items g (n :: ns)).filter (fun p => p.1 ≠ "NamedColumns") =
            (n, r) :: (items g ns).filter (fun p => p.1 ≠ "NamedColumns") := by
          unfold items
          simp [List.filterMap_cons, h2, hn]
        rw [e1, List.map_cons, ih ps' b]
        have : subgridLine lib fmt n r = .ok (n.replace "Model" "model" ++ ": " ++ p.2) := by
          unfold subgridLine
          rw [decode_says lib fmt r p.2 h3]
          rfl
        simp only [this, List.map_cons, Except.map, h1]

private theorem counts_ok (fmt : Fmt K D) (d : Meta K D) (l : List K) (c : List String) (hc : c.length = 8)
    (h : ∀ n (hn : n < c.length), fmt.g4 (.raw (.scalar (l[n]?.getD 0))) = .ok c[n])
    (hs : ∀ i name, Spec.typeOf i = some name → d.attrs ("n_" ++ name) = some (.raw (.scalar (l[i]?.getD 0)))) :
    Header.typeNames.mapM (countText fmt d) = .ok (List.zipWith (fun x n => fmt.title x ++ ": " ++ n) particleTypes c) := by
  have key : ∀ i name (hi : i < c.length), Spec.typeOf i = some name → countText fmt d name = .ok (fmt.title name ++ ": " ++ c[i]) := by
    intro i name hi hn
    unfold countText
    rw [hs i name hn]
    simp only [Option.getD_some, h i hi, bind, Except.bind, pure, Except.pure]
  match c, hc, key with
  | [c0, c1, c2, c3, c4, c5, c6, c7], _, key =>
    have k0 := key 0 "gas" (by simp) rfl
    have k1 := key 1 "dark_matter" (by simp) rfl
    have k2 := key 2 "boundary" (by simp) rfl
    have k3 := key 3 "sinks" (by simp) rfl
    have k4 := key 4 "stars" (by simp) rfl
    have k5 := key 5 "black_holes" (by simp) rfl
    have k6 := key 6 "neutrinos" (by simp) rfl
    have k7 := key 7 "sidm" (by simp) rfl
    unfold Header.typeNames
    simp only [List.mapM_cons, List.mapM_nil, k0, k1, k2, k3, k4, k5, k6, k7, bind, Except.bind, pure, Except.pure]
    rfl

private theorem report_file (lib : Lib D) (fmt : Fmt K D) (hp : PrintsText fmt) (i : Input K) (h : Dict (Raw K)) (s : Sheet) (d : Meta K D)
    (ho : Opens lib i h) (hs : Describes lib fmt i h s) (hd : readMeta lib i = .ok d) :
    printAll (reportSteps lib fmt d) = (s.lines fmt.wrap fmt.title, .returned) := by
  obtain ⟨d', e1, eg, en, ea, ec, ek⟩ := reads lib i h ho
  obtain rfl := Except.ok.inj (e1.symm.trans hd)
  have text : ∀ n k t, (n, k) ∈ Spec.headerTexts → TextAt lib h k "" t → attr d' n = .ok (.raw (.text t)) := by
    intro n k t hn ht
    have := c64_texts ho.header ea n k hn
    unfold attr
    rcases ht with ⟨r, hr, hsays⟩ | ⟨hr, rfl⟩
    · rw [this.1 r t hr hsays]
    · rw [this.2 hr]
  have s1 : one ((attr d' "run_name").bind (decodeVal lib fmt)) = .ok [s.runName] := by
    rw [text "run_name" "RunName" s.runName (by decide +kernel) hs.runName]
    rfl
  have s2 : one ((attr d' "snapshot_date").map (fun v => "Written at: " ++ fmt.str v)) = .ok ["Written at: " ++ s.date] := by
    obtain ⟨t, ht, h1, h2, h3⟩ := hs.date
    obtain ⟨c1, c2, c3⟩ := c64_date ho.header ea t ht
    unfold attr
    cases hp1 : lib.strptime t with
    | some x =>
      rw [c1 x hp1, h1 x hp1]
      rfl
    | none =>
      cases hp2 : lib.strptimeOld t with
      | some x =>
        rw [c2 x hp1 hp2, h2 x hp1 hp2]
        rfl
      | none =>
        rw [c3 hp1 hp2, h3 hp1 hp2]
        show Except.ok ["Written at: " ++ fmt.str (.raw (.text t))] = _
        rw [hp t]
  have s3 : policyLines fmt d' = .ok (fmt.wrap ("Active policies: " ++ String.intercalate ", " s.policies)) := by
    obtain ⟨g, hg, h1, h2⟩ := hs.policies
    unfold policyLines
    rw [(groupOf_ok i d' eg "policy" "Policy" (by decide +kernel) g hg).1, en, h2]
    simp only [policies_ok g _ h1, bind, Except.bind, pure, Except.pure]
  have s4 : one ((attr d' "output_type").bind fun t => (attr d' "select_output").map fun s =>
      "Output type: " ++ fmt.str t ++ ", Output selection: " ++ fmt.str s) =
      .ok ["Output type: " ++ s.outputType ++ ", Output selection: " ++ s.selection] := by
    rw [text "output_type" "OutputType" s.outputType (by decide +kernel) hs.outputType,
      text "select_output" "SelectOutput" s.selection (by decide +kernel) hs.selection]
    show Except.ok ["Output type: " ++ fmt.str (.raw (.text s.outputType)) ++ ", Output selection: " ++
      fmt.str (.raw (.text s.selection))] = _
    rw [hp, hp]
  have s5 : countLines fmt d' = .ok (fmt.wrap ("Number of particles: " ++
      String.intercalate ", " (List.zipWith (fun x n => fmt.title x ++ ": " ++ n) particleTypes s.counts))) := by
    obtain ⟨l, hl, h1, h2⟩ := hs.counts
    unfold countLines
    rw [counts_ok fmt d' l s.counts h1 h2 fun i name hi => c64_counts ho.header ea l hl i name hi]
    rfl
  have hk : hasInfo d'.kind = true := (ek s.outputType hs.outputType).2 hs.particles
  obtain ⟨gc, hgc, b1, b2, b3, b4, b5, b6, b7⟩ := hs.code
  have hcode := (groupOf_ok i d' eg "code" "Code" (by decide +kernel) gc hgc).2
  have s6 : one (compilerInfo lib d') = .ok [s.compiler ++ " (" ++ s.compilerVersion ++ ")\n" ++ s.mpi] := by
    unfold compilerInfo
    rw [if_pos hk, codeString_ok lib d' gc hcode _ _ b1, codeString_ok lib d' gc hcode _ _ b2, codeString_ok lib d' gc hcode _ _ b3]
    rfl
  have s7 : one (codeInfo lib d') = .ok [s.code ++ " (" ++ s.branch ++ ")\n" ++ s.revision ++ "\n" ++ s.gitDate] := by
    unfold codeInfo
    rw [if_pos hk, codeString_ok lib d' gc hcode _ _ b4, codeString_ok lib d' gc hcode _ _ b5, codeString_ok lib d' gc hcode _ _ b6,
      codeString_ok lib d' gc hcode _ _ b7]
    rfl
  have s8 : one (stateLine fmt d') = .ok ["Simulation state: z=" ++ s.z ++ ", a=" ++ s.a ++ ", t=" ++ s.t] := by
    obtain ⟨z, lz, hz, fz⟩ := hs.z
    obtain ⟨a, ha, fa⟩ := hs.a
    obtain ⟨t, lt, ht, ft⟩ := hs.t
    have a1 : attr d' "z" = .ok (.raw (.scalar z)) := by
      unfold attr
      rw [(c64_numbers ho.header ea "z" "Redshift" (by decide +kernel)).1 z lz hz]
    have a2 : attr d' "a" = .ok (.raw (.scalar a)) := by
      unfold attr
      rcases ha with ⟨l, hx⟩ | ⟨hx, rfl⟩
      · rw [((c64_scale_factor ho.header ea).1 a l hx).2]
      · rw [((c64_scale_factor ho.header ea).2 hx).2]
    have a3 : attr d' "time" = .ok (.quantity t [(.time, 1)]) := by
      unfold attr
      rw [((c64_time ho.header ea).1 t lt ht).1]
    unfold stateLine
    simp only [a1, a2, a3, fz, fa, ft, bind, Except.bind, pure, Except.pure]
    rfl
  have s9 : (Except.ok ["Cosmology: " ++ fmt.cosmo d'.cosmology] : Except Err (List String)) = .ok ["Cosmology: " ++ s.cosmology] := by
    obtain ⟨c, hc, h1⟩ := hs.cosmology
    obtain rfl := Except.ok.inj (ec.symm.trans hc)
    rw [h1]
  obtain ⟨g1, hg1, t1⟩ := hs.gravity
  obtain ⟨g2, hg2, t2⟩ := hs.hydro
  obtain ⟨g3, hg3, t3⟩ := hs.subgrid
  have s10 := schemeLine_ok lib fmt d' "Gravity scheme" "gravity_scheme" g1
    (groupOf_ok i d' eg "gravity_scheme" "GravityScheme" (by decide +kernel) g1 hg1).1 s.gravity t1
  have s11 := schemeLine_ok lib fmt d' "Hydrodynamics scheme" "hydro_scheme" g2
    (groupOf_ok i d' eg "hydro_scheme" "HydroScheme" (by decide +kernel) g2 hg2).1 s.hydro t2
  have s12 : subgridSteps lib fmt d' = (s.subgrid.map (fun p => [p.1.replace "Model" "model" ++ ": " ++ p.2])).map .ok := by
    unfold subgridSteps
    rw [(groupOf_ok i d' eg "subgrid_scheme" "SubgridScheme" (by decide +kernel) g3 hg3).1, en]
    exact subgrid_ok lib fmt g3 _ s.subgrid t3
  unfold reportSteps
  rw [s1, s2, s3, s4, s5, s6, s7, s8, s9, s10, s11, s12]
  have flat : ∀ l : List (String × String), (l.map (fun p => [p.1.replace "Model" "model" ++ ": " ++ p.2])).flatten =
      l.map (fun p => p.1.replace "Model" "model" ++ ": " ++ p.2) := by
    intro l
    induction l with
    | nil => rfl
    | cons x xs ih =>
      rw [List.map_cons, List.flatten_cons, ih]
      rfl
  refine (printAll_append _ _ _ (printAll_ok _ [[s.runName], ["Written at: " ++ s.date],
    fmt.wrap ("Active policies: " ++ String.intercalate ", " s.policies), [""],
    ["Output type: " ++ s.outputType ++ ", Output selection: " ++ s.selection], [""],
    fmt.wrap ("Number of particles: " ++
      String.intercalate ", " (List.zipWith (fun x n => fmt.title x ++ ": " ++ n) particleTypes s.counts)), [""],
    [s.compiler ++ " (" ++ s.compilerVersion ++ ")\n" ++ s.mpi],
    [s.code ++ " (" ++ s.branch ++ ")\n" ++ s.revision ++ "\n" ++ s.gitDate], [""],
    ["Simulation state: z=" ++ s.z ++ ", a=" ++ s.a ++ ", t=" ++ s.t], [""], ["Cosmology: " ++ s.cosmology], [""],
    ["Gravity scheme" ++ ": " ++ s.gravity], ["Hydrodynamics scheme" ++ ": " ++ s.hydro]] rfl)).trans ?_
  rw [printAll_ok _ _ rfl, flat]
  refine Prod.ext ?_ rfl
  have e1 : "Gravity scheme" ++ ": " = "Gravity scheme: " := by decide +kernel
  have e2 : "Hydrodynamics scheme" ++ ": " = "Hydrodynamics scheme: " := by decide +kernel
  unfold Sheet.lines
  dsimp only
  rw [e1, e2]
  simp only [List.flatten_cons, List.flatten_nil, List.append_assoc, List.cons_append, List.nil_append, List.append_nil]

/-- **C88**, the report: for any number of snapshots and files of lines of sight with the groups that SWIFT writes, the command prints
the facts of the files in the order of the command line, with nothing else, and returns. (It is partial because of the two theorems
below: no file of another type, and no file without these groups, can be described.) -/
theorem c88_report_partial (lib : Lib D) (fmt : Fmt K D) (hp : PrintsText fmt) (disk : String → Option (Input K)) (files : List String)
    (hm : ∀ n ∈ files, Marked (disk n)) (sheets : List Sheet)
    (ht : List.Forall₂ (fun n s => ∃ i h, disk n = some i ∧ Opens lib i h ∧ Describes lib fmt i h s) files sheets) :
    swiftsnap lib fmt disk false false files = (sheets.flatMap (Sheet.lines fmt.wrap fmt.title), .returned) := by
  obtain ⟨ms, e, hf⟩ := readAll_ok (D := D) lib disk files (forall₂_opens ht)
  unfold swiftsnap
  rw [checkAll_marked disk files hm]
  dsimp only
  rw [e]
  show printAll (ms.flatMap (reportSteps lib fmt)) = _
  clear e hm
  induction hf generalizing sheets with
  | nil =>
    cases ht
    rfl
  | cons a b ih =>
    cases ht with
    | cons c r =>
      obtain ⟨i, e1, e2⟩ := a
      obtain ⟨i', h, e3, e4, e5⟩ := c
      rw [e1] at e3
      obtain rfl := Option.some.inj e3
      rw [List.flatMap_cons, printAll_append _ _ _ (report_file lib fmt hp i h _ _ e4 e5 e2), ih _ r, List.flatMap_cons]

private theorem returned_all (l : List (Except Err (List String))) (h : (printAll l).2 = .returned) : ∀ x ∈ l, ∃ o, x = .ok o := by
  induction l with
  | nil => intro x hx; cases hx
  | cons y ys ih =>
    cases y with
    | error e => cases h
    | ok o =>
      intro x hx
      rcases List.mem_cons.1 hx with rfl | hx
      · exact ⟨o, rfl⟩
      · exact ih h x hx

private theorem mapM_mem {α β : Type} {f : α → Except Err β} {l : List α} {r : List β} (h : l.mapM f = .ok r) :
    ∀ x ∈ l, ∃ y ∈ r, f x = .ok y := by
  induction l generalizing r with
  | nil => intro x hx; cases hx
  | cons a as ih =>
    rw [List.mapM_cons] at h
    cases ha : f a with
    | error e =>
      rw [ha] at h
      cases h
    | ok b =>
      rw [ha] at h
      cases has : as.mapM f with
      | error e =>
        rw [has] at h
        cases h
      | ok bs =>
        rw [has] at h
        obtain rfl := Except.ok.inj h
        intro x hx
        rcases List.mem_cons.1 hx with rfl | hx
        · exact ⟨b, by simp, ha⟩
        · obtain ⟨y, hy, e⟩ := ih has x hx
          exact ⟨y, by simp [hy], e⟩

/-- If the command returns, it has read every file, and every step of the report of every file has worked. -/
private theorem returned_steps {lib : Lib D} {fmt : Fmt K D} {disk : String → Option (Input K)} {files : List String}
    (h : (swiftsnap lib fmt disk false false files).2 = .returned) (n : String) (hn : n ∈ files) (i : Input K) (hi : disk n = some i) :
    ∃ d : Meta K D, readMeta lib i = .ok d ∧ ∀ x ∈ reportSteps lib fmt d, ∃ o, x = .ok o := by
  unfold swiftsnap at h
  cases hc : checkAll disk files with
  | some r =>
    exfalso
    rw [hc] at h
    dsimp only at h
    have : ∀ files r, checkAll disk files = some r → r.2 ≠ .returned := by
      intro files
      induction files with
      | nil => intro r hr; cases hr
      | cons m ms ih =>
        intro r hr
        unfold checkAll at hr
        cases hv : validate (disk m) with
        | isSwift =>
          rw [hv] at hr
          exact ih r hr
        | notSwift =>
          rw [hv] at hr
          obtain rfl := Option.some.inj hr
          simp
        | raised e =>
          rw [hv] at hr
          obtain rfl := Option.some.inj hr
          simp
    exact this files r hc h
  | none =>
    rw [hc] at h
    dsimp only at h
    cases hr : (readAll lib disk files : Except Err (List (Meta K D))) with
    | error e =>
      rw [hr] at h
      cases h
    | ok ms =>
      rw [hr] at h
      have h : (printAll (ms.flatMap (reportSteps lib fmt))).2 = .returned := h
      unfold readAll at hr
      cases hm : files.mapM (opened disk) with
      | error e =>
        rw [hm] at hr
        cases hr
      | ok is =>
        rw [hm] at hr
        have hr : is.mapM (readMeta lib) = .ok ms := hr
        obtain ⟨i', hi', e1⟩ := mapM_mem hm n hn
        have : i' = i := by
          unfold opened at e1
          rw [hi] at e1
          dsimp only at e1
          cases hu : i.units with
          | none =>
            rw [hu] at e1
            exact (Except.ok.inj e1).symm
          | some e =>
            rw [hu] at e1
            cases e1
        subst this
        obtain ⟨d, hd, e2⟩ := mapM_mem hr i' hi'
        refine ⟨d, e2, fun x hx => ?_⟩
        exact returned_all _ h x (List.mem_flatMap.2 ⟨d, hd, hx⟩)

private theorem read_parts {lib : Lib D} {i : Input K} {d : Meta K D} (hd : readMeta lib i = .ok d) :
    d.groups = getMetadata i.file ∧ ∃ h o, i.file.group "Header" = some h ∧ outputType lib h = .ok o ∧ discriminate o = .ok d.kind := by
  unfold readMeta at hd
  cases hh : i.file.group "Header" with
  | none =>
    rw [hh] at hd
    cases hd
  | some h =>
    rw [hh] at hd
    dsimp only at hd
    cases h1 : outputType lib h with
    | error e =>
      rw [h1] at hd
      cases hd
    | ok o =>
      rw [h1] at hd
      cases h2 : discriminate o with
      | error e =>
        simp only [bind, Except.bind, h2] at hd
        cases hd
      | ok k =>
        cases h3 : (postprocess lib i.file : Except Err (Dict (Val K D))) with
        | error e =>
          simp only [bind, Except.bind, h2, h3] at hd
          cases hd
        | ok s =>
          cases h4 : cosmologyOf i.file with
          | error e =>
            simp only [bind, Except.bind, h2, h3, h4] at hd
            cases hd
          | ok c =>
            cases h5 : i.rest with
            | some e =>
              simp only [bind, Except.bind, h2, h3, h4, h5] at hd
              cases hd
            | none =>
              simp only [bind, Except.bind, h2, h3, h4, h5] at hd
              obtain rfl := Except.ok.inj hd
              exact ⟨rfl, h, o, rfl, h1, h2⟩

/-- **C88**, what is missing, first part: with a catalogue of FOF or SOAP among the files, the command never returns, though such
files are read by `load` and `-r` and `-a` work for them: their metadata has no `compiler_info`. -/
theorem c88_catalogues_fails (lib : Lib D) (fmt : Fmt K D) (disk : String → Option (Input K)) (files : List String) (n : String)
    (hn : n ∈ files) (i : Input K) (hi : disk n = some i) (h : Dict (Raw K)) (hh : i.file.group "Header" = some h) (t : String)
    (r : Raw K) (hr : h "OutputType" = some r) (hs : Says lib r t) (ht : t ∈ ["SOAP", "SOAPSubset", "FOF", "FOFSubset"]) :
    (swiftsnap lib fmt disk false false files).2 ≠ .returned := by
  intro he
  obtain ⟨d, e1, e2⟩ := returned_steps he n hn i hi
  obtain ⟨-, h', o, h1, h2, h3⟩ := read_parts e1
  rw [hh] at h1
  obtain rfl := Option.some.inj h1
  have hd : decode lib r = .ok (.text t) := by
    rcases hs with rfl | ⟨b, rfl, hb⟩
    · rfl
    · unfold decode
      dsimp only
      rw [hb]
  have : o = some t := by
    unfold outputType at h2
    rw [hr] at h2
    dsimp only at h2
    rw [hd] at h2
    exact (Except.ok.inj h2).symm
  subst this
  have hk : hasInfo d.kind = false := by
    simp only [List.mem_cons, List.not_mem_nil, or_false] at ht
    have k : ∀ k' : Kind, hasInfo k' = false → discriminate (some t) = .ok k' → hasInfo d.kind = false := by
      intro k' hk' e
      obtain rfl := Except.ok.inj (e.symm.trans h3)
      exact hk'
    rcases ht with rfl | rfl | rfl | rfl
    · exact k .soap rfl (by decide +kernel)
    · exact k .soap rfl (by decide +kernel)
    · exact k .fof rfl (by decide +kernel)
    · exact k .fof rfl (by decide +kernel)
  obtain ⟨o, ho⟩ := e2 (one (compilerInfo lib d)) (by simp [reportSteps])
  unfold compilerInfo at ho
  rw [hk] at ho
  cases ho

/-- **C88**: with a file among them whose output type is none of those known, text or not, the command does not return. -/
theorem c88_unknown (lib : Lib D) (fmt : Fmt K D) (disk : String → Option (Input K)) (files : List String) (n : String)
    (hn : n ∈ files) (i : Input K) (hi : disk n = some i) (h : Dict (Raw K)) (hh : i.file.group "Header" = some h) (r : Raw K)
    (hr : h "OutputType" = some r)
    (ht : ∀ t ∈ ["FullVolume", "VolumeSubset", "LineOfSight", "SOAP", "SOAPSubset", "FOF", "FOFSubset"], ¬ Says lib r t) :
    (swiftsnap lib fmt disk false false files).2 ≠ .returned := by
  intro he
  obtain ⟨d, e1, -⟩ := returned_steps he n hn i hi
  obtain ⟨-, h', o, h1, h2, h3⟩ := read_parts e1
  rw [hh] at h1
  obtain rfl := Option.some.inj h1
  have key : ∀ t, (∀ x ∈ ["FullVolume", "VolumeSubset", "LineOfSight", "SOAP", "SOAPSubset", "FOF", "FOFSubset"], t ≠ x) →
      discriminate (some t) ≠ .ok d.kind := by
    intro t hx
    simp at hx
    simp [discriminate, hx]
  unfold outputType at h2
  rw [hr] at h2
  dsimp only at h2
  have text : ∀ t, Says lib r t → decode lib r = .ok (.text t) → False := by
    intro t hs hd
    rw [hd] at h2
    obtain rfl := Except.ok.inj h2
    exact key t (fun x hx e => ht x hx (e ▸ hs)) h3
  have other : ∀ q : Raw K, decode lib r = .ok q → (∀ t, q ≠ .text t) → False := by
    intro q hq hne
    rw [hq] at h2
    have : some "" = o := by
      cases q with
      | text t => exact absurd rfl (hne t)
      | _ => exact Except.ok.inj h2
    subst this
    exact key "" (by decide +kernel) h3
  cases r with
  | bytes b =>
    cases hb : lib.utf8 b with
    | none =>
      have : decode lib (.bytes b : Raw K) = .error .value := by
        unfold decode
        dsimp only
        rw [hb]
      rw [this] at h2
      cases h2
    | some t =>
      refine text t (.inr ⟨b, rfl, hb⟩) ?_
      unfold decode
      dsimp only
      rw [hb]
  | text t => exact text t (.inl rfl) rfl
  | _ => exact other _ rfl (fun t e => by cases e)

/-- **C88**, what is missing, second part: with a file that lacks one of the groups of the schemes among the files, the command never
returns. -/
theorem c88_groups_fails (lib : Lib D) (fmt : Fmt K D) (disk : String → Option (Input K)) (files : List String) (n : String)
    (hn : n ∈ files) (i : Input K) (hi : disk n = some i) (g : String)
    (hg : g ∈ ["Policy", "Code", "GravityScheme", "HydroScheme", "SubgridScheme"]) (hm : i.file.group g = none) :
    (swiftsnap lib fmt disk false false files).2 ≠ .returned := by
  intro he
  obtain ⟨d, e1, e2⟩ := returned_steps he n hn i hi
  obtain ⟨eg, -⟩ := read_parts e1
  have none_ : ∀ a, (a, g) ∈ Spec.groupAttributes → d.groups a = some none := by
    intro a ha
    rw [eg, (c64_groups i.file).1 (a, g) ha, hm]
  have group_ : ∀ a, (a, g) ∈ Spec.groupAttributes → groupOf d a = .error .attribute := by
    intro a ha
    unfold groupOf
    rw [none_ a ha]
  simp only [List.mem_cons, List.not_mem_nil, or_false] at hg
  rcases hg with rfl | rfl | rfl | rfl | rfl
  · obtain ⟨o, ho⟩ := e2 (policyLines fmt d) (by simp [reportSteps])
    unfold policyLines at ho
    rw [group_ "policy" (by decide +kernel)] at ho
    cases ho
  · obtain ⟨o, ho⟩ := e2 (one (compilerInfo lib d)) (by simp [reportSteps])
    unfold compilerInfo at ho
    by_cases hk : hasInfo d.kind
    · have : codeString lib d "Compiler Name" = .error .typeErr := by
        unfold codeString
        rw [none_ "code" (by decide +kernel)]
      rw [if_pos hk, this] at ho
      cases ho
    · rw [if_neg hk] at ho
      cases ho
  · obtain ⟨o, ho⟩ := e2 (one (schemeLine lib fmt d "Gravity scheme" "gravity_scheme")) (by simp [reportSteps])
    unfold schemeLine at ho
    rw [group_ "gravity_scheme" (by decide +kernel)] at ho
    cases ho
  · obtain ⟨o, ho⟩ := e2 (one (schemeLine lib fmt d "Hydrodynamics scheme" "hydro_scheme")) (by simp [reportSteps])
    unfold schemeLine at ho
    rw [group_ "hydro_scheme" (by decide +kernel)] at ho
    cases ho
  · obtain ⟨o, ho⟩ := e2 (.error .attribute) (by
      unfold reportSteps subgridSteps
      rw [group_ "subgrid_scheme" (by decide +kernel)]
      simp)
    cases ho

/-- **C88**: files of `Writer` can be opened (C85), but they do not say that SWIFT wrote them: the command refuses all of them. -/
theorem c88_writer_fails {table : Units.Dim → List ℝ} (ht : ∀ d : Units.Dim, ∀ x ∈ table d, 0 < x) (hne : ∀ d, table d ≠ [])
    {base : Units.Dim → ℝ} (hb : ∀ d, 0 < base d) {c : WriterHeader.Conf ℝ} (hc : c.extra = none) {w : Reread.State} {f : Reread.H5}
    (hw : Reread.writeAll base c w = .ok f) (lib : Lib D) (fmt : Fmt ℝ D) (disk : String → Option (Input ℝ)) (n : String) (i : Input ℝ)
    (hi : disk n = some i) (hf : i.file = WriterHeader.asRead f.header) (redshift scaleFactor : Bool) (after : List String) :
    (∃ o : Reread.Opened, Reread.openFile lib table f = .ok o) ∧
    swiftsnap lib fmt disk redshift scaleFactor (n :: after) = ([n ++ " is not a SWIFT snapshot."], .exit 1) := by
  classical
  refine ⟨c85_opens lib ht hne hb hc hw, ?_⟩
  have hg : i.file.group "Code" = none := by
    rw [hf]
    unfold WriterHeader.asRead
    dsimp only
    rw [if_neg (by decide)]
  have hv : validate (disk n) = .notSwift := by
    rw [hi]
    unfold validate
    dsimp only
    rw [hg]
  unfold swiftsnap checkAll
  rw [hv]

/-! ## Examples -/

private def exLib : Lib Unit := ⟨fun b => some (String.ofList (b.map Char.ofNat)), fun _ => none, fun _ => none⟩

private def show4 : Raw ℚ → Except Err String
  | .scalar x => .ok (if x = 0 then "0" else if x = 1 then "1" else "2")
  | _ => .error .typeErr

private def exFmt : Fmt ℚ Unit where
  g4 v := match v with
    | .raw r => show4 r
    | .quantity x _ => (show4 (.scalar x)).map (fun s => s ++ " s")
    | _ => .error .typeErr
  str v := match v with
    | .raw (.text t) => t
    | _ => "?"
  cosmo c := if c.isSome then "some" else "None"
  wrap s := [s]
  title s := s

private def bytes (s : String) : Raw ℚ := .bytes (s.toList.map Char.toNat)

private def exHeader (type : String) : Dict (Raw ℚ)
  | "NumPart_ThisFile" => some (.array [2, 1, 0])
  | "Redshift" => some (.array [1])
  | "Time" => some (.array [2])
  | "RunName" => some (bytes "eagle")
  | "OutputType" => some (.text type)
  | _ => none

private def exCode : Dict (Raw ℚ)
  | "Code" => some (bytes "SWIFT")
  | "Compiler Name" => some (bytes "GCC")
  | "Compiler Version" => some (bytes "9.3")
  | "MPI library" => some (bytes "none")
  | "Git Branch" => some (bytes "master")
  | "Git Revision" => some (bytes "v1")
  | "Git Date" => some (bytes "today")
  | _ => none

private def exGroups (type : String) : String → Option (Dict (Raw ℚ))
  | "Header" => some (exHeader type)
  | "Code" => some exCode
  | "Policy" => some fun n => if n = "hydro" then some (.array [1]) else if n = "stars" then some (.array [0]) else none
  | "GravityScheme" => some fun n => if n = "Scheme" then some (bytes "FMM") else none
  | "HydroScheme" => some fun _ => none
  | "SubgridScheme" => some fun n => if n = "Cooling Model" then some (bytes "Cooling") else if n = "NamedColumns" then some (.array []) else none
  | _ => none

private def exNames : String → List String
  | "Policy" => ["hydro", "stars"]
  | "SubgridScheme" => ["Cooling Model", "NamedColumns"]
  | _ => []

private def exInput (type : String) : Input ℚ := ⟨⟨exGroups type, none, none⟩, exNames, none, none⟩

private def exDisk : String → Option (Input ℚ)
  | "a.hdf5" => some (exInput "FullVolume")
  | "f.hdf5" => some (exInput "FOF")
  | "w.hdf5" => some ⟨⟨fun g => if g = "Header" then some (exHeader "FullVolume") else none, none, none⟩, fun _ => [], none, none⟩
  | _ => none

private def exSheet : Sheet where
  runName := "eagle"
  date := ""
  policies := ["hydro"]
  outputType := "FullVolume"
  selection := ""
  counts := ["2", "1", "0", "0", "0", "0", "0", "0"]
  compiler := "GCC"
  compilerVersion := "9.3"
  mpi := "none"
  code := "SWIFT"
  branch := "master"
  revision := "v1"
  gitDate := "today"
  z := "1"
  a := "1"
  t := "2 s"
  cosmology := "None"
  gravity := "FMM"
  hydro := "None"
  subgrid := [("Cooling Model", "Cooling")]

private theorem exMarked (t : String) : Marked (some (exInput t)) := ⟨exInput t, exCode, rfl, rfl, by decide +kernel⟩

private theorem exOpens (t : String)
    (ht : t ∈ ["FullVolume", "VolumeSubset", "LineOfSight", "SOAP", "SOAPSubset", "FOF", "FOFSubset"]) :
    Opens exLib (exInput t) (exHeader t) where
  header := rfl
  wellFormed :=
    { numbers := by
        intro k hk r hr
        simp only [List.mem_cons, List.not_mem_nil, or_false] at hk
        rcases hk with rfl | rfl | rfl | rfl
        · exact ⟨2, [], (Option.some.inj hr).symm⟩
        · cases hr
        · exact ⟨1, [], (Option.some.inj hr).symm⟩
        · cases hr
      box := by
        intro r hr
        cases hr
      counts := ⟨_, rfl⟩
      masses := by
        intro k hk r hr
        simp only [List.mem_cons, List.not_mem_nil, or_false] at hk
        rcases hk with rfl | rfl <;> cases hr
      texts := by
        intro k hk r hr
        simp only [List.mem_cons, List.not_mem_nil, or_false] at hk
        rcases hk with rfl | rfl | rfl | rfl | rfl | rfl
        · exact ⟨"eagle", Or.inr ⟨_, (Option.some.inj hr).symm, by decide +kernel⟩⟩
        · cases hr
        · exact ⟨t, Or.inl (Option.some.inj hr).symm⟩
        · cases hr
        · cases hr
        · cases hr }
  type := by
    refine ⟨t, Or.inl ⟨.text t, rfl, Or.inl rfl⟩, by simp only [List.mem_cons] at ht ⊢; tauto, fun _ h => ?_⟩
    subst h
    revert ht
    decide +kernel
  light := by
    intro h
    cases h
  cosmology := ⟨none, rfl⟩
  units := rfl
  rest := rfl

private theorem exPrints : PrintsText exFmt := fun _ => rfl

private theorem exDescribes : Describes exLib exFmt (exInput "FullVolume") (exHeader "FullVolume") exSheet where
  runName := Or.inl ⟨_, rfl, Or.inr ⟨_, rfl, by decide +kernel⟩⟩
  date := ⟨"", Or.inr ⟨rfl, Or.inr ⟨rfl, rfl⟩⟩, fun d h => (by cases h), fun d _ h => (by cases h), fun _ _ => rfl⟩
  policies := by
    refine ⟨_, rfl, ?_, by decide +kernel⟩
    intro n hn
    rcases List.mem_cons.1 hn with rfl | hn
    · exact ⟨1, rfl⟩
    · rcases List.mem_cons.1 hn with rfl | hn
      · exact ⟨0, rfl⟩
      · cases hn
  outputType := Or.inl ⟨_, rfl, Or.inl rfl⟩
  particles := by decide +kernel
  selection := Or.inr ⟨rfl, rfl⟩
  counts := ⟨[2, 1, 0], rfl, rfl, by decide +kernel⟩
  code := ⟨exCode, rfl, ⟨_, rfl, by decide +kernel⟩, ⟨_, rfl, by decide +kernel⟩, ⟨_, rfl, by decide +kernel⟩, ⟨_, rfl, by decide +kernel⟩,
    ⟨_, rfl, by decide +kernel⟩, ⟨_, rfl, by decide +kernel⟩, ⟨_, rfl, by decide +kernel⟩⟩
  z := ⟨1, [], rfl, by decide +kernel⟩
  a := ⟨1, Or.inr ⟨rfl, rfl⟩, by decide +kernel⟩
  t := ⟨2, [], rfl, by decide +kernel⟩
  cosmology := ⟨none, rfl, by decide +kernel⟩
  gravity := ⟨_, rfl, Or.inl ⟨bytes "FMM", rfl, Or.inr ⟨_, rfl, by decide +kernel⟩⟩⟩
  hydro := ⟨_, rfl, Or.inr ⟨rfl, rfl⟩⟩
  subgrid := by
    refine ⟨_, rfl, ?_⟩
    have : (((exInput "FullVolume").names "SubgridScheme").filter (fun n => n ≠ "NamedColumns")) = ["Cooling Model"] := by decide +kernel
    rw [this]
    exact .cons ⟨rfl, bytes "Cooling", rfl, Or.inr ⟨_, rfl, by decide +kernel⟩⟩ .nil

/-- Two files, the same one twice: the report is printed twice. -/
example : swiftsnap exLib exFmt exDisk false false ["a.hdf5", "a.hdf5"] =
    ([exSheet, exSheet].flatMap (Sheet.lines exFmt.wrap exFmt.title), .returned) := by
  refine c88_report_partial exLib exFmt exPrints exDisk _ ?_ _ ?_
  · intro n hn
    have : n = "a.hdf5" := by simpa using hn
    subst this
    exact exMarked "FullVolume"
  · have : exDisk "a.hdf5" = some (exInput "FullVolume") := rfl
    exact .cons ⟨_, _, this, exOpens _ (by decide +kernel), exDescribes⟩ (.cons ⟨_, _, this, exOpens _ (by decide +kernel), exDescribes⟩ .nil)

/-- What the report is, up to the lines of the subgrid schemes. -/
example : (exSheet.lines exFmt.wrap exFmt.title).take 17 = ["eagle", "Written at: ", "Active policies: hydro", "",
    "Output type: FullVolume, Output selection: ", "",
    "Number of particles: gas: 2, dark_matter: 1, boundary: 0, sinks: 0, stars: 0, black_holes: 0, neutrinos: 0, sidm: 0", "",
    "GCC (9.3)\nnone", "SWIFT (master)\nv1\ntoday", "", "Simulation state: z=1, a=1, t=2 s", "", "Cosmology: None", "",
    "Gravity scheme: FMM", "Hydrodynamics scheme: None"] := by
  decide +kernel

/-- The redshifts of a snapshot and of a catalogue. -/
example : swiftsnap exLib exFmt exDisk true true ["a.hdf5", "f.hdf5"] = (["1\n1"], .exit 0) := by
  have h := c88_redshift exLib exFmt exDisk true ["a.hdf5", "f.hdf5"] (by
    intro n hn
    simp only [List.mem_cons, List.not_mem_nil, or_false] at hn
    rcases hn with rfl | rfl
    · exact exMarked "FullVolume"
    · exact exMarked "FOF") ["1", "1"]
    (.cons ⟨exInput "FullVolume", _, rfl, exOpens _ (by decide +kernel), 1, [], rfl, by decide +kernel⟩
      (.cons ⟨exInput "FOF", _, rfl, exOpens _ (by decide +kernel), 1, [], rfl, by decide +kernel⟩ .nil))
  rw [h]
  decide +kernel

/-- The default of the scale factor. -/
example : swiftsnap exLib exFmt exDisk false true ["a.hdf5"] = (["1"], .exit 0) := by
  have h := c88_scale_factor exLib exFmt exDisk ["a.hdf5"] (by
    intro n hn
    have : n = "a.hdf5" := by simpa using hn
    subst this
    exact exMarked "FullVolume") ["1"]
    (.cons ⟨exInput "FullVolume", _, rfl, exOpens _ (by decide +kernel), 1, Or.inr ⟨rfl, rfl⟩, by decide +kernel⟩ .nil)
  rw [h]
  decide +kernel

/-- A file without the mark after a file with it. -/
example : swiftsnap exLib exFmt exDisk false false ["a.hdf5", "w.hdf5", "b.hdf5"] = (["w.hdf5 is not a SWIFT snapshot."], .exit 1) := by
  have h := c88_refused exLib exFmt exDisk false false ["a.hdf5"] ["b.hdf5"] "w.hdf5" (by
    intro n hn
    have : n = "a.hdf5" := by simpa using hn
    subst this
    exact exMarked "FullVolume") (by
    intro i d r h1 h2
    obtain rfl := Option.some.inj h1
    cases h2) (by
    rintro ⟨i, d, h1, h2, -⟩
    obtain rfl := Option.some.inj h1
    cases h2)
  exact h

/-- The report of a catalogue of FOF stops after the numbers of particles. -/
example : swiftsnap exLib exFmt exDisk false false ["f.hdf5"] = (["eagle", "Written at: ", "Active policies: hydro", "",
    "Output type: FOF, Output selection: ", "",
    "Number of particles: gas: 2, dark_matter: 1, boundary: 0, sinks: 0, stars: 0, black_holes: 0, neutrinos: 0, sidm: 0", ""],
    .raised .attribute) := by
  decide +kernel

example : (swiftsnap exLib exFmt exDisk false false ["a.hdf5", "f.hdf5"]).2 ≠ .returned :=
  c88_catalogues_fails exLib exFmt exDisk _ "f.hdf5" (by simp) (exInput "FOF") rfl (exHeader "FOF") rfl "FOF" (.text "FOF") rfl
    (Or.inl rfl) (by decide +kernel)

/-- A file that is not there. -/
example : validate (exDisk "missing.hdf5") = .notSwift :=
  ((c88_validate _ (by rintro i d r h; cases h)).2).2 (by rintro ⟨i, d, h, -⟩; cases h)

end Verif.Props
