import Verif.Props.SampleNames

/-!
# C48: the samples handed to the evaluation
-/

namespace EdgeEval.Props

open Text Evaluators Samples Spec

theorem pjoin_slash {a b : Str} (ha : DirArg a) (hb : Relative b) : pjoin a b = slashed [a, b] := by
  unfold pjoin
  rw [if_neg hb, if_neg]
  · rfl
  · rintro (h | h)
    · exact ha.1 h
    · exact ha.2 h

theorem dirArg_slash {a b : Str} (hb : DirArg b) : DirArg (slashed [a, b]) := by
  refine ⟨by simp [slashed], ?_⟩
  simp only [slashed]
  have := hb.2
  rw [show a ++ '/' :: b = (a ++ ['/']) ++ b by simp, List.getLast?_append]
  cases h : b.getLast? with
  | none => rw [List.getLast?_eq_none_iff] at h; exact absurd h hb.1
  | some c => rw [h] at this; simpa using this

theorem relative_append {a b : Str} (ha : Relative a) (hb : Relative b) : Relative (a ++ b) := by
  unfold Relative at *
  cases a with
  | nil => simpa using hb
  | cons c a => simpa using ha

/-- The constructor arguments are usable paths. -/
structure CtorOk (c : Ctor) : Prop where
  root : DirArg c.datasetRoot
  pred : DirArg c.predRoot
  split : c.split = "val".toList ∨ c.split = "test".toList
  gt : ∀ d, c.gtDir = some d → d = [] ∨ (DirArg d ∧ Relative d)
  suffix : ∀ d, c.predSuffix = some d → Relative d

/-- The directory with the pre-computed ground truth. -/
def gtDirOf (k : Kind) (c : Ctor) : Str :=
  let d := match c.gtDir with
    | some d => if d = [] then "gtEval".toList else d
    | none => "gtEval".toList
  if k = .sbd ∨ k = .reanno then slashed [c.datasetRoot, d] else slashed [c.datasetRoot, d, c.split]

/-- The directory of the original Cityscapes ground truth. -/
def fineDirOf (c : Ctor) : Str := slashed [c.datasetRoot, "gtFine".toList, c.split]

/-- The suffix of prediction files: the one given, or the default of the dataset. -/
def predEnd (k : Kind) (c : Ctor) : Str :=
  match k, c.predSuffix with
  | .sbd, some s => s
  | .reanno, some s => s
  | .sbd, none => ".png".toList
  | .reanno, none => ".png".toList
  | _, some s => if s = [] then "_leftImg8bit.png".toList else s
  | _, none => "_leftImg8bit.png".toList

theorem split_ok {c : Ctor} (h : CtorOk c) : DirArg c.split ∧ Relative c.split := by
  unfold DirArg Relative
  rcases h.split with h | h <;> rw [h] <;> decide

theorem gtEvalRoot_eq {k : Kind} (hk : k ≠ .bsds) {c : Ctor} (h : CtorOk c) :
    gtEvalRoot k c = gtDirOf k c ∧ DirArg (gtDirOf k c) := by
  have hd : ∃ d, override "gtEval".toList c.gtDir = d ∧ DirArg d ∧ Relative d ∧
      (match c.gtDir with
        | some d => if d = [] then "gtEval".toList else d
        | none => "gtEval".toList) = d := by
    have h0 : DirArg "gtEval".toList ∧ Relative "gtEval".toList := by
      unfold DirArg Relative; decide
    cases hg : c.gtDir with
    | none => exact ⟨_, rfl, h0.1, h0.2, rfl⟩
    | some d =>
      by_cases he : d = []
      · subst he; exact ⟨_, rfl, h0.1, h0.2, rfl⟩
      · rcases h.gt d hg with h' | h'
        · exact absurd h' he
        · exact ⟨d, by simp [override, he], h'.1, h'.2, by simp [he]⟩
  obtain ⟨d, h1, h2, h3, h4⟩ := hd
  obtain ⟨s1, s2⟩ := split_ok h
  unfold gtEvalRoot gtDirOf
  simp only [h1, h4]
  have e1 : pjoin c.datasetRoot d = slashed [c.datasetRoot, d] := pjoin_slash h.root h3
  have e2 : pjoin (slashed [c.datasetRoot, d]) c.split = slashed [c.datasetRoot, d, c.split] := by
    rw [pjoin_slash (dirArg_slash h2) s2]
    simp [slashed]
  have d3 : DirArg (slashed [c.datasetRoot, d, c.split]) := by
    have := dirArg_slash (a := slashed [c.datasetRoot, d]) s1
    simpa [slashed] using this
  cases k
  case bsds => exact absurd rfl hk
  all_goals
    simp only [e1, e2]
    first
      | (rw [if_pos (by decide)]; exact ⟨rfl, dirArg_slash h2⟩)
      | (rw [if_neg (by decide)]; exact ⟨rfl, d3⟩)

theorem gtFineRoot_eq {c : Ctor} (h : CtorOk c) : gtFineRoot c = fineDirOf c ∧ DirArg (fineDirOf c) := by
  have h0 : DirArg "gtFine".toList ∧ Relative "gtFine".toList := by
    unfold DirArg Relative; decide
  obtain ⟨s1, s2⟩ := split_ok h
  unfold gtFineRoot fineDirOf
  rw [pjoin_slash h.root h0.2, pjoin_slash (dirArg_slash h0.1) s2]
  refine ⟨by simp [slashed], ?_⟩
  have := dirArg_slash (a := slashed [c.datasetRoot, "gtFine".toList]) s1
  simpa [slashed] using this

theorem edgeSuffix_eq (k : Kind) (thin inst : Bool) (name : Str) :
    name ++ edgeSuffix k thin inst = gtFile k thin inst name := by
  unfold gtFile
  simp only [List.append_assoc]
  congr 1
  cases k <;> cases thin <;> cases inst <;> rfl

theorem segSuffix_eq (k : Kind) (name : Str) : name ++ segSuffix k = segFile k name := by
  cases k <;> rfl

theorem predSuffix_eq {k : Kind} (hk : k ≠ .bsds) (c : Ctor) : predSuffix k c = predEnd k c := by
  cases k <;> simp only [predSuffix, predEnd, override] <;> cases c.predSuffix <;> first | rfl | exact absurd rfl hk

theorem digit_small : ∀ n < 100, (zfill 3 (pyStr n)).map digitCh = threeDigits n := by decide +kernel

theorem classDir_eq {n : Nat} (h : n < 100) : Io.classDir n = "class_".toList ++ threeDigits n := by
  unfold Io.classDir
  rw [digit_small n h]

theorem threeDigits_slash {n : Nat} : (threeDigits n).getLast? ≠ some '/' ∧ threeDigits n ≠ [] := by
  refine ⟨?_, by simp [threeDigits]⟩
  have key : ∀ d < 10, digitCh d ≠ '/' := by decide
  simp only [threeDigits, List.getLast?_cons_cons, List.getLast?_singleton, ne_eq, Option.some.injEq]
  exact key _ (by omega)

theorem predEnd_relative {k : Kind} {c : Ctor} (h : CtorOk c) : Relative (predEnd k c) := by
  have d1 : Relative "_leftImg8bit.png".toList := by unfold Relative; decide
  have d2 : Relative ".png".toList := by unfold Relative; decide
  cases hs : c.predSuffix with
  | none => cases k <;> simp only [predEnd, hs] <;> assumption
  | some s =>
    have := h.suffix s hs
    cases k <;> simp only [predEnd, hs] <;> first | exact this | (split <;> assumption)

theorem predPath_eq {e : Ev} (hk : e.kind ≠ .bsds) (h : CtorOk e.ctor) {category : Int} (h0 : 0 < category)
    (h1 : category < 100) {name : Str} (hn : Relative name) :
    predPath e category name = slashed [e.ctor.predRoot, "class_".toList ++ threeDigits category.toNat,
      name ++ predEnd e.kind e.ctor] := by
  unfold predPath
  rw [classDir_eq (by omega), predSuffix_eq hk]
  obtain ⟨t1, t2⟩ := threeDigits_slash (n := category.toNat)
  have dc : DirArg ("class_".toList ++ threeDigits category.toNat) := by
    refine ⟨by simp, ?_⟩
    rw [List.getLast?_append]
    cases hh : (threeDigits category.toNat).getLast? with
    | none => rw [List.getLast?_eq_none_iff] at hh; exact absurd hh t2
    | some c => rw [hh] at t1; simpa using t1
  rw [pjoin_slash h.pred (by unfold Relative; simp), pjoin_slash (dirArg_slash dc)
    (relative_append hn (predEnd_relative h))]
  simp [slashed]

theorem assert_ok {b : Bool} {u : Unit} : assert b = .ok u ↔ b = true := by
  unfold assert
  split <;> simp_all

theorem bind_ok {α β : Type} {x : Except PyErr α} {f : α → Except PyErr β} {y : β} :
    (x >>= f) = .ok y ↔ ∃ a, x = .ok a ∧ f a = .ok y := by
  cases x with
  | error e => simp [bind, Except.bind]
  | ok a => simp [bind, Except.bind]

theorem attr_ok {α : Type} {x : Option α} {a : α} : attr x = .ok a ↔ x = some a := by
  cases x <;> simp [attr]

/-- The directories that must exist. -/
def Roots (fs : Fs) (e : Ev) : Prop :=
  fs.ex e.ctor.datasetRoot = true ∧ fs.ex e.ctor.predRoot = true ∧ fs.ex (gtDirOf e.kind e.ctor) = true ∧
    (e.kind = .cityscapes ∨ e.kind = .half ∨ e.kind = .otf → fs.ex (fineDirOf e.ctor) = true)

theorem beforeEvaluation_ok {fs : Fs} {e : Ev} {u : Unit} (hk : e.kind ≠ .bsds) (h : CtorOk e.ctor) :
    beforeEvaluation fs e = .ok u ↔ e.names.isSome = true ∧ Roots fs e := by
  unfold beforeEvaluation Roots
  rw [(gtEvalRoot_eq hk h).1, (gtFineRoot_eq h).1]
  by_cases hc : e.kind = .cityscapes ∨ e.kind = .half ∨ e.kind = .otf
  · simp only [ne_eq, hk, not_false_eq_true, if_true, if_false, hc, bind_ok, assert_ok, exists_const, true_imp_iff]
    tauto
  · simp only [ne_eq, hk, not_false_eq_true, if_true, if_false, hc, bind_ok, assert_ok, exists_const, false_imp_iff,
      and_true]
    tauto

theorem mapM'_ok {α β : Type} {f : α → Except PyErr β} {l : List α} {r : List β} :
    mapM' f l = .ok r ↔ List.Forall₂ (fun x y => f x = .ok y) l r := by
  induction l generalizing r with
  | nil => simp only [mapM', Except.ok.injEq, List.forall₂_nil_left_iff]; exact eq_comm
  | cons x xs ih =>
    unfold mapM'
    cases hx : f x with
    | error e =>
      simp only [reduceCtorEq, false_iff]
      rintro (_ | ⟨h, -⟩)
      rw [hx] at h; cases h
    | ok y =>
      cases hxs : mapM' f xs with
      | error e =>
        simp only [reduceCtorEq, false_iff]
        rintro (_ | ⟨-, h⟩)
        rw [ih.2 h] at hxs; cases hxs
      | ok ys =>
        simp only [Except.ok.injEq]
        constructor
        · rintro rfl
          exact .cons hx (ih.1 hxs)
        · rintro (_ | ⟨h1, h2⟩)
          rw [hx] at h1
          rw [ih.2 h2] at hxs
          cases h1; cases hxs; rfl

theorem mapM'_map_ok {α β : Type} {f : α → Except PyErr β} {g : α → β} {P : α → Prop} {l : List α} {r : List β}
    (hf : ∀ x ∈ l, ∀ y, f x = .ok y ↔ P x ∧ y = g x) : mapM' f l = .ok r ↔ (∀ x ∈ l, P x) ∧ r = l.map g := by
  rw [mapM'_ok]
  induction l generalizing r with
  | nil => simp [List.forall₂_nil_left_iff]
  | cons x xs ih =>
    rw [List.forall₂_cons_left_iff]
    constructor
    · rintro ⟨y, ys, h1, h2, rfl⟩
      obtain ⟨a, rfl⟩ := (hf x (by simp) y).1 h1
      obtain ⟨b, rfl⟩ := (ih (fun z hz => hf z (by simp [hz]))).1 h2
      exact ⟨by simpa [a] using b, rfl⟩
    · rintro ⟨h, rfl⟩
      exact ⟨g x, xs.map g, (hf x (by simp) _).2 ⟨h x (by simp), rfl⟩,
        (ih (fun z hz => hf z (by simp [hz]))).2 ⟨fun z hz => h z (by simp [hz]), rfl⟩, rfl⟩

/-- The entry expected for a sample with pre-computed ground truth. -/
def expected (e : Ev) (category : Int) (inst : Bool) (ps : Params) (name : Str) : Sample :=
  { name := name, category := category
    edgePath := some (slashed [gtDirOf e.kind e.ctor, gtFile e.kind e.ctor.thin inst name])
    segPath := some (slashed [gtDirOf e.kind e.ctor, segFile e.kind name])
    instPath := none
    predPath := slashed [e.ctor.predRoot, "class_".toList ++ threeDigits category.toNat,
      name ++ predEnd e.kind e.ctor]
    params := ps }

theorem gtFile_relative {k : Kind} {thin inst : Bool} {name : Str} (hn : Relative name) :
    Relative (gtFile k thin inst name) := by
  rw [← edgeSuffix_eq]
  apply relative_append hn
  unfold Relative
  cases k <;> cases thin <;> cases inst <;> decide

theorem segFile_relative {k : Kind} {name : Str} (hn : Relative name) : Relative (segFile k name) := by
  rw [← segSuffix_eq]
  apply relative_append hn
  unfold Relative
  cases k <;> decide

/-- C48: for the Cityscapes, half-scale Cityscapes, SBD and re-annotated SBD evaluators, the samples of a category
can be assembled exactly when there are sample names, all directories exist, the category is in range, the
parameters were set, and every ground-truth edge map and segmentation exists; then there is exactly one entry
per sample name, in order, with the documented paths — the edge map chosen by `thin` and
`instance_sensitive` — and the current parameters. -/
theorem C48_samples (fs : Fs) (e : Ev) (hk : e.kind ≠ .bsds) (ho : e.kind ≠ .otf) (h : CtorOk e.ctor)
    (names : List Str) (hn : e.names = some names) (hrel : ∀ n ∈ names, Relative n) (category : Int)
    (data : List Sample) :
    categoryData fs e category = .ok data ↔
      names ≠ [] ∧ Roots fs e ∧
      1 ≤ category ∧ category ≤ (if e.kind = .sbd ∨ e.kind = .reanno then 20 else 19) ∧
      ∃ inst ps, e.attrs.instanceSensitive = some inst ∧ evalParams e.kind e.ctor.thin e.attrs = .ok ps ∧
        (∀ n ∈ names, fs.ex (slashed [gtDirOf e.kind e.ctor, gtFile e.kind e.ctor.thin inst n]) = true ∧
          fs.ex (slashed [gtDirOf e.kind e.ctor, segFile e.kind n]) = true) ∧
        data = names.map (expected e category inst ps) := by
  have hnum : (numClasses e.kind : Int) = if e.kind = .sbd ∨ e.kind = .reanno then 20 else 19 := by
    cases hkk : e.kind <;> rfl
  have hone : 1 ≤ category → category ≤ (if e.kind = .sbd ∨ e.kind = .reanno then 20 else 19) →
      ∀ n ∈ names, ∀ s, sampleOf fs e category n = .ok s ↔
      ∃ inst ps, e.attrs.instanceSensitive = some inst ∧ evalParams e.kind e.ctor.thin e.attrs = .ok ps ∧
        fs.ex (slashed [gtDirOf e.kind e.ctor, gtFile e.kind e.ctor.thin inst n]) = true ∧
        fs.ex (slashed [gtDirOf e.kind e.ctor, segFile e.kind n]) = true ∧ s = expected e category inst ps n := by
    intro hc1 hc2 n hnn s
    have hle : category < 100 := by split at hc2 <;> omega
    obtain ⟨g1, g2⟩ := gtEvalRoot_eq hk h
    unfold sampleOf
    simp only [bind_ok, attr_ok, assert_ok, g1, edgeSuffix_eq, segSuffix_eq,
      predPath_eq hk h (by omega : 0 < category) hle (hrel n hnn)]
    rw [pjoin_slash g2 (segFile_relative (hrel n hnn))]
    constructor
    · rintro ⟨inst, hi, -, he, -, hs, ps, hp, h6⟩
      rw [pjoin_slash g2 (gtFile_relative (hrel n hnn))] at he h6
      cases h6
      exact ⟨inst, ps, hi, hp, he, hs, rfl⟩
    · rintro ⟨inst, ps, hi, hp, he, hs, rfl⟩
      refine ⟨inst, hi, (), ?_, (), hs, ps, hp, ?_⟩
      · rw [pjoin_slash g2 (gtFile_relative (hrel n hnn))]; exact he
      · rw [pjoin_slash g2 (gtFile_relative (hrel n hnn))]; rfl
  unfold categoryData
  simp only [bind_ok, assert_ok, beforeEvaluation_ok hk h, hn, ho, if_false, Option.getD_some, hnum,
    decide_eq_true_eq, Option.isSome_some, true_and]
  constructor
  · rintro ⟨-, hr, -, ⟨hc1, hc2⟩, d, hd, -, hdne, h6⟩
    have hc2' : category ≤ (if e.kind = .sbd ∨ e.kind = .reanno then 20 else 19) := by omega
    cases h6
    have hne : names ≠ [] := by
      rintro rfl
      simp [mapM'] at hd
      exact hdne hd
    obtain ⟨n0, hn0⟩ := List.exists_mem_of_ne_nil _ hne
    have hfor := mapM'_ok.1 hd
    have : ∃ inst ps, e.attrs.instanceSensitive = some inst ∧ evalParams e.kind e.ctor.thin e.attrs = .ok ps := by
      cases names with
      | nil => exact absurd rfl hne
      | cons a as =>
        rcases hfor with _ | ⟨h1, -⟩
        obtain ⟨inst, ps, h2, h3, -⟩ := (hone (by omega) hc2' a (by simp) _).1 h1
        exact ⟨inst, ps, h2, h3⟩
    obtain ⟨inst, ps, hi, hp⟩ := this
    have hiff : ∀ x ∈ names, ∀ y, sampleOf fs e category x = .ok y ↔
        (fs.ex (slashed [gtDirOf e.kind e.ctor, gtFile e.kind e.ctor.thin inst x]) = true ∧
          fs.ex (slashed [gtDirOf e.kind e.ctor, segFile e.kind x]) = true) ∧ y = expected e category inst ps x := by
      intro x hx y
      rw [hone (by omega) hc2' x hx y]
      constructor
      · rintro ⟨inst', ps', h1, h2, h3, h4, h5⟩
        rw [hi] at h1; rw [hp] at h2
        cases h1; cases h2
        exact ⟨⟨h3, h4⟩, h5⟩
      · rintro ⟨⟨h3, h4⟩, h5⟩
        exact ⟨inst, ps, hi, hp, h3, h4, h5⟩
    obtain ⟨h7, h8⟩ := (mapM'_map_ok hiff).1 hd
    exact ⟨hne, hr, by omega, hc2', inst, ps, hi, hp, h7, h8⟩
  · rintro ⟨hne, hr, hc1, hc2, inst, ps, hi, hp, hex, rfl⟩
    refine ⟨(), hr, (), ⟨by omega, by omega⟩, names.map (expected e category inst ps), ?_, (), ?_, rfl⟩
    · have hiff : ∀ x ∈ names, ∀ y, sampleOf fs e category x = .ok y ↔
          (fs.ex (slashed [gtDirOf e.kind e.ctor, gtFile e.kind e.ctor.thin inst x]) = true ∧
            fs.ex (slashed [gtDirOf e.kind e.ctor, segFile e.kind x]) = true) ∧
            y = expected e category inst ps x := by
        intro x hx y
        rw [hone hc1 hc2 x hx y]
        constructor
        · rintro ⟨inst', ps', h1, h2, h3, h4, h5⟩
          rw [hi] at h1; rw [hp] at h2
          cases h1; cases h2
          exact ⟨⟨h3, h4⟩, h5⟩
        · rintro ⟨⟨h3, h4⟩, h5⟩
          exact ⟨inst, ps, hi, hp, h3, h4, h5⟩
      exact (mapM'_map_ok hiff).2 ⟨hex, rfl⟩
    · simpa using hne

/-- C48: the on-the-fly evaluator reads the original label map, and the instance map exactly when instance
sensitive, from the `gtFine` directory. -/
theorem C48_otf_samples (fs : Fs) (e : Ev) (hk : e.kind = .otf) (h : CtorOk e.ctor)
    (names : List Str) (hn : e.names = some names) (hrel : ∀ n ∈ names, Relative n) (category : Int)
    (data : List Sample) :
    categoryData fs e category = .ok data ↔
      names ≠ [] ∧ Roots fs e ∧ 1 ≤ category ∧ category ≤ 19 ∧
      ∃ inst ps, e.attrs.instanceSensitive = some inst ∧ evalParams .otf e.ctor.thin e.attrs = .ok ps ∧
        (∀ n ∈ names, fs.ex (slashed [fineDirOf e.ctor, n ++ "_gtFine_labelIds.png".toList]) = true ∧
          (inst = true → fs.ex (slashed [fineDirOf e.ctor, n ++ "_gtFine_instanceIds.png".toList]) = true)) ∧
        data = names.map fun n =>
          { name := n, category := category, edgePath := none
            segPath := some (slashed [fineDirOf e.ctor, n ++ "_gtFine_labelIds.png".toList])
            instPath := if inst then some (slashed [fineDirOf e.ctor, n ++ "_gtFine_instanceIds.png".toList])
              else none
            predPath := slashed [e.ctor.predRoot, "class_".toList ++ threeDigits category.toNat,
              n ++ predEnd e.kind e.ctor]
            params := ps } := by
  obtain ⟨g1, g2⟩ := gtFineRoot_eq h
  have hkb : e.kind ≠ .bsds := by rw [hk]; decide
  have hone : 1 ≤ category → category ≤ 19 → ∀ inst ps, e.attrs.instanceSensitive = some inst →
      evalParams .otf e.ctor.thin e.attrs = .ok ps → ∀ n ∈ names, ∀ s, sampleOfOtf fs e category n = .ok s ↔
        (fs.ex (slashed [fineDirOf e.ctor, n ++ "_gtFine_labelIds.png".toList]) = true ∧
          (inst = true → fs.ex (slashed [fineDirOf e.ctor, n ++ "_gtFine_instanceIds.png".toList]) = true)) ∧
        s = { name := n, category := category, edgePath := none
              segPath := some (slashed [fineDirOf e.ctor, n ++ "_gtFine_labelIds.png".toList])
              instPath := if inst then some (slashed [fineDirOf e.ctor, n ++ "_gtFine_instanceIds.png".toList])
                else none
              predPath := slashed [e.ctor.predRoot, "class_".toList ++ threeDigits category.toNat,
                n ++ predEnd e.kind e.ctor]
              params := ps } := by
    intro hc1 hc2 inst ps hi hp n hnn s
    have r1 : Relative (n ++ "_gtFine_labelIds.png".toList) := relative_append (hrel n hnn) (by unfold Relative; decide)
    have r2 : Relative (n ++ "_gtFine_instanceIds.png".toList) := relative_append (hrel n hnn) (by unfold Relative; decide)
    unfold sampleOfOtf
    rw [g1, hk, show segSuffix .otf = "_gtFine_labelIds.png".toList from rfl, pjoin_slash g2 r1,
      show instSuffix = "_gtFine_instanceIds.png".toList from rfl, pjoin_slash g2 r2,
      predPath_eq hkb h (by omega : 0 < category) (by omega) (hrel n hnn), hi, hp, hk]
    generalize slashed [fineDirOf e.ctor, n ++ "_gtFine_labelIds.png".toList] = p1
    generalize slashed [fineDirOf e.ctor, n ++ "_gtFine_instanceIds.png".toList] = p2
    generalize slashed [e.ctor.predRoot, "class_".toList ++ threeDigits category.toNat, n ++ predEnd .otf e.ctor] = p3
    cases inst <;> by_cases a : fs.ex p1 = true <;> by_cases b : fs.ex p2 = true <;>
      simp [a, b, bind, Except.bind, attr, assert, eq_comm]
  unfold categoryData
  simp only [bind_ok, assert_ok, beforeEvaluation_ok hkb h, hn, hk, if_true, Option.getD_some,
    show (numClasses .otf : Int) = 19 from rfl, decide_eq_true_eq, Option.isSome_some, true_and]
  constructor
  · rintro ⟨-, hr, -, ⟨hc1, hc2⟩, d, hd, -, hdne, h6⟩
    cases h6
    have hne : names ≠ [] := by
      rintro rfl
      simp [mapM'] at hd
      exact hdne hd
    have : ∃ inst ps, e.attrs.instanceSensitive = some inst ∧ evalParams .otf e.ctor.thin e.attrs = .ok ps := by
      have hfor := mapM'_ok.1 hd
      cases names with
      | nil => exact absurd rfl hne
      | cons a as =>
        rcases hfor with _ | ⟨h1, -⟩
        unfold sampleOfOtf at h1
        simp only [bind_ok, attr_ok, hk] at h1
        obtain ⟨-, -, inst, hi, h1⟩ := h1
        split at h1
        · rw [bind_ok] at h1
          obtain ⟨-, -, h1⟩ := h1
          rw [bind_ok] at h1
          obtain ⟨ps, hp, -⟩ := h1
          exact ⟨inst, ps, hi, hp⟩
        · obtain ⟨ps, hp, -⟩ := bind_ok.1 h1
          exact ⟨inst, ps, hi, hp⟩
    obtain ⟨inst, ps, hi, hp⟩ := this
    obtain ⟨h7, h8⟩ := (mapM'_map_ok (hone (by omega) (by omega) inst ps hi hp)).1 hd
    refine ⟨hne, hr, by omega, by omega, inst, ps, hi, hp, h7, ?_⟩
    rw [h8, hk]
  · rintro ⟨hne, hr, hc1, hc2, inst, ps, hi, hp, hex, rfl⟩
    refine ⟨(), hr, (), ⟨by omega, by omega⟩, _, ?_, (), ?_, rfl⟩
    · refine (mapM'_map_ok (hone (by omega) (by omega) inst ps hi hp)).2 ⟨hex, ?_⟩
      rw [hk]
    · intro hh
      exact hne (List.map_eq_nil_iff.1 hh)

/-- C48 (finding): whether the prediction files exist is not looked at: two file systems that agree on the
dataset and on the prediction root give the same samples, so a missing prediction is only noticed by a worker. -/
theorem C48_predictions_unchecked (fs fs' : Fs) (e : Ev) (hk : e.kind ≠ .bsds) (h : CtorOk e.ctor)
    (names : List Str) (hn : e.names = some names) (hrel : ∀ n ∈ names, Relative n)
    (hagree : ∀ p, (∀ q, p ≠ slashed [e.ctor.predRoot, q]) → fs.ex p = fs'.ex p)
    (hgt : ∀ q r, slashed [gtDirOf e.kind e.ctor, r] ≠ slashed [e.ctor.predRoot, q])
    (hroots : ∀ q, e.ctor.datasetRoot ≠ slashed [e.ctor.predRoot, q] ∧
      e.ctor.predRoot ≠ slashed [e.ctor.predRoot, q] ∧ gtDirOf e.kind e.ctor ≠ slashed [e.ctor.predRoot, q] ∧
      fineDirOf e.ctor ≠ slashed [e.ctor.predRoot, q])
    (hfine : ∀ q r, slashed [fineDirOf e.ctor, r] ≠ slashed [e.ctor.predRoot, q])
    (category : Int) (data : List Sample) (hok : categoryData fs e category = .ok data) :
    categoryData fs' e category = .ok data := by
  have hR : Roots fs e → Roots fs' e := by
    rintro ⟨a, b, c, d⟩
    refine ⟨?_, ?_, ?_, fun hc => ?_⟩
    · rw [← hagree _ fun q => (hroots q).1]; exact a
    · rw [← hagree _ fun q => (hroots q).2.1]; exact b
    · rw [← hagree _ fun q => (hroots q).2.2.1]; exact c
    · rw [← hagree _ fun q => (hroots q).2.2.2]; exact d hc
  by_cases ho : e.kind = .otf
  · rw [C48_otf_samples fs e ho h names hn hrel] at hok
    rw [C48_otf_samples fs' e ho h names hn hrel]
    obtain ⟨a, b, c, d, inst, ps, hi, hp, hx, hd⟩ := hok
    refine ⟨a, hR b, c, d, inst, ps, hi, hp, fun n hn' => ?_, hd⟩
    obtain ⟨x1, x2⟩ := hx n hn'
    rw [← hagree _ fun q => hfine q _, ← hagree _ fun q => hfine q _]
    exact ⟨x1, x2⟩
  · rw [C48_samples fs e hk ho h names hn hrel] at hok
    rw [C48_samples fs' e hk ho h names hn hrel]
    obtain ⟨a, b, c, d, inst, ps, hi, hp, hx, hd⟩ := hok
    refine ⟨a, hR b, c, d, inst, ps, hi, hp, fun n hn' => ?_, hd⟩
    obtain ⟨x1, x2⟩ := hx n hn'
    rw [← hagree _ fun q => hgt q _, ← hagree _ fun q => hgt q _]
    exact ⟨x1, x2⟩

theorem digitCh_inj : ∀ a < 10, ∀ b < 10, digitCh a = digitCh b → a = b := by decide

theorem threeDigits_inj {a b : Nat} (ha : a < 1000) (hb : b < 1000) (h : threeDigits a = threeDigits b) : a = b := by
  simp only [threeDigits, List.cons.injEq, and_true] at h
  obtain ⟨h1, h2, h3⟩ := h
  have := digitCh_inj _ (by omega) _ (by omega) h1
  have := digitCh_inj _ (by omega) _ (by omega) h2
  have := digitCh_inj _ (by omega) _ (by omega) h3
  omega

/-- C48: different (category, sample name) pairs never share a prediction file. -/
theorem C48_predictions_distinct (e : Ev) (hk : e.kind ≠ .bsds) (h : CtorOk e.ctor) (c c' : Int) (n n' : Str)
    (hc : 1 ≤ c ∧ c ≤ 20) (hc' : 1 ≤ c' ∧ c' ≤ 20) (hn : Relative n) (hn' : Relative n')
    (heq : predPath e c n = predPath e c' n') : c = c' ∧ n = n' := by
  rw [predPath_eq hk h (by omega) (by omega) hn, predPath_eq hk h (by omega) (by omega) hn'] at heq
  simp only [slashed, List.append_assoc, List.append_cancel_left_eq, List.cons.injEq, true_and] at heq
  obtain ⟨h1, h2⟩ := List.append_inj heq (by simp [threeDigits])
  have := threeDigits_inj (by omega) (by omega) h1
  refine ⟨by omega, ?_⟩
  simpa using h2

/-- C48: different sample names never share a ground-truth file, nor do the variants of one sample. -/
theorem C48_gt_distinct (k : Kind) (d : Str) (thin thin' inst inst' : Bool) (n n' : Str)
    (heq : slashed [d, gtFile k thin inst n] = slashed [d, gtFile k thin' inst' n']) (hv : thin = thin' ∧ inst = inst') :
    n = n' := by
  obtain ⟨rfl, rfl⟩ := hv
  simpa [slashed, gtFile] using heq

/-- C48: the four variants of one sample have four different file names. -/
theorem C48_variants_distinct (k : Kind) (thin thin' inst inst' : Bool) (n : Str)
    (heq : gtFile k thin inst n = gtFile k thin' inst' n) : thin = thin' ∧ inst = inst' := by
  rw [← edgeSuffix_eq, ← edgeSuffix_eq, List.append_cancel_left_eq] at heq
  revert heq
  cases k <;> cases thin <;> cases thin' <;> cases inst <;> cases inst' <;> decide

/-! ## BSDS -/

/-- C48: the BSDS evaluator assembles its samples exactly when the directories exist, there is at least one
sample name, the parameters were set, and the ground truth *and* the prediction of every sample exist. -/
theorem C48_bsds_samples (fs : Fs) (e : Ev) (hk : e.kind = .bsds) (hroot : DirArg e.ctor.datasetRoot)
    (hpred : DirArg e.ctor.predRoot) (names : List Str) (hn : e.names = some names)
    (hrel : ∀ n ∈ names, Relative n) (data : List Sample) :
    bsdsData fs e false = .ok data ↔
      names ≠ [] ∧ fs.ex e.ctor.datasetRoot = true ∧
      fs.ex (slashed [e.ctor.datasetRoot, "groundTruth".toList]) = true ∧ fs.ex e.ctor.predRoot = true ∧
      ∃ ps, evalParams .bsds e.ctor.thin e.attrs = .ok ps ∧
        (∀ n ∈ names, fs.ex (slashed [e.ctor.datasetRoot, "groundTruth".toList, n ++ ".mat".toList]) = true ∧
          fs.ex (slashed [e.ctor.predRoot, n ++ ".png".toList]) = true) ∧
        data = names.map fun n =>
          { name := n, category := 0
            edgePath := some (slashed [e.ctor.datasetRoot, "groundTruth".toList, n ++ ".mat".toList])
            segPath := none, instPath := none
            predPath := slashed [e.ctor.predRoot, n ++ ".png".toList], params := ps } := by
  have hgr : DirArg "groundTruth".toList ∧ Relative "groundTruth".toList := by unfold DirArg Relative; decide
  have hg : bsdsGtRoot e.ctor = slashed [e.ctor.datasetRoot, "groundTruth".toList] := pjoin_slash hroot hgr.2
  have hb : ∀ u : Unit, beforeEvaluation fs e = .ok u ↔ fs.ex e.ctor.datasetRoot = true ∧
      fs.ex (slashed [e.ctor.datasetRoot, "groundTruth".toList]) = true ∧ fs.ex e.ctor.predRoot = true := by
    intro u
    unfold beforeEvaluation
    simp only [hk, ne_eq, not_true_eq_false, if_false, if_true, bind_ok, assert_ok, hg]
    constructor
    · rintro ⟨-, a, -, b, c⟩; exact ⟨a, b, c⟩
    · rintro ⟨a, b, c⟩; exact ⟨(), a, (), b, c⟩
  have hone : ∀ ps, evalParams .bsds e.ctor.thin e.attrs = .ok ps → ∀ n ∈ names, ∀ s,
      sampleOfBsds fs e false n = .ok s ↔
        (fs.ex (slashed [e.ctor.datasetRoot, "groundTruth".toList, n ++ ".mat".toList]) = true ∧
          fs.ex (slashed [e.ctor.predRoot, n ++ ".png".toList]) = true) ∧
        s = { name := n, category := 0
              edgePath := some (slashed [e.ctor.datasetRoot, "groundTruth".toList, n ++ ".mat".toList])
              segPath := none, instPath := none
              predPath := slashed [e.ctor.predRoot, n ++ ".png".toList], params := ps } := by
    intro ps hp n hnn s
    have r1 : Relative (n ++ ".mat".toList) := relative_append (hrel n hnn) (by unfold Relative; decide)
    have r2 : Relative (n ++ ".png".toList) := relative_append (hrel n hnn) (by unfold Relative; decide)
    have e1 : pjoin (slashed [e.ctor.datasetRoot, "groundTruth".toList]) (n ++ ".mat".toList)
        = slashed [e.ctor.datasetRoot, "groundTruth".toList, n ++ ".mat".toList] := by
      rw [pjoin_slash (dirArg_slash hgr.1) r1]; simp [slashed]
    unfold sampleOfBsds
    simp only [hk, hg, e1, Bool.false_eq_true, if_false, show predSuffix .bsds e.ctor = ".png".toList from rfl,
      pjoin_slash hpred r2, bind_ok, assert_ok, hp, Except.ok.injEq]
    constructor
    · rintro ⟨-, a, -, b, ps', rfl, rfl⟩; exact ⟨⟨a, b⟩, rfl⟩
    · rintro ⟨⟨a, b⟩, rfl⟩; exact ⟨(), a, (), b, ps, rfl, rfl⟩
  unfold bsdsData
  simp only [bind_ok, hb, hn, assert_ok, decide_eq_true_eq]
  constructor
  · rintro ⟨-, ⟨a, b, c⟩, d, hd, -, hdne, h6⟩
    cases h6
    have hne : names ≠ [] := by
      rintro rfl
      simp [mapM'] at hd
      exact hdne hd
    have : ∃ ps, evalParams .bsds e.ctor.thin e.attrs = .ok ps := by
      have hfor := mapM'_ok.1 hd
      cases names with
      | nil => exact absurd rfl hne
      | cons x xs =>
        rcases hfor with _ | ⟨h1, -⟩
        unfold sampleOfBsds at h1
        simp only [bind_ok, hk] at h1
        obtain ⟨-, -, -, -, ps, hp, -⟩ := h1
        exact ⟨ps, hp⟩
    obtain ⟨ps, hp⟩ := this
    obtain ⟨h7, h8⟩ := (mapM'_map_ok (hone ps hp)).1 hd
    exact ⟨hne, a, b, c, ps, hp, h7, h8⟩
  · rintro ⟨hne, a, b, c, ps, hp, hex, rfl⟩
    exact ⟨(), ⟨a, b, c⟩, _, (mapM'_map_ok (hone ps hp)).2 ⟨hex, rfl⟩, (), by simpa using hne, rfl⟩

/-- C48: with `no_split_dir` and names of the form `<split>/<stem>` without a further occurrence of `<split>/`,
predictions are looked for directly in the prediction root. -/
theorem C48_no_split_dir (split stem : Str) (hs : split ≠ [])
    (hocc : ∀ a b, stem ≠ a ++ (split ++ '/' :: b)) :
    removeAll (split ++ ['/']) (split ++ '/' :: stem) = stem := by
  have hrest : ∀ s : Str, (∀ a b, s ≠ a ++ (split ++ '/' :: b)) → removeAll (split ++ ['/']) s = s := by
    intro s
    induction s with
    | nil => intro _; simp [removeAll]
    | cons c s ih =>
      intro h
      unfold removeAll
      rw [if_neg, ih]
      · intro a b hab
        exact h (c :: a) b (by rw [hab]; rfl)
      · rintro ⟨-, hp⟩
        rw [List.isPrefixOf_iff_prefix] at hp
        obtain ⟨t, ht⟩ := hp
        exact h [] t (by rw [← ht]; simp)
  have hlen : 0 < split.length := List.length_pos_iff.2 hs
  cases split with
  | nil => exact absurd rfl hs
  | cons c cs =>
    simp only [List.cons_append]
    unfold removeAll
    rw [if_pos]
    · have : (cs ++ '/' :: stem).drop ((c :: (cs ++ ['/'])).length - 1) = stem := by
        simp [List.drop_append]
      rw [this]
      exact hrest stem hocc
    · refine ⟨by simp, ?_⟩
      rw [List.isPrefixOf_iff_prefix]
      exact ⟨stem, by simp⟩

/-- C48 (finding): `no_split_dir` removes every occurrence of `<split>/`, also inside another directory name. -/
theorem C48_no_split_dir_greedy :
    removeAll "test/".toList "latest/test/1".toList = "la1".toList := by decide +kernel

/-! ## A concrete case -/

/-- An evaluator with one sample. -/
def exEv : Ev :=
  { kind := .half
    ctor := { datasetRoot := "data".toList, predRoot := "out".toList, split := "val".toList, thin := true }
    names := some ["bonn/b".toList]
    attrs := { thinning := some true, nms := some false, maxDist := some (2 / 100), killInternal := some false,
               skipIfNonexistent := some false, instanceSensitive := some true } }

/-- A file system that has everything but predictions. -/
def exFs : Fs :=
  { ex := fun p => decide (p ∈ ["data".toList, "out".toList, "data/gtEval/val".toList, "data/gtFine/val".toList,
      "data/gtEval/val/bonn/b_gtProc_half_thin_isedge.png".toList,
      "data/gtEval/val/bonn/b_gtFine_labelTrainIds.png".toList])
    read := fun _ => none, list := fun _ => none }

theorem exEv_ok : CtorOk exEv.ctor where
  root := by unfold DirArg; decide
  pred := by unfold DirArg; decide
  split := .inl rfl
  gt := by intro d hd; simp [exEv] at hd
  suffix := by intro d hd; simp [exEv] at hd

example : categoryData exFs exEv 7 = .ok [
    { name := "bonn/b".toList, category := 7
      edgePath := some "data/gtEval/val/bonn/b_gtProc_half_thin_isedge.png".toList
      segPath := some "data/gtEval/val/bonn/b_gtFine_labelTrainIds.png".toList
      instPath := none, predPath := "out/class_007/bonn/b_leftImg8bit.png".toList
      params := ⟨1, true, false, 2 / 100, some false, some false, none⟩ }] := by
  rw [C48_samples exFs exEv (by decide) (by decide) exEv_ok ["bonn/b".toList] rfl (by unfold Relative; decide)]
  refine ⟨by simp, ?_, by omega, by decide, true, _, rfl, rfl, by decide, rfl⟩
  unfold Roots
  decide

example : categoryData exFs exEv 20 = .error .assertionError := by decide +kernel

/-! ### Absolute names and directories -/

theorem pjoin_abs {a b : Str} (hb : b.head? = some '/') : pjoin a b = b := by
  unfold pjoin; rw [if_pos hb]

theorem head_append {a b : Str} (h : a.head? = some '/') : (a ++ b).head? = some '/' := by
  cases a with
  | nil => simp at h
  | cons c a => simpa using h

/-- One entry comes from one name. -/
theorem sampleOf_ok {fs : Fs} {e : Ev} {category : Int} {name : Str} {s : Sample} (hok : sampleOf fs e category name = .ok s) :
    ∃ inst ps, e.attrs.instanceSensitive = some inst ∧
      s = ⟨name, category, some (pjoin (gtEvalRoot e.kind e.ctor) (name ++ edgeSuffix e.kind e.ctor.thin inst)),
        some (pjoin (gtEvalRoot e.kind e.ctor) (name ++ segSuffix e.kind)), none, predPath e category name, ps⟩ := by
  unfold sampleOf at hok
  simp only [bind_ok, assert_ok, attr_ok, exists_const] at hok
  obtain ⟨inst, hi, _, _, ps, _, h⟩ := hok
  cases h
  exact ⟨inst, ps, hi, rfl⟩

theorem categoryData_mem {fs : Fs} {e : Ev} (ho : e.kind ≠ .otf) {category : Int} {data : List Sample}
    (hok : categoryData fs e category = .ok data) {s : Sample} (hs : s ∈ data) :
    ∃ name, sampleOf fs e category name = .ok s := by
  unfold categoryData at hok
  simp only [bind_ok, ho, if_false] at hok
  obtain ⟨_, _, _, _, d, hd, _, h0, h⟩ := hok
  cases h
  clear h0
  rw [mapM'_ok] at hd
  generalize e.names.getD [] = l at hd
  induction hd with
  | nil => simp at hs
  | cons h _ ih =>
    rcases List.mem_cons.mp hs with rfl | hs
    · exact ⟨_, h⟩
    · exact ih hs

/-- C48, limit: a sample name that is an absolute path is used as it is — its ground truth, its segmentation and its
prediction are looked for at that path, outside both roots, and the prediction is the same file for every category. -/
theorem C48_absolute_names (fs : Fs) (e : Ev) (hk : e.kind ≠ .bsds) (ho : e.kind ≠ .otf) (category : Int)
    (data : List Sample) (hok : categoryData fs e category = .ok data) (s : Sample) (hs : s ∈ data)
    (ha : s.name.head? = some '/') :
    s.predPath = s.name ++ predEnd e.kind e.ctor ∧ s.segPath = some (segFile e.kind s.name) ∧
      ∃ inst, e.attrs.instanceSensitive = some inst ∧ s.edgePath = some (gtFile e.kind e.ctor.thin inst s.name) := by
  obtain ⟨name, hn⟩ := categoryData_mem ho hok hs
  obtain ⟨inst, ps, hi, rfl⟩ := sampleOf_ok hn
  simp only at ha
  refine ⟨?_, ?_, inst, hi, ?_⟩
  · simp only [predPath, predSuffix_eq hk]
    exact pjoin_abs (head_append ha)
  · show some (pjoin _ (name ++ _)) = _
    rw [pjoin_abs (head_append ha), segSuffix_eq]
  · show some (pjoin _ (name ++ _)) = _
    rw [pjoin_abs (head_append ha), edgeSuffix_eq]

/-- C48: an absolute `gt_dir` replaces the dataset root: the ground truth is read from below that directory. -/
theorem C48_absolute_gt_dir (fs : Fs) (e : Ev) (hk : e.kind ≠ .bsds) (ho : e.kind ≠ .otf) (d : Str)
    (hd : e.ctor.gtDir = some d) (hd' : DirArg d) (habs : d.head? = some '/')
    (hsp : e.ctor.split = "val".toList ∨ e.ctor.split = "test".toList) (category : Int)
    (data : List Sample) (hok : categoryData fs e category = .ok data) (s : Sample) (hs : s ∈ data)
    (hr : Relative s.name) :
    ∃ inst, e.attrs.instanceSensitive = some inst ∧
      s.edgePath = some (if e.kind = .sbd ∨ e.kind = .reanno then slashed [d, gtFile e.kind e.ctor.thin inst s.name]
        else slashed [d, e.ctor.split, gtFile e.kind e.ctor.thin inst s.name]) := by
  obtain ⟨name, hn⟩ := categoryData_mem ho hok hs
  obtain ⟨inst, ps, hi, rfl⟩ := sampleOf_ok hn
  simp only at hr
  refine ⟨inst, hi, ?_⟩
  have hov : override "gtEval".toList e.ctor.gtDir = d := by
    rw [hd]; unfold override
    simp [hd'.1]
  have hsp' : DirArg e.ctor.split ∧ Relative e.ctor.split := by
    unfold DirArg Relative
    rcases hsp with h | h <;> rw [h] <;> decide
  simp only [gtEvalRoot, hov, pjoin_abs habs, edgeSuffix_eq, Option.some.injEq]
  have hrel := gtFile_relative (k := e.kind) (thin := e.ctor.thin) (inst := inst) hr
  have h1 := pjoin_slash hd' hrel
  have h2 : pjoin (pjoin d e.ctor.split) (gtFile e.kind e.ctor.thin inst name) =
      slashed [d, e.ctor.split, gtFile e.kind e.ctor.thin inst name] := by
    rw [pjoin_slash hd' hsp'.2, pjoin_slash (dirArg_slash hsp'.1) hrel]
    simp [slashed]
  cases hkk : e.kind <;> rw [hkk] at h1 h2 <;> first | exact absurd hkk hk | simpa using h1 | simpa using h2

/-- The same evaluator with an absolute ground-truth directory and one absolute sample name. -/
def exAbs : Ev := { exEv with names := some ["/m/b".toList], ctor := { exEv.ctor with gtDir := some "/g".toList } }

def exAbsFs : Fs := { ex := fun _ => true, read := fun _ => none, list := fun _ => none }

example : ∃ data, categoryData exAbsFs exAbs 7 = .ok data ∧ ∀ s ∈ data, s.name.head? = some '/' ∧
    s.predPath = "/m/b_leftImg8bit.png".toList := by
  have h : ∃ data, categoryData exAbsFs exAbs 7 = .ok data ∧ data.all (fun s => s.name == "/m/b".toList) = true :=
    ⟨_, rfl, by decide +kernel⟩
  obtain ⟨data, h1, h2⟩ := h
  refine ⟨data, h1, fun s hs => ?_⟩
  have hn : s.name = "/m/b".toList := by simpa using List.all_eq_true.mp h2 s hs
  have ha : s.name.head? = some '/' := by rw [hn]; decide
  refine ⟨ha, ?_⟩
  rw [(C48_absolute_names exAbsFs exAbs (by decide) (by decide) 7 data h1 s hs ha).1, hn]
  decide

example : ∃ data, categoryData exAbsFs { exAbs with names := some ["b".toList] } 7 = .ok data ∧ ∀ s ∈ data,
    s.edgePath = some "/g/val/b_gtProc_half_thin_isedge.png".toList := by
  have h : ∃ data, categoryData exAbsFs { exAbs with names := some ["b".toList] } 7 = .ok data ∧
      data.all (fun s => s.name == "b".toList) = true := ⟨_, rfl, by decide +kernel⟩
  obtain ⟨data, h1, h2⟩ := h
  refine ⟨data, h1, fun s hs => ?_⟩
  have hn : s.name = "b".toList := by simpa using List.all_eq_true.mp h2 s hs
  obtain ⟨inst, hi, he⟩ := C48_absolute_gt_dir exAbsFs { exAbs with names := some ["b".toList] } (by decide) (by decide)
    "/g".toList rfl (by unfold DirArg; decide) (by decide) (.inl rfl) 7 data h1 s hs (by rw [hn]; unfold Relative; decide)
  have : inst = true := by
    have : some true = some inst := hi
    simpa using this.symm
  subst this
  rw [he, hn]
  decide

end EdgeEval.Props
