import Verif.Props.ConvertSbdTruth

/-!
# C54: concrete cases
-/

namespace EdgeEval.Props

open Spec Text Evaluators Samples Datasets EdgeEval.Convert EdgeEval.ConvertSbd

theorem sound_mono {lib : DTLib} {c : Bool} {q : Int} {R R' : ℝ} (h0 : 0 ≤ R') (h : R' ≤ R) (H : SoundDT lib c q R) :
    SoundDT lib c q R' := by
  obtain ⟨fl, u, hfl, hadd, hz, hl, hfar⟩ := H
  refine ⟨fl, u, ⟨hfl.mono, fun n hn => hfl.whole n (by linarith), hfl.err, hfl.nonneg, ?_⟩, hadd, hz, hl,
    fun rows cols f i j hi hj hf ha => le_trans (by linarith) (hfar rows cols f i j hi hj hf ha)⟩
  have hu := hfl.nonneg
  have hR0 : 0 ≤ R := h0.trans h
  have h1 : (2 * R' + 1) ^ 3 ≤ (2 * R + 1) ^ 3 := pow_le_pow_left₀ (by linarith) (by linarith) 3
  have h2 : 2 * u * (R' + 1) ≤ 2 * u * (R + 1) := mul_le_mul_of_nonneg_left (by linarith) (by linarith)
  refine lt_of_le_of_lt (mul_le_mul h2 h1 ?_ ?_) hfl.small
  · positivity
  · exact mul_nonneg (by linarith) (by linarith)

/-- 22 rows, 12 columns; category 1 (one instance) from column 6 on. -/
def exSbdSeg : Img Nat := ⟨22, 12, fun _ j => if 6 ≤ j then 1 else 0⟩

/-- The annotation files of every example sample. -/
def exSbdMats : ClsMat × InstMat :=
  (⟨⟨20, 22, 12, fun k _ j => k == 0 && j == 6⟩, exSbdSeg, [1]⟩,
   ⟨⟨20, 22, 12, fun k _ j => k == 0 && j == 7⟩, exSbdSeg, [1]⟩)

/-- An SBD directory with a training sample, a validation sample and the re-annotated validation sample. -/
def exSbdFs : SbdFs where
  ex _ := true
  cls _ _ := .ok exSbdMats.1
  inst _ _ := .ok exSbdMats.2
  text p := if p = "d/train.txt".toList then some "a\n".toList else if p = "d/val.txt".toList then some "b\n".toList else none
  names _ := .ok ["b".toList]

def exSbdArgs (re : Bool) : SbdArgs := { root := "d".toList, reanno := re }

theorem exSbdFits : InstFits exSbdMats.2.seg exSbdMats.2.cats exSbdMats.1.present exSbdMats.1.seg :=
  ⟨rfl, rfl, by decide, by decide⟩

theorem exSbdBase (re : Bool) : SbdBase exSbdFs (exSbdArgs re) ["a".toList, "b".toList] fun _ => exSbdMats where
  root := show "d".toList ≠ [] ∧ "d".toList.getLast? ≠ some '/' by decide
  out := show "gtEval".toList ≠ [] ∧ "gtEval".toList.getLast? ≠ some '/' by decide
  outRel := by unfold Relative; show "gtEval".toList.head? ≠ _; decide
  clsDir := rfl
  instDir := rfl
  samples n hn := ⟨by revert n; unfold Relative; decide, rfl, rfl, rfl, rfl, by decide, exSbdFits⟩

theorem exSbdTree (re : Bool) : SbdTree exSbdFs (exSbdArgs re) ["a".toList] ["b".toList] fun _ => exSbdMats where
  base := exSbdBase re
  trainFile := by show getSamples exSbdFs (slashed ["d".toList, "train.txt".toList]) = _; decide +kernel
  valFile := by show getSamples exSbdFs (slashed ["d".toList, "val.txt".toList]) = _; decide +kernel
  trainNe := by decide
  valNe := by decide

theorem exact2 : SoundDT (refLib 2) true 0 2 := refLib_exact 2 true 0

theorem exact1 : SoundDT (refLib 2) true 0 1 := sound_mono (by norm_num) (by norm_num) exact2

/-- The plain script on the example directory. -/
example : ∃ F, ∀ fuel, F ≤ fuel → ∃ w, convertSbd (refLib 2) fuel exSbdFs (exSbdArgs false) = some ⟨w, none⟩ ∧
    ∃ d, ("d/gtEval/b_thin_isedge.png".toList, d) ∈ w := by
  obtain ⟨F, h⟩ := C54_script (refLib 2) exSbdFs (exSbdArgs false) _ _ _ (exSbdTree false) exact2 exact1 rfl
  refine ⟨F, fun fuel hf => ?_⟩
  obtain ⟨w, h1, h2⟩ := h fuel hf
  exact ⟨w, h1, h2.2 "b".toList (by simp) (.edge true true)⟩

theorem exReannoDir (re : Bool) (d : Str) :
    ReannoDir exSbdFs (slashed [(exSbdArgs re).root, d]) ["b".toList] fun _ => exSbdMats where
  ex := rfl
  clsDir := rfl
  instDir := rfl
  list := rfl
  samples n hn := ⟨⟨by revert n; unfold Relative; decide, rfl, rfl, rfl, rfl⟩,
    ⟨by decide, rfl, rfl, rfl, by decide, by decide⟩⟩

/-- With `--reanno`: the list of re-annotated samples is written last. -/
example : ∃ F, ∀ fuel, F ≤ fuel → ∃ t, convertSbd (refLib 2) fuel exSbdFs (exSbdArgs true) = some t ∧ t.err = none ∧
    t.written.getLast? = some ("d/reanno_val.txt".toList, .text "b\n".toList) := by
  obtain ⟨F, h⟩ := C54_reanno (refLib 2) exSbdFs (exSbdArgs true) _ _ _ (exSbdTree true) exact2 exact1 rfl
    ["b".toList] ["b".toList] _ _ (exReannoDir true _) (exReannoDir true _)
  refine ⟨F, fun fuel hf => ?_⟩
  obtain ⟨w, r, t, h1, -⟩ := h fuel hf
  refine ⟨_, h1, rfl, ?_⟩
  simp only [List.getLast?_append, List.getLast?_singleton, Option.some_or, Option.some.injEq, Prod.mk.injEq]
  exact ⟨by decide, by rw [show linesText ['\n'] ["b".toList] = "b\n".toList by decide]⟩

/-- Without the list of validation samples, the training samples are converted before the run fails. -/
example : ∃ F, ∀ fuel, F ≤ fuel → ∃ w,
    convertSbd (refLib 2) fuel { exSbdFs with text := fun p => if p = "d/train.txt".toList then some "a\n".toList else none }
      (exSbdArgs true) = some ⟨w, some .fileNotFoundError⟩ ∧ ∃ d, ("d/gtEval/a_labelIds.png".toList, d) ∈ w := by
  obtain ⟨F, h⟩ := (C54_no_list (refLib 2)
    { exSbdFs with text := fun p => if p = "d/train.txt".toList then some "a\n".toList else none } (exSbdArgs true)
    (exSbdBase true).root).2.2 ["a".toList] (fun _ => exSbdMats)
    ⟨(exSbdBase true).root, (exSbdBase true).out, (exSbdBase true).outRel, rfl, rfl, fun n hn =>
      ⟨by revert n; unfold Relative; decide, rfl, rfl, rfl, rfl, by decide, exSbdFits⟩⟩ (by decide)
    (by decide +kernel) exact2 exact1
    .fileNotFoundError (Or.inl ⟨by decide +kernel, rfl⟩)
  refine ⟨F, fun fuel hf => ?_⟩
  obtain ⟨w, h1, h2⟩ := h fuel hf
  exact ⟨w, h1, h2.2 "a".toList (by simp) .labels⟩

/-- Without the re-annotated files, the two splits are converted before the run fails. -/
example : ∃ F, ∀ fuel, F ≤ fuel → ∃ w,
    convertSbd (refLib 2) fuel { exSbdFs with ex := fun p => decide (p ≠ "d/gt_reanno_thin".toList) } (exSbdArgs true) =
      some ⟨w, some .assertionError⟩ ∧ ∃ d, ("d/gtEval/b_labelIds.png".toList, d) ∈ w := by
  have hne : ∀ (s : Str) (l : List Str), s ≠ "gt_reanno_thin".toList → slashed ["d".toList, s] ≠ "d/gt_reanno_thin".toList := by
    intro s l hs he
    exact hs (by simpa [slashed] using he)
  obtain ⟨F, h⟩ := C54_reanno_checked_late (refLib 2)
    { exSbdFs with ex := fun p => decide (p ≠ "d/gt_reanno_thin".toList) } (exSbdArgs true) ["a".toList] ["b".toList]
    (fun _ => exSbdMats)
    ⟨⟨(exSbdBase true).root, (exSbdBase true).out, (exSbdBase true).outRel, by decide +kernel, by decide +kernel,
      fun n hn => ⟨by revert n; unfold Relative; decide, by revert n; decide +kernel, by revert n; decide +kernel, rfl, rfl,
        by decide, exSbdFits⟩⟩,
      (exSbdTree true).trainFile, (exSbdTree true).valFile, by decide, by decide⟩ exact2 exact1 rfl
    ⟨"gt_reanno_thin".toList, by simp, by decide +kernel, by decide⟩
  refine ⟨F, fun fuel hf => ?_⟩
  obtain ⟨w, h1, h2⟩ := h fuel hf
  exact ⟨w, h1, h2.2 "b".toList (by simp) .labels⟩

/-- A missing MATLAB file, and a segmentation with too few rows. -/
example : routine (refLib 2) 0 { exSbdFs with ex := fun p => decide (p ≠ "d/inst_orig/a.mat".toList) }
      (scriptOpts (exSbdArgs false) false) "a".toList = .error .assertionError :=
  (C54_refusals _ _ _ _ _ (exSbdBase false).root (by unfold Relative; decide)).1
    ⟨"d/inst_orig/a.mat".toList, by decide +kernel, by decide +kernel⟩

example : reannoIS exSbdMats.1 { exSbdMats.2 with cats := [1, 2] } = .error .assertionError :=
  (C54_reanno_refusals _ _).1 ⟨2, by decide, by decide⟩

example : reannoIS { exSbdMats.1 with present := [1, 21] } exSbdMats.2 = .error .indexError :=
  (C54_reanno_refusals _ _).2.2 (by decide) rfl ⟨21, by decide, by decide⟩

example : ∃ e, loadIS exSbdMats.1 exSbdMats.2 = .ok e ∧ e.at_ 0 3 6 = true ∧ e.at_ 1 3 6 = false := by
  obtain ⟨e, h1, -, -, -, h2⟩ := (C54_deprecated_loader exSbdMats.1 exSbdMats.2).2 (by decide) (by decide)
  refine ⟨e, h1, (h2 0 3 6).2 (Or.inl rfl), ?_⟩
  rw [Bool.eq_false_iff, ne_eq, h2]
  rintro (h | ⟨v, hv, -⟩)
  · cases h
  · have := List.mem_of_getElem? hv
    revert this
    decide

/-- The file system after the conversion with `--reanno`. -/
def exSbdAfter (w : List (Str × SbdContent)) : Fs where
  ex p := decide (p ∈ ["d".toList, "p".toList, "d/gtEval".toList, "d/val.txt".toList] ++ w.map Prod.fst)
  read p := if p = "d/train.txt".toList then some "a\n".toList else if p = "d/val.txt".toList then some "b\n".toList
    else if p = "d/reanno_val.txt".toList then some "b\n".toList else none
  list _ := none

def exSbdEv (k : Evaluators.Kind) (thin : Bool) : Ev where
  kind := k
  ctor := { datasetRoot := "d".toList, predRoot := "p".toList, split := "val".toList, thin := thin }
  names := none
  attrs := { exEv.attrs with scale := some 1 }

theorem exSbdCtor (k : Evaluators.Kind) (thin : Bool) : CtorOk (exSbdEv k thin).ctor :=
  ⟨show "d".toList ≠ [] ∧ "d".toList.getLast? ≠ some '/' by decide,
   show "p".toList ≠ [] ∧ "p".toList.getLast? ≠ some '/' by decide, Or.inl rfl, (by intro d h; cases h),
   (by intro d h; cases h)⟩

theorem exSbdShows (w : List (Str × SbdContent)) (h : ∀ f s, (f, .text s) ∈ w → f = "d/reanno_val.txt".toList ∧
    s = "b\n".toList) : SbdShows (exSbdAfter w) w := by
  rintro ⟨f, d⟩ hx
  refine ⟨?_, ?_⟩
  · show decide (f ∈ _ ++ w.map Prod.fst) = true
    rw [decide_eq_true_eq, List.mem_append]
    exact Or.inr (List.mem_map.2 ⟨_, hx, rfl⟩)
  · intro s hs
    simp only at hs
    subst hs
    obtain ⟨rfl, rfl⟩ := h f s hx
    show (exSbdAfter []).read "d/reanno_val.txt".toList = _
    decide

theorem exSbdEx (w : List (Str × SbdContent)) :
    ∀ p ∈ ["d".toList, "p".toList, "d/gtEval".toList, "d/val.txt".toList], (exSbdAfter w).ex p = true := by
  intro p hp
  show decide (p ∈ _ ++ _) = true
  rw [decide_eq_true_eq, List.mem_append]
  exact Or.inl hp

theorem exSbdRoots (w : List (Str × SbdContent)) (k : Evaluators.Kind) (hk : k = .sbd ∨ k = .reanno) (thin : Bool) :
    Roots (exSbdAfter w) (exSbdEv k thin) := by
  have h := exSbdEx w
  have hg : gtDirOf k (exSbdEv k thin).ctor = "d/gtEval".toList := by
    unfold gtDirOf
    rw [if_pos hk]
    show slashed ["d".toList, "gtEval".toList] = _
    decide
  refine ⟨h _ (by simp [exSbdEv]), h _ (by simp [exSbdEv]), ?_, ?_⟩
  · show (exSbdAfter w).ex (gtDirOf k (exSbdEv k thin).ctor) = true
    rw [hg]
    exact h _ (by simp)
  · rintro (h | h | h) <;> rcases hk with rfl | rfl <;> cases h

/-- After the conversion the SBD evaluator finds its sample. -/
example : ∃ w, setSampleNames (exSbdAfter w) .sbd (exSbdEv .sbd true).ctor .none none none = (some ["b".toList], none) ∧
    ∃ data, categoryData (exSbdAfter w) { exSbdEv .sbd true with names := some ["b".toList] } 20 = .ok data ∧
      data.map (fun s => s.edgePath) = [some "d/gtEval/b_thin_isedge.png".toList] := by
  obtain ⟨F, h⟩ := C54_script (refLib 2) exSbdFs (exSbdArgs false) _ _ _ (exSbdTree false) exact2 exact1 rfl
  obtain ⟨w, -, h2⟩ := h F le_rfl
  have hw : ∀ f s, (f, SbdContent.text s) ∈ w → f = "d/reanno_val.txt".toList ∧ s = "b\n".toList := by
    intro f s hx
    obtain ⟨n, -, v, -, hv⟩ := h2.1 f _ hx
    cases v with
    | edge thin inst => cases thin <;> exact hv.elim
    | _ => exact hv.elim
  obtain ⟨-, k1, k2⟩ := C54_evaluator_ready (exSbdArgs false) _ _ _ w h2 (exSbdBase false).out (by decide)
    (by unfold Relative OneLine; decide) ['\n'] (Or.inl rfl) (exSbdAfter w) (exSbdShows w hw)
    (exSbdEx w _ (by show slashed ["d".toList, "val.txt".toList] ∈ _; decide))
    (by show (exSbdAfter []).read _ = _; decide +kernel)
    (exSbdEv .sbd true) rfl (exSbdCtor .sbd true) rfl rfl (Or.inr ⟨rfl, rfl⟩) (exSbdRoots w .sbd (Or.inl rfl) true) true rfl _ rfl
  exact ⟨w, k1, _, k2 20 (by omega) (by omega), by decide +kernel⟩

/-- With `--reanno`, the evaluator for re-annotated samples finds them in the given list; a sample that is not
re-annotated makes it fail. -/
example : ∃ w, setSampleNames (exSbdAfter w) .reanno (exSbdEv .reanno true).ctor .none (some "d/reanno_val.txt".toList) none =
      (some ["b".toList], none) ∧
    (∃ data, categoryData (exSbdAfter w) { exSbdEv .reanno true with names := some ["b".toList] } 20 = .ok data ∧
      data.map (fun s => s.edgePath) = [some "d/gtEval/b_reanno_thin_isedge.png".toList]) ∧
    ∀ data, categoryData (exSbdAfter w) { exSbdEv .reanno true with names := some ["a".toList] } 20 ≠ .ok data := by
  obtain ⟨F, h⟩ := C54_reanno (refLib 2) exSbdFs (exSbdArgs true) _ _ _ (exSbdTree true) exact2 exact1 rfl
    ["b".toList] ["b".toList] _ _ (exReannoDir true _) (exReannoDir true _)
  obtain ⟨w, r, t, -, h2, h3, h4⟩ := h F le_rfl
  have hL : linesText ['\n'] ["b".toList] = "b\n".toList := by decide
  have hw : ∀ f s, (f, SbdContent.text s) ∈ w ++ r ++ t ++
      [(slashed [(exSbdArgs true).root, "reanno_val.txt".toList], .text (linesText ['\n'] ["b".toList]))] →
      f = "d/reanno_val.txt".toList ∧ s = "b\n".toList := by
    intro f s hx
    simp only [List.mem_append] at hx
    rcases hx with ((hx | hx) | hx) | hx
    · obtain ⟨n, -, v, -, hv⟩ := h2.1 f _ hx
      cases v with
      | edge thin inst => cases thin <;> exact hv.elim
      | _ => exact hv.elim
    · obtain ⟨n, -, _, _, -, hv, -⟩ := h3.1 f _ hx
      cases hv
    · obtain ⟨n, -, _, _, -, hv, -⟩ := h4.1 f _ hx
      cases hv
    · rw [List.mem_singleton] at hx
      injection hx with hx1 hx2
      injection hx2 with hx2
      exact ⟨hx1, hx2.trans hL⟩
  obtain ⟨k1, k2⟩ := C54_reanno_evaluator (exSbdArgs true) _ _ _ _ _ _ w r t h2 h3 h4 (exSbdBase true).out
    (by decide) (exSbdAfter (w ++ r ++ t ++
      [(slashed [(exSbdArgs true).root, "reanno_val.txt".toList], .text (linesText ['\n'] ["b".toList]))]))
    (exSbdShows _ hw)
    (by
      intro f hf
      change decide (_ ∈ _ ++ _) = true at hf
      rw [decide_eq_true_eq, List.mem_append] at hf
      rcases hf with hf | hf
      · exfalso
        have : ∀ p ∈ ["d".toList, "p".toList, "d/gtEval".toList, "d/val.txt".toList], ¬ "d/gtEval/".toList <+: p := by decide
        refine this _ hf ⟨f, ?_⟩
        show _ = slashed ["d".toList, "gtEval".toList, f]
        simp [slashed]
      · rw [List.mem_map] at hf
        obtain ⟨⟨g, d⟩, hg, rfl⟩ := hf
        simp only [List.mem_append, List.mem_singleton] at hg ⊢
        rcases hg with hg | hg
        · exact ⟨d, hg⟩
        · exfalso
          injection hg with hg1 _
          have he : slashed ["d".toList, "gtEval".toList, f] = slashed ["d".toList, "reanno_val.txt".toList] := hg1
          simp [slashed] at he)
    (exSbdEv .reanno true) rfl (exSbdCtor .reanno true) rfl (Or.inr ⟨rfl, rfl⟩) (exSbdRoots _ .reanno (Or.inr rfl) true)
    true rfl _ rfl
  refine ⟨_, k1 (by decide) (by unfold OneLine; decide), ⟨_, (k2 ["b".toList] (by decide) (by unfold Relative; decide) 20 (by omega) (by omega)
    _).2 ⟨by decide, rfl⟩, by decide +kernel⟩, ?_⟩
  intro data hd
  have := ((k2 ["a".toList] (by decide) (by unfold Relative; decide) 20 (by omega) (by omega) data).1 hd).1 "a".toList (by simp)
  revert this
  decide

/-- A border pixel of the instance in the example: ground truth without prediction. -/
example (im : Rgb) (P : Img Nat) (x : Inputs)
    (him : RawEdges 2 (addIgnorePixel exSbdSeg 5 21) (some (exSbdSeg, [1])) [1] im)
    (hx : SampleInputs im P none 1 1 5 (((1 : Nat) : Int) - 1) x) : x.gt.at_ 4 6 = 1 ∧ x.pred.at_ 4 6 = 0 := by
  refine C54_border_instances 2 exSbdSeg _ P (bordered_add _) ?_ exSbdSeg [1] [1] im him ⟨rfl, rfl, by decide, by decide⟩
    none 1 (by omega) (by omega) (by simp) x hx ⟨(5, 6), ?_⟩ 0 rfl (4, 6) (5, 5) ?_ ?_ ?_ ?_ ?_ ?_ ?_
  · intro i _ j _
    show (if 6 ≤ j then 1 else 0) ≠ 21
    split <;> decide
  · exact ⟨⟨by decide, by decide⟩, by decide⟩
  · exact ⟨by decide, by decide⟩
  · unfold InBorder; decide
  · decide
  · exact ⟨by decide, by decide⟩
  · unfold InBorder; decide
  · decide
  · unfold pdist
    rw [Real.sqrt_le_left (by norm_num)]
    norm_num

/-- The instance-insensitive ground truth of the example has no border pixels. -/
example : ¬ SbdEdge 2 (addIgnorePixel exSbdSeg 5 21) none [1] 1 (4, 6) :=
  C54_border_free 2 le_rfl exSbdSeg _ (bordered_add _) (by
    intro i _ j _
    show (if 6 ≤ j then 1 else 0) ≠ 21
    split <;> decide) [1] 1 (by decide) (4, 6) ⟨by decide, by decide⟩ (by unfold InBorder; decide)

end EdgeEval.Props
