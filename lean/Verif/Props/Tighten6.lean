import Verif.Props.ConvertSbdEx
import Verif.Props.Otf
import Verif.Model.Timer

/-!
# Missing MATLAB files
-/

namespace EdgeEval.Props

open Text Samples Datasets EdgeEval.Convert ConvertSbd Evaluators Spec

/-- C49: the single-sample routine of BSDS with a missing file: no prediction, `FileNotFoundError`; a prediction but an
annotation file that cannot be read, the exception of the reader (`AssertionError` if there is none: C80). -/
theorem C49_bsds_missing (env : Env) (arg : ThresholdArg) (ths : List ℚ) (hth : checkThresholds arg = .ok ths)
    (s : Sample) (gp : Str) (h1 : s.edgePath = some gp) (rnd : Nat → Nat → Nat → ℚ) (e : PyErr) :
    (env.pics.gray s.predPath = none → bsdsSingle env arg s rnd = .error .fileNotFoundError ∧
      genericSingle env arg s = .error .fileNotFoundError) ∧
    ((env.pics.gray s.predPath).isSome → env.pics.mat gp = .error e → bsdsSingle env arg s rnd = .error e ∧
      genericSingle env arg s = .error e) := by
  constructor
  · intro hP
    unfold bsdsSingle genericSingle bsdsPred
    simp only [h1, kw, hth, hP, load, bind, Except.bind, and_self]
  · intro hP hG
    obtain ⟨P, hP⟩ := Option.isSome_iff_exists.1 hP
    unfold bsdsSingle genericSingle bsdsPred bsdsGts
    simp only [h1, kw, hth, hP, hG, load, bind, Except.bind, and_self]

/-- C54: a list of re-annotated samples (`test.mat`) that cannot be read is noticed only at the end, too: the run ends
in the exception of the reader (`AssertionError` for a missing file) after all files of the two splits have been
written. -/
theorem C54_no_test_mat (lib : DTLib) (fs : SbdFs) (a : SbdArgs) (train val : List Str)
    (mats : Str → ClsMat × InstMat) (h : SbdTree fs a train val mats) (H2 : SoundDT lib true 0 2)
    (H1 : SoundDT lib true 0 1) (hre : a.reanno = true)
    (hex : ∀ d ∈ ["gt_reanno_raw".toList, "gt_reanno_thin".toList], fs.ex (slashed [a.root, d]) = true)
    (e : PyErr) (hmiss : fs.names (slashed [a.root, "gt_reanno_raw".toList, "test.mat".toList]) = .error e ∨
      (∃ l, fs.names (slashed [a.root, "gt_reanno_raw".toList, "test.mat".toList]) = .ok l) ∧
        fs.names (slashed [a.root, "gt_reanno_thin".toList, "test.mat".toList]) = .error e) :
    ∃ F, ∀ fuel, F ≤ fuel → ∃ w, convertSbd lib fuel fs a = some ⟨w, some e⟩ ∧
      WroteSamples a (train ++ val) mats w := by
  obtain ⟨F, hF⟩ := exists_fuel (train ++ val) fun n => (mats n).1.seg.rows * (mats n).1.seg.cols + 1
  refine ⟨F, fun fuel hfuel => ?_⟩
  obtain ⟨w1, w2, a1, a2, b1, b2⟩ := splits_ok h H2 H1 fuel (fun n hn => (hF n hn).trans hfuel)
  refine ⟨w1 ++ w2, ?_, wrote_append b1 b2⟩
  obtain ⟨⟨dr, rr⟩, ⟨dt, rt⟩, rtest, rval⟩ := reanno_dirs
  have hr : runReanno (withDir fs (saveDirOf a)) a = some ⟨[], some e⟩ := by
    have hx : ∀ d ∈ ["gt_reanno_raw".toList, "gt_reanno_thin".toList],
        (withDir fs (saveDirOf a)).ex (slashed [a.root, d]) = true := by
      intro d hd
      show (decide (slashed [a.root, d] = saveDirOf a) || fs.ex (slashed [a.root, d])) = true
      rw [hex d hd, Bool.or_true]
    unfold runReanno
    rw [pjoin_slash h.base.root rr, pjoin_slash h.base.root rt, checkPath_ok (hx _ (by simp)), checkPath_ok (hx _ (by simp))]
    have key : ∀ d', DirArg d' → pjoin (slashed [a.root, d']) "test.mat".toList = slashed [a.root, d', "test.mat".toList] := by
      intro d' hd'
      rw [pjoin_slash (dirArg_slash hd') rtest]
      simp [slashed]
    have hnames : ∀ p, reannoSamples (withDir fs (saveDirOf a)) p = fs.names p := fun _ => rfl
    simp only [bind, Except.bind, key _ dr, key _ dt, hnames]
    rcases hmiss with h1 | ⟨⟨l, h1⟩, h2⟩
    · rw [h1]
      rfl
    · rw [h1, h2]
      rfl
  unfold convertSbd
  simp only [a1, a2, hre, if_true, hr, andThen, Option.map_some, List.append_nil]

/-- A prediction without annotations. -/
example (q : Params) : bsdsSingle ⟨⟨fun _ => none, fun p => if p = ['p'] then some ⟨2, 2, fun _ _ => 0⟩ else none, fun _ => .error .assertionError⟩, refLib 2, fun x => x, fun _ _ => 0, 5⟩
    (.list [1 / 2]) ⟨['n'], 0, some ['m'], none, none, ['p'], q⟩ (fun _ _ _ => 0) = .error .assertionError :=
  ((C49_bsds_missing _ _ _ rfl _ ['m'] rfl _ .assertionError).2 rfl rfl).1

/-- Without the thin `test.mat`, the two splits are converted before the run fails. -/
example : ∃ F, ∀ fuel, F ≤ fuel → ∃ w,
    convertSbd (refLib 2) fuel { exSbdFs with names := fun p => if p = "d/gt_reanno_raw/test.mat".toList then .ok ["b".toList] else .error .assertionError }
      (exSbdArgs true) = some ⟨w, some .assertionError⟩ ∧ ∃ d, ("d/gtEval/b_labelIds.png".toList, d) ∈ w := by
  obtain ⟨F, h⟩ := C54_no_test_mat (refLib 2)
    { exSbdFs with names := fun p => if p = "d/gt_reanno_raw/test.mat".toList then .ok ["b".toList] else .error .assertionError } (exSbdArgs true)
    ["a".toList] ["b".toList] (fun _ => exSbdMats)
    ⟨⟨(exSbdBase true).root, (exSbdBase true).out, (exSbdBase true).outRel, rfl, rfl,
      fun n hn => ⟨by revert n; unfold Relative; decide, rfl, rfl, rfl, rfl, by decide, exSbdFits⟩⟩,
      (exSbdTree true).trainFile, (exSbdTree true).valFile, by decide, by decide⟩ exact2 exact1 rfl
    (fun d hd => rfl) .assertionError (Or.inr ⟨⟨["b".toList], by decide +kernel⟩, by decide +kernel⟩)
  refine ⟨F, fun fuel hf => ?_⟩
  obtain ⟨w, h1, h2⟩ := h fuel hf
  exact ⟨w, h1, h2.2 "b".toList (by simp) .labels⟩

/-! ## C35: new timers -/

/-- C35: a timer made with `start=False` is not running and raises at every check, and once started it counts from
that moment; a timer made with `start=True` counts from its construction. -/
theorem C35_new_timer (t1 t2 a b : ℚ) :
    (TimerState.init false t1 t2).running = false ∧
    ((TimerState.init false t1 t2).step (.sinceStart a)).1 = .error .timerError ∧
    ((TimerState.init false t1 t2).step (.sinceLastCheck a b)).1 = .error .timerError ∧
    (TimerState.init true t1 t2).running = true ∧
    ∀ s ∈ [TimerState.init true t1 t2, ((TimerState.init false a b).step (.start t1 t2)).2],
      (s.step (.sinceStart a)).1 = .ok (some (a - t1)) ∧ (s.step (.sinceLastCheck a b)).1 = .ok (some (a - t2)) := by
  refine ⟨rfl, rfl, rfl, rfl, ?_⟩
  intro s hs
  simp only [List.mem_cons, List.not_mem_nil, or_false] at hs
  rcases hs with rfl | rfl <;> exact ⟨rfl, rfl⟩

example : (((TimerState.init false 0 0).step (.start 1 2)).2.step (.sinceStart 5)).1 = .ok (some (5 - 1)) :=
  ((C35_new_timer 1 2 5 0).2.2.2.2 _ (List.mem_cons_of_mem _ (List.mem_cons_self ..))).1

end EdgeEval.Props
