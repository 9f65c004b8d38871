import Verif.Props.ConvertSbdRun

/-!
# C54: the re-annotated SBD ground truth
-/

namespace EdgeEval.Props

open Spec Text Evaluators Samples Datasets EdgeEval.Convert EdgeEval.ConvertSbd

/-! ## Specification -/

/-- The picture shows the boundaries of the annotation files: bit `t` of a pixel is set exactly when the pixel is
marked in map `t` of the category file or (if instances are distinguished) category `t + 1` is present and the pixel is
marked in map `t` of the instance file. -/
def ReannoShows (c : ClsMat) (x : InstMat) (inst : Bool) (im : Rgb) : Prop :=
  im.h = c.bdry.h ∧ im.w = c.bdry.w ∧ ∀ i < c.bdry.h, ∀ j < c.bdry.w, ∀ t < 24,
    (colourBit im i j t = true ↔ t < c.bdry.n ∧
      (c.bdry.at_ t i j = true ∨ (inst = true ∧ t + 1 ∈ c.present ∧ x.bdry.at_ t i j = true)))

/-- The two annotation files of a re-annotated sample fit together: the instance categories are present, the
boundary stacks have the same shape, and the present categories have a boundary map. -/
structure ReannoFits (c : ClsMat) (x : InstMat) : Prop where
  cats : ∀ k ∈ x.cats, k ∈ c.present
  n : x.bdry.n = c.bdry.n
  h : x.bdry.h = c.bdry.h
  w : x.bdry.w = c.bdry.w
  small : c.bdry.n ≤ 24
  present : ∀ k ∈ c.present, 1 ≤ k ∧ k ≤ c.bdry.n

/-- The files of a re-annotated sample. -/
structure ReannoSample (fs : SbdFs) (dir n : Str) (c : ClsMat) (x : InstMat) : Prop where
  relName : Relative n
  exCls : fs.ex (slashed [dir, "cls".toList, n ++ ".mat".toList]) = true
  exInst : fs.ex (slashed [dir, "inst".toList, n ++ ".mat".toList]) = true
  cls : fs.cls true (slashed [dir, "cls".toList, n ++ ".mat".toList]) = .ok c
  inst : fs.inst true (slashed [dir, "inst".toList, n ++ ".mat".toList]) = .ok x

/-- A directory of re-annotated samples. -/
structure ReannoDir (fs : SbdFs) (dir : Str) (names : List Str) (mats : Str → ClsMat × InstMat) : Prop where
  ex : fs.ex dir = true
  clsDir : fs.ex (slashed [dir, "cls".toList]) = true
  instDir : fs.ex (slashed [dir, "inst".toList]) = true
  list : fs.names (slashed [dir, "test.mat".toList]) = .ok names
  samples : ∀ n ∈ names, ReannoSample fs dir n (mats n).1 (mats n).2 ∧ ReannoFits (mats n).1 (mats n).2

/-- The files written for a list of re-annotated samples. -/
def WroteReanno (a : SbdArgs) (thin : Bool) (names : List Str) (mats : Str → ClsMat × InstMat)
    (w : List (Str × SbdContent)) : Prop :=
  (∀ f d, (f, d) ∈ w → ∃ n ∈ names, ∃ inst im, f = outFile a (gtFile .reanno thin inst n) ∧ d = .edges im ∧
    ReannoShows (mats n).1 (mats n).2 inst im) ∧
  ∀ n ∈ names, ∀ inst, ∃ d, (outFile a (gtFile .reanno thin inst n), d) ∈ w

/-! ## The union with the instance boundaries -/

theorem pyIndex_cat {n k : Nat} (h1 : 1 ≤ k) (h2 : k ≤ n) : pyIndex n ((k : Int) - 1) = .ok (k - 1) := by
  unfold pyIndex
  rw [if_pos (by omega)]
  congr 1
  omega

theorem pyIndex_big {n k : Nat} (h : n < k) : pyIndex n ((k : Int) - 1) = .error .indexError := by
  unfold pyIndex
  rw [if_neg (by omega), if_neg (by omega)]

/-- The result of one union. -/
def uniteAt (inst acc : MLEdges) (c : Nat) : MLEdges :=
  ⟨acc.n, acc.h, acc.w, fun k i j => if k = c - 1 then acc.at_ (c - 1) i j || inst.at_ (c - 1) i j else acc.at_ k i j⟩

theorem unite_all (inst : MLEdges) (l : List Nat) (acc : MLEdges) (hn : inst.n = acc.n)
    (h : ∀ k ∈ l, 1 ≤ k ∧ k ≤ acc.n) :
    ∃ e, l.foldlM (uniteCat inst) acc = .ok e ∧ e.n = acc.n ∧ e.h = acc.h ∧ e.w = acc.w ∧
      ∀ k i j, e.at_ k i j = (acc.at_ k i j || (decide (k + 1 ∈ l) && inst.at_ k i j)) := by
  induction l generalizing acc with
  | nil => exact ⟨acc, rfl, rfl, rfl, rfl, by simp⟩
  | cons c l ih =>
    obtain ⟨h1, h2⟩ := h c (by simp)
    have hu : uniteCat inst acc c = .ok (uniteAt inst acc c) := by
      unfold uniteCat
      rw [hn, pyIndex_cat h1 h2]
      rfl
    obtain ⟨e, e1, e2, e3, e4, e5⟩ := ih (uniteAt inst acc c) hn
        (fun k hk => h k (by simp [hk]))
    refine ⟨e, ?_, e2, e3, e4, ?_⟩
    · rw [List.foldlM_cons, hu]; exact e1
    · intro k i j
      rw [e5]
      simp only [uniteAt]
      by_cases hk : k = c - 1
      · subst hk
        have : c - 1 + 1 = c := by omega
        rw [if_pos rfl, this]
        simp only [List.mem_cons, true_or, decide_true, Bool.true_and]
        cases acc.at_ (c - 1) i j <;> cases inst.at_ (c - 1) i j <;> simp
      · rw [if_neg hk]
        have : (k + 1 ∈ c :: l) ↔ k + 1 ∈ l := by
          simp only [List.mem_cons]
          constructor
          · rintro (h | h)
            · omega
            · exact h
          · exact Or.inr
        simp only [this]

theorem unite_fail (inst : MLEdges) (l : List Nat) (acc : MLEdges) (hn : inst.n = acc.n)
    (h : ∃ k ∈ l, acc.n < k) : l.foldlM (uniteCat inst) acc = .error .indexError := by
  induction l generalizing acc with
  | nil => obtain ⟨k, hk, -⟩ := h; cases hk
  | cons c l ih =>
    rw [List.foldlM_cons]
    have hstep : uniteCat inst acc c = .error .indexError ∨ ∃ e, uniteCat inst acc c = .ok e ∧ e.n = acc.n ∧ c ≤ acc.n := by
      unfold uniteCat
      rw [hn]
      by_cases hc : acc.n < c
      · left; rw [pyIndex_big hc]
      · unfold pyIndex
        split <;> rename_i hp
        · left
          split at hp
          · cases hp
          · split at hp
            · cases hp
            · cases hp; rfl
        · right
          exact ⟨_, rfl, rfl, by omega⟩
    rcases hstep with hs | ⟨e, hs, he, hc⟩
    · rw [hs]; rfl
    · rw [hs]
      show l.foldlM (uniteCat inst) e = _
      refine ih e (by rw [hn, he]) ?_
      obtain ⟨k, hk, hlt⟩ := h
      rcases List.mem_cons.1 hk with rfl | hk
      · omega
      · exact ⟨k, hk, by omega⟩

theorem reannoIS_ok {c : ClsMat} {x : InstMat} (h : ReannoFits c x) :
    ∃ e, reannoIS c x = .ok e ∧ e.n = c.bdry.n ∧ e.h = c.bdry.h ∧ e.w = c.bdry.w ∧
      ∀ k i j, e.at_ k i j = (c.bdry.at_ k i j || (decide (k + 1 ∈ c.present) && x.bdry.at_ k i j)) := by
  obtain ⟨e, e1, e2⟩ := unite_all x.bdry c.present c.bdry h.n h.present
  refine ⟨e, ?_, e2⟩
  unfold reannoIS
  have a1 : (x.cats.all fun k => c.present.contains k) = true := by
    simp only [List.all_eq_true, List.contains_iff_mem]
    exact h.cats
  have a2 : decide (c.bdry.n = x.bdry.n ∧ c.bdry.h = x.bdry.h ∧ c.bdry.w = x.bdry.w) = true := by
    rw [decide_eq_true_eq]
    exact ⟨h.n.symm, h.h.symm, h.w.symm⟩
  rw [a1, a2]
  exact e1

theorem cls_dir : DirArg "cls".toList ∧ Relative "cls".toList ∧ DirArg "inst".toList ∧ Relative "inst".toList := by
  unfold DirArg Relative
  decide

/-- C54: the re-annotated ground truth of one sample: two pictures, the first without and the second with the instance
boundaries. -/
theorem C54_reanno_sample (fs : SbdFs) (dir saveDir edgeSfx isedgeSfx name : Str) (c : ClsMat) (x : InstMat)
    (hd : DirArg dir) (hs : DirArg saveDir) (he : Relative edgeSfx) (hi : Relative isedgeSfx)
    (exSave : fs.ex saveDir = true) (exC : fs.ex (slashed [dir, "cls".toList]) = true)
    (exI : fs.ex (slashed [dir, "inst".toList]) = true) (h : ReannoSample fs dir name c x) (hfit : ReannoFits c x) :
    ∃ e0 e1, reannoRoutine fs dir saveDir edgeSfx isedgeSfx name =
        .ok (some [(slashed [saveDir, name ++ edgeSfx], .edges e0), (slashed [saveDir, name ++ isedgeSfx], .edges e1)]) ∧
      ReannoShows c x false e0 ∧ ReannoShows c x true e1 := by
  obtain ⟨e, i1, i2, i3, i4, i5⟩ := reannoIS_ok hfit
  obtain ⟨im0, r1, r2, r3, r4⟩ := rgb_bits hfit.small
  obtain ⟨im1, s1, s2, s3, s4⟩ := rgb_bits (e := e) (by rw [i2]; exact hfit.small)
  obtain ⟨d1, d2, d3, d4⟩ := cls_dir
  have hnm := relative_append h.relName dotMat
  refine ⟨im0, im1, ?_, ⟨r2, r3, ?_⟩, ⟨by rw [s2, i3], by rw [s3, i4], ?_⟩⟩
  · unfold reannoRoutine
    have a0 := pjoin_slash hd d2
    have a1 := pjoin_slash hd d4
    have a2 := pjoin_slash3 hd d1 d2 hnm
    have a3 := pjoin_slash3 hd d3 d4 hnm
    have g0 : checkPath fs (pjoin dir "cls".toList) = .ok (pjoin dir "cls".toList) :=
      checkPath_ok (by rw [a0]; exact exC)
    have g1 : checkPath fs (pjoin dir "inst".toList) = .ok (pjoin dir "inst".toList) :=
      checkPath_ok (by rw [a1]; exact exI)
    have g2 : checkPath fs (pjoin (pjoin dir "cls".toList) (name ++ ".mat".toList)) =
      .ok (slashed [dir, "cls".toList, name ++ ".mat".toList]) := by
      rw [a2]; exact checkPath_ok h.exCls
    have g3 : checkPath fs (pjoin (pjoin dir "inst".toList) (name ++ ".mat".toList)) =
      .ok (slashed [dir, "inst".toList, name ++ ".mat".toList]) := by
      rw [a3]; exact checkPath_ok h.exInst
    rw [checkPath_ok exSave, g0]
    simp only [bind, Except.bind]
    rw [g1]
    simp only
    rw [g2]
    simp only
    rw [g3]
    simp only
    rw [h.cls, h.inst]
    simp only [i1, r1, s1]
    rw [pjoin_slash hs (relative_append h.relName he), pjoin_slash hs (relative_append h.relName hi)]
    rfl
  · intro i _ j _ t ht
    rw [r4 t ht]
    simp
  · intro i _ j _ t ht
    rw [s4 t ht, i5, i2]
    simp

/-- C54: annotation files that do not fit together are refused: an instance category that is not present, or
boundary stacks of different shapes, raise `AssertionError`; otherwise a present category without a boundary map
raises `IndexError`. -/
theorem C54_reanno_refusals (c : ClsMat) (x : InstMat) :
    ((∃ k ∈ x.cats, k ∉ c.present) → reannoIS c x = .error .assertionError) ∧
    ((c.bdry.n, c.bdry.h, c.bdry.w) ≠ (x.bdry.n, x.bdry.h, x.bdry.w) → reannoIS c x = .error .assertionError) ∧
    ((∀ k ∈ x.cats, k ∈ c.present) → (c.bdry.n, c.bdry.h, c.bdry.w) = (x.bdry.n, x.bdry.h, x.bdry.w) →
      (∃ k ∈ c.present, c.bdry.n < k) → reannoIS c x = .error .indexError) := by
  refine ⟨?_, ?_, ?_⟩
  · rintro ⟨k, hk, hn⟩
    have : (x.cats.all fun k => c.present.contains k) = false := by
      rw [List.all_eq_false]
      exact ⟨k, hk, by simpa [List.contains_iff_mem] using hn⟩
    unfold reannoIS
    rw [this]
    rfl
  · intro hne
    have : decide (c.bdry.n = x.bdry.n ∧ c.bdry.h = x.bdry.h ∧ c.bdry.w = x.bdry.w) = false := by
      rw [decide_eq_false_iff_not]
      rintro ⟨h1, h2, h3⟩
      exact hne (by rw [h1, h2, h3])
    unfold reannoIS
    rw [this]
    cases (x.cats.all fun k => c.present.contains k) <;> rfl
  · intro hc hs hk
    have a1 : (x.cats.all fun k => c.present.contains k) = true := by
      simp only [List.all_eq_true, List.contains_iff_mem]
      exact hc
    simp only [Prod.mk.injEq] at hs
    have a2 : decide (c.bdry.n = x.bdry.n ∧ c.bdry.h = x.bdry.h ∧ c.bdry.w = x.bdry.w) = true := by
      rw [decide_eq_true_eq]; exact hs
    unfold reannoIS
    rw [a1, a2]
    exact unite_fail x.bdry c.present c.bdry hs.1.symm hk

/-! ## The whole script with `--reanno` -/

theorem reannoJobs_ok {fs : SbdFs} {a : SbdArgs} (hroot : DirArg a.root) (hout : DirArg a.outDir)
    (houtRel : Relative a.outDir) (thin : Bool) (dir : Str) (hd : DirArg dir) (names : List Str)
    (mats : Str → ClsMat × InstMat) (h : ReannoDir fs dir names mats) (es is : Str)
    (hes : es = "_reanno_".toList ++ (if thin then "thin_".toList else "raw_".toList) ++ "edge.png".toList)
    (his : is = "_reanno_".toList ++ (if thin then "thin_".toList else "raw_".toList) ++ "isedge.png".toList) :
    ∃ w, runJobs (reannoRoutine (withDir fs (saveDirOf a)) dir (saveDirOf a) es is) names = some ⟨w, none⟩ ∧
      WroteReanno a thin names mats w := by
  have hsv : saveDirOf a = slashed [a.root, a.outDir] := pjoin_slash hroot houtRel
  have hex : ∀ p, fs.ex p = true → (withDir fs (saveDirOf a)).ex p = true := by
    intro p hp
    simp [withDir, hp]
  have hjob : ∀ n : Str, ∃ out, n ∈ names →
      reannoRoutine (withDir fs (saveDirOf a)) dir (saveDirOf a) es is n = .ok (some out) ∧
      ∃ e0 e1, out = [(outFile a (n ++ es), .edges e0), (outFile a (n ++ is), .edges e1)] ∧
        ReannoShows (mats n).1 (mats n).2 false e0 ∧ ReannoShows (mats n).1 (mats n).2 true e1 := by
    intro n
    by_cases hn : n ∈ names
    · obtain ⟨⟨s1, s2, s3, s4, s5⟩, hf⟩ := h.samples n hn
      obtain ⟨e0, e1, r1, r2, r3⟩ := C54_reanno_sample (withDir fs (saveDirOf a)) dir (saveDirOf a) es is n _ _
        hd (by rw [hsv]; exact dirArg_slash hout)
        (by rw [hes]; unfold Relative; cases thin <;> decide) (by rw [his]; unfold Relative; cases thin <;> decide)
        (by show (decide (saveDirOf a = saveDirOf a) || fs.ex (saveDirOf a)) = true
            rw [decide_eq_true rfl, Bool.true_or])
        (hex _ h.clsDir) (hex _ h.instDir) ⟨s1, hex _ s2, hex _ s3, s4, s5⟩ hf
      refine ⟨_, fun _ => ⟨r1, e0, e1, ?_, r2, r3⟩⟩
      rw [hsv]
      simp [slashed, outFile]
    · exact ⟨[], fun hn' => absurd hn' hn⟩
  choose out hout' using hjob
  have en : ∀ n, n ++ es = gtFile .reanno thin false n := by
    intro n; rw [hes]; simp only [gtFile]; cases thin <;> simp
  have isn : ∀ n, n ++ is = gtFile .reanno thin true n := by
    intro n; rw [his]; simp only [gtFile]; cases thin <;> simp
  refine ⟨names.flatMap out, runJobs_ok _ out names (fun n hn => (hout' n hn).1), ?_, ?_⟩
  · intro f d hfd
    rw [List.mem_flatMap] at hfd
    obtain ⟨n, hn, hm⟩ := hfd
    obtain ⟨-, e0, e1, ho, b1, b2⟩ := hout' n hn
    rw [ho] at hm
    simp only [List.mem_cons, List.not_mem_nil, or_false, Prod.mk.injEq] at hm
    rcases hm with ⟨rfl, rfl⟩ | ⟨rfl, rfl⟩
    · exact ⟨n, hn, false, e0, by rw [en], rfl, b1⟩
    · exact ⟨n, hn, true, e1, by rw [isn], rfl, b2⟩
  · intro n hn inst
    obtain ⟨-, e0, e1, ho, b1, b2⟩ := hout' n hn
    cases inst
    · exact ⟨.edges e0, List.mem_flatMap.2 ⟨n, hn, by rw [ho, en]; simp⟩⟩
    · exact ⟨.edges e1, List.mem_flatMap.2 ⟨n, hn, by rw [ho, isn]; simp⟩⟩

theorem reanno_dirs : (DirArg "gt_reanno_raw".toList ∧ Relative "gt_reanno_raw".toList) ∧
    (DirArg "gt_reanno_thin".toList ∧ Relative "gt_reanno_thin".toList) ∧ Relative "test.mat".toList ∧
    Relative "reanno_val.txt".toList := by
  unfold DirArg Relative
  decide

/-- C54: the whole script with `--reanno`. On top of the files of the two splits it writes the raw and the thin
re-annotated pictures of all listed samples, and `reanno_val.txt`, the list of the raw ones, one per line. -/
theorem C54_reanno (lib : DTLib) (fs : SbdFs) (a : SbdArgs) (train val : List Str) (mats : Str → ClsMat × InstMat)
    (h : SbdTree fs a train val mats) (H2 : SoundDT lib true 0 2) (H1 : SoundDT lib true 0 1)
    (hre : a.reanno = true) (rawNames thinNames : List Str) (rawMats thinMats : Str → ClsMat × InstMat)
    (hraw : ReannoDir fs (slashed [a.root, "gt_reanno_raw".toList]) rawNames rawMats)
    (hthin : ReannoDir fs (slashed [a.root, "gt_reanno_thin".toList]) thinNames thinMats) :
    ∃ F, ∀ fuel, F ≤ fuel → ∃ w r t, convertSbd lib fuel fs a =
        some ⟨w ++ r ++ t ++ [(slashed [a.root, "reanno_val.txt".toList], .text (linesText ['\n'] rawNames))], none⟩ ∧
      WroteSamples a (train ++ val) mats w ∧ WroteReanno a false rawNames rawMats r ∧
      WroteReanno a true thinNames thinMats t := by
  obtain ⟨F, hF⟩ := exists_fuel (train ++ val) fun n => (mats n).1.seg.rows * (mats n).1.seg.cols + 1
  refine ⟨F, fun fuel hfuel => ?_⟩
  obtain ⟨w1, w2, a1, a2, b1, b2⟩ := splits_ok h H2 H1 fuel (fun n hn => (hF n hn).trans hfuel)
  obtain ⟨⟨dr, rr⟩, ⟨dt, rt⟩, rtest, rval⟩ := reanno_dirs
  obtain ⟨wr, r1, r2⟩ := reannoJobs_ok h.base.root h.base.out h.base.outRel false _ (dirArg_slash (a := a.root) dr) rawNames rawMats hraw
    "_reanno_raw_edge.png".toList "_reanno_raw_isedge.png".toList (by decide) (by decide)
  obtain ⟨wt, t1, t2⟩ := reannoJobs_ok h.base.root h.base.out h.base.outRel true _ (dirArg_slash (a := a.root) dt) thinNames thinMats hthin
    "_reanno_thin_edge.png".toList "_reanno_thin_isedge.png".toList (by decide) (by decide)
  refine ⟨w1 ++ w2, wr, wt, ?_, wrote_append b1 b2, r2, t2⟩
  have hr : runReanno (withDir fs (saveDirOf a)) a =
      some ⟨wr ++ (wt ++ [(slashed [a.root, "reanno_val.txt".toList], .text (linesText ['\n'] rawNames))]), none⟩ := by
    unfold runReanno
    have hex : ∀ p, fs.ex p = true → (withDir fs (saveDirOf a)).ex p = true := by
      intro p hp
      simp [withDir, hp]
    have g1 : checkPath (withDir fs (saveDirOf a)) (pjoin a.root "gt_reanno_raw".toList) =
        .ok (slashed [a.root, "gt_reanno_raw".toList]) := by
      rw [pjoin_slash h.base.root rr]; exact checkPath_ok (hex _ hraw.ex)
    have g2 : checkPath (withDir fs (saveDirOf a)) (pjoin a.root "gt_reanno_thin".toList) =
        .ok (slashed [a.root, "gt_reanno_thin".toList]) := by
      rw [pjoin_slash h.base.root rt]; exact checkPath_ok (hex _ hthin.ex)
    have g3 : reannoSamples (withDir fs (saveDirOf a)) (pjoin (slashed [a.root, "gt_reanno_raw".toList]) "test.mat".toList) =
        .ok rawNames := by
      rw [pjoin_slash (dirArg_slash dr) rtest]
      unfold reannoSamples
      exact hraw.list
    have g4 : reannoSamples (withDir fs (saveDirOf a)) (pjoin (slashed [a.root, "gt_reanno_thin".toList]) "test.mat".toList) =
        .ok thinNames := by
      rw [pjoin_slash (dirArg_slash dt) rtest]
      unfold reannoSamples
      exact hthin.list
    rw [g1, g2]
    simp only [bind, Except.bind]
    rw [g3, g4]
    simp only [reading]
    rw [r1, t1, pjoin_slash h.base.root rval]
    rfl
  unfold convertSbd
  simp only [a1, a2, hre, if_true, hr]
  simp [andThen]

end EdgeEval.Props
