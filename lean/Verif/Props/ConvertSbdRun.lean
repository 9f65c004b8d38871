import Verif.Props.ConvertSbd
import Verif.Props.SampleNames

/-!
# C54: the SBD conversion script
-/

namespace EdgeEval.Props

open Spec Text Evaluators Samples Datasets EdgeEval.Convert EdgeEval.ConvertSbd

/-! ## Refusals -/

/-- C54: a missing directory or MATLAB file makes `routine` raise `AssertionError`; so does a segmentation with fewer
than 22 rows. Nothing is written. -/
theorem C54_refusals (lib : DTLib) (fuel : Nat) (fs : SbdFs) (o : RoutineOpts) (name : Str) (hd : DirArg o.dataDir)
    (hn : Relative name) :
    ((∃ p ∈ [o.saveDir, slashed [o.dataDir, "cls_orig".toList], slashed [o.dataDir, "inst_orig".toList],
        slashed [o.dataDir, "cls_orig".toList, name ++ ".mat".toList],
        slashed [o.dataDir, "inst_orig".toList, name ++ ".mat".toList]], fs.ex p = false) →
      routine lib fuel fs o name = .error .assertionError) ∧
    (∀ c x, MatFiles fs o name c x → c.seg.rows < 22 → routine lib fuel fs o name = .error .assertionError) := by
  have hnm := relative_append hn dotMat
  have a0 := pjoin_slash hd clsOrig_dir.2
  have a1 := pjoin_slash hd instOrig_dir.2
  have a2 := pjoin_slash3 hd clsOrig_dir.1 clsOrig_dir.2 hnm
  have a3 := pjoin_slash3 hd instOrig_dir.1 instOrig_dir.2 hnm
  constructor
  · rintro ⟨p, hp, hx⟩
    rw [← a2, ← a3, ← a0, ← a1] at hp
    have ck : ∀ q, checkPath fs q = if fs.ex q then .ok q else .error .assertionError := by
      intro q
      cases h : fs.ex q
      · rw [checkPath_error h]; rfl
      · rw [checkPath_ok h]; rfl
    have step : ∀ {α β : Type} (b : Bool) (q : α) (f : α → Run β), (b = true → f q = .error .assertionError) →
        (now (if b then .ok q else .error .assertionError)).bind f = .error .assertionError := by
      intro α β b q f h
      cases b
      · rfl
      · exact h rfl
    simp only [List.mem_cons, List.not_mem_nil, or_false] at hp
    unfold routine
    simp only [ck]
    refine step _ _ _ fun h1 => ?_
    refine step _ _ _ fun h2 => ?_
    refine step _ _ _ fun h3 => ?_
    refine step _ _ _ fun h4 => ?_
    refine step _ _ _ fun h5 => ?_
    rcases hp with rfl | rfl | rfl | rfl | rfl
    · rw [h1] at hx; cases hx
    · rw [h2] at hx; cases hx
    · rw [h3] at hx; cases hx
    · rw [h4] at hx; cases hx
    · rw [h5] at hx; cases hx
  · intro c x h hrows
    have hm : mask2onehot ⟨(addIgnorePixel c.seg 5 21).rows, (addIgnorePixel c.seg 5 21).cols,
        fun i j => ((addIgnorePixel c.seg 5 21).at_ i j : Int)⟩ sbdLabelIds = .error .assertionError :=
      (C24_onehot _ sbdLabelIds).1 (Or.inr (by
        rw [show sbdLabelIds.length = 22 by decide]
        exact hrows))
    unfold routine
    simp only [checkPath_ok h.exSave, now_bind]
    rw [checkPath_ok (by rw [a0]; exact h.exClsDir), now_bind, checkPath_ok (by rw [a1]; exact h.exInstDir), now_bind,
      checkPath_ok (by rw [a2]; exact h.exCls), now_bind, checkPath_ok (by rw [a3]; exact h.exInst), now_bind,
      a2, a3, h.cls, h.inst]
    rw [now_bind]
    have : mat2np lib fuel c (some (.ok x)) (if o.thin then 1 else o.radius) o.thin 21 = .error .assertionError := by
      unfold mat2np
      simp only [hm]
      rfl
    rw [this]
    rfl

/-! ## The sample lists -/

theorem fileLines_item (s : Str) (hs : '\n' ∉ s) (rest cur : Str) :
    fileLines (s ++ '\n' :: rest) cur = (cur.reverse ++ s) :: fileLines rest [] := by
  induction s generalizing cur with
  | nil => simp [fileLines]
  | cons c s ih =>
    have hc : c ≠ '\n' := fun h => hs (by simp [h])
    simp only [List.cons_append, fileLines, hc, if_false]
    rw [ih (fun hd => hs (by simp [hd]))]
    simp

theorem fileLines_last (s : Str) (hs : '\n' ∉ s) (cur : Str) (hne : cur ++ s ≠ []) :
    fileLines s cur = [cur.reverse ++ s] := by
  induction s generalizing cur with
  | nil =>
    simp only [List.append_nil] at hne ⊢
    simp [fileLines, hne]
  | cons c s ih =>
    have hc : c ≠ '\n' := fun h => hs (by simp [h])
    simp only [fileLines, hc, if_false]
    rw [ih (fun hd => hs (by simp [hd])) _ (by simp)]
    simp

/-- A name without line ends. -/
def NoEol (s : Str) : Prop := '\n' ∉ s ∧ '\r' ∉ s

theorem linesText_head' {eol : Str} (he : eol = ['\r']) {items : List Str} (h : ∀ s ∈ items, NoEol s)
    (last : Str) (hl : NoEol last) : (linesText eol items ++ last).head? ≠ some '\n' := by
  have key : ∀ s : Str, NoEol s → s.head? ≠ some '\n' := by
    intro s hs h
    exact hs.1 (List.mem_of_head? h)
  cases items with
  | nil => simpa [linesText] using key last hl
  | cons a items =>
    subst he
    have ha := key a (h a (by simp))
    cases a with
    | nil => simp [linesText]
    | cons c a => simpa [linesText] using ha

theorem fileLines_eq (eol : Str) (he : eol = ['\n'] ∨ eol = ['\r', '\n'] ∨ eol = ['\r']) (items : List Str)
    (h : ∀ s ∈ items, NoEol s) (last : Str) (hl : NoEol last) :
    fileLines (universalNewlines (linesText eol items ++ last)) [] = items ++ (if last = [] then [] else [last]) := by
  induction items with
  | nil =>
    simp only [linesText, List.map_nil, List.flatten_nil, List.nil_append]
    rw [universal_plain last hl.2]
    split
    · next h0 => subst h0; rfl
    · next h0 => rw [fileLines_last last hl.1 [] (by simpa using h0)]; simp
  | cons a items ih =>
    have hrest := ih (fun s hs => h s (by simp [hs]))
    have hcr : eol = ['\r'] → (linesText eol items ++ last).head? ≠ some '\n' :=
      fun e => linesText_head' e (fun s hs => h s (by simp [hs])) last hl
    have e1 : linesText eol (a :: items) ++ last = a ++ (eol ++ (linesText eol items ++ last)) := by
      simp [linesText]
    rw [e1, universal_item a (h a (by simp)).2 eol he _ hcr, fileLines_item a (h a (by simp)).1, hrest]
    simp

/-- C54: `get_samples` returns the lines of the file, in order, for every line-ending convention, with or without a
final line end; a missing file raises `FileNotFoundError`. When no name contains a line boundary character of
any kind, the evaluator reads the same list from the same file. -/
theorem C54_samples (fs : SbdFs) (p : Str) :
    (fs.text p = none → getSamples fs p = .error .fileNotFoundError) ∧
    ∀ eol, (eol = ['\n'] ∨ eol = ['\r', '\n'] ∨ eol = ['\r']) → ∀ items last,
      fs.text p = some (linesText eol items ++ last) →
      ((∀ s ∈ items, NoEol s) → NoEol last → getSamples fs p = .ok (items ++ (if last = [] then [] else [last]))) ∧
      ((∀ s ∈ items, OneLine s) → OneLine last →
        getSamples fs p = .ok (readLines (linesText eol items ++ last))) := by
  refine ⟨fun h => by unfold getSamples; rw [h], ?_⟩
  intro eol he items last ht
  have h1 : (∀ s ∈ items, NoEol s) → NoEol last →
      getSamples fs p = .ok (items ++ (if last = [] then [] else [last])) := by
    intro h hl
    unfold getSamples
    rw [ht]
    simp only
    rw [fileLines_eq eol he items h last hl]
  refine ⟨h1, ?_⟩
  intro h hl
  have hne : ∀ s : Str, OneLine s → NoEol s := fun s hs => ⟨fun hc => hs _ hc (by decide), oneLine_cr hs⟩
  rw [readLines_eq eol he items h last hl]
  exact h1 (fun s hs => hne s (h s hs)) (hne last hl)

/-! ## The whole script: specification -/

/-- The seven files made for a sample. -/
inductive Variant where
  | edge (thin inst : Bool)
  | labels
  | trainIds
  | instances
  deriving DecidableEq

/-- The name of a file. -/
def variantName (n : Str) : Variant → Str
  | .edge thin inst => gtFile .sbd thin inst n
  | .labels => n ++ "_labelIds.png".toList
  | .trainIds => n ++ "_trainIds.png".toList
  | .instances => n ++ "_instanceIds.png".toList

/-- What a file shows: raw edges have radius 2. -/
def VariantShows (c : ClsMat) (x : InstMat) : Variant → SbdContent → Prop
  | .edge false inst, .edges im => ∃ B, Bordered c.seg B ∧
      RawEdges 2 B (if inst then some (x.seg, x.cats) else none) c.present im
  | .edge true inst, .edges im => ∃ B, Bordered c.seg B ∧
      ThinEdges B (if inst then some (x.seg, x.cats) else none) c.present im
  | .labels, .map im => Bordered c.seg im
  | .trainIds, .map im => ∃ B, Bordered c.seg B ∧ TrainMap B im
  | .instances, .map im => InstMap x.seg x.cats c.present im
  | _, _ => False

/-- The input files of a sample. -/
structure SbdSample (fs : SbdFs) (root n : Str) (c : ClsMat) (x : InstMat) : Prop where
  relName : Relative n
  exCls : fs.ex (slashed [root, "cls_orig".toList, n ++ ".mat".toList]) = true
  exInst : fs.ex (slashed [root, "inst_orig".toList, n ++ ".mat".toList]) = true
  cls : fs.cls false (slashed [root, "cls_orig".toList, n ++ ".mat".toList]) = .ok c
  inst : fs.inst false (slashed [root, "inst_orig".toList, n ++ ".mat".toList]) = .ok x
  rows : 22 ≤ c.seg.rows
  fits : InstFits x.seg x.cats c.present c.seg

/-- The SBD directory without the lists: usable paths, both annotation directories, the files of the named samples. -/
structure SbdBase (fs : SbdFs) (a : SbdArgs) (names : List Str) (mats : Str → ClsMat × InstMat) : Prop where
  root : DirArg a.root
  out : DirArg a.outDir
  outRel : Relative a.outDir
  clsDir : fs.ex (slashed [a.root, "cls_orig".toList]) = true
  instDir : fs.ex (slashed [a.root, "inst_orig".toList]) = true
  samples : ∀ n ∈ names, SbdSample fs a.root n (mats n).1 (mats n).2

/-- The SBD directory with both lists. -/
structure SbdTree (fs : SbdFs) (a : SbdArgs) (train val : List Str) (mats : Str → ClsMat × InstMat) : Prop where
  base : SbdBase fs a (train ++ val) mats
  trainFile : getSamples fs (slashed [a.root, "train.txt".toList]) = .ok train
  valFile : getSamples fs (slashed [a.root, "val.txt".toList]) = .ok val
  trainNe : train ≠ []
  valNe : val ≠ []

/-- A file of the output directory. -/
def outFile (a : SbdArgs) (f : Str) : Str := slashed [a.root, a.outDir, f]

/-- The seven files of a list of samples, and nothing else, each showing what it should. -/
def WroteSamples (a : SbdArgs) (names : List Str) (mats : Str → ClsMat × InstMat) (w : List (Str × SbdContent)) : Prop :=
  (∀ f d, (f, d) ∈ w → ∃ n ∈ names, ∃ v, f = outFile a (variantName n v) ∧ VariantShows (mats n).1 (mats n).2 v d) ∧
  ∀ n ∈ names, ∀ v, ∃ d, (outFile a (variantName n v), d) ∈ w

/-! ## The whole script: lemmas -/

/-- Jobs that all succeed. -/
theorem runJobs_ok (job : Str → Run (List (Str × SbdContent))) (out : Str → List (Str × SbdContent)) (l : List Str)
    (h : ∀ n ∈ l, job n = .ok (some (out n))) : runJobs job l = some ⟨l.flatMap out, none⟩ := by
  induction l with
  | nil => rfl
  | cons n l ih =>
    unfold runJobs
    rw [h n (by simp), ih (fun m hm => h m (by simp [hm]))]
    rfl

/-- The job lists stop at the first failure. -/
theorem runJobs_fail (job : Str → Run (List (Str × SbdContent))) (out : Str → List (Str × SbdContent)) (l : List Str)
    (n : Str) (l' : List Str) (e : PyErr) (h : ∀ m ∈ l, job m = .ok (some (out m))) (he : job n = .error e) :
    runJobs job (l ++ n :: l') = some ⟨l.flatMap out, some e⟩ := by
  induction l with
  | nil => simp only [List.nil_append, runJobs, he]; rfl
  | cons m l ih =>
    simp only [List.cons_append, runJobs]
    rw [h m (by simp), ih (fun k hk => h k (by simp [hk]))]
    rfl

theorem saveDir_eq {fs : SbdFs} {a : SbdArgs} {names : List Str} {mats : Str → ClsMat × InstMat}
    (h : SbdBase fs a names mats) : saveDirOf a = slashed [a.root, a.outDir] := pjoin_slash h.root h.outRel

theorem matFiles_of {fs : SbdFs} {a : SbdArgs} {names : List Str} {mats : Str → ClsMat × InstMat}
    (h : SbdBase fs a names mats) (thin : Bool) {n : Str} (hn : n ∈ names) :
    MatFiles (withDir fs (saveDirOf a)) (scriptOpts a thin) n (mats n).1 (mats n).2 := by
  obtain ⟨s1, s2, s3, s4, s5, -, -⟩ := h.samples n hn
  have hex : ∀ p, fs.ex p = true → (withDir fs (saveDirOf a)).ex p = true := by
    intro p hp
    simp [withDir, hp]
  refine ⟨h.root, ?_, s1, ?_, ?_, hex _ h.clsDir, hex _ h.instDir, hex _ s2, hex _ s3, s4, s5⟩
  · show DirArg (saveDirOf a)
    rw [saveDir_eq h]
    exact dirArg_slash h.out
  · cases thin
    · show ∀ s ∈ ["_raw_edge.png".toList, "_raw_isedge.png".toList, "_labelIds.png".toList, "_trainIds.png".toList,
        "_instanceIds.png".toList], Relative s
      unfold Relative; decide
    · show ∀ s ∈ ["_thin_edge.png".toList, "_thin_isedge.png".toList, "_labelIds.png".toList, "_trainIds.png".toList,
        "_instanceIds.png".toList], Relative s
      unfold Relative; decide
  · show (decide (saveDirOf a = saveDirOf a) || fs.ex (saveDirOf a)) = true
    rw [decide_eq_true rfl, Bool.true_or]

theorem name_edge (thin inst : Bool) (n : Str) : n ++ (if inst then (scriptOpts a thin).isedgeSuffix
    else (scriptOpts a thin).edgeSuffix) = variantName n (.edge thin inst) := by
  cases thin <;> cases inst <;> simp [scriptOpts, variantName, gtFile]

theorem save_file {fs : SbdFs} {a : SbdArgs} {names : List Str} {mats : Str → ClsMat × InstMat}
    (h : SbdBase fs a names mats) (f : Str) : slashed [saveDirOf a, f] = outFile a f := by
  rw [saveDir_eq h]
  simp [slashed, outFile]

/-- The jobs of one split. -/
theorem sbdSplit_ok {lib : DTLib} {fs : SbdFs} {a : SbdArgs} {names : List Str} {mats : Str → ClsMat × InstMat}
    (h : SbdBase fs a names mats) (H2 : SoundDT lib true 0 2) (H1 : SoundDT lib true 0 1)
    (fuel : Nat) (hfuel : ∀ n ∈ names, (mats n).1.seg.rows * (mats n).1.seg.cols + 1 ≤ fuel)
    (split : Str) (hrel : Relative split) (l : List Str) (hne : l ≠ []) (hl : ∀ n ∈ l, n ∈ names)
    (hread : getSamples fs (slashed [a.root, split ++ ".txt".toList]) = .ok l) :
    ∃ w, runSplit lib fuel (withDir fs (saveDirOf a)) a split = some ⟨w, none⟩ ∧ WroteSamples a l mats w := by
  have raw : ∀ n : Str, ∃ out, n ∈ l →
      routine lib fuel (withDir fs (saveDirOf a)) (scriptOpts a false) n = .ok (some out) ∧
      ∃ e0 e1 B T N, out = edgeFiles (scriptOpts a false) n e0 e1 ++ mapFiles (scriptOpts a false) n B T N ∧
        Bordered (mats n).1.seg B ∧ RawEdges 2 B none (mats n).1.present e0 ∧
        RawEdges 2 B (some ((mats n).2.seg, (mats n).2.cats)) (mats n).1.present e1 ∧ TrainMap B T ∧
        InstMap (mats n).2.seg (mats n).2.cats (mats n).1.present N := by
    intro n
    by_cases hn : n ∈ l
    · have hs := h.samples n (hl n hn)
      obtain ⟨e0, e1, B, T, N, r1, r2⟩ := C54_raw lib fuel 2 (by exact_mod_cast H2) _ _ n _ _
        (matFiles_of h false (hl n hn)) rfl rfl hs.rows hs.fits
      exact ⟨_, fun _ => ⟨r1, e0, e1, B, T, N, rfl, by exact_mod_cast r2⟩⟩
    · exact ⟨[], fun hn' => absurd hn' hn⟩
  have thn : ∀ n : Str, ∃ out, n ∈ l →
      routine lib fuel (withDir fs (saveDirOf a)) (scriptOpts a true) n = .ok (some out) ∧
      ∃ e0 e1 B, out = edgeFiles (scriptOpts a true) n e0 e1 ∧
        Bordered (mats n).1.seg B ∧ ThinEdges B none (mats n).1.present e0 ∧
        ThinEdges B (some ((mats n).2.seg, (mats n).2.cats)) (mats n).1.present e1 := by
    intro n
    by_cases hn : n ∈ l
    · have hs := h.samples n (hl n hn)
      obtain ⟨e0, e1, B, T, N, r1, r2, r3, r4, -⟩ := C54_thin lib H1 _ _ n _ _
        (matFiles_of h true (hl n hn)) rfl hs.rows hs.fits fuel (hfuel n (hl n hn))
      refine ⟨_, fun _ => ⟨r1, e0, e1, B, ?_, r2, r3, r4⟩⟩
      simp [scriptOpts]
    · exact ⟨[], fun hn' => absurd hn' hn⟩
  choose ro hro using raw
  choose tf hto using thn
  have hdot : Relative ".txt".toList := by unfold Relative; decide
  refine ⟨l.flatMap ro ++ l.flatMap tf, ?_, ?_⟩
  · unfold runSplit
    rw [pjoin_slash h.root (relative_append hrel hdot)]
    have hg : getSamples (withDir fs (saveDirOf a)) (slashed [a.root, split ++ ".txt".toList]) = .ok l := hread
    rw [hg]
    have hpos : decide (0 < l.length) = true := by
      rw [decide_eq_true_eq]; exact List.length_pos_iff.2 hne
    rw [show ((do
        let l' ← (Except.ok l : Except PyErr (List Str))
        assert (decide (0 < l'.length))
        .ok l') : Except PyErr (List Str)) = .ok l by
      show (do assert (decide (0 < l.length)); .ok l) = _
      rw [hpos]; rfl]
    show andThen (runJobs _ l) (runJobs _ l) = _
    rw [runJobs_ok _ ro l (fun n hn => (hro n hn).1), runJobs_ok _ tf l (fun n hn => (hto n hn).1)]
    rfl
  · have nm : ∀ thin n, slashed [(scriptOpts a thin).saveDir, n] = outFile a n := fun thin n => save_file h n
    constructor
    · intro f d hfd
      rw [List.mem_append, List.mem_flatMap, List.mem_flatMap] at hfd
      rcases hfd with ⟨n, hn, hm⟩ | ⟨n, hn, hm⟩
      · obtain ⟨-, e0, e1, B, T, N, hout, b1, b2, b3, b4, b5⟩ := hro n hn
        rw [hout] at hm
        simp only [edgeFiles, mapFiles, nm, List.mem_append, List.mem_cons, List.not_mem_nil, or_false,
          Prod.mk.injEq] at hm
        rcases hm with (⟨rfl, rfl⟩ | ⟨rfl, rfl⟩) | ⟨rfl, rfl⟩ | ⟨rfl, rfl⟩ | ⟨rfl, rfl⟩
        · exact ⟨n, hn, .edge false false, congrArg _ (name_edge (a := a) false false n), B, b1, b2⟩
        · exact ⟨n, hn, .edge false true, congrArg _ (name_edge (a := a) false true n), B, b1, b3⟩
        · exact ⟨n, hn, .labels, rfl, b1⟩
        · exact ⟨n, hn, .trainIds, rfl, B, b1, b4⟩
        · exact ⟨n, hn, .instances, rfl, b5⟩
      · obtain ⟨-, e0, e1, B, hout, b1, b2, b3⟩ := hto n hn
        rw [hout] at hm
        simp only [edgeFiles, nm, List.mem_cons, List.not_mem_nil, or_false, Prod.mk.injEq] at hm
        rcases hm with ⟨rfl, rfl⟩ | ⟨rfl, rfl⟩
        · exact ⟨n, hn, .edge true false, congrArg _ (name_edge (a := a) true false n), B, b1, b2⟩
        · exact ⟨n, hn, .edge true true, congrArg _ (name_edge (a := a) true true n), B, b1, b3⟩
    · intro n hn v
      obtain ⟨-, e0, e1, B, T, N, hout, -⟩ := hro n hn
      obtain ⟨-, t0, t1, B', hout', -⟩ := hto n hn
      have inRaw : ∀ y, y ∈ ro n → y ∈ l.flatMap ro ++ l.flatMap tf := fun y hy =>
        List.mem_append_left _ (List.mem_flatMap.2 ⟨n, hn, hy⟩)
      have inThin : ∀ y, y ∈ tf n → y ∈ l.flatMap ro ++ l.flatMap tf := fun y hy =>
        List.mem_append_right _ (List.mem_flatMap.2 ⟨n, hn, hy⟩)
      cases v with
      | edge thin inst =>
        rw [← name_edge (a := a)]
        cases thin <;> cases inst
        · exact ⟨.edges e0, inRaw _ (by rw [hout]; simp [edgeFiles, nm])⟩
        · exact ⟨.edges e1, inRaw _ (by rw [hout]; simp [edgeFiles, nm])⟩
        · exact ⟨.edges t0, inThin _ (by rw [hout']; simp [edgeFiles, nm])⟩
        · exact ⟨.edges t1, inThin _ (by rw [hout']; simp [edgeFiles, nm])⟩
      | labels => exact ⟨.map B, inRaw _ (by rw [hout]; simp only [mapFiles, nm]; simp [variantName, scriptOpts])⟩
      | trainIds => exact ⟨.map T, inRaw _ (by rw [hout]; simp only [mapFiles, nm]; simp [variantName, scriptOpts])⟩
      | instances => exact ⟨.map N, inRaw _ (by rw [hout]; simp only [mapFiles, nm]; simp [variantName, scriptOpts])⟩

theorem wrote_append {a : SbdArgs} {l l' : List Str} {mats : Str → ClsMat × InstMat} {w w' : List (Str × SbdContent)}
    (h : WroteSamples a l mats w) (h' : WroteSamples a l' mats w') : WroteSamples a (l ++ l') mats (w ++ w') := by
  constructor
  · intro f d hfd
    rcases List.mem_append.1 hfd with hm | hm
    · obtain ⟨n, hn, r⟩ := h.1 f d hm
      exact ⟨n, by simp [hn], r⟩
    · obtain ⟨n, hn, r⟩ := h'.1 f d hm
      exact ⟨n, by simp [hn], r⟩
  · intro n hn v
    rcases List.mem_append.1 hn with hm | hm
    · obtain ⟨d, hd⟩ := h.2 n hm v
      exact ⟨d, by simp [hd]⟩
    · obtain ⟨d, hd⟩ := h'.2 n hm v
      exact ⟨d, by simp [hd]⟩

theorem train_rel : Relative "train".toList ∧ Relative "val".toList := by unfold Relative; decide

/-- The two splits. -/
theorem splits_ok {lib : DTLib} {fs : SbdFs} {a : SbdArgs} {train val : List Str} {mats : Str → ClsMat × InstMat}
    (h : SbdTree fs a train val mats) (H2 : SoundDT lib true 0 2) (H1 : SoundDT lib true 0 1)
    (fuel : Nat) (hfuel : ∀ n ∈ train ++ val, (mats n).1.seg.rows * (mats n).1.seg.cols + 1 ≤ fuel) :
    ∃ w1 w2, runSplit lib fuel (withDir fs (saveDirOf a)) a "train".toList = some ⟨w1, none⟩ ∧
      runSplit lib fuel (withDir fs (saveDirOf a)) a "val".toList = some ⟨w2, none⟩ ∧
      WroteSamples a train mats w1 ∧ WroteSamples a val mats w2 := by
  obtain ⟨w1, a1, a2⟩ := sbdSplit_ok h.base H2 H1 fuel hfuel "train".toList train_rel.1 train h.trainNe
    (fun n hn => by simp [hn]) h.trainFile
  obtain ⟨w2, b1, b2⟩ := sbdSplit_ok h.base H2 H1 fuel hfuel "val".toList train_rel.2 val h.valNe
    (fun n hn => by simp [hn]) h.valFile
  exact ⟨w1, w2, a1, b1, a2, b2⟩

theorem exists_fuel (l : List Str) (g : Str → Nat) : ∃ F, ∀ n ∈ l, g n ≤ F := by
  induction l with
  | nil => exact ⟨0, by simp⟩
  | cons a l ih =>
    obtain ⟨F, hF⟩ := ih
    refine ⟨max (g a) F, ?_⟩
    intro n hn
    rcases List.mem_cons.1 hn with rfl | h
    · exact le_max_left _ _
    · exact (hF n h).trans (le_max_right _ _)

/-! ## The whole script: theorems -/

/-- C54: the whole script without `--reanno`. With an exact distance transform and a complete SBD directory, the run ends
without an exception and writes exactly the seven files of every sample of the two lists, each showing what it
should. -/
theorem C54_script (lib : DTLib) (fs : SbdFs) (a : SbdArgs) (train val : List Str) (mats : Str → ClsMat × InstMat)
    (h : SbdTree fs a train val mats) (H2 : SoundDT lib true 0 2) (H1 : SoundDT lib true 0 1)
    (hre : a.reanno = false) :
    ∃ F, ∀ fuel, F ≤ fuel → ∃ w, convertSbd lib fuel fs a = some ⟨w, none⟩ ∧ WroteSamples a (train ++ val) mats w := by
  obtain ⟨F, hF⟩ := exists_fuel (train ++ val) fun n => (mats n).1.seg.rows * (mats n).1.seg.cols + 1
  refine ⟨F, fun fuel hfuel => ?_⟩
  obtain ⟨w1, w2, a1, a2, b1, b2⟩ := splits_ok h H2 H1 fuel (fun n hn => (hF n hn).trans hfuel)
  refine ⟨w1 ++ w2, ?_, wrote_append b1 b2⟩
  unfold convertSbd
  simp only [a1, a2, hre]
  simp [andThen]

/-- C54: different samples and variants never share a file. -/
theorem C54_files_distinct (a : SbdArgs) (n n' : Str) (v v' : Variant)
    (heq : outFile a (variantName n v) = outFile a (variantName n' v')) : n = n' ∧ v = v' := by
  have hsfx : ∃ s : Variant → Str, (∀ n v, variantName n v = n ++ s v) ∧
      ∀ v v', (s v).length ≤ (s v').length → s v <:+ s v' → v = v' := by
    refine ⟨fun v => variantName [] v, ?_, ?_⟩
    · intro n v
      cases v <;> simp [variantName, gtFile]
    · intro v v'
      cases v with
      | edge thin inst =>
        cases thin <;> cases inst <;> (cases v' with
          | edge thin' inst' => cases thin' <;> cases inst' <;> decide
          | labels => decide
          | trainIds => decide
          | instances => decide)
      | labels => cases v' with
          | edge thin' inst' => cases thin' <;> cases inst' <;> decide
          | labels => decide
          | trainIds => decide
          | instances => decide
      | trainIds => cases v' with
          | edge thin' inst' => cases thin' <;> cases inst' <;> decide
          | labels => decide
          | trainIds => decide
          | instances => decide
      | instances => cases v' with
          | edge thin' inst' => cases thin' <;> cases inst' <;> decide
          | labels => decide
          | trainIds => decide
          | instances => decide
  obtain ⟨s, h1, h2⟩ := hsfx
  have he : n ++ s v = n' ++ s v' := by
    rw [← h1, ← h1]
    simpa [outFile, slashed] using heq
  have hv : v = v' := by
    rcases le_total (s v).length (s v').length with hle | hle
    · exact h2 v v' hle (List.suffix_of_suffix_length_le ⟨n, he⟩ ⟨n', rfl⟩ hle)
    · exact (h2 v' v hle (List.suffix_of_suffix_length_le ⟨n', he.symm⟩ ⟨n, rfl⟩ hle)).symm
  subst hv
  exact ⟨List.append_cancel_right he, rfl⟩

end EdgeEval.Props
