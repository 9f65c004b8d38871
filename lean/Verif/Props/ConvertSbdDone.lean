import Verif.Props.ConvertSbdReanno
import Verif.Props.SampleData

/-!
# C54: failures of the SBD conversion, and what the evaluators find afterwards
-/

namespace EdgeEval.Props

open Spec Text Evaluators Samples Datasets EdgeEval.Convert EdgeEval.ConvertSbd

/-! ## Failures -/

theorem runSplit_fail (lib : DTLib) (fuel : Nat) (fs : SbdFs) (a : SbdArgs) (hroot : DirArg a.root) (split : Str)
    (hrel : Relative split) (d : Str) :
    (fs.text (slashed [a.root, split ++ ".txt".toList]) = none →
      runSplit lib fuel (withDir fs d) a split = some ⟨[], some .fileNotFoundError⟩) ∧
    (fs.text (slashed [a.root, split ++ ".txt".toList]) = some [] →
      runSplit lib fuel (withDir fs d) a split = some ⟨[], some .assertionError⟩) := by
  have hdot : Relative ".txt".toList := by unfold Relative; decide
  constructor
  · intro h
    have hg : getSamples (withDir fs d) (slashed [a.root, split ++ ".txt".toList]) = .error .fileNotFoundError :=
      (C54_samples (withDir fs d) _).1 h
    unfold runSplit
    rw [pjoin_slash hroot (relative_append hrel hdot), hg]
    rfl
  · intro h
    have hg : getSamples (withDir fs d) (slashed [a.root, split ++ ".txt".toList]) = .ok [] := by
      unfold getSamples
      show (match fs.text _ with | some raw => Except.ok _ | none => _) = _
      rw [h]
      rfl
    unfold runSplit
    rw [pjoin_slash hroot (relative_append hrel hdot), hg]
    rfl

/-- C54: without a training list the run stops at once and writes nothing: a missing `train.txt` raises
`FileNotFoundError`, an empty one `AssertionError`. A missing or empty `val.txt` raises the same, but only after all
training samples have been converted. -/
theorem C54_no_list (lib : DTLib) (fs : SbdFs) (a : SbdArgs) (hroot : DirArg a.root) :
    (fs.text (slashed [a.root, "train.txt".toList]) = none →
      ∀ fuel, convertSbd lib fuel fs a = some ⟨[], some .fileNotFoundError⟩) ∧
    (fs.text (slashed [a.root, "train.txt".toList]) = some [] →
      ∀ fuel, convertSbd lib fuel fs a = some ⟨[], some .assertionError⟩) ∧
    ∀ train mats, SbdBase fs a train mats → train ≠ [] →
      getSamples fs (slashed [a.root, "train.txt".toList]) = .ok train →
      SoundDT lib true 0 2 → SoundDT lib true 0 1 →
      ∀ e, (fs.text (slashed [a.root, "val.txt".toList]) = none ∧ e = .fileNotFoundError) ∨
          (fs.text (slashed [a.root, "val.txt".toList]) = some [] ∧ e = .assertionError) →
        ∃ F, ∀ fuel, F ≤ fuel → ∃ w, convertSbd lib fuel fs a = some ⟨w, some e⟩ ∧ WroteSamples a train mats w := by
  obtain ⟨q1, q2⟩ := train_rel
  refine ⟨?_, ?_, ?_⟩
  · intro h fuel
    unfold convertSbd
    simp only [(runSplit_fail lib fuel fs a hroot "train".toList q1 _).1 h, andThen]
  · intro h fuel
    unfold convertSbd
    simp only [(runSplit_fail lib fuel fs a hroot "train".toList q1 _).2 h, andThen]
  · intro train mats hb hne hread H2 H1 e he
    obtain ⟨F, hF⟩ := exists_fuel train fun n => (mats n).1.seg.rows * (mats n).1.seg.cols + 1
    refine ⟨F, fun fuel hfuel => ?_⟩
    obtain ⟨w1, a1, a2⟩ := sbdSplit_ok hb H2 H1 fuel (fun n hn => (hF n hn).trans hfuel) "train".toList q1 train hne
      (fun n hn => hn) hread
    refine ⟨w1, ?_, a2⟩
    have hv : runSplit lib fuel (withDir fs (saveDirOf a)) a "val".toList = some ⟨[], some e⟩ := by
      rcases he with ⟨h, rfl⟩ | ⟨h, rfl⟩
      · exact (runSplit_fail lib fuel fs a hroot "val".toList q2 _).1 h
      · exact (runSplit_fail lib fuel fs a hroot "val".toList q2 _).2 h
    unfold convertSbd
    simp only [a1, hv, andThen, Option.map_some, List.append_nil]

/-- C54: whether the re-annotated directories exist is only checked at the end: without them the run with `--reanno`
raises `AssertionError` after it has written all files of the two splits. -/
theorem C54_reanno_checked_late (lib : DTLib) (fs : SbdFs) (a : SbdArgs) (train val : List Str)
    (mats : Str → ClsMat × InstMat) (h : SbdTree fs a train val mats) (H2 : SoundDT lib true 0 2)
    (H1 : SoundDT lib true 0 1) (hre : a.reanno = true)
    (hmiss : ∃ d ∈ ["gt_reanno_raw".toList, "gt_reanno_thin".toList], fs.ex (slashed [a.root, d]) = false ∧
      d ≠ a.outDir) :
    ∃ F, ∀ fuel, F ≤ fuel → ∃ w, convertSbd lib fuel fs a = some ⟨w, some .assertionError⟩ ∧
      WroteSamples a (train ++ val) mats w := by
  obtain ⟨F, hF⟩ := exists_fuel (train ++ val) fun n => (mats n).1.seg.rows * (mats n).1.seg.cols + 1
  refine ⟨F, fun fuel hfuel => ?_⟩
  obtain ⟨w1, w2, a1, a2, b1, b2⟩ := splits_ok h H2 H1 fuel (fun n hn => (hF n hn).trans hfuel)
  refine ⟨w1 ++ w2, ?_, wrote_append b1 b2⟩
  obtain ⟨⟨dr, rr⟩, ⟨dt, rt⟩, rtest, rval⟩ := reanno_dirs
  have hr : runReanno (withDir fs (saveDirOf a)) a = some ⟨[], some .assertionError⟩ := by
    obtain ⟨d, hd, hx, hne⟩ := hmiss
    have hno : (withDir fs (saveDirOf a)).ex (slashed [a.root, d]) = false := by
      show (decide (slashed [a.root, d] = saveDirOf a) || fs.ex (slashed [a.root, d])) = false
      rw [hx, Bool.or_false, decide_eq_false_iff_not, saveDir_eq h.base]
      simpa [slashed] using hne
    unfold runReanno
    rw [pjoin_slash h.base.root rr, pjoin_slash h.base.root rt]
    simp only [List.mem_cons, List.not_mem_nil, or_false] at hd
    rcases hd with rfl | rfl
    · rw [checkPath_error hno]
      rfl
    · rw [checkPath_error hno]
      cases hc : checkPath (withDir fs (saveDirOf a)) (slashed [a.root, "gt_reanno_raw".toList]) with
      | ok p => rfl
      | error e =>
        have : e = .assertionError := by
          cases hb : (withDir fs (saveDirOf a)).ex (slashed [a.root, "gt_reanno_raw".toList]) with
          | false => rw [checkPath_error hb] at hc; cases hc; rfl
          | true => rw [checkPath_ok hb] at hc; cases hc
        subst this
        rfl
  unfold convertSbd
  simp only [a1, a2, hre, if_true, hr, andThen, Option.map_some, List.append_nil]

/-! ## The evaluators afterwards -/

/-- The files a run has written exist, and text files can be read back. -/
def SbdShows (fs : Fs) (written : List (Str × SbdContent)) : Prop :=
  ∀ x ∈ written, fs.ex x.1 = true ∧ ∀ s, x.2 = .text s → fs.read x.1 = some s

theorem gtDirOf_out {a : SbdArgs} {k : Evaluators.Kind} (hk : k = .sbd ∨ k = .reanno) {c : Ctor}
    (hroot : c.datasetRoot = a.root) (hout : DirArg a.outDir)
    (hgt : c.gtDir = some a.outDir ∨ (c.gtDir = none ∧ a.outDir = "gtEval".toList)) (f : Str) :
    slashed [gtDirOf k c, f] = outFile a f := by
  unfold gtDirOf
  rw [if_pos hk, hroot]
  have hne : a.outDir ≠ [] := hout.1
  rcases hgt with h | ⟨h, h'⟩
  · rw [h]; simp [if_neg hne, slashed, outFile]
  · rw [h]; simp [outFile, h', slashed]

/-- C54: after the conversion an SBD evaluator, thin or raw, with or without instances, that is told the same root
and output directory finds all it needs: the default split file gives it the samples of `val.txt`, the ones that have
been converted, and the work list of every category is complete. -/
theorem C54_evaluator_ready (a : SbdArgs) (train val : List Str) (mats : Str → ClsMat × InstMat)
    (w : List (Str × SbdContent)) (hw : WroteSamples a (train ++ val) mats w) (hout : DirArg a.outDir)
    (hne : val ≠ []) (hnames : ∀ n ∈ val, Relative n ∧ OneLine n)
    (eol : Str) (he : eol = ['\n'] ∨ eol = ['\r', '\n'] ∨ eol = ['\r'])
    (fs : Fs) (hfs : SbdShows fs w) (hval : fs.ex (slashed [a.root, "val.txt".toList]) = true)
    (htext : fs.read (slashed [a.root, "val.txt".toList]) = some (linesText eol val))
    (e : Ev) (hk : e.kind = .sbd) (hc : CtorOk e.ctor) (hroot : e.ctor.datasetRoot = a.root)
    (hsplit : e.ctor.split = "val".toList)
    (hgt : e.ctor.gtDir = some a.outDir ∨ (e.ctor.gtDir = none ∧ a.outDir = "gtEval".toList))
    (hroots : Roots fs e) (inst : Bool) (hinst : e.attrs.instanceSensitive = some inst) (ps : Params)
    (hps : evalParams e.kind e.ctor.thin e.attrs = .ok ps) :
    (∀ sfs : SbdFs, sfs.text = fs.read → getSamples sfs (slashed [a.root, "val.txt".toList]) = .ok val) ∧
    setSampleNames fs e.kind e.ctor .none none e.names = (some val, none) ∧
    ∀ category : Int, 1 ≤ category → category ≤ 20 →
      categoryData fs { e with names := some val } category =
        .ok (val.map (expected { e with names := some val } category inst ps)) := by
  have hnb : e.kind ≠ .bsds := by rw [hk]; decide
  have hsr : e.kind = .sbd ∨ e.kind = .reanno := Or.inl hk
  have hnil : OneLine [] := by unfold OneLine; simp
  have hnl : NoEol [] := by unfold NoEol; simp
  refine ⟨?_, ?_, ?_⟩
  · intro sfs hs
    have hne' : ∀ s : Str, OneLine s → NoEol s := fun s h => ⟨fun hc => h _ hc (by decide), oneLine_cr h⟩
    have := (((C54_samples sfs (slashed [a.root, "val.txt".toList])).2 eol he val [] (by rw [hs, htext]; simp)).1
      (fun s hs => hne' s (hnames s hs).2) hnl)
    simpa using this
  · have := C47_split_file fs e.kind hnb e.ctor hc.root none (slashed [a.root, "val.txt".toList])
      (by simp only [if_pos hsr, hroot, hsplit]; rfl) (by rw [hsplit]; unfold Relative; decide) eol he val
      (fun n hn => (hnames n hn).2) [] hnil hval (by rw [htext]; simp) (Or.inl hne) e.names
    simpa using this
  · intro category h1 h2
    rw [C48_samples fs { e with names := some val } hnb (by simp only [hk]; decide) hc _ rfl
      (fun n hn => (hnames n hn).1)]
    refine ⟨hne, hroots, h1, by simp only [if_pos hsr]; exact h2, inst, ps, hinst, hps, ?_, rfl⟩
    intro n hn
    simp only
    rw [gtDirOf_out hsr hroot hout hgt, gtDirOf_out hsr hroot hout hgt, hk]
    obtain ⟨d, hd⟩ := hw.2 n (by simp [hn]) (.edge e.ctor.thin inst)
    obtain ⟨d', hd'⟩ := hw.2 n (by simp [hn]) .labels
    exact ⟨(hfs _ hd).1, (hfs _ hd').1⟩

/-- C54: the evaluator for re-annotated samples after the conversion with `--reanno`.  Given the list `reanno_val.txt`, it
reads the names of the raw re-annotated samples (the default list is `val.txt`).  For any list of samples, the work list
of a category is complete exactly when every sample has been converted from one of the two original lists (the
label map is only made there) and from the re-annotated list of the kind evaluated, raw or thin. -/
theorem C54_reanno_evaluator (a : SbdArgs) (names : List Str) (mats rawMats thinMats : Str → ClsMat × InstMat)
    (rawNames thinNames : List Str) (w r t : List (Str × SbdContent)) (hw : WroteSamples a names mats w)
    (hr : WroteReanno a false rawNames rawMats r) (ht : WroteReanno a true thinNames thinMats t) (hout : DirArg a.outDir)
    (hclash : ∀ n ∈ names, ¬ "_reanno".toList <:+ n)
    (fs : Fs) (hfs : SbdShows fs (w ++ r ++ t ++
      [(slashed [a.root, "reanno_val.txt".toList], .text (linesText ['\n'] rawNames))]))
    (honly : ∀ f, fs.ex (outFile a f) = true → ∃ d, (outFile a f, d) ∈ w ++ r ++ t)
    (e : Ev) (hk : e.kind = .reanno) (hc : CtorOk e.ctor) (hroot : e.ctor.datasetRoot = a.root)
    (hgt : e.ctor.gtDir = some a.outDir ∨ (e.ctor.gtDir = none ∧ a.outDir = "gtEval".toList))
    (hroots : Roots fs e) (inst : Bool) (hinst : e.attrs.instanceSensitive = some inst) (ps : Params)
    (hps : evalParams e.kind e.ctor.thin e.attrs = .ok ps) :
    (rawNames ≠ [] → (∀ n ∈ rawNames, OneLine n) →
      setSampleNames fs e.kind e.ctor .none (some (slashed [a.root, "reanno_val.txt".toList])) e.names =
        (some rawNames, none)) ∧
    ∀ L : List Str, L ≠ [] → (∀ n ∈ L, Relative n) → ∀ category : Int, 1 ≤ category → category ≤ 20 →
      ∀ data, categoryData fs { e with names := some L } category = .ok data ↔
        (∀ n ∈ L, n ∈ names ∧ n ∈ (if e.ctor.thin then thinNames else rawNames)) ∧
        data = L.map (expected { e with names := some L } category inst ps) := by
  have hnb : e.kind ≠ .bsds := by rw [hk]; decide
  have hsr : e.kind = .sbd ∨ e.kind = .reanno := Or.inr hk
  have hnil : OneLine [] := by unfold OneLine; simp
  constructor
  · intro hne hnames
    obtain ⟨x1, x2⟩ := hfs (slashed [a.root, "reanno_val.txt".toList], .text (linesText ['\n'] rawNames)) (by simp)
    have hs : Relative e.ctor.split := by
      rcases hc.split with h | h <;> rw [h] <;> unfold Relative <;> decide
    have := C47_split_file fs e.kind hnb e.ctor hc.root (some (slashed [a.root, "reanno_val.txt".toList]))
      (slashed [a.root, "reanno_val.txt".toList]) rfl hs ['\n'] (Or.inl rfl) rawNames
      hnames [] hnil x1 (by rw [x2 _ rfl]; simp) (Or.inl hne) e.names
    simpa using this
  · intro L hne hL category h1 h2 data
    -- where the files of a name can come from
    have hsfx : ∀ (n n' : Str) (s s' : Str), n ++ s = n' ++ s' → s <:+ s' ∨ s' <:+ s := by
      intro n n' s s' heq
      rcases le_total s.length s'.length with hle | hle
      · exact Or.inl (List.suffix_of_suffix_length_le ⟨n, heq⟩ ⟨n', rfl⟩ hle)
      · exact Or.inr (List.suffix_of_suffix_length_le ⟨n', heq.symm⟩ ⟨n, rfl⟩ hle)
    have hinj : ∀ f f' : Str, outFile a f = outFile a f' → f = f' := by
      intro f f' h
      simpa [outFile, slashed] using h
    have hre : ∀ thin i n, gtFile .reanno thin i n = n ++ gtFile .reanno thin i [] := by
      intro thin i n; simp [gtFile]
    have hva : ∀ v n, variantName n v = n ++ variantName [] v := by
      intro v n; cases v <;> simp [variantName, gtFile]
    have hlabel : ∀ n, fs.ex (outFile a (n ++ "_labelIds.png".toList)) = true ↔ n ∈ names := by
      intro n
      constructor
      · intro h
        obtain ⟨d, hd⟩ := honly _ h
        simp only [List.mem_append] at hd
        have clash : ∀ thin i, ¬ ("_labelIds.png".toList <:+ gtFile .reanno thin i [] ∨
            gtFile .reanno thin i [] <:+ "_labelIds.png".toList) := by decide
        rcases hd with (hd | hd) | hd
        · obtain ⟨n', hn', v, hf, -⟩ := hw.1 _ _ hd
          have := (C54_files_distinct a n n' .labels v hf).1
          rwa [this]
        · obtain ⟨n', -, i, -, hf, -⟩ := hr.1 _ _ hd
          have := hinj _ _ hf
          rw [hre] at this
          exact absurd (hsfx _ _ _ _ this) (clash _ _)
        · obtain ⟨n', -, i, -, hf, -⟩ := ht.1 _ _ hd
          have := hinj _ _ hf
          rw [hre] at this
          exact absurd (hsfx _ _ _ _ this) (clash _ _)
      · intro h
        obtain ⟨d, hd⟩ := hw.2 n h .labels
        exact (hfs _ (by simp only [List.mem_append]; exact Or.inl (Or.inl (Or.inl hd)))).1
    have hedge : ∀ n thin, fs.ex (outFile a (gtFile .reanno thin inst n)) = true ↔
        n ∈ (if thin then thinNames else rawNames) := by
      intro n thin
      constructor
      · intro h
        obtain ⟨d, hd⟩ := honly _ h
        simp only [List.mem_append] at hd
        have same : ∀ thin' i', (gtFile .reanno thin inst [] <:+ gtFile .reanno thin' i' [] ∨
            gtFile .reanno thin' i' [] <:+ gtFile .reanno thin inst []) → thin = thin' ∧ inst = i' := by
          cases thin <;> cases inst <;> decide
        rcases hd with (hd | hd) | hd
        · obtain ⟨n', hn', v, hf, -⟩ := hw.1 _ _ hd
          have he := hinj _ _ hf
          rw [hre, hva] at he
          have hv : v = .edge thin inst := by
            have := hsfx _ _ _ _ he
            revert this
            cases thin <;> cases inst <;> (cases v with
              | edge thin' inst' => cases thin' <;> cases inst' <;> decide
              | labels => decide
              | trainIds => decide
              | instances => decide)
          subst hv
          have hs : gtFile .reanno thin inst [] = "_reanno".toList ++ variantName [] (.edge thin inst) := by
            cases thin <;> cases inst <;> decide
          rw [hs, ← List.append_assoc] at he
          exact absurd ⟨n, List.append_cancel_right he⟩ (hclash n' hn')
        · obtain ⟨n', hn', i, -, hf, -⟩ := hr.1 _ _ hd
          have he := hinj _ _ hf
          rw [hre, hre false i] at he
          obtain ⟨rfl, rfl⟩ := same _ _ (hsfx _ _ _ _ he)
          rw [List.append_cancel_right he]
          exact hn'
        · obtain ⟨n', hn', i, -, hf, -⟩ := ht.1 _ _ hd
          have he := hinj _ _ hf
          rw [hre, hre true i] at he
          obtain ⟨rfl, rfl⟩ := same _ _ (hsfx _ _ _ _ he)
          rw [List.append_cancel_right he]
          exact hn'
      · intro h
        cases thin with
        | false =>
          obtain ⟨d, hd⟩ := hr.2 n h inst
          exact (hfs _ (by simp only [List.mem_append]; exact Or.inl (Or.inl (Or.inr hd)))).1
        | true =>
          obtain ⟨d, hd⟩ := ht.2 n h inst
          exact (hfs _ (by simp only [List.mem_append]; exact Or.inl (Or.inr hd))).1
    rw [C48_samples fs { e with names := some L } hnb (by simp only [hk]; decide) hc L rfl hL category]
    have hseg : ∀ n, slashed [gtDirOf e.kind e.ctor, segFile e.kind n] = outFile a (n ++ "_labelIds.png".toList) := by
      intro n
      rw [gtDirOf_out hsr hroot hout hgt, hk]
      rfl
    have hgt' : ∀ i n, slashed [gtDirOf e.kind e.ctor, gtFile e.kind e.ctor.thin i n] =
        outFile a (gtFile .reanno e.ctor.thin i n) := by
      intro i n
      rw [gtDirOf_out hsr hroot hout hgt, hk]
    simp only [hseg, hgt', hlabel]
    constructor
    · rintro ⟨-, -, -, -, i, ps', g1, g2, g3, g4⟩
      rw [hinst] at g1
      cases g1
      rw [hps] at g2
      cases g2
      exact ⟨fun n hn => ⟨(g3 n hn).2, (hedge n _).1 (g3 n hn).1⟩, g4⟩
    · rintro ⟨g1, g2⟩
      exact ⟨hne, hroots, h1, by rw [if_pos hsr]; exact h2, inst, ps, hinst, hps,
        fun n hn => ⟨(hedge n _).2 (g1 n hn).2, (g1 n hn).1⟩, g2⟩

end EdgeEval.Props
