import Verif.Spec.Commands
import Verif.Props.Argparse
import Verif.Props.BsdsFiles
import Verif.Props.Cli
import Verif.Props.SampleNames
import Verif.Spec.Protocol

/-!
# C84: the evaluation commands from the command line to the scores
-/

namespace EdgeEval.Props

open Text Evaluators Samples Datasets Argparse EndToEnd MatFile Commands Spec

section

theorem prepare_ready {w : World} {pred : Str} {asked : Option Str} {out : Str} {fs : Fs}
    (h : OutputReady w pred asked out fs) : prepare w pred asked = .ok (out, fs) := by
  obtain ⟨h1, h2, h3⟩ := h
  have ho : outputDir w pred asked = out := by
    rw [h1]; cases asked <;> rfl
  unfold prepare
  rw [ho]
  by_cases h0 : out = []
  · rw [if_pos h0] at h2
    rw [if_pos h0]
    subst h2
    simp only [h3, if_true]
  · rw [if_neg h0] at h2
    rw [if_neg h0, h2]
    simp only [h3, if_true]

theorem range_getD {α β : Type} (l : List α) (d : α) (f : α → β) :
    ((List.range l.length).map fun (i : Nat) => f (l.getD i d)) = l.map f := by
  apply List.ext_getElem
  · simp
  · intro i h1 h2
    have hi : i < l.length := by simpa using h1
    simp [List.getD_eq_getElem?_getD, List.getElem?_eq_getElem hi]

/-- The evaluator's sample names for a directory of annotation files. -/
theorem bsds_names (fs : Fs) (c : Ctor) (hroot : DirArg c.datasetRoot) (hs : c.split = "val".toList ∨ c.split = "test".toList)
    (files : List Str) (hlist : fs.list (slashed [c.datasetRoot, "groundTruth".toList, c.split]) = some files)
    (hslash : ∀ f ∈ files, '/' ∉ f) (hnd : files.Nodup)
    (hlower : ∀ stem ext, stem ++ '.' :: ext ∈ files → lower ext = "mat".toList → ext = "mat".toList)
    (hsome : ∃ s, MatEntry files s) :
    ∃ stems : List Str, stems ≠ [] ∧ stems.Nodup ∧ (∀ s, s ∈ stems ↔ MatEntry files s) ∧
      construct fs .bsds c = .ok (some (stems.map fun s => slashed [c.split, s])) := by
  have hsp : DirArg c.split ∧ Relative c.split := by
    unfold DirArg Relative
    rcases hs with h | h <;> rw [h] <;> decide
  have hj1 : pjoin (bsdsGtRoot c) c.split = slashed [c.datasetRoot, "groundTruth".toList, c.split] := by
    have h0 : DirArg "groundTruth".toList ∧ Relative "groundTruth".toList := by unfold DirArg Relative; decide
    unfold bsdsGtRoot
    rw [pjoin_slash hroot h0.2, pjoin_slash (dirArg_slash h0.1) hsp.2]
    simp [slashed]
  set fl := files.filter fun fn => decide (lower (splitext fn).2 = ".mat".toList) with hfl
  have key : ∀ f ∈ fl, ∃ s, f = s ++ ".mat".toList ∧ (splitext f).1 = s ∧ MatEntry files s := by
    intro f hf
    obtain ⟨hf1, hf2⟩ := List.mem_filter.1 hf
    have hf2 := of_decide_eq_true hf2
    have hne : (splitext f).2 ≠ [] := by
      intro h; rw [h] at hf2; revert hf2; decide
    obtain ⟨stem, ext, rfl, hdot, hst, h4⟩ := splitext_inv f hne
    rw [h4] at hf2
    have he : lower ext = "mat".toList := by
      have : lower ('.' :: ext) = '.' :: lower ext := rfl
      rw [this] at hf2
      simpa using hf2
    obtain rfl := hlower _ _ hf1 he
    exact ⟨stem, rfl, by rw [h4], hf1, hst⟩
  have hmem : ∀ s, s ∈ (fl.map fun f => (splitext f).1) ↔ MatEntry files s := by
    intro s
    constructor
    · intro h
      obtain ⟨f, hf, rfl⟩ := List.mem_map.1 h
      obtain ⟨s', -, h2, h3⟩ := key f hf
      rw [h2]; exact h3
    · intro h
      have h4 := splitext_dot s "mat".toList (by decide) h.2
      refine List.mem_map.2 ⟨s ++ ".mat".toList, List.mem_filter.2 ⟨h.1, decide_eq_true ?_⟩, ?_⟩
      · show lower (splitext (s ++ '.' :: "mat".toList)).2 = _
        rw [h4]; rfl
      · show (splitext (s ++ '.' :: "mat".toList)).1 = _
        rw [h4]
  have hnames : matNames c.split files = (fl.map fun f => (splitext f).1).map fun s => slashed [c.split, s] := by
    unfold matNames
    rw [List.map_map]
    apply List.map_congr_left
    intro f hf
    obtain ⟨s, h1, h2, -⟩ := key f hf
    show pjoin c.split (splitext f).1 = slashed [c.split, (splitext f).1]
    rw [h2]
    refine pjoin_slash hsp.1 ?_
    intro h0
    have := List.mem_of_head? h0
    exact hslash f (List.mem_of_mem_filter hf) (by rw [h1]; simp [this])
  have hne : (fl.map fun f => (splitext f).1) ≠ [] := by
    obtain ⟨s, hs⟩ := hsome
    exact List.ne_nil_of_mem ((hmem s).2 hs)
  refine ⟨fl.map fun f => (splitext f).1, hne, ?_, hmem, ?_⟩
  · refine List.Nodup.map_on ?_ (hnd.filter _)
    intro a ha b hb hab
    obtain ⟨s, h1, h2, -⟩ := key a ha
    obtain ⟨t, h3, h4, -⟩ := key b hb
    rw [h1, h3, ← h2, ← h4, hab]
  · unfold construct
    rw [if_pos hs]
    simp only [setSampleNames, chooseNames, if_true, hj1, hlist, hnames]
    rw [if_neg (by simpa using hne)]

/-- **C84** The evaluator `bsds500.py` runs. -/
theorem C84_bsds_evaluator (w : World) (fs : Fs) (env : Env) (argv : List Str) (items : List Item)
    (h : CommandLine bsdsParser argv items) (dataset pred : Str) (hpos : positionalsOf items = [dataset, pred])
    (split : Str) (hsplit : split = if flagGiven items "--use-val" then "val".toList else "test".toList) (out : Str)
    (hout : OutputReady w pred (textGiven items "--output-path" none) out fs)
    (arg : ThresholdArg) (harg : Cli.parseThresholds (wordGiven items "--thresholds" "99".toList) = some arg)
    (names : Option (List Str)) (hnames : construct fs .bsds { datasetRoot := dataset, predRoot := pred, split := split } = .ok names)
    (rnd : Nat → Nat → Nat → Nat → ℚ) (sched : List PoolEvent) :
    Commands.bsds w env argv rnd sched =
      endOf out (evaluateBsds fs env ⟨.bsds, { datasetRoot := dataset, predRoot := pred, split := split }, names,
        { scale := some 1, thinning := some !flagGiven items "--raw", nms := some (flagGiven items "--apply-nms"),
          maxDist := some (numGiven items "--max-dist" (75 / 10000)) }⟩ arg (intGiven items "--nproc" 4).toNat
        (decide (out ≠ [])) false rnd sched) := by
  subst hsplit
  unfold Commands.bsds
  rw [C83_bsds argv items h dataset pred hpos]
  have harg' : Cli.parseThresholds (bsdsOptsGiven items).thresholds = some arg := harg
  have e2 : setEvalParams .bsds (Cli.argsOf { bsdsOptsGiven items with thinning := !flagGiven items "--raw" } none 1
      (bsdsOptsGiven items).maxDist) {} =
      ({ scale := some 1, thinning := some !flagGiven items "--raw", nms := some (flagGiven items "--apply-nms"),
         maxDist := some (numGiven items "--max-dist" (75 / 10000)) }, none) := by
    simp [setEvalParams, setBsds, Cli.argsOf, bsdsOptsGiven]
  simp only [harg', prepare_ready hout, hnames, e2]

end

/-- **C84** `bsds500.py DATASET PRED [options]`: when the output directory can be made, the annotation directory holds
the files of the split and there is a prediction of the same size for each, the command ends normally, whatever the
workers' schedule, with one table of sound scores for exactly the annotated pictures: at each threshold, recall is the
matched fraction of all pixels the annotators marked, precision (with `--raw` and without `--apply-nms`) that of all
responses reaching the threshold; the three result files are written unless the output path is empty. -/
theorem C84_bsds (w : World) (fs : Fs) (menv : MatEnv) (rgb : Str → Option Rgb) (gray : Str → Option (Img Nat)) (env : Env)
    (henv : env.pics = picturesOf menv rgb gray) (hpics : NoEmptyPictures env.pics) (hnms : KeepsShape env.nms)
    (rnd : Nat → Nat → Nat → Nat → ℚ) (hrnd : ∀ i, UnitStreams (rnd i))
    (argv : List Str) (items : List Item) (h : CommandLine bsdsParser argv items)
    (dataset pred : Str) (hpos : positionalsOf items = [dataset, pred]) (hroot : DirArg dataset) (hpred : DirArg pred)
    (split : Str) (hsplit : split = if flagGiven items "--use-val" then "val".toList else "test".toList) (out : Str)
    (hout : OutputReady w pred (textGiven items "--output-path" none) out fs)
    (arg : ThresholdArg) (harg : Cli.parseThresholds (wordGiven items "--thresholds" "99".toList) = some arg)
    (ths : List ℚ) (hth : checkThresholds arg = .ok ths) (hne : ths ≠ [])
    (hd : 0 < numGiven items "--max-dist" (75 / 10000))
    (hdirs : fs.ex dataset = true ∧ fs.ex (slashed [dataset, "groundTruth".toList]) = true ∧ fs.ex pred = true)
    (files : List Str) (hlist : fs.list (slashed [dataset, "groundTruth".toList, split]) = some files)
    (hslash : ∀ f ∈ files, '/' ∉ f) (hnd : files.Nodup)
    (hlower : ∀ stem ext, stem ++ '.' :: ext ∈ files → lower ext = "mat".toList → ext = "mat".toList)
    (hsome : ∃ s, MatEntry files s) (P : Str → Img Nat) (G : Str → List (Img Nat))
    (hfiles : ∀ s, MatEntry files s →
      fs.ex (slashed [dataset, "groundTruth".toList, split, s ++ ".mat".toList]) = true ∧
      fs.ex (slashed [pred, split, s ++ ".png".toList]) = true ∧
      gray (slashed [pred, split, s ++ ".png".toList]) = some (P s) ∧
      HoldsAnnotations menv (slashed [dataset, "groundTruth".toList, split, s ++ ".mat".toList]) (G s) ∧
      FitsPrediction (P s) (G s)) :
    ∃ (stems : List Str) (res : Outcome) (F : Nat), stems.Nodup ∧ (∀ s, s ∈ stems ↔ MatEntry files s) ∧
      (∀ fuel, F ≤ fuel → ∀ sched,
        (∀ o', Commands.bsds w { env with fuel := fuel } argv rnd sched = some o' → o' = .finished out res) ∧
        ((∀ i < stems.length, .complete i ∈ sched) → ∃ k, Commands.bsds w { env with fuel := fuel } argv rnd
          (sched ++ List.replicate k .next) = some (.finished out res))) ∧
      GoodScores (stems.map fun s => String.ofList (slashed [split, s])) ths res.samples res.table res.overall ∧
      SavedFiles (decide (out ≠ [])) [] res ∧
      ∀ k < ths.length, ∃ row, res.table[k]? = some row ∧ row.threshold = ths.getD k 0 ∧
        (let E := (stems.map fun s => (markedPixels (G s) : ℚ)).sum
         ∃ m, 0 ≤ m ∧ m ≤ E ∧ row.recall = if E = 0 then 0 else m / E) ∧
        (flagGiven items "--apply-nms" = false → flagGiven items "--raw" = true →
          let R := (stems.map fun s => (reaching (ths.getD k 0) (P s) : ℚ)).sum
          ∃ m, 0 ≤ m ∧ m ≤ R ∧ row.precision = if R = 0 then 0 else m / R) := by
  have hs : split = "val".toList ∨ split = "test".toList := by
    rw [hsplit]; split
    · exact .inl rfl
    · exact .inr rfl
  obtain ⟨stems, s1, s2, s3, s4⟩ := bsds_names fs { datasetRoot := dataset, predRoot := pred, split := split } hroot hs files
    hlist hslash hnd hlower hsome
  simp only at s4
  have hrun := fun fuel sched => C84_bsds_evaluator w fs { env with fuel := fuel } argv items h dataset pred hpos split hsplit out hout arg harg _ s4
    rnd sched
  have hgt : ∀ s, slashed [dataset, "groundTruth".toList, slashed [split, s] ++ ".mat".toList] =
      slashed [dataset, "groundTruth".toList, split, s ++ ".mat".toList] := by
    intro s; simp [slashed]
  have hpr : ∀ s, slashed [pred, slashed [split, s] ++ ".png".toList] = slashed [pred, split, s ++ ".png".toList] := by
    intro s; simp [slashed]
  have hdrop : ∀ s, (slashed [split, s]).drop (split.length + 1) = s := by
    intro s; simp [slashed]
  obtain ⟨res, F, g1, g2, -, g4, g5⟩ := C82_scores fs menv rgb gray env henv
    ⟨.bsds, { datasetRoot := dataset, predRoot := pred, split := split }, some (stems.map fun s => slashed [split, s]),
        { scale := some 1, thinning := some !flagGiven items "--raw", nms := some (flagGiven items "--apply-nms"),
          maxDist := some (numGiven items "--max-dist" (75 / 10000)) }⟩ rfl hroot hpred _ rfl (by simpa using s1)
    (by
      intro n hn
      obtain ⟨s, -, rfl⟩ := List.mem_map.1 hn
      unfold Relative
      rcases hs with h | h <;> rw [h] <;> simp [slashed])
    hdirs ⟨1, !flagGiven items "--raw", flagGiven items "--apply-nms", numGiven items "--max-dist" (75 / 10000), none, none, none⟩
    rfl hd
    (by
      intro n hn
      obtain ⟨s, hm, rfl⟩ := List.mem_map.1 hn
      have := hfiles s ((s3 s).1 hm)
      simp only [hgt, hpr]
      exact ⟨this.1, this.2.1⟩)
    arg ths hth hne hpics hnms rnd hrnd (fun n => P (n.drop (split.length + 1))) (fun n => G (n.drop (split.length + 1)))
    (by
      intro n hn
      obtain ⟨s, hm, rfl⟩ := List.mem_map.1 hn
      have := hfiles s ((s3 s).1 hm)
      simp only [hgt, hpr, hdrop]
      exact ⟨this.2.2.1, this.2.2.2.1, this.2.2.2.2⟩)
    (decide (out ≠ []))
  refine ⟨stems, res, F, s2, s3, fun fuel hf sched => ?_, ?_, g4, fun k hk => ?_⟩
  · obtain ⟨r1, r2⟩ := g1 fuel hf (intGiven items "--nproc" 4).toNat sched
    constructor
    · intro o' ho
      rw [hrun] at ho
      obtain ⟨y, hy, rfl⟩ := Option.map_eq_some_iff.1 ho
      rw [r1 y hy]
    · intro hc
      obtain ⟨k, hk⟩ := r2 (by simpa using hc)
      exact ⟨k, by rw [hrun, hk]; rfl⟩
  · simpa [List.map_map, Function.comp_def] using g2
  · obtain ⟨row, t1, t2, t3, t4⟩ := g5 k hk
    have hE := range_getD (stems.map fun s => slashed [split, s]) []
      (fun n => ((markedPixels (G (n.drop (split.length + 1))) : Nat) : ℚ))
    have hR := range_getD (stems.map fun s => slashed [split, s]) []
      (fun n => ((reaching (ths.getD k 0) (P (n.drop (split.length + 1))) : Nat) : ℚ))
    rw [List.map_map] at hE hR
    simp only [Function.comp_def, hdrop] at hE hR
    refine ⟨row, t1, t2, ?_, fun a b => ?_⟩
    · rw [← hE]; exact t3
    · rw [← hR]; exact t4 a (by simp [b])

/-! ## The BSDS self-test -/

section

/-- **C84** The evaluator `script_bsds500.py` runs: five pictures, whatever files there are besides. -/
theorem C84_script_evaluator (fs : Fs) (env : Env) (argv : List Str) (items : List Item) (h : CommandLine scriptParser argv items)
    (bench out : Str) (hpos : positionalsOf items = [bench, out]) (hroot : DirArg bench)
    (rnd : Nat → Nat → Nat → Nat → ℚ) (sched : List PoolEvent) :
    (fs.ex bench = false → Commands.script fs env argv rnd sched = some (.raised .assertionError)) ∧
    (fs.ex bench = true → Commands.script fs env argv rnd sched =
      endOf out (evaluateBsds fs env ⟨.bsds, { datasetRoot := bench, predRoot := slashed [bench, "png".toList], split := "test".toList },
        some ["2018".toList, "3063".toList, "5096".toList, "6046".toList, "8068".toList],
        { scale := some 1, thinning := some true, nms := some false, maxDist := some (75 / 10000) }⟩ (.int 5)
        (intGiven items "--nproc" 1).toNat (decide (out ≠ [])) false rnd sched)) := by
  have hj : pjoin bench "png".toList = slashed [bench, "png".toList] := pjoin_slash hroot (by unfold Relative; decide)
  unfold Commands.script
  rw [C83_script argv items h bench out hpos]
  refine ⟨fun h0 => by simp [h0], fun h0 => ?_⟩
  simp only [h0, if_true, hj]
  rcases (C47_constructor fs .bsds { datasetRoot := bench, predRoot := slashed [bench, "png".toList], split := "test".toList }).2
    (.inr rfl) with ⟨l, -, -, h1⟩ | ⟨e, -, h1⟩ <;>
  · rw [h1]
    simp only
    rw [(C47_explicit fs .bsds _ none _).1 sampleNames (by decide)]
    simp only
    rw [show setEvalParams .bsds _ {} = (({ scale := some 1, thinning := some true, nms := some false, maxDist := some (75 / 10000) } : Attrs), none) by
      simp [setEvalParams, setBsds]]
    rfl

/-- **C84** `script_bsds500.py BENCH OUT [--nproc N]`: with the five annotated pictures and their predictions in place, the
command ends normally, whatever the workers' schedule, with one table of sound scores at the thresholds 1/6 to 5/6: recall is
the matched fraction of all pixels the annotators marked; the three result files are written unless OUT is empty. -/
theorem C84_script (fs : Fs) (menv : MatEnv) (rgb : Str → Option Rgb) (gray : Str → Option (Img Nat)) (env : Env)
    (henv : env.pics = picturesOf menv rgb gray) (hpics : NoEmptyPictures env.pics) (hnms : KeepsShape env.nms)
    (rnd : Nat → Nat → Nat → Nat → ℚ) (hrnd : ∀ i, UnitStreams (rnd i))
    (argv : List Str) (items : List Item) (h : CommandLine scriptParser argv items)
    (bench out : Str) (hpos : positionalsOf items = [bench, out]) (hroot : DirArg bench)
    (hdirs : fs.ex bench = true ∧ fs.ex (slashed [bench, "groundTruth".toList]) = true ∧
      fs.ex (slashed [bench, "png".toList]) = true) (P : Str → Img Nat) (G : Str → List (Img Nat))
    (names : List Str) (hnames : names = ["2018".toList, "3063".toList, "5096".toList, "6046".toList, "8068".toList])
    (hfiles : ∀ n ∈ names,
      fs.ex (slashed [bench, "groundTruth".toList, n ++ ".mat".toList]) = true ∧
      fs.ex (slashed [bench, "png".toList, n ++ ".png".toList]) = true ∧
      gray (slashed [bench, "png".toList, n ++ ".png".toList]) = some (P n) ∧
      HoldsAnnotations menv (slashed [bench, "groundTruth".toList, n ++ ".mat".toList]) (G n) ∧ FitsPrediction (P n) (G n)) :
    ∃ (res : Outcome) (F : Nat),
      (∀ fuel, F ≤ fuel → ∀ sched,
        (∀ o', Commands.script fs { env with fuel := fuel } argv rnd sched = some o' → o' = .finished out res) ∧
        ((∀ i < 5, .complete i ∈ sched) → ∃ k, Commands.script fs { env with fuel := fuel } argv rnd
          (sched ++ List.replicate k .next) = some (.finished out res))) ∧
      GoodScores (names.map String.ofList) [1 / 6, 2 / 6, 3 / 6, 4 / 6, 5 / 6] res.samples res.table res.overall ∧
      SavedFiles (decide (out ≠ [])) [] res ∧
      ∀ k : Nat, k < 5 → ∃ row, res.table[k]? = some row ∧ row.threshold = ((k : ℚ) + 1) / 6 ∧
        (let E := (names.map fun n => (markedPixels (G n) : ℚ)).sum
         ∃ m, 0 ≤ m ∧ m ≤ E ∧ row.recall = if E = 0 then 0 else m / E) := by
  have hrun := fun fuel sched => (C84_script_evaluator fs { env with fuel := fuel } argv items h bench out hpos hroot rnd sched).2 hdirs.1
  rw [← hnames] at hrun
  have hp : DirArg (slashed [bench, "png".toList]) := dirArg_slash (by unfold DirArg; decide)
  have hth : checkThresholds (.int 5) = .ok [1 / 6, 2 / 6, 3 / 6, 4 / 6, 5 / 6] := by
    have := C03_int_grid 5
    rw [show ((5 : ℕ) : ℤ) = 5 from rfl] at this
    rw [this]
    norm_num [List.range, List.range.loop]
  have hsl : ∀ x, slashed [slashed [bench, "png".toList], x] = slashed [bench, "png".toList, x] := by
    intro x; simp [slashed]
  obtain ⟨res, F, g1, g2, -, g4, g5⟩ := C82_scores fs menv rgb gray env henv
    ⟨.bsds, { datasetRoot := bench, predRoot := slashed [bench, "png".toList], split := "test".toList }, some names,
        { scale := some 1, thinning := some true, nms := some false, maxDist := some (75 / 10000) }⟩ rfl hroot hp names rfl
    (by rw [hnames]; simp)
    (by rw [hnames]; unfold Relative; decide)
    hdirs ⟨1, true, false, 75 / 10000, none, none, none⟩ rfl (by norm_num)
    (by
      intro n hn
      simp only [hsl]
      exact ⟨(hfiles n hn).1, (hfiles n hn).2.1⟩)
    (.int 5) _ hth (by simp) hpics hnms rnd hrnd P G
    (by
      intro n hn
      simp only [hsl]
      exact (hfiles n hn).2.2)
    (decide (out ≠ []))
  refine ⟨res, F, fun fuel hf sched => ?_, g2, g4, fun k hk => ?_⟩
  · obtain ⟨r1, r2⟩ := g1 fuel hf (intGiven items "--nproc" 1).toNat sched
    constructor
    · intro o' ho
      rw [hrun] at ho
      obtain ⟨y, hy, rfl⟩ := Option.map_eq_some_iff.1 ho
      rw [r1 y hy]
    · intro hc
      obtain ⟨k, hk⟩ := r2 (by rw [hnames]; exact hc)
      exact ⟨k, by rw [hrun, hk]; rfl⟩
  · obtain ⟨row, t1, t2, t3, -⟩ := g5 k hk
    have hE := range_getD names [] (fun n => ((markedPixels (G n) : Nat) : ℚ))
    refine ⟨row, t1, t2.trans ?_, ?_⟩
    · interval_cases k <;> norm_num
    · rw [← hE]; exact t3

end

/-! ## Cityscapes and SBD -/

section

/-- If no run of a category ends in an exception, the loop over the categories ends normally or one of them has not ended. -/
theorem loop_unended (er : PyErr) (evalCat : Nat → Int → Except PyErr (Dict ℚ)) : ∀ (cs : List Int) (i : Nat) (d : Dict (List ℚ)),
    (∀ j (h : j < cs.length), evalCat (i + j) cs[j] = .error er ∨ ∃ m, evalCat (i + j) cs[j] = .ok m) →
    categoryLoop evalCat i cs d = .error er ∨ ∀ j (h : j < cs.length), ∃ m, evalCat (i + j) cs[j] = .ok m
  | [], _, _, _ => .inr fun j h => absurd h (by simp)
  | c :: cs, i, d, h => by
    unfold categoryLoop
    rcases h 0 (by simp) with h0 | ⟨m, h0⟩
    · left
      simp only [Nat.add_zero, List.getElem_cons_zero] at h0
      rw [h0]
    · simp only [Nat.add_zero, List.getElem_cons_zero] at h0
      rw [h0]
      rcases loop_unended er evalCat cs (i + 1) (pushAll d m) (fun j hj => by
        have := h (j + 1) (by simpa using hj)
        simpa [Nat.add_assoc, Nat.add_comm, Nat.add_left_comm] using this) with h1 | h1
      · exact .inl h1
      · right
        intro j hj
        cases j with
        | zero => exact ⟨m, by simpa using h0⟩
        | succ j =>
          obtain ⟨m', hm⟩ := h1 j (by simpa using hj)
          exact ⟨m', by simpa [Nat.add_assoc, Nat.add_comm, Nat.add_left_comm] using hm⟩

theorem evaluate_unended (er : PyErr) (classes : List String) (evalCat : Nat → Int → Except PyErr (Dict ℚ)) (cs : List Int)
    (hne : cs ≠ []) (save : Bool) (print : List String) (Q : ∀ j, j < cs.length → Prop)
    (h : ∀ j (hj : j < cs.length), evalCat j cs[j] = .error er ∨ (Q j hj ∧ ∃ m, evalCat j cs[j] = .ok m)) :
    Evaluators.evaluate classes evalCat (.list cs) save print = .error er ∨ ∀ j hj, Q j hj := by
  rcases loop_unended er evalCat cs 0 [] (by
    intro j hj
    rw [Nat.zero_add]
    exact (h j hj).imp id And.right) with h1 | h1
  · left
    unfold Evaluators.evaluate
    rw [show normCategories classes.length (.list cs) = .ok cs by simp [normCategories, hne]]
    simp only
    rw [h1]
  · right
    intro j hj
    rcases h j hj with h2 | h2
    · obtain ⟨m, hm⟩ := h1 j hj
      rw [Nat.zero_add, h2] at hm
      cases hm
    · exact h2.1

theorem multi_names {fs : Fs} {k : Kind} (hk : k ≠ .bsds) {c : Ctor} (hroot : DirArg c.datasetRoot) (hs : c.split = "val".toList)
    {names : List Str}
    (hl : ListsSamples fs (if k = .sbd then slashed [c.datasetRoot, "val.txt".toList]
      else slashed [c.datasetRoot, "splits".toList, "val.txt".toList]) names) (hkr : k ≠ .reanno) :
    namesOf fs k c = .ok names := by
  obtain ⟨h1, h2, eol, items, last, h3, h4, h5, h6, h7⟩ := hl
  have := C47_split_file fs k hk c hroot none _ rfl (by unfold Relative; rw [hs]; decide) eol h3 items h4 last h5
    (by
      rw [← h1]; simp only [hs, hkr, or_false]; rfl)
    (by
      rw [← h7]; simp only [hs, hkr, or_false]; rfl)
    (by
      by_contra hc
      push Not at hc
      rw [hc.1, hc.2] at h6
      exact h2 (by simpa using h6)) none
  rw [← h6] at this
  unfold namesOf construct
  rw [if_pos (.inl hs), this]

/-- A command that gets as far as the evaluation is the evaluation. -/
theorem multi_runs (w : World) (fs : Fs) (env : Env) (rnd : Nat → Nat → Nat → Nat → Nat → ℚ) (classes : List String)
    (k : Kind) (hk : k = .cityscapes ∨ k = .half ∨ k = .sbd) (thin : Bool) (bound : Int)
    (hbound : bound = (numClasses k : Int) + 1) (dataset pred : Str) (hroot : DirArg dataset)
    (output : Option Str) (out : Str) (hout : OutputReady w pred output out fs) (nproc : Int) (o : Cli.Opts) (a : Args)
    (cs : List Int) (hcs : Cli.parseCategories (numClasses k) o.categories = some cs) (hrange : ∀ c ∈ cs, 1 ≤ c ∧ c ≤ (numClasses k : Int))
    (arg : ThresholdArg) (harg : Cli.parseThresholds o.thresholds = some arg) (names : List Str)
    (hlist : ListsSamples fs (if k = .sbd then slashed [dataset, "val.txt".toList]
      else slashed [dataset, "splits".toList, "val.txt".toList]) names)
    (st : Attrs) (hst : setEvalParams k a {} = (st, none)) (sched : Nat → List PoolEvent) :
    multi w env classes k thin bound "gtEval".toList dataset pred output nproc o a rnd sched =
      endOf out (unlessRunning (evaluateAll fs env
        ⟨k, { datasetRoot := dataset, predRoot := pred, split := "val".toList, thin := thin, gtDir := some "gtEval".toList },
          some names, st⟩ classes (.list cs) arg nproc.toNat (decide (out ≠ [])) defaultPrint rnd sched)) := by
  have hkb : k ≠ .bsds ∧ k ≠ .reanno := by rcases hk with rfl | rfl | rfl <;> decide
  unfold multi
  rw [hcs]
  have hall : (cs.all fun c => decide (0 < c ∧ c < bound)) = true := by
    rw [List.all_eq_true]
    intro x hx
    have := hrange x hx
    simp only [decide_eq_true_eq]
    omega
  simp only [hall, if_true, harg, prepare_ready hout]
  rw [multi_names (k := k) (c :=
    { datasetRoot := dataset, predRoot := pred, split := "val".toList, thin := thin, gtDir := some "gtEval".toList })
    hkb.1 hroot rfl hlist hkb.2, hst]

/-- The evaluation behind the Cityscapes and SBD commands. -/
theorem multi_scores (w : World) (fs : Fs) (env : Env) (hpics : NoEmptyPictures env.pics) (hnms : KeepsShape env.nms)
    (rnd : Nat → Nat → Nat → Nat → Nat → ℚ) (hrnd : ∀ j i, UnitStreams (rnd j i)) (classes : List String)
    (k : Kind) (hk : k = .cityscapes ∨ k = .half ∨ k = .sbd) (hclasses : classes.length = numClasses k) (thin : Bool) (bound : Int)
    (hbound : bound = classes.length + 1) (dataset pred : Str) (hroot : DirArg dataset) (hpred : DirArg pred)
    (output : Option Str) (out : Str) (hout : OutputReady w pred output out fs) (nproc : Int) (o : Cli.Opts) (a : Args)
    (cs : List Int) (hcs : Cli.parseCategories classes.length o.categories = some cs) (hrange : ∀ c ∈ cs, 1 ≤ c ∧ c ≤ classes.length)
    (arg : ThresholdArg) (harg : Cli.parseThresholds o.thresholds = some arg)
    (ths : List ℚ) (hth : checkThresholds arg = .ok ths) (hne : ths ≠ [])
    (names : List Str) (hrel : ∀ n ∈ names, Relative n)
    (hlist : ListsSamples fs (if k = .sbd then slashed [dataset, "val.txt".toList]
      else slashed [dataset, "splits".toList, "val.txt".toList]) names)
    (st : Attrs) (hst : setEvalParams k a {} = (st, none)) (inst kill skip : Bool) (sc md : ℚ) (t m : Bool)
    (hinst : st.instanceSensitive = some inst)
    (hps : evalParams k thin st = .ok ⟨sc, t, m, md, some kill, some skip, none⟩) (hsc : 0 ≤ sc) (hmd : 0 < md)
    (gt : Str) (hgt : gt = if k = .sbd then slashed [dataset, "gtEval".toList] else slashed [dataset, "gtEval".toList, "val".toList])
    (hdirs : fs.ex dataset = true ∧ fs.ex pred = true ∧ fs.ex gt = true ∧
      (k ≠ .sbd → fs.ex (slashed [dataset, "gtFine".toList, "val".toList]) = true))
    (hfiles : HasFiles fs env.pics names cs (fun n => slashed [gt, gtFile k thin inst n]) (fun n => slashed [gt, segFile k n])
      (fun c n => slashed [pred, "class_".toList ++ threeDigits c,
        n ++ if k = .sbd then ".png".toList else "_leftImg8bit.png".toList]) sc kill) :
    ∃ (outs : Nat → Outcome) (F : Nat),
      (∀ i < cs.length, GoodScores (names.map String.ofList) ths (outs i).samples (outs i).table (outs i).overall) ∧
      ∀ fuel, F ≤ fuel → ∀ (sched : Nat → List PoolEvent),
        (∀ o', multi w { env with fuel := fuel } classes k thin bound "gtEval".toList dataset pred output nproc o a rnd sched = some o' →
          o' = .finished out (reportOf classes cs (fun i => (outs i).overall) (decide (out ≠ [])))) ∧
        ((∀ i < cs.length, ∀ j < names.length, .complete j ∈ sched i) → ∃ n : Nat → Nat,
          multi w { env with fuel := fuel } classes k thin bound "gtEval".toList dataset pred output nproc o a rnd
            (fun i => sched i ++ List.replicate (n i) .next) =
            some (.finished out (reportOf classes cs (fun i => (outs i).overall) (decide (out ≠ []))))) := by
  have hkb : k ≠ .bsds ∧ k ≠ .reanno ∧ k ≠ .otf := by rcases hk with rfl | rfl | rfl <;> decide
  have h20 : 0 < numClasses k := by rcases hk with rfl | rfl | rfl <;> decide
  set c : Ctor := { datasetRoot := dataset, predRoot := pred, split := "val".toList, thin := thin,
                    gtDir := some "gtEval".toList, predSuffix := none } with hc
  have hgt' : gtDirOf k c = gt := by
    rw [hgt, hc]
    unfold gtDirOf
    have hd : ("gtEval".toList : Str) ≠ [] := by decide
    simp only [hkb.2.1, or_false, hd, if_false]
  have hend : predEnd k c = if k = .sbd then ".png".toList else "_leftImg8bit.png".toList := by
    rcases hk with rfl | rfl | rfl <;> rfl
  have hne' : cs ≠ [] := parseCategories_ne_nil _ (by rw [hclasses]; exact h20) _ _ hcs
  obtain ⟨outs, F, g1, g2⟩ := C50_evaluate fs env ⟨k, c, some names, st⟩
    (by rcases hk with h | h | h <;> simp [h])
    ⟨hroot, hpred, .inl rfl, fun d hd => by cases hd; right; unfold DirArg Relative; decide, fun d hd => by cases hd⟩
    names rfl hlist.2.1 hrel
    (by
      refine ⟨hdirs.1, hdirs.2.1, by simp only [hgt']; exact hdirs.2.2.1, fun h => hdirs.2.2.2 ?_⟩
      rintro rfl
      simp at h)
    classes (by rw [hclasses]; rcases hk with h | h | h <;> rw [h] <;> rfl) (.list cs) cs (by simp [normCategories, hne'])
    hrange inst kill skip ⟨sc, t, m, md, some kill, some skip, none⟩ hinst hps rfl rfl hmd hsc
    (by simp only [hgt']; exact hfiles.present)
    arg ths hth hne hpics hnms rnd hrnd
    (by
      intro n hn
      simp only [hgt', hend]
      exact ⟨hfiles.edges n hn, hfiles.preds n hn, fun h => hfiles.segs h n hn⟩)
    (decide (out ≠ []))
  have hrun : ∀ fuel sched, multi w { env with fuel := fuel } classes k thin bound "gtEval".toList dataset pred output nproc o a rnd sched =
      endOf out (unlessRunning (evaluateAll fs { env with fuel := fuel } ⟨k, c, some names, st⟩ classes (.list cs) arg nproc.toNat
        (decide (out ≠ [])) defaultPrint rnd sched)) := by
    intro fuel sched
    exact multi_runs w fs _ rnd classes k hk thin bound (by rw [hbound, hclasses]) dataset pred hroot output out hout nproc o a cs
      (by rw [← hclasses]; exact hcs) (by rw [← hclasses]; exact hrange) arg harg names hlist st hst sched
  refine ⟨outs, F, g1, fun fuel hf sched => ?_⟩
  obtain ⟨r0, r1, -⟩ := g2 fuel hf nproc.toNat sched
  constructor
  · intro o' ho
    rw [hrun] at ho
    have key : evaluateAll fs { env with fuel := fuel } ⟨k, c, some names, st⟩ classes (.list cs) arg nproc.toNat
        (decide (out ≠ [])) defaultPrint rnd sched = .error (.user 0) ∨
        evaluateAll fs { env with fuel := fuel } ⟨k, c, some names, st⟩ classes (.list cs) arg nproc.toNat
        (decide (out ≠ [])) defaultPrint rnd sched = .ok (reportOf classes cs (fun i => (outs i).overall) (decide (out ≠ []))) := by
      have h1 : evaluateAll fs { env with fuel := fuel } ⟨k, c, some names, st⟩ classes (.list cs) arg nproc.toNat
          (decide (out ≠ [])) defaultPrint rnd sched = .error (.user 0) ∨
          ∀ i (hi : i < cs.length), (evaluateCategory fs { env with fuel := fuel } ⟨k, c, some names, st⟩ cs[i] arg
            nproc.toNat (decide (out ≠ [])) (rnd i) (sched i)).isSome := by
        unfold evaluateAll
        refine evaluate_unended (.user 0) _ _ cs hne' _ _ _ ?_
        intro j hj
        cases hx : evaluateCategory fs { env with fuel := fuel } ⟨k, c, some names, st⟩ cs[j] arg
            nproc.toNat (decide (out ≠ [])) (rnd j) (sched j) with
        | none => left; rfl
        | some x => right; rw [r0 j hj x hx]; exact ⟨rfl, _, rfl⟩
      exact h1.imp id r1
    rcases key with h | h
    · rw [h] at ho; cases ho
    · rw [h] at ho
      simpa [unlessRunning, endOf] using ho.symm
  · intro hcomp
    obtain ⟨n, hn⟩ := (g2 fuel hf nproc.toNat sched).2.2 hcomp
    exact ⟨n, by rw [hrun, hn]; rfl⟩

end

section

theorem city_params (k : Kind) (hk : k = .cityscapes ∨ k = .half) (thin : Bool) (o : Cli.Opts)
    (hsc : k = .half ∨ (0 < o.scale ∧ o.scale ≤ 1)) (hseal : o.preSeal = true → o.nonIS = true) :
    ∃ st, setEvalParams k (Cli.argsOf o (Cli.modeOf o) o.scale o.maxDist) {} = (st, none) ∧
      (k ≠ .half → st.scale = some o.scale) ∧ st.thinning = some o.thinning ∧ st.nms = some o.nms ∧
      st.maxDist = some (if o.preSeal then preSeal else postSeal o.maxDist (!o.nonIS)).maxDist ∧
      st.killInternal = some (if o.preSeal then preSeal else postSeal o.maxDist (!o.nonIS)).killInternal ∧
      st.skipIfNonexistent = some (if o.preSeal then preSeal else postSeal o.maxDist (!o.nonIS)).skipAbsent ∧
      st.instanceSensitive = some (if o.preSeal then preSeal else postSeal o.maxDist (!o.nonIS)).instances ∧
      evalParams k thin st = .ok ⟨if k = .half then 1 else o.scale, o.thinning, o.nms,
        (if o.preSeal then preSeal else postSeal o.maxDist (!o.nonIS)).maxDist,
        some (if o.preSeal then preSeal else postSeal o.maxDist (!o.nonIS)).killInternal,
        some (if o.preSeal then preSeal else postSeal o.maxDist (!o.nonIS)).skipAbsent, none⟩ := by
  obtain ⟨_, _, ps, ni, md, sc, tn, nm, _⟩ := o
  simp only at hsc hseal
  rcases hk with rfl | rfl
  · have hsc' : 0 < sc ∧ sc ≤ 1 := by simpa using hsc
    cases ps <;> cases ni <;> simp at hseal <;>
      simp [setEvalParams, setCityscapes, cityModes, citySeal, Cli.argsOf, Cli.modeOf, hsc', preSeal, postSeal, evalParams, attr,
        bind, Except.bind] <;> try norm_num
  · cases ps <;> cases ni <;> simp at hseal <;>
      simp [setEvalParams, setHalf, cityModes, citySeal, Cli.argsOf, Cli.modeOf, preSeal, postSeal, evalParams, attr,
        bind, Except.bind] <;> try norm_num

theorem sbd_params (thin : Bool) (o : Cli.Opts) :
    ∃ st, setEvalParams .sbd (Cli.argsOf o (Cli.modeOf o) 1 o.maxDist) {} = (st, none) ∧
      st.scale = some 1 ∧ st.thinning = some o.thinning ∧ st.nms = some o.nms ∧ st.maxDist = some (1 / 50) ∧
      st.killInternal = some (if o.preSeal then preSeal else postSeal (1 / 50) (!o.nonIS)).killInternal ∧
      st.skipIfNonexistent = some (if o.preSeal then preSeal else postSeal (1 / 50) (!o.nonIS)).skipAbsent ∧
      st.instanceSensitive = some (if o.preSeal then preSeal else postSeal (1 / 50) (!o.nonIS)).instances ∧
      evalParams .sbd thin st = .ok ⟨1, o.thinning, o.nms, 1 / 50,
        some (if o.preSeal then preSeal else postSeal (1 / 50) (!o.nonIS)).killInternal,
        some (if o.preSeal then preSeal else postSeal (1 / 50) (!o.nonIS)).skipAbsent, none⟩ := by
  obtain ⟨_, _, ps, ni, md, sc, tn, nm, _⟩ := o
  cases ps <;> cases ni <;>
      simp [setEvalParams, setSbd, sbdModes, Cli.argsOf, Cli.modeOf, preSeal, postSeal, evalParams, attr,
        bind, Except.bind] <;> try norm_num

end

section

/-- **C84** `cityscapes_raw.py DATASET PRED [options]`: when the output directory can be made and the samples listed in
`splits/val.txt` have their files, the command ends normally, whatever the workers' schedules, with one report over
exactly the requested categories, made of sound scores for exactly the listed samples; results are saved unless the output
path is empty. -/
theorem C84_cityscapes_raw (w : World) (fs : Fs) (env : Env) (hpics : NoEmptyPictures env.pics)
    (hnms : KeepsShape env.nms) (rnd : Nat → Nat → Nat → Nat → Nat → ℚ) (hrnd : ∀ j i, UnitStreams (rnd j i))
    (classes : List String) (hclasses : classes.length = 19)
    (argv : List Str) (items : List Item) (h : CommandLine cityRawParser argv items)
    (dataset pred : Str) (hpos : positionalsOf items = [dataset, pred]) (hroot : DirArg dataset) (hpred : DirArg pred)
    (out : Str) (hout : OutputReady w pred (textGiven items "--output-path" none) out fs)
    (cs : List Int) (hcs : Cli.parseCategories 19 (textGiven items "--categories" none) = some cs)
    (hrange : ∀ c ∈ cs, 1 ≤ c ∧ c ≤ 19)
    (arg : ThresholdArg) (harg : Cli.parseThresholds (wordGiven items "--thresholds" "99".toList) = some arg)
    (ths : List ℚ) (hth : checkThresholds arg = .ok ths) (hne : ths ≠ [])
    (k : Kind) (hk : k = if flagGiven items "--half" then .half else .cityscapes)
    (hsc : k = .half ∨ (0 < numGiven items "--scale" (1 / 2) ∧ numGiven items "--scale" (1 / 2) ≤ 1))
    (hseal : flagGiven items "--pre-seal" = true → flagGiven items "--nonIS" = true) (pr : Protocol)
    (hpr : pr = if flagGiven items "--pre-seal" then preSeal
      else postSeal (numGiven items "--max-dist" (35 / 10000)) (!flagGiven items "--nonIS"))
    (hd : flagGiven items "--pre-seal" = false → 0 < numGiven items "--max-dist" (35 / 10000))
    (names : List Str) (hrel : ∀ n ∈ names, Relative n) (hlist : ListsSamples fs (slashed [dataset, "splits".toList, "val.txt".toList]) names)
    (hdirs : fs.ex dataset = true ∧ fs.ex pred = true ∧ fs.ex (slashed [dataset, "gtEval".toList, "val".toList]) = true ∧
      fs.ex (slashed [dataset, "gtFine".toList, "val".toList]) = true)
    (hfiles : HasFiles fs env.pics names cs
      (fun n => slashed [dataset, "gtEval".toList, "val".toList, gtFile k false pr.instances n])
      (fun n => slashed [dataset, "gtEval".toList, "val".toList, segFile k n])
      (fun c n => slashed [pred, "class_".toList ++ threeDigits c, n ++ "_leftImg8bit.png".toList]) (if k = .half then 1 else numGiven items "--scale" (1 / 2)) pr.killInternal) :
    ∃ (outs : Nat → Outcome) (F : Nat),
      (∀ i < cs.length, GoodScores (names.map String.ofList) ths (outs i).samples (outs i).table (outs i).overall) ∧
      ∀ fuel, F ≤ fuel → ∀ (sched : Nat → List PoolEvent),
        (∀ o', Commands.cityRaw w { env with fuel := fuel } classes argv rnd sched = some o' →
          o' = .finished out (reportOf classes cs (fun i => (outs i).overall) (decide (out ≠ [])))) ∧
        ((∀ i < cs.length, ∀ j < names.length, .complete j ∈ sched i) → ∃ n : Nat → Nat,
          Commands.cityRaw w { env with fuel := fuel } classes argv rnd (fun i => sched i ++ List.replicate (n i) .next) =
            some (.finished out (reportOf classes cs (fun i => (outs i).overall) (decide (out ≠ []))))) := by
  obtain ⟨st, s1, -, -, -, -, -, -, s2, s3⟩ := city_params k (by rw [hk]; split <;> simp) false (rawOptsGiven items) hsc hseal
  have hmd : 0 < pr.maxDist := by
    rw [hpr]; split
    · norm_num [preSeal]
    · next h0 => exact hd (by simpa using h0)
  have hks : k ≠ .sbd := by rw [hk]; split <;> decide
  rw [show (if (rawOptsGiven items).preSeal then preSeal else postSeal (rawOptsGiven items).maxDist (!(rawOptsGiven items).nonIS)) = pr
    from hpr.symm] at s2 s3
  have hj : ∀ x, slashed [slashed [dataset, "gtEval".toList, "val".toList], x] = slashed [dataset, "gtEval".toList, "val".toList, x] := by
    intro x; simp [slashed]
  obtain ⟨outs, F, g1, g2⟩ := multi_scores w fs env hpics hnms rnd hrnd classes k (by rw [hk]; split <;> simp)
    (by rw [hclasses, hk]; split <;> rfl) false 20 (by rw [hclasses]; rfl) dataset pred hroot hpred _ out hout
    (intGiven items "--nproc" 4) (rawOptsGiven items) _ cs (by rw [hclasses]; exact hcs) (by rw [hclasses]; exact hrange) arg harg
    ths hth hne names hrel (by rw [if_neg hks]; exact hlist) st s1 _ _ _ _ _ _ _ s2 s3
    (by
      split
      · norm_num
      · next h0 => exact (hsc.resolve_left h0).1.le) hmd _ (by rw [if_neg hks])
    ⟨hdirs.1, hdirs.2.1, hdirs.2.2.1, fun _ => hdirs.2.2.2⟩
    (by simp only [if_neg hks, hj]; exact hfiles)
  refine ⟨outs, F, g1, fun fuel hf sched => ?_⟩
  have hrun : ∀ sched, Commands.cityRaw w { env with fuel := fuel } classes argv rnd sched =
      multi w { env with fuel := fuel } classes k false 20 "gtEval".toList dataset pred (textGiven items "--output-path" none)
        (intGiven items "--nproc" 4) (rawOptsGiven items) (Cli.argsOf (rawOptsGiven items) (Cli.modeOf (rawOptsGiven items))
          (rawOptsGiven items).scale (rawOptsGiven items).maxDist) rnd sched := by
    intro sched
    unfold Commands.cityRaw
    rw [C83_cityscapes_raw argv items h dataset pred hpos, hk]
  simp only [hrun]
  exact g2 fuel hf sched

/-- **C84** `cityscapes_thin.py DATASET PRED [options]`, in the same way: half resolution, thinned annotations and
predictions, no scaling. -/
theorem C84_cityscapes_thin (w : World) (fs : Fs) (env : Env) (hpics : NoEmptyPictures env.pics)
    (hnms : KeepsShape env.nms) (rnd : Nat → Nat → Nat → Nat → Nat → ℚ) (hrnd : ∀ j i, UnitStreams (rnd j i))
    (classes : List String) (hclasses : classes.length = 19)
    (argv : List Str) (items : List Item) (h : CommandLine cityThinParser argv items)
    (dataset pred : Str) (hpos : positionalsOf items = [dataset, pred]) (hroot : DirArg dataset) (hpred : DirArg pred)
    (out : Str) (hout : OutputReady w pred (textGiven items "--output-path" none) out fs)
    (cs : List Int) (hcs : Cli.parseCategories 19 (textGiven items "--categories" none) = some cs)
    (hrange : ∀ c ∈ cs, 1 ≤ c ∧ c ≤ 19)
    (arg : ThresholdArg) (harg : Cli.parseThresholds (wordGiven items "--thresholds" "99".toList) = some arg)
    (ths : List ℚ) (hth : checkThresholds arg = .ok ths) (hne : ths ≠ [])
    (hseal : flagGiven items "--pre-seal" = true → flagGiven items "--nonIS" = true) (pr : Protocol)
    (hpr : pr = if flagGiven items "--pre-seal" then preSeal
      else postSeal (numGiven items "--max-dist" (35 / 10000)) (!flagGiven items "--nonIS"))
    (hd : flagGiven items "--pre-seal" = false → 0 < numGiven items "--max-dist" (35 / 10000))
    (names : List Str) (hrel : ∀ n ∈ names, Relative n) (hlist : ListsSamples fs (slashed [dataset, "splits".toList, "val.txt".toList]) names)
    (hdirs : fs.ex dataset = true ∧ fs.ex pred = true ∧ fs.ex (slashed [dataset, "gtEval".toList, "val".toList]) = true ∧
      fs.ex (slashed [dataset, "gtFine".toList, "val".toList]) = true)
    (hfiles : HasFiles fs env.pics names cs
      (fun n => slashed [dataset, "gtEval".toList, "val".toList, gtFile .half true pr.instances n])
      (fun n => slashed [dataset, "gtEval".toList, "val".toList, segFile .half n])
      (fun c n => slashed [pred, "class_".toList ++ threeDigits c, n ++ "_leftImg8bit.png".toList]) 1 pr.killInternal) :
    ∃ (outs : Nat → Outcome) (F : Nat),
      (∀ i < cs.length, GoodScores (names.map String.ofList) ths (outs i).samples (outs i).table (outs i).overall) ∧
      ∀ fuel, F ≤ fuel → ∀ (sched : Nat → List PoolEvent),
        (∀ o', Commands.cityThin w { env with fuel := fuel } classes argv rnd sched = some o' →
          o' = .finished out (reportOf classes cs (fun i => (outs i).overall) (decide (out ≠ [])))) ∧
        ((∀ i < cs.length, ∀ j < names.length, .complete j ∈ sched i) → ∃ n : Nat → Nat,
          Commands.cityThin w { env with fuel := fuel } classes argv rnd (fun i => sched i ++ List.replicate (n i) .next) =
            some (.finished out (reportOf classes cs (fun i => (outs i).overall) (decide (out ≠ []))))) := by
  obtain ⟨st, s1, -, -, -, -, -, -, s2, s3⟩ := city_params .half (.inr rfl) true (thinOptsGiven items) (.inl rfl) hseal
  have hmd : 0 < pr.maxDist := by
    rw [hpr]; split
    · norm_num [preSeal]
    · next h0 => exact hd (by simpa using h0)
  rw [show (if (thinOptsGiven items).preSeal then preSeal else postSeal (thinOptsGiven items).maxDist (!(thinOptsGiven items).nonIS)) = pr
    from hpr.symm] at s2 s3
  have hj : ∀ x, slashed [slashed [dataset, "gtEval".toList, "val".toList], x] = slashed [dataset, "gtEval".toList, "val".toList, x] := by
    intro x; simp [slashed]
  obtain ⟨outs, F, g1, g2⟩ := multi_scores w fs env hpics hnms rnd hrnd classes .half (by simp)
    hclasses true 20 (by rw [hclasses]; rfl) dataset pred hroot hpred _ out hout
    (intGiven items "--nproc" 4) (thinOptsGiven items) _ cs (by rw [hclasses]; exact hcs) (by rw [hclasses]; exact hrange) arg harg
    ths hth hne names hrel (by rw [if_neg (by decide)]; exact hlist) st s1 _ _ _ _ _ _ _ s2 s3
    (by norm_num) hmd _ (by rw [if_neg (by decide)])
    ⟨hdirs.1, hdirs.2.1, hdirs.2.2.1, fun _ => hdirs.2.2.2⟩
    (by simp only [hj]; exact hfiles)
  refine ⟨outs, F, g1, fun fuel hf sched => ?_⟩
  have hrun : ∀ sched, Commands.cityThin w { env with fuel := fuel } classes argv rnd sched =
      multi w { env with fuel := fuel } classes .half true 20 "gtEval".toList dataset pred (textGiven items "--output-path" none)
        (intGiven items "--nproc" 4) (thinOptsGiven items) (Cli.argsOf (thinOptsGiven items) (Cli.modeOf (thinOptsGiven items))
          (thinOptsGiven items).scale (thinOptsGiven items).maxDist) rnd sched := by
    intro sched
    unfold Commands.cityThin
    rw [C83_cityscapes_thin argv items h dataset pred hpos]
  simp only [hrun]
  exact g2 fuel hf sched

/-- **C84** `sbd.py DATASET PRED [options]`, in the same way, with the samples of `val.txt` and a tolerance of 0.02 whatever
`--max-dist` says. -/
theorem C84_sbd (w : World) (fs : Fs) (env : Env) (hpics : NoEmptyPictures env.pics)
    (hnms : KeepsShape env.nms) (rnd : Nat → Nat → Nat → Nat → Nat → ℚ) (hrnd : ∀ j i, UnitStreams (rnd j i))
    (classes : List String) (hclasses : classes.length = 20)
    (argv : List Str) (items : List Item) (h : CommandLine sbdParser argv items)
    (dataset pred : Str) (hpos : positionalsOf items = [dataset, pred]) (hroot : DirArg dataset) (hpred : DirArg pred)
    (out : Str) (hout : OutputReady w pred (textGiven items "--output-path" none) out fs)
    (cs : List Int) (hcs : Cli.parseCategories 20 (textGiven items "--categories" none) = some cs)
    (hrange : ∀ c ∈ cs, 1 ≤ c ∧ c ≤ 20)
    (arg : ThresholdArg) (harg : Cli.parseThresholds (wordGiven items "--thresholds" "99".toList) = some arg)
    (ths : List ℚ) (hth : checkThresholds arg = .ok ths) (hne : ths ≠ [])
    (pr : Protocol)
    (hpr : pr = if flagGiven items "--pre-seal" then preSeal else postSeal (1 / 50) (!flagGiven items "--nonIS"))
    (names : List Str) (hrel : ∀ n ∈ names, Relative n) (hlist : ListsSamples fs (slashed [dataset, "val.txt".toList]) names)
    (hdirs : fs.ex dataset = true ∧ fs.ex pred = true ∧ fs.ex (slashed [dataset, "gtEval".toList]) = true)
    (hfiles : HasFiles fs env.pics names cs
      (fun n => slashed [dataset, "gtEval".toList, gtFile .sbd (!flagGiven items "--raw") pr.instances n])
      (fun n => slashed [dataset, "gtEval".toList, segFile .sbd n])
      (fun c n => slashed [pred, "class_".toList ++ threeDigits c, n ++ ".png".toList]) 1 pr.killInternal) :
    ∃ (outs : Nat → Outcome) (F : Nat),
      (∀ i < cs.length, GoodScores (names.map String.ofList) ths (outs i).samples (outs i).table (outs i).overall) ∧
      ∀ fuel, F ≤ fuel → ∀ (sched : Nat → List PoolEvent),
        (∀ o', Commands.sbd w { env with fuel := fuel } classes argv rnd sched = some o' →
          o' = .finished out (reportOf classes cs (fun i => (outs i).overall) (decide (out ≠ [])))) ∧
        ((∀ i < cs.length, ∀ j < names.length, .complete j ∈ sched i) → ∃ n : Nat → Nat,
          Commands.sbd w { env with fuel := fuel } classes argv rnd (fun i => sched i ++ List.replicate (n i) .next) =
            some (.finished out (reportOf classes cs (fun i => (outs i).overall) (decide (out ≠ []))))) := by
  obtain ⟨st, s1, -, -, -, -, -, -, s2, s3⟩ := sbd_params (!flagGiven items "--raw") (sbdOptsGiven items)
  rw [show (if (sbdOptsGiven items).preSeal then preSeal else postSeal (1 / 50) (!(sbdOptsGiven items).nonIS)) = pr
    from hpr.symm] at s2 s3
  have hj : ∀ x, slashed [slashed [dataset, "gtEval".toList], x] = slashed [dataset, "gtEval".toList, x] := by
    intro x; simp [slashed]
  obtain ⟨outs, F, g1, g2⟩ := multi_scores w fs env hpics hnms rnd hrnd classes .sbd (by simp)
    hclasses (!flagGiven items "--raw") 21 (by rw [hclasses]; rfl) dataset pred hroot hpred _ out hout
    (intGiven items "--nproc" 4) (sbdOptsGiven items) _ cs (by rw [hclasses]; exact hcs) (by rw [hclasses]; exact hrange) arg harg
    ths hth hne names hrel (by rw [if_pos rfl]; exact hlist) st s1 _ _ _ _ _ _ _ s2 s3
    (by norm_num) (by norm_num) _ (by rw [if_pos rfl])
    ⟨hdirs.1, hdirs.2.1, hdirs.2.2, fun h0 => absurd rfl h0⟩
    (by simp only [hj]; exact hfiles)
  refine ⟨outs, F, g1, fun fuel hf sched => ?_⟩
  have hrun : ∀ sched, Commands.sbd w { env with fuel := fuel } classes argv rnd sched =
      multi w { env with fuel := fuel } classes .sbd (!flagGiven items "--raw") 21 "gtEval".toList dataset pred
        (textGiven items "--output-path" none) (intGiven items "--nproc" 4) (sbdOptsGiven items)
        (Cli.argsOf (sbdOptsGiven items) (Cli.modeOf (sbdOptsGiven items)) 1 (sbdOptsGiven items).maxDist) rnd sched := by
    intro sched
    unfold Commands.sbd
    rw [C83_sbd argv items h dataset pred hpos]
  simp only [hrun]
  exact g2 fuel hf sched

end

section

/-- **C84** The evaluator `cityscapes_raw.py` runs: unthinned annotations and predictions, the protocol of the options. -/
theorem C84_cityscapes_raw_evaluator (w : World) (fs : Fs) (classes : List String)
    (argv : List Str) (items : List Item) (h : CommandLine cityRawParser argv items)
    (dataset pred : Str) (hpos : positionalsOf items = [dataset, pred]) (hroot : DirArg dataset)
    (out : Str) (hout : OutputReady w pred (textGiven items "--output-path" none) out fs)
    (cs : List Int) (hcs : Cli.parseCategories 19 (textGiven items "--categories" none) = some cs)
    (hrange : ∀ c ∈ cs, 1 ≤ c ∧ c ≤ 19)
    (arg : ThresholdArg) (harg : Cli.parseThresholds (wordGiven items "--thresholds" "99".toList) = some arg)
    (hsc : flagGiven items "--half" = true ∨ (0 < numGiven items "--scale" (1 / 2) ∧ numGiven items "--scale" (1 / 2) ≤ 1))
    (hseal : flagGiven items "--pre-seal" = true → flagGiven items "--nonIS" = true) (pr : Protocol)
    (hpr : pr = if flagGiven items "--pre-seal" then preSeal
      else postSeal (numGiven items "--max-dist" (35 / 10000)) (!flagGiven items "--nonIS"))
    (names : List Str) (hlist : ListsSamples fs (slashed [dataset, "splits".toList, "val.txt".toList]) names) :
    ∃ st : Attrs, (flagGiven items "--half" = false → st.scale = some (numGiven items "--scale" (1 / 2))) ∧ st.thinning = some false ∧ st.nms = some (flagGiven items "--apply-nms") ∧ st.maxDist = some pr.maxDist ∧
      st.killInternal = some pr.killInternal ∧ st.skipIfNonexistent = some pr.skipAbsent ∧
      st.instanceSensitive = some pr.instances ∧
      ∀ env rnd sched, Commands.cityRaw w env classes argv rnd sched =
        endOf out (unlessRunning (evaluateAll fs env
          ⟨if flagGiven items "--half" then .half else .cityscapes, { datasetRoot := dataset, predRoot := pred, split := "val".toList, thin := false, gtDir := some "gtEval".toList },
            some names, st⟩ classes (.list cs) arg (intGiven items "--nproc" 4).toNat (decide (out ≠ [])) defaultPrint rnd sched)) := by
  subst hpr
  obtain ⟨st, s1, s2, s3, s4, s5, s6, s7, s8, -⟩ := city_params (if flagGiven items "--half" then .half else .cityscapes) (by split <;> simp) false (rawOptsGiven items)
    (by
      rcases hsc with h0 | h0
      · left; simp [h0]
      · exact .inr h0) hseal
  refine ⟨st, fun h0 => s2 (by simp [h0]), s3, s4, s5, s6, s7, s8, fun env rnd sched => ?_⟩
  unfold Commands.cityRaw
  rw [C83_cityscapes_raw argv items h dataset pred hpos]
  exact multi_runs w fs env rnd classes (if flagGiven items "--half" then .half else .cityscapes) (by split <;> simp) false 20 (by split <;> rfl) dataset pred hroot _ out hout
    (intGiven items "--nproc" 4) (rawOptsGiven items) (Cli.argsOf (rawOptsGiven items) (Cli.modeOf (rawOptsGiven items)) (rawOptsGiven items).scale (rawOptsGiven items).maxDist) cs
    (by split <;> exact hcs) (by split <;> exact hrange) arg harg names (by split <;> exact hlist) st s1 sched

/-- **C84** The evaluator `cityscapes_thin.py` runs: half resolution, thinned annotations and predictions. -/
theorem C84_cityscapes_thin_evaluator (w : World) (fs : Fs) (classes : List String)
    (argv : List Str) (items : List Item) (h : CommandLine cityThinParser argv items)
    (dataset pred : Str) (hpos : positionalsOf items = [dataset, pred]) (hroot : DirArg dataset)
    (out : Str) (hout : OutputReady w pred (textGiven items "--output-path" none) out fs)
    (cs : List Int) (hcs : Cli.parseCategories 19 (textGiven items "--categories" none) = some cs)
    (hrange : ∀ c ∈ cs, 1 ≤ c ∧ c ≤ 19)
    (arg : ThresholdArg) (harg : Cli.parseThresholds (wordGiven items "--thresholds" "99".toList) = some arg)
    (hseal : flagGiven items "--pre-seal" = true → flagGiven items "--nonIS" = true) (pr : Protocol)
    (hpr : pr = if flagGiven items "--pre-seal" then preSeal
      else postSeal (numGiven items "--max-dist" (35 / 10000)) (!flagGiven items "--nonIS"))
    (names : List Str) (hlist : ListsSamples fs (slashed [dataset, "splits".toList, "val.txt".toList]) names) :
    ∃ st : Attrs, st.thinning = some true ∧ st.nms = some (flagGiven items "--apply-nms") ∧ st.maxDist = some pr.maxDist ∧
      st.killInternal = some pr.killInternal ∧ st.skipIfNonexistent = some pr.skipAbsent ∧
      st.instanceSensitive = some pr.instances ∧
      ∀ env rnd sched, Commands.cityThin w env classes argv rnd sched =
        endOf out (unlessRunning (evaluateAll fs env
          ⟨.half, { datasetRoot := dataset, predRoot := pred, split := "val".toList, thin := true, gtDir := some "gtEval".toList },
            some names, st⟩ classes (.list cs) arg (intGiven items "--nproc" 4).toNat (decide (out ≠ [])) defaultPrint rnd sched)) := by
  subst hpr
  obtain ⟨st, s1, s2, s3, s4, s5, s6, s7, s8, -⟩ := city_params .half (.inr rfl) true (thinOptsGiven items) (.inl rfl) hseal
  refine ⟨st, s3, s4, s5, s6, s7, s8, fun env rnd sched => ?_⟩
  unfold Commands.cityThin
  rw [C83_cityscapes_thin argv items h dataset pred hpos]
  exact multi_runs w fs env rnd classes .half (by simp) true 20 (by rfl) dataset pred hroot _ out hout
    (intGiven items "--nproc" 4) (thinOptsGiven items) (Cli.argsOf (thinOptsGiven items) (Cli.modeOf (thinOptsGiven items)) (thinOptsGiven items).scale (thinOptsGiven items).maxDist) cs
    hcs hrange arg harg names (by simpa using hlist) st s1 sched

/-- **C84** The evaluator `sbd.py` runs: full resolution, thinned annotations and predictions unless `--raw`. -/
theorem C84_sbd_evaluator (w : World) (fs : Fs) (classes : List String)
    (argv : List Str) (items : List Item) (h : CommandLine sbdParser argv items)
    (dataset pred : Str) (hpos : positionalsOf items = [dataset, pred]) (hroot : DirArg dataset)
    (out : Str) (hout : OutputReady w pred (textGiven items "--output-path" none) out fs)
    (cs : List Int) (hcs : Cli.parseCategories 20 (textGiven items "--categories" none) = some cs)
    (hrange : ∀ c ∈ cs, 1 ≤ c ∧ c ≤ 20)
    (arg : ThresholdArg) (harg : Cli.parseThresholds (wordGiven items "--thresholds" "99".toList) = some arg)
    (pr : Protocol)
    (hpr : pr = if flagGiven items "--pre-seal" then preSeal else postSeal (1 / 50) (!flagGiven items "--nonIS"))
    (names : List Str) (hlist : ListsSamples fs (slashed [dataset, "val.txt".toList]) names) :
    ∃ st : Attrs, st.scale = some 1 ∧ st.thinning = some (!flagGiven items "--raw") ∧ st.nms = some (flagGiven items "--apply-nms") ∧ st.maxDist = some pr.maxDist ∧
      st.killInternal = some pr.killInternal ∧ st.skipIfNonexistent = some pr.skipAbsent ∧
      st.instanceSensitive = some pr.instances ∧
      ∀ env rnd sched, Commands.sbd w env classes argv rnd sched =
        endOf out (unlessRunning (evaluateAll fs env
          ⟨.sbd, { datasetRoot := dataset, predRoot := pred, split := "val".toList, thin := !flagGiven items "--raw", gtDir := some "gtEval".toList },
            some names, st⟩ classes (.list cs) arg (intGiven items "--nproc" 4).toNat (decide (out ≠ [])) defaultPrint rnd sched)) := by
  subst hpr
  obtain ⟨st, s1, s2, s3, s4, s5, s6, s7, s8, -⟩ := sbd_params (!flagGiven items "--raw") (sbdOptsGiven items)
  refine ⟨st, s2, s3, s4, s5.trans (by split <;> rfl), s6, s7, s8, fun env rnd sched => ?_⟩
  unfold Commands.sbd
  rw [C83_sbd argv items h dataset pred hpos]
  exact multi_runs w fs env rnd classes .sbd (by simp) (!flagGiven items "--raw") 21 (by rfl) dataset pred hroot _ out hout
    (intGiven items "--nproc" 4) (sbdOptsGiven items) (Cli.argsOf (sbdOptsGiven items) (Cli.modeOf (sbdOptsGiven items)) 1 (sbdOptsGiven items).maxDist) cs
    hcs hrange arg harg names (by simpa using hlist) st s1 sched

end

/-! ## Commands that stop early -/

section

/-- The three commands with categories, with the number of classes and the parser of each. -/
inductive MultiCommand (w : World) (env : Env) (classes : List String) (argv : List Str)
    (rnd : Nat → Nat → Nat → Nat → Nat → ℚ) (sched : Nat → List PoolEvent) : Nat → Parser → Option (Ended Report) → Prop
  | raw : MultiCommand w env classes argv rnd sched 19 cityRawParser (Commands.cityRaw w env classes argv rnd sched)
  | thin : MultiCommand w env classes argv rnd sched 19 cityThinParser (Commands.cityThin w env classes argv rnd sched)
  | sbd : MultiCommand w env classes argv rnd sched 20 sbdParser (Commands.sbd w env classes argv rnd sched)

variable {w : World} {env : Env} {classes : List String} {argv : List Str}
  {rnd : Nat → Nat → Nat → Nat → Nat → ℚ} {sched : Nat → List PoolEvent} {n : Nat} {p : Parser} {r : Option (Ended Report)}

/-- What all three have in common. -/
theorem multiCommand_cases (hc : MultiCommand w env classes argv rnd sched n p r) (items : List Item) (h : CommandLine p argv items)
    (dataset pred : Str) (hpos : positionalsOf items = [dataset, pred]) :
    ∃ k thin o a, (n : Nat) = numClasses k ∧ o.categories = textGiven items "--categories" none ∧
      o.thresholds = wordGiven items "--thresholds" "99".toList ∧ (k = .cityscapes ∨ k = .half ∨ k = .sbd) ∧
      r = multi w env classes k thin ((n : Int) + 1) "gtEval".toList dataset pred (textGiven items "--output-path" none)
        (intGiven items "--nproc" 4) o a rnd sched := by
  cases hc with
  | raw =>
    refine ⟨if flagGiven items "--half" then .half else .cityscapes, false, rawOptsGiven items, 
      Cli.argsOf (rawOptsGiven items) (Cli.modeOf (rawOptsGiven items)) (rawOptsGiven items).scale (rawOptsGiven items).maxDist, by split <;> rfl, rfl, rfl,
      by split <;> simp, ?_⟩
    unfold Commands.cityRaw
    rw [C83_cityscapes_raw argv items h dataset pred hpos]
    rfl
  | thin =>
    refine ⟨.half, true, thinOptsGiven items, 
      Cli.argsOf (thinOptsGiven items) (Cli.modeOf (thinOptsGiven items)) (thinOptsGiven items).scale (thinOptsGiven items).maxDist, rfl, rfl, rfl, by simp, ?_⟩
    unfold Commands.cityThin
    rw [C83_cityscapes_thin argv items h dataset pred hpos]
    rfl
  | sbd =>
    refine ⟨.sbd, !flagGiven items "--raw", sbdOptsGiven items, 
      Cli.argsOf (sbdOptsGiven items) (Cli.modeOf (sbdOptsGiven items)) 1 (sbdOptsGiven items).maxDist, rfl, rfl, rfl, by simp, ?_⟩
    unfold Commands.sbd
    rw [C83_sbd argv items h dataset pred hpos]
    rfl

/-- **C84** Whatever the state of the disk, a malformed list of categories or (after good categories) of thresholds is
answered with a message, and a category out of range with an `AssertionError`: nothing has been created then. -/
theorem C84_bad_words (hc : MultiCommand w env classes argv rnd sched n p r) (items : List Item) (h : CommandLine p argv items)
    (dataset pred : Str) (hpos : positionalsOf items = [dataset, pred]) :
    (Cli.parseCategories n (textGiven items "--categories" none) = none → r = some .message) ∧
    ∀ cs, Cli.parseCategories n (textGiven items "--categories" none) = some cs →
      ((∃ c ∈ cs, c < 1 ∨ (n : Int) < c) → r = some (.raised .assertionError)) ∧
      ((∀ c ∈ cs, 1 ≤ c ∧ c ≤ (n : Int)) → Cli.parseThresholds (wordGiven items "--thresholds" "99".toList) = none →
        r = some .message) := by
  obtain ⟨k, thin, o, a, hn, ho1, ho2, -, rfl⟩ := multiCommand_cases hc items h dataset pred hpos
  unfold multi
  rw [← hn, ho1, ho2]
  refine ⟨fun h0 => by rw [h0], fun cs hcs => ⟨fun ⟨c, hm, hr⟩ => ?_, fun hr ht => ?_⟩⟩
  · rw [hcs]
    simp only
    rw [if_neg]
    intro hall
    have := List.all_eq_true.1 hall c hm
    simp only [decide_eq_true_eq] at this
    omega
  · rw [hcs]
    simp only
    rw [if_pos, ht]
    rw [List.all_eq_true]
    intro x hx
    have := hr x hx
    simp only [decide_eq_true_eq]
    omega

/-- **C84** When the words are good, an output directory that cannot be made ends the command with the operating system's
exception, and one in which the log file cannot be opened with an `OSError`, before any sample is looked at. -/
theorem C84_no_output (hc : MultiCommand w env classes argv rnd sched n p r) (items : List Item) (h : CommandLine p argv items)
    (dataset pred : Str) (hpos : positionalsOf items = [dataset, pred])
    (cs : List Int) (hcs : Cli.parseCategories n (textGiven items "--categories" none) = some cs)
    (hrange : ∀ c ∈ cs, 1 ≤ c ∧ c ≤ (n : Int)) (arg : ThresholdArg)
    (harg : Cli.parseThresholds (wordGiven items "--thresholds" "99".toList) = some arg) (out : Str)
    (hout : out = (textGiven items "--output-path" none).getD (pjoin (normpath pred) ("edge_results_".toList ++ w.stamp))) :
    (∀ e, out ≠ [] → w.mkdir out = .error e → r = some (.raised e)) ∧
    ((out ≠ [] → ∃ fs, w.mkdir out = .ok fs) → w.log (pjoin out (w.stamp' ++ ".log".toList)) = false →
      r = some (.raised .oserror)) := by
  obtain ⟨k, thin, o, a, hn, ho1, ho2, -, rfl⟩ := multiCommand_cases hc items h dataset pred hpos
  have hd : outputDir w pred (textGiven items "--output-path" none) = out := by
    rw [hout]; cases textGiven items "--output-path" none <;> rfl
  have hall : (cs.all fun c => decide (0 < c ∧ c < (n : Int) + 1)) = true := by
    rw [List.all_eq_true]
    intro x hx
    have := hrange x hx
    simp only [decide_eq_true_eq]
    omega
  unfold multi
  rw [← hn, ho1, ho2, hcs, harg]
  simp only [hall, if_true]
  unfold prepare
  rw [hd]
  refine ⟨fun e h0 h1 => ?_, fun h0 h1 => ?_⟩
  · rw [if_neg h0, h1]
  · by_cases h2 : out = []
    · rw [if_pos h2]
      simp only [h1, Bool.false_eq_true, if_false]
    · obtain ⟨fs, h3⟩ := h0 h2
      rw [if_neg h2, h3]
      simp only [h1, Bool.false_eq_true, if_false]

/-- **C84** When the output directory is ready, a missing sample list is an `AssertionError`, not an empty evaluation. -/
theorem C84_no_samples (hc : MultiCommand w env classes argv rnd sched n p r) (items : List Item) (h : CommandLine p argv items)
    (dataset pred : Str) (hpos : positionalsOf items = [dataset, pred]) (hroot : DirArg dataset)
    (cs : List Int) (hcs : Cli.parseCategories n (textGiven items "--categories" none) = some cs)
    (hrange : ∀ c ∈ cs, 1 ≤ c ∧ c ≤ (n : Int)) (arg : ThresholdArg)
    (harg : Cli.parseThresholds (wordGiven items "--thresholds" "99".toList) = some arg) (out : Str) (fs : Fs)
    (hout : OutputReady w pred (textGiven items "--output-path" none) out fs)
    (hmiss : fs.ex (if n = 20 then slashed [dataset, "val.txt".toList] else slashed [dataset, "splits".toList, "val.txt".toList]) = false) :
    r = some (.raised .assertionError) := by
  obtain ⟨k, thin, o, a, hn, ho1, ho2, hk, rfl⟩ := multiCommand_cases hc items h dataset pred hpos
  have hall : (cs.all fun c => decide (0 < c ∧ c < (n : Int) + 1)) = true := by
    rw [List.all_eq_true]
    intro x hx
    have := hrange x hx
    simp only [decide_eq_true_eq]
    omega
  unfold multi
  rw [← hn, ho1, ho2, hcs, harg]
  simp only [hall, if_true, prepare_ready hout]
  have hp : ∀ x : Str, Relative x → pjoin dataset x = slashed [dataset, x] := fun x hx => pjoin_slash hroot hx
  have hdf : fs.ex (defaultSplitFile k { datasetRoot := dataset, predRoot := pred, split := "val".toList, thin := thin,
                                          gtDir := some "gtEval".toList, predSuffix := none }) = false := by
    rw [← hmiss]
    rcases hk with rfl | rfl | rfl
    · rw [if_neg (by rw [hn]; decide)]
      show fs.ex (pjoin dataset ("splits/".toList ++ "val".toList ++ ".txt".toList)) = _
      rw [hp _ (by unfold Relative; decide)]; rfl
    · rw [if_neg (by rw [hn]; decide)]
      show fs.ex (pjoin dataset ("splits/".toList ++ "val".toList ++ ".txt".toList)) = _
      rw [hp _ (by unfold Relative; decide)]; rfl
    · rw [if_pos (by rw [hn]; decide)]
      show fs.ex (pjoin dataset ("val".toList ++ ".txt".toList)) = _
      rw [hp _ (by unfold Relative; decide)]; rfl
  have hkb : k ≠ .bsds := by rcases hk with rfl | rfl | rfl <;> decide
  have hch : chooseNames fs k { datasetRoot := dataset, predRoot := pred, split := "val".toList, thin := thin,
                                gtDir := some "gtEval".toList, predSuffix := none } .none none = .error .assertionError := by
    unfold chooseNames
    simp only [hkb, if_false, Option.getD_none, hdf]
    simp
  have : namesOf fs k { datasetRoot := dataset, predRoot := pred, split := "val".toList, thin := thin,
                        gtDir := some "gtEval".toList, predSuffix := none } = .error .assertionError := by
    unfold namesOf construct
    rw [if_pos (.inl rfl)]
    simp only [setSampleNames, hch]
  rw [this]

/-- **C84** A command line that is no command line of the parser is refused with status 0 (help) or at most 2 before anything else
happens. -/
theorem C84_refused (hc : MultiCommand w env classes argv rnd sched n p r) (e : Nat) (he : parse p argv = .error e) :
    e ≤ 2 ∧ r = some (.exit e) := by
  refine ⟨C83_exit p argv e he, ?_⟩
  cases hc with
  | raw => unfold Commands.cityRaw cityRawMain; rw [he]; rfl
  | thin => unfold Commands.cityThin cityThinMain; rw [he]; rfl
  | sbd => unfold Commands.sbd sbdMain; rw [he]; rfl

/-- **C84** The BSDS commands refuse a wrong command line in the same way, `bsds500.py` answers malformed thresholds with a message
and ends with an exception when its output directory or log cannot be made. -/
theorem C84_bsds_stops (w : World) (fs : Fs) (env : Env) (argv : List Str)
    (rnd : Nat → Nat → Nat → Nat → ℚ) (sched : List PoolEvent) :
    (∀ e, parse bsdsParser argv = .error e → e ≤ 2 ∧ Commands.bsds w env argv rnd sched = some (.exit e)) ∧
    (∀ e, parse scriptParser argv = .error e → e ≤ 2 ∧ Commands.script fs env argv rnd sched = some (.exit e)) ∧
    ∀ items dataset pred, CommandLine bsdsParser argv items → positionalsOf items = [dataset, pred] →
      (Cli.parseThresholds (wordGiven items "--thresholds" "99".toList) = none →
        Commands.bsds w env argv rnd sched = some .message) ∧
      ∀ arg, Cli.parseThresholds (wordGiven items "--thresholds" "99".toList) = some arg →
        ∀ out, out = (textGiven items "--output-path" none).getD (pjoin (normpath pred) ("edge_results_".toList ++ w.stamp)) →
        (∀ e, out ≠ [] → w.mkdir out = .error e → Commands.bsds w env argv rnd sched = some (.raised e)) ∧
        ((out ≠ [] → ∃ fs, w.mkdir out = .ok fs) → w.log (pjoin out (w.stamp' ++ ".log".toList)) = false →
          Commands.bsds w env argv rnd sched = some (.raised .oserror)) := by
  refine ⟨fun e he => ⟨C83_exit _ _ _ he, ?_⟩, fun e he => ⟨C83_exit _ _ _ he, ?_⟩, fun items dataset pred h hpos => ?_⟩
  · unfold Commands.bsds bsdsMain; rw [he]; rfl
  · unfold Commands.script scriptMain; rw [he]; rfl
  · unfold Commands.bsds
    rw [C83_bsds argv items h dataset pred hpos]
    have ht : (bsdsOptsGiven items).thresholds = wordGiven items "--thresholds" "99".toList := rfl
    refine ⟨fun h0 => ?_, fun arg harg out hout => ?_⟩
    · rw [← ht] at h0
      simp only [h0]
    · have hd : outputDir w pred (textGiven items "--output-path" none) = out := by
        rw [hout]; cases textGiven items "--output-path" none <;> rfl
      rw [← ht] at harg
      simp only [harg]
      unfold prepare
      rw [hd]
      refine ⟨fun e h0 h1 => ?_, fun h0 h1 => ?_⟩
      · rw [if_neg h0, h1]
      · by_cases h2 : out = []
        · rw [if_pos h2]
          simp only [h1, Bool.false_eq_true, if_false]
        · obtain ⟨fs, h3⟩ := h0 h2
          rw [if_neg h2, h3]
          simp only [h1, Bool.false_eq_true, if_false]

end

section

/-- **C84** `cityscapes_raw.py` with a scale outside (0, 1] (and no `--half`), and both Cityscapes commands with `--pre-seal`
without `--nonIS`, are refused with an `AssertionError` - but only once the output directory and the log are there and the
sample list has been read. -/
theorem C84_bad_parameters (w : World) (fs : Fs) (env : Env) (classes : List String) (argv : List Str) (items : List Item)
    (dataset pred : Str) (hpos : positionalsOf items = [dataset, pred]) (hroot : DirArg dataset)
    (out : Str) (hout : OutputReady w pred (textGiven items "--output-path" none) out fs)
    (cs : List Int) (hcs : Cli.parseCategories 19 (textGiven items "--categories" none) = some cs)
    (hrange : ∀ c ∈ cs, 1 ≤ c ∧ c ≤ 19)
    (arg : ThresholdArg) (harg : Cli.parseThresholds (wordGiven items "--thresholds" "99".toList) = some arg)
    (names : List Str) (hlist : ListsSamples fs (slashed [dataset, "splits".toList, "val.txt".toList]) names)
    (rnd : Nat → Nat → Nat → Nat → Nat → ℚ) (sched : Nat → List PoolEvent) :
    (CommandLine cityRawParser argv items →
      (flagGiven items "--half" = false ∧ ¬ (0 < numGiven items "--scale" (1 / 2) ∧ numGiven items "--scale" (1 / 2) ≤ 1)) ∨
        (flagGiven items "--pre-seal" = true ∧ flagGiven items "--nonIS" = false) →
      Commands.cityRaw w env classes argv rnd sched = some (.raised .assertionError)) ∧
    (CommandLine cityThinParser argv items → flagGiven items "--pre-seal" = true ∧ flagGiven items "--nonIS" = false →
      Commands.cityThin w env classes argv rnd sched = some (.raised .assertionError)) := by
  have key : ∀ (k : Kind) (thin : Bool) (o : Cli.Opts), (k = .cityscapes ∨ k = .half) →
      o.categories = textGiven items "--categories" none → o.thresholds = wordGiven items "--thresholds" "99".toList →
      ((k = .cityscapes ∧ ¬ (0 < o.scale ∧ o.scale ≤ 1)) ∨ (o.preSeal = true ∧ o.nonIS = false)) →
      multi w env classes k thin 20 "gtEval".toList dataset pred (textGiven items "--output-path" none)
        (intGiven items "--nproc" 4) o (Cli.argsOf o (Cli.modeOf o) o.scale o.maxDist) rnd sched =
        some (.raised .assertionError) := by
    intro k thin o hk h1 h2 hbad
    have hset : (setEvalParams k (Cli.argsOf o (Cli.modeOf o) o.scale o.maxDist) {}).2 = some .assertionError := by
      obtain ⟨_, _, ps, ni, md, sc, tn, nm, _⟩ := o
      simp only at hbad
      rcases hk with rfl | rfl
      · by_cases h3 : 0 < sc ∧ sc ≤ 1
        · rcases hbad with ⟨-, h4⟩ | ⟨rfl, rfl⟩
          · exact absurd h3 h4
          · simp [setEvalParams, setCityscapes, Cli.argsOf, Cli.modeOf, h3, cityModes]
        · simp [setEvalParams, setCityscapes, Cli.argsOf, Cli.modeOf, h3]
      · rcases hbad with ⟨h4, -⟩ | ⟨rfl, rfl⟩
        · cases h4
        · rfl
    have hn19 : numClasses k = 19 := by rcases hk with rfl | rfl <;> rfl
    have hkb : k ≠ .bsds ∧ k ≠ .reanno ∧ k ≠ .sbd := by rcases hk with rfl | rfl <;> decide
    have hall : (cs.all fun c => decide (0 < c ∧ c < 20)) = true := by
      rw [List.all_eq_true]
      intro x hx
      have := hrange x hx
      simp only [decide_eq_true_eq]
      omega
    unfold multi
    rw [hn19, h1, h2, hcs]
    simp only [hall, if_true, harg, prepare_ready hout]
    rw [multi_names (k := k) (c :=
      { datasetRoot := dataset, predRoot := pred, split := "val".toList, thin := thin, gtDir := some "gtEval".toList })
      hkb.1 hroot rfl (by rw [if_neg hkb.2.2]; exact hlist) hkb.2.1]
    simp only
    cases hs : setEvalParams k (Cli.argsOf o (Cli.modeOf o) o.scale o.maxDist) {} with
    | mk st e =>
      rw [hs] at hset
      simp only at hset
      rw [hset]
  constructor
  · intro h hbad
    unfold Commands.cityRaw
    rw [C83_cityscapes_raw argv items h dataset pred hpos]
    refine key _ false (rawOptsGiven items) (by simp only; split <;> simp) rfl rfl ?_
    rcases hbad with ⟨h1, h2⟩ | h1
    · left; exact ⟨by simp [h1], h2⟩
    · exact .inr h1
  · intro h hbad
    unfold Commands.cityThin
    rw [C83_cityscapes_thin argv items h dataset pred hpos]
    exact key _ true (thinOptsGiven items) (.inr rfl) rfl rfl (.inr hbad)

/-! ### The default output directory -/

theorem normComps_plain (rooted : Bool) : ∀ (cs acc : List Str), (∀ c ∈ cs, c ≠ [] ∧ c ≠ ['.'] ∧ c ≠ ['.', '.']) →
    normComps rooted cs acc = acc.reverse ++ cs
  | [], acc, _ => by simp [normComps]
  | c :: cs, acc, h => by
    obtain ⟨h1, h2, h3⟩ := h c (by simp)
    unfold normComps
    rw [if_neg (by tauto), if_pos (.inl h3), normComps_plain rooted cs (c :: acc) (fun x hx => h x (by simp [hx]))]
    simp

theorem normComps_append (rooted : Bool) : ∀ (cs acc : List Str), normComps rooted (cs ++ [[]]) acc = normComps rooted cs acc
  | [], acc => by simp [normComps]
  | c :: cs, acc => by
    rw [List.cons_append]
    unfold normComps
    simp only [normComps_append rooted cs]

theorem slashed_join : ∀ cs : List Str, slashed cs = join ['/'] cs
  | [] => rfl
  | [_] => rfl
  | a :: b :: rest => by
    have := slashed_join (b :: rest)
    simp only [slashed, join] at this ⊢
    rw [this]; simp

theorem slashed_append : ∀ (cs : List Str) (x : Str), cs ≠ [] → slashed (cs ++ [x]) = slashed cs ++ '/' :: x
  | [], _, h => absurd rfl h
  | [a], x, _ => by simp [slashed]
  | a :: b :: rest, x, _ => by
    have := slashed_append (b :: rest) x (by simp)
    simp only [List.cons_append, slashed] at this ⊢
    rw [this]; simp

/-- **C84** Without `--output-path`, the results go to a directory `edge_results_<time>` in the prediction directory, whether
that is given with or without a slash at the end, as a relative or an absolute path. -/
theorem C84_default_output (w : World) (comps : List Str) (hne : comps ≠ [])
    (hplain : ∀ c ∈ comps, c ≠ [] ∧ c ≠ ['.'] ∧ c ≠ ['.', '.'] ∧ '/' ∉ c) (pred : Str)
    (hpred : pred = slashed comps ∨ pred = slashed comps ++ ['/']) :
    outputDir w pred none = slashed (comps ++ ["edge_results_".toList ++ w.stamp]) ∧
    outputDir w ('/' :: pred) none = '/' :: slashed (comps ++ ["edge_results_".toList ++ w.stamp]) := by
  obtain ⟨c0, cr, rfl⟩ := List.exists_cons_of_ne_nil hne
  have hsp : splitOnChar '/' (slashed (c0 :: cr)) = c0 :: cr := by
    rw [slashed_join]
    exact Cli.splitOnChar_join1 '/' c0 cr fun s hs => (hplain s hs).2.2.2
  have hsp2 : splitOnChar '/' (slashed (c0 :: cr) ++ ['/']) = (c0 :: cr) ++ [[]] := by
    have := Cli.splitOnChar_join1 '/' c0 (cr ++ [[]]) (by
      intro s hs
      rw [← List.cons_append, List.mem_append] at hs
      rcases hs with hs | hs
      · exact (hplain s hs).2.2.2
      · simp at hs; simp [hs])
    rw [← slashed_join, ← List.cons_append, slashed_append _ _ (by simp)] at this
    exact this
  have hcomps : ∀ rooted, normComps rooted (splitOnChar '/' pred) [] = c0 :: cr := by
    intro rooted
    have h3 : normComps rooted (c0 :: cr) [] = c0 :: cr := by
      rw [normComps_plain rooted _ _ fun c hc => ⟨(hplain c hc).1, (hplain c hc).2.1, (hplain c hc).2.2.1⟩]
      rfl
    rcases hpred with rfl | rfl
    · rw [hsp, h3]
    · rw [hsp2, normComps_append, h3]
  obtain ⟨d, ds, rfl⟩ := List.exists_cons_of_ne_nil (hplain c0 (by simp)).1
  have hd : d ≠ '/' := by
    rintro rfl
    exact (hplain _ (by simp : ('/' :: ds) ∈ ('/' :: ds) :: cr)).2.2.2 (by simp)
  obtain ⟨ps, hps⟩ : ∃ ps, pred = d :: ps := by
    have : ∃ t, slashed ((d :: ds) :: cr) = d :: t := by
      cases cr with
      | nil => exact ⟨ds, rfl⟩
      | cons b r => exact ⟨_, rfl⟩
    obtain ⟨t, ht⟩ := this
    rcases hpred with rfl | rfl
    · exact ⟨t, ht⟩
    · exact ⟨t ++ ['/'], by rw [ht]; rfl⟩
  have hnil : slashed ((d :: ds) :: cr) ≠ [] := by
    cases cr <;> simp [slashed]
  have hn1 : normpath pred = slashed ((d :: ds) :: cr) := by
    unfold normpath
    simp only [hcomps, ← slashed_join]
    rw [hps]
    have e1 : List.isPrefixOf ['/', '/'] (d :: ps) = false := by simp [List.isPrefixOf, hd.symm]
    simp [e1, hd, hnil]
  have hn2 : normpath ('/' :: pred) = '/' :: slashed ((d :: ds) :: cr) := by
    unfold normpath
    have e0 : splitOnChar '/' ('/' :: pred) = [] :: splitOnChar '/' pred := by simp [splitOnChar]
    have e2 : ∀ rooted, normComps rooted ([] :: splitOnChar '/' pred) [] = (d :: ds) :: cr := by
      intro rooted
      rw [← hcomps rooted]
      conv => lhs; unfold normComps
      simp
    simp only [e0, e2, ← slashed_join]
    rw [hps]
    have e1 : List.isPrefixOf ['/', '/'] ('/' :: d :: ps) = false := by simp [List.isPrefixOf, hd.symm]
    simp [e1]
  have hlast : ∀ x : Str, DirArg (x ++ slashed ((d :: ds) :: cr)) := by
    intro x
    have hl : (slashed ((d :: ds) :: cr)).getLast? ≠ some '/' := by
      have key : ∀ (l : List Str), l ≠ [] → (∀ c ∈ l, c ≠ [] ∧ '/' ∉ c) → (slashed l).getLast? ≠ some '/' := by
        intro l
        induction l with
        | nil => intro h0; exact absurd rfl h0
        | cons a l ih =>
          intro _ hh
          cases l with
          | nil =>
            intro h0
            exact (hh a (by simp)).2 (List.mem_of_getLast? h0)
          | cons b r =>
            have i1 := ih (by simp) fun c hc => hh c (List.mem_cons_of_mem _ hc)
            have i2 : slashed (b :: r) ≠ [] := by
              cases r with
              | nil => exact (hh b (by simp)).1
              | cons _ _ => simp [slashed]
            simp only [slashed]
            rw [List.getLast?_append]
            rw [List.getLast?_cons]
            cases hg : (slashed (b :: r)).getLast? with
            | none => exact absurd (List.getLast?_eq_none_iff.1 hg) i2
            | some z => rw [hg] at i1; simpa using i1
      exact key _ (by simp) fun c hc => ⟨(hplain c hc).1, (hplain c hc).2.2.2⟩
    refine ⟨by simp [hnil], ?_⟩
    rw [List.getLast?_append]
    cases hg : (slashed ((d :: ds) :: cr)).getLast? with
    | none => exact absurd (List.getLast?_eq_none_iff.1 hg) hnil
    | some z => rw [hg] at hl; simpa using hl
  have hrel : Relative ("edge_results_".toList ++ w.stamp) := by
    unfold Relative
    rw [show "edge_results_".toList = 'e' :: "dge_results_".toList from rfl]
    simp
  unfold outputDir
  simp only [hn1, hn2]
  rw [slashed_append _ _ (by simp)]
  constructor
  · rw [pjoin_slash (by simpa using hlast []) hrel]; rfl
  · rw [pjoin_slash (by simpa using hlast ['/']) hrel]; rfl

/-- A prediction directory with a slash at the end. -/
example : outputDir ⟨⟨fun _ => true, fun _ => none, fun _ => none⟩, fun _ => .error .oserror, fun _ => true, "0".toList, "0".toList⟩
    "runs/a/".toList none = "runs/a/edge_results_0".toList :=
  (C84_default_output _ ["runs".toList, "a".toList] (by simp) (by decide) _ (.inr rfl)).1

end

/-! ## Concrete cases -/

section

/-- An operating system on which everything can be made and every file exists; split files list one sample, directories hold one
annotation file. -/
def exCmdFs : Fs := ⟨fun _ => true, fun _ => some "bonn/b\n".toList, fun _ => some ["1.mat".toList]⟩

def exCmdWorld : World := ⟨exCmdFs, fun _ => .ok exCmdFs, fun _ => true, "t".toList, "t".toList⟩

def exCmdPics : Pictures where
  rgb _ := some ⟨2, 2, fun _ _ => 0, fun _ _ => 0, fun i j => if i = 0 ∧ j = 0 then 1 else 0⟩
  gray _ := some ⟨2, 2, fun i _ => 200 * i⟩
  mat _ := .error .assertionError

theorem exCmdPics_ok : NoEmptyPictures exCmdPics := by
  constructor
  · intro p E h; cases h; exact ⟨by decide, by decide⟩
  · intro p P h; cases h; exact ⟨by decide, by decide⟩

theorem exCmdNames (p : Str) : ListsSamples exCmdFs p ["bonn/b".toList] :=
  ⟨rfl, by simp, ['\n'], ["bonn/b".toList], [], by simp, by unfold OneLine; decide, by unfold OneLine; decide, rfl, rfl⟩

theorem exHalf : Cli.parseThresholds "[.5]".toList = some (.list [1 / 2]) := by
  have : floatLit ".5".toList = .ok (1 / 2) := by
    rw [show floatLit ".5".toList = .ok (((5 : Nat) : ℚ) / 10 ^ 1) from rfl]
    norm_num
  rw [show Cli.parseThresholds "[.5]".toList = (match mapM' (fun t => floatLit (strip t)) [".5".toList] with
    | .ok xs => some (.list xs)
    | .error _ => none) from rfl]
  have h2 : strip ".5".toList = ".5".toList := by rfl
  simp only [mapM', h2, this]

/-- The command line of `exArgv` evaluates all 19 categories of the listed sample. -/
example : ∃ (outs : Nat → Outcome) (fuel : Nat) (sched : Nat → List PoolEvent),
    Commands.cityRaw exCmdWorld ⟨exCmdPics, refLib 1, id, fun _ _ => 0, fuel⟩ (List.replicate 19 "c") exArgv
      (fun _ _ _ _ _ => 1 / 2) sched = some (.finished "-/edge_results_t".toList
        (reportOf (List.replicate 19 "c") ((List.range 19).map fun (k : Nat) => (k : Int) + 1) (fun i => (outs i).overall) true)) := by
  obtain ⟨outs, F, -, h⟩ := C84_cityscapes_raw exCmdWorld exCmdFs ⟨exCmdPics, refLib 1, id, fun _ _ => 0, 0⟩ exCmdPics_ok
    (fun _ => ⟨rfl, rfl⟩) (fun _ _ _ _ _ => 1 / 2) (fun _ _ _ _ _ => by norm_num) (List.replicate 19 "c") rfl exArgv exItems
    exCommandLine "root".toList "-".toList rfl (by unfold DirArg; decide) (by unfold DirArg; decide) "-/edge_results_t".toList
    ⟨by rfl, by rw [if_neg (by decide)]; rfl, rfl⟩ ((List.range 19).map fun (k : Nat) => (k : Int) + 1) rfl (by decide)
    (.list [1 / 2]) exHalf [1 / 2] (by decide +kernel) (by simp) .half rfl (.inl rfl) (by intro h0; cases h0)
    (postSeal (1 / 4) true) rfl (by intro _; show (0 : ℚ) < 1 / 4; norm_num)
    ["bonn/b".toList] (by unfold Relative; decide) (exCmdNames _) ⟨rfl, rfl, rfl, rfl⟩
    ⟨fun _ _ => ⟨rfl, rfl⟩, fun _ _ => ⟨_, rfl, by norm_num, by norm_num⟩, fun _ _ _ _ => ⟨_, rfl⟩, fun _ _ _ => ⟨_, rfl⟩⟩
  obtain ⟨n, hn⟩ := (h F le_rfl (fun _ => [.complete 0])).2 (by
    intro i _ j hj
    simp at hj
    simp [hj])
  exact ⟨outs, F, _, hn⟩

/-- `cityscapes_thin.py d p --pre-seal --nonIS`. -/
theorem exThinLine : CommandLine cityThinParser ["d".toList, "p".toList, "--pre-seal".toList, "--nonIS".toList]
    [.pos "d".toList, .pos "p".toList, .opt (optFlag "--pre-seal") (.flag true), .opt (optFlag "--nonIS") (.flag true)] := by
  refine .plain ?_
  refine .cons (a := ["d".toList]) (.pos (Or.inl (by decide +kernel))) ?_
  refine .cons (a := ["p".toList]) (.pos (Or.inl (by decide +kernel))) ?_
  refine .cons (a := ["--pre-seal".toList]) (.flag ⟨List.mem_of_getElem? (i := 2) rfl, Or.inl (by decide +kernel)⟩ rfl) ?_
  exact .cons (a := ["--nonIS".toList]) (.flag ⟨List.mem_of_getElem? (i := 3) rfl, Or.inl (by decide +kernel)⟩ rfl) .nil

/-- The default number of thresholds. -/
theorem exNinetyNine : ∃ ths, checkThresholds (.int 99) = .ok ths ∧ ths ≠ [] :=
  ⟨_, C03_int_grid 99, by simp⟩

example : ∃ (outs : Nat → Outcome) (fuel : Nat) (sched : Nat → List PoolEvent),
    Commands.cityThin exCmdWorld ⟨exCmdPics, refLib 1, id, fun _ _ => 0, fuel⟩ (List.replicate 19 "c")
      ["d".toList, "p".toList, "--pre-seal".toList, "--nonIS".toList]
      (fun _ _ _ _ _ => 1 / 2) sched = some (.finished "p/edge_results_t".toList
        (reportOf (List.replicate 19 "c") ((List.range 19).map fun (k : Nat) => (k : Int) + 1) (fun i => (outs i).overall) true)) := by
  obtain ⟨ths, t1, t2⟩ := exNinetyNine
  obtain ⟨outs, F, -, h⟩ := C84_cityscapes_thin exCmdWorld exCmdFs ⟨exCmdPics, refLib 1, id, fun _ _ => 0, 0⟩ exCmdPics_ok
    (fun _ => ⟨rfl, rfl⟩) (fun _ _ _ _ _ => 1 / 2) (fun _ _ _ _ _ => by norm_num) (List.replicate 19 "c") rfl _ _
    exThinLine "d".toList "p".toList rfl (by unfold DirArg; decide) (by unfold DirArg; decide) "p/edge_results_t".toList
    ⟨by rfl, by rw [if_neg (by decide)]; rfl, rfl⟩ ((List.range 19).map fun (k : Nat) => (k : Int) + 1) rfl (by decide)
    (.int 99) (by rfl) ths t1 t2 (by intro _; rfl) preSeal rfl (by intro h0; cases h0)
    ["bonn/b".toList] (by unfold Relative; decide) (exCmdNames _) ⟨rfl, rfl, rfl, rfl⟩
    ⟨fun _ _ => ⟨rfl, rfl⟩, fun _ _ => ⟨_, rfl, by norm_num, by norm_num⟩, fun _ _ _ _ => ⟨_, rfl⟩, fun _ _ _ => ⟨_, rfl⟩⟩
  obtain ⟨n, hn⟩ := (h F le_rfl (fun _ => [.complete 0])).2 (by
    intro i _ j hj
    simp at hj
    simp [hj])
  exact ⟨outs, F, _, hn⟩

/-- `--pre-seal` alone is refused once everything is prepared. -/
example (env : Env) (rnd : Nat → Nat → Nat → Nat → Nat → ℚ) (sched : Nat → List PoolEvent) :
    Commands.cityThin exCmdWorld env [] ["d".toList, "p".toList, "--pre-seal".toList] rnd sched =
      some (.raised .assertionError) :=
  (C84_bad_parameters exCmdWorld exCmdFs env [] _
    [.pos "d".toList, .pos "p".toList, .opt (optFlag "--pre-seal") (.flag true)] "d".toList "p".toList rfl
    (by unfold DirArg; decide) "p/edge_results_t".toList ⟨by rfl, by rw [if_neg (by decide)]; rfl, rfl⟩
    ((List.range 19).map fun (k : Nat) => (k : Int) + 1) rfl (by decide) (.int 99) (by rfl) _ (exCmdNames _) rnd sched).2
    (.plain (.cons (a := ["d".toList]) (.pos (Or.inl (by decide +kernel))) (.cons (a := ["p".toList]) (.pos (Or.inl (by decide +kernel)))
      (.cons (a := ["--pre-seal".toList]) (.flag ⟨List.mem_of_getElem? (i := 2) rfl, Or.inl (by decide +kernel)⟩ rfl) .nil))))
    ⟨rfl, rfl⟩

theorem exSbdLine : CommandLine sbdParser ["d".toList, "p".toList, "--output-path=".toList, "--categories=20".toList]
    [.pos "d".toList, .pos "p".toList, .opt (optStr "--output-path") (.str []), .opt (optStr "--categories") (.str "20".toList)] := by
  refine .plain ?_
  refine .cons (a := ["d".toList]) (.pos (Or.inl (by decide +kernel))) ?_
  refine .cons (a := ["p".toList]) (.pos (Or.inl (by decide +kernel))) ?_
  refine .cons (a := ["--output-path=".toList]) (.joined (w := "--output-path".toList) (s := []) (c := .str none)
    ⟨List.mem_of_getElem? (i := 1) rfl, Or.inl (by decide +kernel)⟩ rfl rfl) ?_
  exact .cons (a := ["--categories=20".toList]) (.joined (w := "--categories".toList) (s := "20".toList) (c := .str none)
    ⟨List.mem_of_getElem? (i := 2) rfl, Or.inl (by decide +kernel)⟩ rfl rfl) .nil

/-- `sbd.py d p --output-path= --categories=20`: an empty output path, so nothing is saved. -/
example : ∃ (outs : Nat → Outcome) (fuel : Nat) (sched : Nat → List PoolEvent),
    Commands.sbd exCmdWorld ⟨exCmdPics, refLib 1, id, fun _ _ => 0, fuel⟩ (List.replicate 20 "c")
      ["d".toList, "p".toList, "--output-path=".toList, "--categories=20".toList]
      (fun _ _ _ _ _ => 1 / 2) sched = some (.finished [] (reportOf (List.replicate 20 "c") [20] (fun i => (outs i).overall) false)) := by
  obtain ⟨ths, t1, t2⟩ := exNinetyNine
  obtain ⟨outs, F, -, h⟩ := C84_sbd exCmdWorld exCmdFs ⟨exCmdPics, refLib 1, id, fun _ _ => 0, 0⟩ exCmdPics_ok
    (fun _ => ⟨rfl, rfl⟩) (fun _ _ _ _ _ => 1 / 2) (fun _ _ _ _ _ => by norm_num) (List.replicate 20 "c") rfl _ _
    exSbdLine "d".toList "p".toList rfl (by unfold DirArg; decide) (by unfold DirArg; decide) []
    ⟨by rfl, by rw [if_pos rfl]; rfl, rfl⟩ [20] (by rfl) (by decide)
    (.int 99) (by rfl) ths t1 t2 (postSeal (1 / 50) true) rfl
    ["bonn/b".toList] (by unfold Relative; decide) (exCmdNames _) ⟨rfl, rfl, rfl⟩
    ⟨fun _ _ => ⟨rfl, rfl⟩, fun _ _ => ⟨_, rfl, by norm_num, by norm_num⟩, fun _ _ _ _ => ⟨_, rfl⟩, fun _ _ _ => ⟨_, rfl⟩⟩
  obtain ⟨n, hn⟩ := (h F le_rfl (fun _ => [.complete 0])).2 (by
    intro i _ j hj
    simp at hj
    simp [hj])
  exact ⟨outs, F, _, hn⟩

/-- Category 21 of SBD does not exist; `"20,"` is no list. -/
example (w : World) (env : Env) (rnd : Nat → Nat → Nat → Nat → Nat → ℚ) (sched : Nat → List PoolEvent) :
    Commands.sbd w env [] ["d".toList, "p".toList, "--categories=21".toList] rnd sched = some (.raised .assertionError) ∧
    Commands.sbd w env [] ["d".toList, "p".toList, "--categories=20,".toList] rnd sched = some .message := by
  have line : ∀ s : Str, CommandLine sbdParser ["d".toList, "p".toList, "--categories=".toList ++ s]
      [.pos "d".toList, .pos "p".toList, .opt (optStr "--categories") (.str s)] := fun s =>
    .plain (.cons (a := ["d".toList]) (.pos (Or.inl (by decide +kernel))) (.cons (a := ["p".toList]) (.pos (Or.inl (by decide +kernel)))
      (.cons (a := ["--categories=".toList ++ s]) (.joined (w := "--categories".toList) (s := s) (c := .str none)
        ⟨List.mem_of_getElem? (i := 2) rfl, Or.inl (by decide +kernel)⟩ rfl rfl) .nil)))
  constructor
  · exact ((C84_bad_words .sbd _ (line "21".toList) "d".toList "p".toList rfl).2 [21] (by rfl)).1 ⟨21, by simp, by decide⟩
  · exact (C84_bad_words .sbd _ (line "20,".toList) "d".toList "p".toList rfl).1 (by rfl)

theorem exBsdsLine : CommandLine bsdsParser ["data".toList, "--use-val".toList, "p".toList]
    [.pos "data".toList, .opt (optFlag "--use-val") (.flag true), .pos "p".toList] := by
  refine .plain ?_
  refine .cons (a := ["data".toList]) (.pos (Or.inl (by decide +kernel))) ?_
  refine .cons (a := ["--use-val".toList]) (.flag ⟨List.mem_of_getElem? (i := 1) rfl, Or.inl (by decide +kernel)⟩ rfl) ?_
  exact .cons (a := ["p".toList]) (.pos (Or.inl (by decide +kernel))) .nil

theorem exMatEntry (s : Str) (h : MatEntry ["1.mat".toList] s) : s = "1".toList := by
  have h1 := h.1
  rw [List.mem_singleton, show "1.mat".toList = "1".toList ++ ".mat".toList from rfl] at h1
  exact List.append_cancel_right h1

/-- `bsds500.py data --use-val p`: one picture with one and two marked pixels. -/
example : ∃ (res : Outcome) (fuel : Nat) (sched : List PoolEvent),
    Commands.bsds exCmdWorld ⟨exBsdsFilePics, refLib 1, id, fun _ _ => 0, fuel⟩
      ["data".toList, "--use-val".toList, "p".toList] (fun _ _ _ _ => 1 / 2) sched =
      some (.finished "p/edge_results_t".toList res) ∧ res.writes.length = 3 := by
  obtain ⟨ths, t1, t2⟩ := exNinetyNine
  obtain ⟨stems, res, F, hnd, hst, h, -, g, -⟩ := C84_bsds exCmdWorld exCmdFs exBsdsMat (fun _ => none)
    (fun _ => some ⟨2, 2, fun i _ => 100 * i⟩) ⟨exBsdsFilePics, refLib 1, id, fun _ _ => 0, 0⟩ rfl exBsdsFilePics_ok
    (fun _ => ⟨rfl, rfl⟩) (fun _ _ _ _ => 1 / 2) (fun _ _ _ _ => by norm_num) _ _ exBsdsLine "data".toList "p".toList rfl
    (by unfold DirArg; decide) (by unfold DirArg; decide) "val".toList rfl "p/edge_results_t".toList
    ⟨by rfl, by rw [if_neg (by decide)]; rfl, rfl⟩ (.int 99) (by rfl) ths t1 t2 (by show (0 : ℚ) < 75 / 10000; norm_num)
    ⟨rfl, rfl, rfl⟩ ["1.mat".toList] rfl (by decide) (by simp)
    (by
      intro stem ext hm hl
      have h0 := List.mem_singleton.1 hm
      have h3 : ext.length = "mat".toList.length := by
        have := congrArg List.length hl
        simpa [lower] using this
      have h4 : (stem ++ ['.']) ++ ext = "1.".toList ++ "mat".toList := by
        rw [List.append_assoc]; exact h0
      exact (List.append_inj' h4 h3).2)
    ⟨"1".toList, by simp, '1', by decide, by decide⟩
    (fun _ => ⟨2, 2, fun i _ => 100 * i⟩) (fun _ => [exBsdsImg 0, exBsdsImg 1])
    (by
      intro s hs
      obtain rfl := exMatEntry s hs
      exact ⟨rfl, rfl, rfl, exBsdsMat_ok, exBsds_binary⟩)
  have hlen : ∀ i < stems.length, i = 0 := by
    intro i hi
    by_contra h0
    have a := exMatEntry _ ((hst _).1 (List.getElem_mem hi))
    have b := exMatEntry _ ((hst _).1 (List.getElem_mem (show 0 < stems.length by omega)))
    exact h0 (hnd.getElem_inj_iff.1 (a.trans b.symm))
  obtain ⟨k, hk⟩ := (h F le_rfl [.complete 0]).2 (by
    intro i hi
    simp [hlen i hi])
  exact ⟨res, F, _, hk, by rw [g.2 rfl]; rfl⟩

end

section

/-- Every annotation file is the same. -/
def exCmdMat : MatEnv := ⟨fun _ => some (exBsdsFile 2), false⟩

theorem exCmdMat_ok (p : Str) : HoldsAnnotations exCmdMat p [exBsdsImg 0, exBsdsImg 1] :=
  ⟨exBsdsFile 2, _, rfl, ⟨by decide, rfl⟩, exBsds_ok 2 (Or.inr rfl)⟩

def exCmdMatPics : Pictures := picturesOf exCmdMat (fun _ => none) fun _ => some ⟨2, 2, fun i _ => 100 * i⟩

theorem exCmdMatPics_ok : NoEmptyPictures exCmdMatPics := by
  constructor
  · intro p E h; cases h
  · intro p P h; cases h; exact ⟨by decide, by decide⟩

/-- `script_bsds500.py bench ""`: fifteen marked pixels, five thresholds, nothing saved. -/
example : ∃ (res : Outcome) (fuel : Nat) (sched : List PoolEvent),
    Commands.script exCmdFs ⟨exCmdMatPics, refLib 1, id, fun _ _ => 0, fuel⟩ ["bench".toList, []]
      (fun _ _ _ _ => 1 / 2) sched = some (.finished [] res) ∧ res.writes = [] ∧
    ∃ row m, res.table[4]? = some row ∧ row.threshold = 5 / 6 ∧ row.recall = m / 15 := by
  obtain ⟨res, F, h, -, g, t⟩ := C84_script exCmdFs exCmdMat (fun _ => none)
    (fun _ => some ⟨2, 2, fun i _ => 100 * i⟩) ⟨exCmdMatPics, refLib 1, id, fun _ _ => 0, 0⟩ rfl exCmdMatPics_ok
    (fun _ => ⟨rfl, rfl⟩) (fun _ _ _ _ => 1 / 2) (fun _ _ _ _ => by norm_num) ["bench".toList, []]
    [.pos "bench".toList, .pos []]
    (.plain (.cons (a := ["bench".toList]) (.pos (Or.inl (by decide +kernel))) (.cons (a := [[]]) (.pos (Or.inl (by decide +kernel))) .nil)))
    "bench".toList [] rfl (by unfold DirArg; decide) ⟨rfl, rfl, rfl⟩
    (fun _ => ⟨2, 2, fun i _ => 100 * i⟩) (fun _ => [exBsdsImg 0, exBsdsImg 1]) _ rfl
    (fun n _ => ⟨rfl, rfl, rfl, exCmdMat_ok _, exBsds_binary⟩)
  obtain ⟨k, hk⟩ := (h F le_rfl ((List.range 5).map .complete)).2 (by
    intro i hi
    simp [hi])
  obtain ⟨row, r1, r2, m, -, -, r3⟩ := t 4 (by norm_num)
  refine ⟨res, F, _, hk, g.1 rfl, row, m, r1, by rw [r2]; norm_num, ?_⟩
  rw [r3]
  have hE : markedPixels [exBsdsImg 0, exBsdsImg 1] = 3 := by unfold markedPixels; decide +kernel
  simp only [List.map_cons, List.map_nil, List.sum_cons, List.sum_nil, hE]
  norm_num

/-- A read-only disk. -/
example (env : Env) (rnd : Nat → Nat → Nat → Nat → Nat → ℚ) (sched : Nat → List PoolEvent) :
    Commands.cityRaw { exCmdWorld with mkdir := fun _ => .error .oserror } env [] exArgv rnd sched = some (.raised .oserror) :=
  (C84_no_output .raw exItems exCommandLine "root".toList "-".toList rfl
    ((List.range 19).map fun (k : Nat) => (k : Int) + 1) (by rfl) (by decide) (.list [1 / 2]) exHalf "-/edge_results_t".toList
    (by rfl)).1 .oserror (by decide) rfl

/-- No `splits/val.txt`. -/
example (env : Env) (rnd : Nat → Nat → Nat → Nat → Nat → ℚ) (sched : Nat → List PoolEvent) :
    Commands.cityRaw { exCmdWorld with mkdir := fun _ => .ok ⟨fun p => decide (p = "root".toList), fun _ => none, fun _ => none⟩ } env [] exArgv rnd
      sched = some (.raised .assertionError) :=
  C84_no_samples .raw exItems exCommandLine "root".toList "-".toList rfl (by unfold DirArg; decide)
    ((List.range 19).map fun (k : Nat) => (k : Int) + 1) (by rfl) (by decide) (.list [1 / 2]) exHalf "-/edge_results_t".toList _
    ⟨by rfl, by rw [if_neg (by decide)], rfl⟩ (by decide)

example (env : Env) (rnd : Nat → Nat → Nat → Nat → ℚ) (sched : List PoolEvent) :
    Commands.bsds { exCmdWorld with log := fun _ => false } env ["data".toList, "--use-val".toList, "p".toList] rnd sched =
      some (.raised .oserror) :=
  (((C84_bsds_stops { exCmdWorld with log := fun _ => false } exCmdFs env _ rnd sched).2.2 _ "data".toList "p".toList exBsdsLine rfl).2
    (.int 99) (by rfl) "p/edge_results_t".toList (by rfl)).2 (fun _ => ⟨exCmdFs, rfl⟩) rfl

/-- No positional argument. -/
example (w : World) (env : Env) (rnd : Nat → Nat → Nat → Nat → Nat → ℚ) (sched : Nat → List PoolEvent) :
    Commands.sbd w env [] [] rnd sched = some (.exit 2) := (C84_refused .sbd 2 (by rfl)).2

end

end EdgeEval.Props
