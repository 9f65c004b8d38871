import Verif.Props.ConvertCommands
import Verif.Props.Commands

/-!
# C85: converting, then evaluating
-/

namespace EdgeEval.Props

open Spec Text Evaluators Samples Datasets PathU MatFile Argparse EdgeEval.Convert EdgeEval.ConvertSbd EdgeEval.ConvertCommands
  Commands EndToEnd

section

/-- Whoever opens the pictures a Cityscapes conversion wrote gets them: the edge maps as they were written, something for the
trainId pictures (their content is the business of `cityscapesscripts`). -/
def ShowsPictures (pics : Pictures) (written : List (Str × Content)) : Prop :=
  ∀ x ∈ written, (∀ im, x.2 = .edges (.png im) → pics.rgb x.1 = some im) ∧
    (∀ j, x.2 = .train j → ∃ S, pics.gray x.1 = some S)

theorem oneLine_nil : OneLine [] := by unfold OneLine; simp

/-- **C85** After a complete conversion to PNG into `gtEval`, what the evaluation commands ask for is in place: the list of
the validation samples, and for every category the edge maps (full size, or half size if those were wanted; thin or raw)
and the segmentations of these samples. Predictions are the user's. -/
theorem C85_converted_files (lib : DTLib) (fuel : Nat) (pics : Pictures) (a : CityArgs) (poly label : Str → List Str)
    (hgt : a.procDirname = "gtEval".toList) (hext : a.ext = "png".toList) (written : List (Str × Content))
    (hw : ∀ x, x ∈ written ↔ Expected lib fuel pics a poly label x)
    (hjob : JobsOk lib fuel pics a label (IsJob a))
    (hnames : ∀ n ∈ poly "val".toList, SampleName n ∧ OneLine n) (hne : poly "val".toList ≠ [])
    (hpl : ∀ n ∈ poly "val".toList, n ∈ label "val".toList)
    (fs : Fs) (hfs : Shows fs written) (pics' : Pictures) (hp : ShowsPictures pics' written) (hpe : NoEmptyPictures pics')
    (k : Evaluators.Kind) (hk : k = .cityscapes ∨ (k = .half ∧ a.saveHalfVal = true)) (thin : Bool) (cs : List Int)
    (pred : Nat → Str → Str) (hpred : ∀ n ∈ poly "val".toList, ∀ c ∈ cs, ∃ P, pics'.gray (pred c.toNat n) = some P)
    (scale : ℚ) (kill : Bool)
    (hbig : 1 / 2 ≤ scale ∨ ∀ n ∈ poly "val".toList, ∀ E,
      pics'.rgb (slashed [a.root, "gtEval".toList, "val".toList, gtFile k thin a.inst n]) = some E →
        1 / 2 ≤ E.h * scale ∧ 1 / 2 ≤ E.w * scale) :
    ListsSamples fs (slashed [a.root, "splits".toList, "val.txt".toList]) (poly "val".toList) ∧
    HasFiles fs pics' (poly "val".toList) cs
      (fun n => slashed [a.root, "gtEval".toList, "val".toList, gtFile k thin a.inst n])
      (fun n => slashed [a.root, "gtEval".toList, "val".toList, segFile k n]) pred scale kill := by
  have hk' : k = .cityscapes ∨ k = .half := hk.imp_right And.left
  let c : Ctor := { datasetRoot := a.root, predRoot := [], split := "val".toList, thin := thin }
  have hd : gtDirOf k c = slashed [a.root, "gtEval".toList, "val".toList] := by
    unfold gtDirOf
    rw [if_neg (by rcases hk' with rfl | rfl <;> decide)]
  have hslash : ∀ f, slashed [gtDirOf k c, f] = slashed [a.root, "gtEval".toList, "val".toList, f] := by
    intro f; rw [hd]; simp [slashed]
  have hpath := C53_paths_agree a hext k hk' c rfl rfl (by rw [hgt]; decide) (Or.inr ⟨rfl, hgt⟩)
  simp only [hslash] at hpath
  have hj : IsJob a "val".toList (jobOpts a ((if k = .half then "half_".toList else []) ++
      (if thin then "thin_".toList else "raw_".toList))
      (if thin then a.thinValRadius else a.rawValRadius) thin (decide (k = .half))) := by
    refine Or.inr ⟨rfl, thin, decide (k = .half), ?_, by simp only [decide_eq_true_eq]⟩
    intro h
    rw [decide_eq_true_eq] at h
    rcases hk with hk | hk
    · rw [hk] at h; cases h
    · exact hk.2
  have hmemEdge : ∀ n ∈ poly "val".toList, ∃ im, (slashed [a.root, "gtEval".toList, "val".toList, gtFile k thin a.inst n],
      Content.edges (.png im)) ∈ written := by
    intro n hn
    obtain ⟨enc, he⟩ := hjob _ _ hj n (hpl n hn)
    have hmem := (hw _).2 (Or.inr (Or.inl ⟨_, _, hj, n, hpl n hn, enc, he, rfl⟩))
    have hx := (C52_written _ _ _ _ _ _ _ he).2.1
    have hpe : pathExt (sampleFile a.root a.procDirname "val".toList n
        (jobOpts a ((if k = .half then "half_".toList else []) ++ (if thin then "thin_".toList else "raw_".toList))
          (if thin then a.thinValRadius else a.rawValRadius) thin (decide (k = .half))).edgeSuffix) = ".png".toList := by
      unfold jobOpts
      rw [hext]
      refine pathExt_sample (by simp) (hnames n hn).1 _ _ _ _ ?_ (by decide) (by decide) ⟨'_', by simp, by decide⟩
      cases a.inst <;> cases thin <;> rcases hk' with rfl | rfl <;> decide
    rw [hpe] at hx
    cases enc with
    | tif im => exact absurd hx (by show ¬ (".png".toList = ".tif".toList); decide)
    | png im =>
      refine ⟨im, ?_⟩
      rw [(hpath n).1]
      exact hmem
  have hmemSeg : ∀ n ∈ poly "val".toList, ∃ j, (slashed [a.root, "gtEval".toList, "val".toList, segFile k n],
      Content.train j) ∈ written := by
    intro n hn
    rw [(hpath n).2]
    exact ⟨_, (hw _).2 (Or.inl ⟨_, by simp, n, hn, rfl⟩)⟩
  refine ⟨?_, ⟨fun n hn => ⟨?_, ?_⟩, fun n hn => ?_, hpred, fun _ n hn => ?_⟩⟩
  · have hx := hfs (slashed [a.root, "splits".toList, "val".toList ++ ".txt".toList],
      .text (linesText ['\n'] (poly "val".toList))) ((hw _).2 (Or.inr (Or.inr ⟨_, by simp, rfl⟩)))
    rw [show "val".toList ++ ".txt".toList = "val.txt".toList by decide] at hx
    exact ⟨hx.1, hne, ['\n'], poly "val".toList, [], Or.inl rfl, fun n hn => (hnames n hn).2, oneLine_nil, by simp,
      by rw [hx.2 _ rfl]; simp⟩
  · obtain ⟨im, h⟩ := hmemEdge n hn
    exact (hfs _ h).1
  · obtain ⟨j, h⟩ := hmemSeg n hn
    exact (hfs _ h).1
  · obtain ⟨im, h⟩ := hmemEdge n hn
    have h1 := (hp _ h).1 im rfl
    refine ⟨im, h1, ?_⟩
    rcases hbig with hs | hb
    · obtain ⟨g1, g2⟩ := hpe.1 _ _ h1
      have g1' : (1 : ℚ) ≤ im.h := by exact_mod_cast g1
      have g2' : (1 : ℚ) ≤ im.w := by exact_mod_cast g2
      constructor <;> nlinarith
    · exact hb n hn im h1
  · obtain ⟨j, h⟩ := hmemSeg n hn
    exact (hp _ h).2 j rfl

/-- **C85** `convert_datasets/cityscapes.py --root=D [options]` and then `cityscapes_raw.py D PRED [options]`: with a complete
dataset, converted to PNG into the default directory (with half-size maps unless the evaluation does not ask for them, and with
instances exactly when the evaluation asks for them), with predictions for every validation sample and an output directory
that can be made, the evaluation ends normally, whatever the processes of the two commands do, with one report over exactly the
requested categories, made of sound scores for exactly the validation samples. -/
theorem C85_convert_then_evaluate_raw (lib : DTLib) (h : CityHost) (hne : NoEmptyPictures h.pics)
    -- the conversion
    (argvC : List Str) (itemsC : List Item)
    (hlC : CommandLine convCityParser argvC itemsC) (hposC : positionalsOf itemsC = [])
    (hmode : flagGiven itemsC "--test_mode" = false) (root : Str)
    (hroot : root = wordGiven itemsC "--root" "data/cityscapes".toList)
    (hgtC : wordGiven itemsC "--out-dir" "gtEval".toList = "gtEval".toList)
    (hr : CityRoot root) (hm : h.mkdir (pjoin root "gtEval".toList) = .ok ())
    (hex : h.ex (slashed [root, "gtFine".toList]) = true) (hpng : wordGiven itemsC "--ext" "png".toList = "png".toList)
    (poly label : Str → List Str) (ht : CityTree h.tree root poly label)
    (H2 : SoundDT lib true 0 2) (H1 : SoundDT lib true 0 1)
    (hgt : ∀ n ∈ label "train".toList, GoodSample h.pics (cityArgsGiven itemsC) "train".toList n 34)
    (hgv : ∀ n ∈ label "val".toList, GoodSample h.pics (cityArgsGiven itemsC) "val".toList n
      (if flagGiven itemsC "--only-full-scale" then 34 else 67))
    (hnames : ∀ n ∈ poly "val".toList, SampleName n ∧ OneLine n) (hval : poly "val".toList ≠ [])
    (hpl : ∀ n ∈ poly "val".toList, n ∈ label "val".toList)
    -- the evaluation
    (classes : List String) (hclasses : classes.length = 19)
    (argv : List Str) (items : List Item) (hl : CommandLine cityRawParser argv items)
    (pred : Str) (hpos : positionalsOf items = [root, pred]) (hpred : DirArg pred) (out : Str)
    (cs : List Int) (hcs : Cli.parseCategories 19 (textGiven items "--categories" none) = some cs)
    (hrange : ∀ c ∈ cs, 1 ≤ c ∧ c ≤ 19)
    (arg : ThresholdArg) (harg : Cli.parseThresholds (wordGiven items "--thresholds" "99".toList) = some arg)
    (ths : List ℚ) (hth : checkThresholds arg = .ok ths) (hths : ths ≠ [])
    (hhalf : flagGiven items "--half" = true → flagGiven itemsC "--only-full-scale" = false)
    (hsc : flagGiven items "--half" = true ∨ (1 / 2 ≤ numGiven items "--scale" (1 / 2) ∧ numGiven items "--scale" (1 / 2) ≤ 1))
    (hseal : flagGiven items "--pre-seal" = true → flagGiven items "--nonIS" = true)
    (hinst : flagGiven items "--nonIS" = flagGiven itemsC "--nonIS")
    (hd : flagGiven items "--pre-seal" = false → 0 < numGiven items "--max-dist" (35 / 10000)) :
    ∃ F, ∀ fuelC, F ≤ fuelC → ∀ order : Nat → List Action → List Action, (∀ k l, (order k l).Perm l) → ∀ sched1 sched2,
      ∃ written, ConvertCommands.city lib fuelC h order sched1 sched2 argvC = some (.converted ⟨written, none⟩) ∧
      (written.map Prod.fst).Nodup ∧ (∀ f enc, (f, .edges enc) ∈ written → 0 < (encSize enc).1 ∧ 0 < (encSize enc).2) ∧
      ∀ (w : World) (fs : Fs) (env : Env), NoEmptyPictures env.pics → KeepsShape env.nms →
        OutputReady w pred (textGiven items "--output-path" none) out fs →
        Shows fs written → ShowsPictures env.pics written →
        (fs.ex root = true ∧ fs.ex pred = true ∧ fs.ex (slashed [root, "gtEval".toList, "val".toList]) = true ∧
          fs.ex (slashed [root, "gtFine".toList, "val".toList]) = true) →
        (∀ n ∈ poly "val".toList, ∀ c ∈ cs, ∃ P,
          env.pics.gray (slashed [pred, "class_".toList ++ threeDigits c.toNat, n ++ "_leftImg8bit.png".toList]) = some P) →
        ∀ (rnd : Nat → Nat → Nat → Nat → Nat → ℚ), (∀ j i, UnitStreams (rnd j i)) →
        ∃ (outs : Nat → Outcome) (F' : Nat),
          (∀ i < cs.length,
            GoodScores ((poly "val".toList).map String.ofList) ths (outs i).samples (outs i).table (outs i).overall) ∧
          ∀ fuel, F' ≤ fuel → ∀ (sched : Nat → List PoolEvent),
            (∀ o', Commands.cityRaw w { env with fuel := fuel } classes argv rnd sched = some o' →
              o' = .finished out (reportOf classes cs (fun i => (outs i).overall) (decide (out ≠ [])))) ∧
            ((∀ i < cs.length, ∀ j < (poly "val".toList).length, .complete j ∈ sched i) → ∃ n : Nat → Nat,
              Commands.cityRaw w { env with fuel := fuel } classes argv rnd (fun i => sched i ++ List.replicate (n i) .next) =
                some (.finished out (reportOf classes cs (fun i => (outs i).overall) (decide (out ≠ []))))) := by
  obtain ⟨F, hF⟩ := C85_convert_cityscapes lib h hne argvC itemsC hlC hposC hmode root "gtEval".toList hroot hgtC.symm hr
    (by decide) hm hex (Or.inl hpng) poly label ht H2 H1 hgt hgv
  refine ⟨F, fun fuelC hf order ho sched1 sched2 => ?_⟩
  obtain ⟨written, h1, h2, h3, h4, h5⟩ := hF fuelC hf order ho sched1 sched2
  refine ⟨written, h1, h3, h5, fun w fs env hpe hnms hout hfs hp hdirs hpreds rnd hrnd => ?_⟩
  have hpr : ∀ pr : Protocol, (pr = if flagGiven items "--pre-seal" then preSeal
      else postSeal (numGiven items "--max-dist" (35 / 10000)) (!flagGiven items "--nonIS")) →
      pr.instances = (cityArgsGiven itemsC).inst := by
    intro pr hpr
    show pr.instances = !flagGiven itemsC "--nonIS"
    rw [hpr, ← hinst]
    cases h0 : flagGiven items "--pre-seal" with
    | false => rfl
    | true => rw [hseal h0]; rfl
  obtain ⟨q1, q2⟩ := C85_converted_files lib fuelC h.pics (cityArgsGiven itemsC) poly label hgtC hpng written h2 h4 hnames hval hpl
    fs hfs env.pics hp hpe (if flagGiven items "--half" then .half else .cityscapes)
    (by
      cases h0 : flagGiven items "--half" with
      | false => exact Or.inl rfl
      | true => exact Or.inr ⟨rfl, by show (!flagGiven itemsC "--only-full-scale") = true; rw [hhalf h0]; rfl⟩)
    false cs (fun c n => slashed [pred, "class_".toList ++ threeDigits c, n ++ "_leftImg8bit.png".toList]) hpreds
    (if (if flagGiven items "--half" then Evaluators.Kind.half else .cityscapes) = .half then 1 else numGiven items "--scale" (1 / 2))
    (if flagGiven items "--pre-seal" then preSeal
      else postSeal (numGiven items "--max-dist" (35 / 10000)) (!flagGiven items "--nonIS")).killInternal
    (by
      left
      cases h0 : flagGiven items "--half" with
      | true => norm_num
      | false =>
        rcases hsc with hsc | hsc
        · rw [h0] at hsc; cases hsc
        · simpa using hsc.1)
  have hroot' : (cityArgsGiven itemsC).root = root := hroot.symm
  rw [hroot'] at q1 q2
  rw [← hpr _ rfl] at q2
  refine C84_cityscapes_raw w fs env hpe hnms rnd hrnd classes hclasses argv items hl root pred hpos hr.1 hpred out hout cs hcs hrange
    arg harg ths hth hths _ rfl ?_ hseal _ rfl hd (poly "val".toList) (fun n hn => (hnames n hn).1.rel) q1 hdirs q2
  rcases hsc with h0 | h0
  · left; rw [h0]; rfl
  · right; exact ⟨lt_of_lt_of_le (by norm_num) h0.1, h0.2⟩

/-- **C85** The same with `cityscapes_thin.py D PRED [options]`: the conversion must have made the half-size maps. -/
theorem C85_convert_then_evaluate_thin (lib : DTLib) (h : CityHost) (hne : NoEmptyPictures h.pics)
    -- the conversion
    (argvC : List Str) (itemsC : List Item)
    (hlC : CommandLine convCityParser argvC itemsC) (hposC : positionalsOf itemsC = [])
    (hmode : flagGiven itemsC "--test_mode" = false) (root : Str)
    (hroot : root = wordGiven itemsC "--root" "data/cityscapes".toList)
    (hgtC : wordGiven itemsC "--out-dir" "gtEval".toList = "gtEval".toList)
    (hr : CityRoot root) (hm : h.mkdir (pjoin root "gtEval".toList) = .ok ())
    (hex : h.ex (slashed [root, "gtFine".toList]) = true) (hpng : wordGiven itemsC "--ext" "png".toList = "png".toList)
    (poly label : Str → List Str) (ht : CityTree h.tree root poly label)
    (H2 : SoundDT lib true 0 2) (H1 : SoundDT lib true 0 1)
    (hgt : ∀ n ∈ label "train".toList, GoodSample h.pics (cityArgsGiven itemsC) "train".toList n 34)
    (hgv : ∀ n ∈ label "val".toList, GoodSample h.pics (cityArgsGiven itemsC) "val".toList n
      (if flagGiven itemsC "--only-full-scale" then 34 else 67))
    (hnames : ∀ n ∈ poly "val".toList, SampleName n ∧ OneLine n) (hval : poly "val".toList ≠ [])
    (hpl : ∀ n ∈ poly "val".toList, n ∈ label "val".toList)
    -- the evaluation
    (classes : List String) (hclasses : classes.length = 19)
    (argv : List Str) (items : List Item) (hl : CommandLine cityThinParser argv items)
    (pred : Str) (hpos : positionalsOf items = [root, pred]) (hpred : DirArg pred) (out : Str)
    (cs : List Int) (hcs : Cli.parseCategories 19 (textGiven items "--categories" none) = some cs)
    (hrange : ∀ c ∈ cs, 1 ≤ c ∧ c ≤ 19)
    (arg : ThresholdArg) (harg : Cli.parseThresholds (wordGiven items "--thresholds" "99".toList) = some arg)
    (ths : List ℚ) (hth : checkThresholds arg = .ok ths) (hths : ths ≠ [])
    (hhalf : flagGiven itemsC "--only-full-scale" = false)
    (hseal : flagGiven items "--pre-seal" = true → flagGiven items "--nonIS" = true)
    (hinst : flagGiven items "--nonIS" = flagGiven itemsC "--nonIS")
    (hd : flagGiven items "--pre-seal" = false → 0 < numGiven items "--max-dist" (35 / 10000)) :
    ∃ F, ∀ fuelC, F ≤ fuelC → ∀ order : Nat → List Action → List Action, (∀ k l, (order k l).Perm l) → ∀ sched1 sched2,
      ∃ written, ConvertCommands.city lib fuelC h order sched1 sched2 argvC = some (.converted ⟨written, none⟩) ∧
      (written.map Prod.fst).Nodup ∧ (∀ f enc, (f, .edges enc) ∈ written → 0 < (encSize enc).1 ∧ 0 < (encSize enc).2) ∧
      ∀ (w : World) (fs : Fs) (env : Env), NoEmptyPictures env.pics → KeepsShape env.nms →
        OutputReady w pred (textGiven items "--output-path" none) out fs →
        Shows fs written → ShowsPictures env.pics written →
        (fs.ex root = true ∧ fs.ex pred = true ∧ fs.ex (slashed [root, "gtEval".toList, "val".toList]) = true ∧
          fs.ex (slashed [root, "gtFine".toList, "val".toList]) = true) →
        (∀ n ∈ poly "val".toList, ∀ c ∈ cs, ∃ P,
          env.pics.gray (slashed [pred, "class_".toList ++ threeDigits c.toNat, n ++ "_leftImg8bit.png".toList]) = some P) →
        ∀ (rnd : Nat → Nat → Nat → Nat → Nat → ℚ), (∀ j i, UnitStreams (rnd j i)) →
        ∃ (outs : Nat → Outcome) (F' : Nat),
          (∀ i < cs.length,
            GoodScores ((poly "val".toList).map String.ofList) ths (outs i).samples (outs i).table (outs i).overall) ∧
          ∀ fuel, F' ≤ fuel → ∀ (sched : Nat → List PoolEvent),
            (∀ o', Commands.cityThin w { env with fuel := fuel } classes argv rnd sched = some o' →
              o' = .finished out (reportOf classes cs (fun i => (outs i).overall) (decide (out ≠ [])))) ∧
            ((∀ i < cs.length, ∀ j < (poly "val".toList).length, .complete j ∈ sched i) → ∃ n : Nat → Nat,
              Commands.cityThin w { env with fuel := fuel } classes argv rnd (fun i => sched i ++ List.replicate (n i) .next) =
                some (.finished out (reportOf classes cs (fun i => (outs i).overall) (decide (out ≠ []))))) := by
  obtain ⟨F, hF⟩ := C85_convert_cityscapes lib h hne argvC itemsC hlC hposC hmode root "gtEval".toList hroot hgtC.symm hr
    (by decide) hm hex (Or.inl hpng) poly label ht H2 H1 hgt hgv
  refine ⟨F, fun fuelC hf order ho sched1 sched2 => ?_⟩
  obtain ⟨written, h1, h2, h3, h4, h5⟩ := hF fuelC hf order ho sched1 sched2
  refine ⟨written, h1, h3, h5, fun w fs env hpe hnms hout hfs hp hdirs hpreds rnd hrnd => ?_⟩
  have hpr : ∀ pr : Protocol, (pr = if flagGiven items "--pre-seal" then preSeal
      else postSeal (numGiven items "--max-dist" (35 / 10000)) (!flagGiven items "--nonIS")) →
      pr.instances = (cityArgsGiven itemsC).inst := by
    intro pr hpr
    show pr.instances = !flagGiven itemsC "--nonIS"
    rw [hpr, ← hinst]
    cases h0 : flagGiven items "--pre-seal" with
    | false => rfl
    | true => rw [hseal h0]; rfl
  obtain ⟨q1, q2⟩ := C85_converted_files lib fuelC h.pics (cityArgsGiven itemsC) poly label hgtC hpng written h2 h4 hnames hval hpl
    fs hfs env.pics hp hpe .half (Or.inr ⟨rfl, by show (!flagGiven itemsC "--only-full-scale") = true; rw [hhalf]; rfl⟩)
    true cs (fun c n => slashed [pred, "class_".toList ++ threeDigits c, n ++ "_leftImg8bit.png".toList]) hpreds 1
    (if flagGiven items "--pre-seal" then preSeal
      else postSeal (numGiven items "--max-dist" (35 / 10000)) (!flagGiven items "--nonIS")).killInternal
    (Or.inl (by norm_num))
  have hroot' : (cityArgsGiven itemsC).root = root := hroot.symm
  rw [hroot'] at q1 q2
  rw [← hpr _ rfl] at q2
  refine C84_cityscapes_thin w fs env hpe hnms rnd hrnd classes hclasses argv items hl root pred hpos hr.1 hpred out hout cs hcs hrange
    arg harg ths hth hths hseal _ rfl hd (poly "val".toList) (fun n hn => (hnames n hn).1.rel) q1 hdirs q2

end

section

/-- Whoever opens the pictures an SBD conversion wrote gets them as they were written (grey pictures with 16 bits at most). -/
def SbdPictures (pics : Pictures) (written : List (Str × SbdContent)) : Prop :=
  ∀ x ∈ written, (∀ im, x.2 = .edges im → pics.rgb x.1 = some im) ∧ (∀ im, x.2 = .map im → pics.gray x.1 = some im)

/-- **C85** After a conversion of SBD into `gtEval`, what `sbd.py` asks for is in place for every sample of the list: the edge
maps (thin or raw, with or without instances) and the segmentations. Predictions are the user's. -/
theorem C85_converted_sbd_files (a : SbdArgs) (hgt : a.outDir = "gtEval".toList) (train val : List Str)
    (mats : Str → ClsMat × InstMat) (written : List (Str × SbdContent)) (hw : WroteSamples a (train ++ val) mats written)
    (fs : Fs) (hfs : SbdShows fs written) (pics : Pictures) (hp : SbdPictures pics written) (hpe : NoEmptyPictures pics)
    (thin inst : Bool) (cs : List Int) (pred : Nat → Str → Str)
    (hpred : ∀ n ∈ val, ∀ c ∈ cs, ∃ P, pics.gray (pred c.toNat n) = some P) (kill : Bool) :
    HasFiles fs pics val cs (fun n => slashed [a.root, "gtEval".toList, gtFile .sbd thin inst n])
      (fun n => slashed [a.root, "gtEval".toList, segFile .sbd n]) pred 1 kill := by
  have hpath : ∀ f, slashed [a.root, "gtEval".toList, f] = outFile a f := by intro f; rw [← hgt]; rfl
  have hany : ∀ n ∈ val, ∀ v, ∃ d, (outFile a (variantName n v), d) ∈ written ∧ VariantShows (mats n).1 (mats n).2 v d := by
    intro n hn v
    obtain ⟨d, hd⟩ := hw.2 n (by simp [hn]) v
    obtain ⟨n', -, v', e, hs⟩ := hw.1 _ _ hd
    obtain ⟨rfl, rfl⟩ := C54_files_distinct a n n' v v' e
    exact ⟨d, hd, hs⟩
  have hedge : ∀ n ∈ val, ∃ im, (outFile a (gtFile .sbd thin inst n), SbdContent.edges im) ∈ written := by
    intro n hn
    obtain ⟨d, h1, h2⟩ := hany n hn (.edge thin inst)
    cases d with
    | edges im => exact ⟨im, h1⟩
    | map im => cases thin <;> exact absurd h2 (by simp [VariantShows])
    | text t => cases thin <;> exact absurd h2 (by simp [VariantShows])
  have hseg : ∀ n ∈ val, ∃ im, (outFile a (segFile .sbd n), SbdContent.map im) ∈ written := by
    intro n hn
    obtain ⟨d, h1, h2⟩ := hany n hn .labels
    cases d with
    | edges im => exact absurd h2 (by simp [VariantShows])
    | map im => exact ⟨im, h1⟩
    | text t => exact absurd h2 (by simp [VariantShows])
  refine ⟨fun n hn => ⟨?_, ?_⟩, fun n hn => ?_, hpred, fun _ n hn => ?_⟩
  · obtain ⟨im, h⟩ := hedge n hn
    simp only [hpath]
    exact (hfs _ h).1
  · obtain ⟨im, h⟩ := hseg n hn
    simp only [hpath]
    exact (hfs _ h).1
  · obtain ⟨im, h⟩ := hedge n hn
    simp only [hpath]
    have h1 := (hp _ h).1 im rfl
    obtain ⟨g1, g2⟩ := hpe.1 _ _ h1
    have g1' : (1 : ℚ) ≤ im.h := by exact_mod_cast g1
    have g2' : (1 : ℚ) ≤ im.w := by exact_mod_cast g2
    exact ⟨im, h1, by linarith, by linarith⟩
  · obtain ⟨im, h⟩ := hseg n hn
    simp only [hpath]
    exact ⟨im, (hp _ h).2 im rfl⟩

/-- Every picture of an SBD conversion has the size of the segmentation of its sample. -/
theorem wrote_sizes {a : SbdArgs} {names : List Str} {mats : Str → ClsMat × InstMat} {w : List (Str × SbdContent)}
    (h : WroteSamples a names mats w)
    (hfits : ∀ n ∈ names, InstFits (mats n).2.seg (mats n).2.cats (mats n).1.present (mats n).1.seg) :
    (∀ f im, (f, .edges im) ∈ w → ∃ n ∈ names, im.h = (mats n).1.seg.rows ∧ im.w = (mats n).1.seg.cols) ∧
    (∀ f im, (f, .map im) ∈ w → ∃ n ∈ names, im.rows = (mats n).1.seg.rows ∧ im.cols = (mats n).1.seg.cols) ∧
    ∀ f s, (f, .text s) ∉ w := by
  refine ⟨?_, ?_, ?_⟩
  · intro f im hf
    obtain ⟨n, hn, v, -, hs⟩ := h.1 _ _ hf
    refine ⟨n, hn, ?_⟩
    match v, hs with
    | .edge false _, hs => obtain ⟨B, b, r⟩ := hs; exact ⟨r.1.trans b.1, r.2.1.trans b.2.1⟩
    | .edge true _, hs => obtain ⟨B, b, r⟩ := hs; exact ⟨r.1.trans b.1, r.2.1.trans b.2.1⟩
    | .labels, hs => exact absurd hs (by simp [VariantShows])
    | .trainIds, hs => exact absurd hs (by simp [VariantShows])
    | .instances, hs => exact absurd hs (by simp [VariantShows])
  · intro f im hf
    obtain ⟨n, hn, v, -, hs⟩ := h.1 _ _ hf
    refine ⟨n, hn, ?_⟩
    match v, hs with
    | .edge false _, hs => exact absurd hs (by simp [VariantShows])
    | .edge true _, hs => exact absurd hs (by simp [VariantShows])
    | .labels, hs => exact ⟨hs.1, hs.2.1⟩
    | .trainIds, hs => obtain ⟨B, b, r⟩ := hs; exact ⟨r.1.trans b.1, r.2.1.trans b.2.1⟩
    | .instances, hs => exact ⟨hs.1.trans (hfits n hn).rows, hs.2.1.trans (hfits n hn).cols⟩
  · intro f s hf
    obtain ⟨n, hn, v, -, hs⟩ := h.1 _ _ hf
    match v, hs with
    | .edge false _, hs => exact absurd hs (by simp [VariantShows])
    | .edge true _, hs => exact absurd hs (by simp [VariantShows])
    | .labels, hs => exact absurd hs (by simp [VariantShows])
    | .trainIds, hs => exact absurd hs (by simp [VariantShows])
    | .instances, hs => exact absurd hs (by simp [VariantShows])

/-- **C85** `convert_datasets/sbd.py --root=D [options]` and then `sbd.py D PRED [options]`: with a complete dataset, converted
into the default directory, with predictions for every sample of `val.txt` and an output directory that can be made, the
evaluation ends normally, whatever the processes of the two commands do and whichever of its options are given (thin or raw,
with or without instances), with one report over exactly the requested categories, made of sound scores for exactly the
samples of `val.txt`. -/
theorem C85_convert_then_evaluate_sbd (lib : DTLib) (menv : MatEnv) (ex : Str → Bool) (text : Str → Option Str)
    (mkdir : Str → Except PyErr Unit)
    -- the conversion
    (argvC : List Str) (itemsC : List Item) (hlC : CommandLine convSbdParser argvC itemsC) (hposC : positionalsOf itemsC = [])
    (hre : flagGiven itemsC "--reanno" = false) (hgtC : wordGiven itemsC "--out-dir" "gtEval".toList = "gtEval".toList)
    (hm : mkdir (saveDirOf (sbdArgsGiven itemsC)) = .ok ()) (root : Str) (hroot : root = wordGiven itemsC "--root" "data/sbd".toList)
    (train val : List Str) (mats : Str → ClsMat × InstMat)
    (hdisk : SbdDisk menv ex text (sbdArgsGiven itemsC) train val mats) (H2 : SoundDT lib true 0 2) (H1 : SoundDT lib true 0 1)
    -- the evaluation
    (hrel : ∀ n ∈ val, Relative n) (classes : List String) (hclasses : classes.length = 20)
    (argv : List Str) (items : List Item) (hl : CommandLine sbdParser argv items)
    (pred : Str) (hpos : positionalsOf items = [root, pred]) (hpred : DirArg pred) (out : Str)
    (cs : List Int) (hcs : Cli.parseCategories 20 (textGiven items "--categories" none) = some cs)
    (hrange : ∀ c ∈ cs, 1 ≤ c ∧ c ≤ 20)
    (arg : ThresholdArg) (harg : Cli.parseThresholds (wordGiven items "--thresholds" "99".toList) = some arg)
    (ths : List ℚ) (hth : checkThresholds arg = .ok ths) (hths : ths ≠ []) :
    ∃ F, ∀ fuelC, F ≤ fuelC → ∀ order : Nat → List Str → List Str, (∀ k l, (order k l).Perm l) →
      ∃ written, ConvertCommands.sbd lib fuelC (filesOf menv ex text) mkdir order argvC = some (.converted ⟨written, none⟩) ∧
      (∀ f d d', (f, d) ∈ written → (f, d') ∈ written → d = d') ∧
      (∀ f im, (f, .edges im) ∈ written → ∃ n ∈ train ++ val, im.h = (mats n).1.seg.rows ∧ im.w = (mats n).1.seg.cols) ∧
      (∀ f im, (f, .map im) ∈ written → ∃ n ∈ train ++ val, im.rows = (mats n).1.seg.rows ∧ im.cols = (mats n).1.seg.cols) ∧
      (∀ f s, (f, .text s) ∉ written) ∧
      ∀ (w : World) (fs : Fs) (env : Env), NoEmptyPictures env.pics → KeepsShape env.nms →
        OutputReady w pred (textGiven items "--output-path" none) out fs →
        ListsSamples fs (slashed [root, "val.txt".toList]) val → SbdShows fs written → SbdPictures env.pics written →
        (fs.ex root = true ∧ fs.ex pred = true ∧ fs.ex (slashed [root, "gtEval".toList]) = true) →
        (∀ n ∈ val, ∀ c ∈ cs, ∃ P,
          env.pics.gray (slashed [pred, "class_".toList ++ threeDigits c.toNat, n ++ ".png".toList]) = some P) →
        ∀ (rnd : Nat → Nat → Nat → Nat → Nat → ℚ), (∀ j i, UnitStreams (rnd j i)) →
        ∃ (outs : Nat → Outcome) (F' : Nat),
          (∀ i < cs.length, GoodScores (val.map String.ofList) ths (outs i).samples (outs i).table (outs i).overall) ∧
          ∀ fuel, F' ≤ fuel → ∀ (sched : Nat → List PoolEvent),
            (∀ o', Commands.sbd w { env with fuel := fuel } classes argv rnd sched = some o' →
              o' = .finished out (reportOf classes cs (fun i => (outs i).overall) (decide (out ≠ [])))) ∧
            ((∀ i < cs.length, ∀ j < val.length, .complete j ∈ sched i) → ∃ n : Nat → Nat,
              Commands.sbd w { env with fuel := fuel } classes argv rnd (fun i => sched i ++ List.replicate (n i) .next) =
                some (.finished out (reportOf classes cs (fun i => (outs i).overall) (decide (out ≠ []))))) := by
  obtain ⟨F, hF⟩ := C85_convert_sbd lib menv ex text mkdir argvC itemsC hlC hposC hre hm train val mats hdisk H2 H1
  refine ⟨F, fun fuelC hf order ho => ?_⟩
  obtain ⟨written, h1, h2, h3⟩ := hF fuelC hf order ho
  have hsz := wrote_sizes h2 (fun n hn => (hdisk.fits n hn))
  refine ⟨written, h1, h3, hsz.1, hsz.2.1, hsz.2.2, fun w fs env hpe hnms hout hlist hfs hp hdirs hpreds rnd hrnd => ?_⟩
  have hroot' : (sbdArgsGiven itemsC).root = root := hroot.symm
  have hr : DirArg root := by rw [← hroot']; exact hdisk.root
  have q := C85_converted_sbd_files (sbdArgsGiven itemsC) hgtC train val mats written h2 fs hfs env.pics hp hpe
    (!flagGiven items "--raw")
    (if flagGiven items "--pre-seal" then preSeal else postSeal (1 / 50) (!flagGiven items "--nonIS")).instances cs
    (fun c n => slashed [pred, "class_".toList ++ threeDigits c, n ++ ".png".toList]) hpreds
    (if flagGiven items "--pre-seal" then preSeal else postSeal (1 / 50) (!flagGiven items "--nonIS")).killInternal
  rw [hroot'] at q
  exact C84_sbd w fs env hpe hnms rnd hrnd classes hclasses argv items hl root pred hpos hr hpred out hout cs hcs hrange
    arg harg ths hth hths _ rfl val hrel hlist hdirs q

end

/-! ### A dataset converted and evaluated -/

section

/-- What a file of `written` holds. -/
def exLookup (written : List (Str × Content)) (p : Str) : Option Content :=
  (written.find? fun x => decide (x.1 = p)).map Prod.snd

theorem exLookup_mem (written : List (Str × Content)) (hn : (written.map Prod.fst).Nodup) (x : Str × Content) (hx : x ∈ written) :
    exLookup written x.1 = some x.2 := by
  induction written with
  | nil => cases hx
  | cons y l ih =>
    rw [List.map_cons, List.nodup_cons] at hn
    rcases List.mem_cons.1 hx with rfl | hx
    · simp [exLookup]
    · have : y.1 ≠ x.1 := by
        intro h
        exact hn.1 (h ▸ List.mem_map_of_mem hx)
      have := ih hn.2 hx
      simp only [exLookup] at this ⊢
      rw [List.find?_cons_of_neg (by simpa using ‹y.1 ≠ x.1›)]
      exact this

theorem exLookup_sub (written : List (Str × Content)) (p : Str) (c : Content) (h : exLookup written p = some c) :
    (p, c) ∈ written := by
  simp only [exLookup, Option.map_eq_some_iff] at h
  obtain ⟨x, h1, rfl⟩ := h
  have h2 := List.find?_some h1
  rw [decide_eq_true_eq] at h2
  rw [← h2]
  exact List.mem_of_find?_eq_some h1

/-- A file system where everything exists and the written text files can be read. -/
def exWrittenFs (written : List (Str × Content)) : Fs :=
  ⟨fun _ => true, fun p => match exLookup written p with
    | some (.text t) => some t
    | _ => none, fun _ => none⟩

/-- The written edge maps; every prediction and label map is a picture of four pixels. -/
def exWrittenPics (written : List (Str × Content)) : Pictures where
  rgb p := match exLookup written p with
    | some (.edges (.png im)) => some im
    | _ => none
  gray _ := some ⟨2, 2, fun i _ => 200 * i⟩
  mat _ := .error .assertionError

/-- `convert_datasets/cityscapes.py --root=d`, then `cityscapes_thin.py d p`. -/
example : ∃ (fuelC : Nat) (written : List (Str × Content)) (outs : Nat → Outcome) (fuel : Nat) (sched : Nat → List PoolEvent),
    ConvertCommands.city (refLib 2) fuelC exConvHost (fun _ l => l) [] [] ["--root=d".toList] = some (.converted ⟨written, none⟩) ∧
    (∀ i < 19, ((outs i).samples.map SampleResult.name) = ["bonn/b_0"]) ∧
    Commands.cityThin ⟨exWrittenFs written, fun _ => .ok (exWrittenFs written), fun _ => true, "t".toList, "t".toList⟩
      ⟨exWrittenPics written, refLib 1, id, fun _ _ => 0, fuel⟩ (List.replicate 19 "c") ["d".toList, "p".toList]
      (fun _ _ _ _ _ => 1 / 2) sched = some (.finished "p/edge_results_t".toList
        (reportOf (List.replicate 19 "c") ((List.range 19).map fun (k : Nat) => (k : Int) + 1) (fun i => (outs i).overall) true)) := by
  obtain ⟨ths, t1, t2⟩ := exNinetyNine
  obtain ⟨FC, hC⟩ := C85_convert_then_evaluate_thin (refLib 2) exConvHost exMaps_nonempty _ _ exConvCityLine rfl rfl "d".toList
    rfl rfl exRoot_ok rfl rfl rfl exPoly exLabels exTree_ok exact2 exact1 (fun n _ => exGood _ _ _ _ (by omega))
    (fun n _ => exGood _ _ _ _ (by split <;> omega)) (fun n hn => exName_good n (exNames _ n (Or.inl hn))) (by decide) (by decide)
    (List.replicate 19 "c") rfl ["d".toList, "p".toList] [.pos "d".toList, .pos "p".toList]
    (.plain (.cons (a := ["d".toList]) (.pos (Or.inl (by decide +kernel)))
      (.cons (a := ["p".toList]) (.pos (Or.inl (by decide +kernel))) .nil)))
    "p".toList rfl (by unfold DirArg; decide) "p/edge_results_t".toList ((List.range 19).map fun (k : Nat) => (k : Int) + 1) rfl
    (by decide) (.int 99) (by rfl) ths t1 t2 rfl (by intro h; cases h) rfl (by intro _; show (0 : ℚ) < 35 / 10000; norm_num)
  obtain ⟨written, h1, h2, h3, h4⟩ := hC FC le_rfl (fun _ l => l) (fun _ _ => .refl _) [] []
  have hpics : NoEmptyPictures (exWrittenPics written) := by
    constructor
    · intro p E h
      simp only [exWrittenPics] at h
      split at h
      · rename_i im h5
        cases h
        exact h3 p (.png E) (exLookup_sub _ _ _ h5)
      · cases h
    · intro p P h; cases h; exact ⟨by decide, by decide⟩
  obtain ⟨outs, F, g1, g2⟩ := h4 ⟨exWrittenFs written, fun _ => .ok (exWrittenFs written), fun _ => true, "t".toList, "t".toList⟩
    (exWrittenFs written) ⟨exWrittenPics written, refLib 1, id, fun _ _ => 0, 0⟩ hpics (fun _ => ⟨rfl, rfl⟩)
    ⟨by rfl, by rw [if_neg (by decide)], rfl⟩
    (fun x hx => ⟨rfl, fun s hs => by simp only [exWrittenFs]; rw [exLookup_mem written h2 x hx, hs]⟩)
    (fun x hx => ⟨fun im hs => by simp only [exWrittenPics]; rw [exLookup_mem written h2 x hx, hs], fun _ _ => ⟨_, rfl⟩⟩)
    ⟨rfl, rfl, rfl, rfl⟩ (fun _ _ _ _ => ⟨_, rfl⟩) (fun _ _ _ _ _ => 1 / 2) (fun _ _ _ _ _ => by norm_num)
  obtain ⟨n, hn⟩ := (g2 F le_rfl (fun _ => [.complete 0])).2 (by
    intro i _ j hj
    have : j < 1 := hj
    simp [show j = 0 by omega])
  exact ⟨FC, written, outs, F, _, h1, fun i hi => (g1 i hi).rows, hn⟩

/-- Everything exists, `val.txt` names one sample. -/
def exSbdFsAfter : Fs := ⟨fun _ => true, fun _ => some "b\n".toList, fun _ => none⟩

open Classical in
/-- The written SBD pictures; every prediction is a picture of four pixels. -/
noncomputable def exSbdPics (written : List (Str × SbdContent)) : Pictures where
  rgb p := if h : ∃ im, (p, SbdContent.edges im) ∈ written then some h.choose else none
  gray p := if h : ∃ im, (p, SbdContent.map im) ∈ written then some h.choose else some ⟨2, 2, fun i _ => 200 * i⟩
  mat _ := .error .assertionError

/-- `convert_datasets/sbd.py --root=d`, then `sbd.py d p --output-path= --categories=20`. -/
example : ∃ (fuelC : Nat) (written : List (Str × SbdContent)) (outs : Nat → Outcome) (fuel : Nat) (sched : Nat → List PoolEvent),
    ConvertCommands.sbd (refLib 2) fuelC (filesOf exDiskEnv (fun _ => true) exSbdFs.text) (fun _ => .ok ()) (fun _ l => l)
      ["--root=d".toList] = some (.converted ⟨written, none⟩) ∧
    ((outs 0).samples.map SampleResult.name) = ["b"] ∧
    Commands.sbd ⟨exSbdFsAfter, fun _ => .ok exSbdFsAfter, fun _ => true, "t".toList, "t".toList⟩
      ⟨exSbdPics written, refLib 1, id, fun _ _ => 0, fuel⟩ (List.replicate 20 "c")
      ["d".toList, "p".toList, "--output-path=".toList, "--categories=20".toList]
      (fun _ _ _ _ _ => 1 / 2) sched = some (.finished []
        (reportOf (List.replicate 20 "c") [20] (fun i => (outs i).overall) false)) := by
  obtain ⟨ths, t1, t2⟩ := exNinetyNine
  obtain ⟨FC, hC⟩ := C85_convert_then_evaluate_sbd (refLib 2) exDiskEnv (fun _ => true) exSbdFs.text (fun _ => .ok ())
    ["--root=d".toList] [.opt (optStrD "--root" "data/sbd") (.str "d".toList)]
    (.plain (.cons (a := ["--root=d".toList]) (.joined (w := "--root".toList) (s := "d".toList) (c := .str none)
      ⟨List.mem_of_getElem? (i := 0) rfl, Or.inl (by decide +kernel)⟩ rfl rfl) .nil)) rfl rfl rfl rfl "d".toList rfl _ _ _
    (exSbdDisk exDiskEnv rfl false) exact2 exact1 (by unfold Relative; decide) (List.replicate 20 "c") rfl _ _ exSbdLine
    "p".toList rfl (by unfold DirArg; decide) [] [20] (by rfl) (by decide) (.int 99) (by rfl) ths t1 t2
  obtain ⟨written, h1, h2, h3, h4, h6, h5⟩ := hC FC le_rfl (fun _ l => l) (fun _ _ => .refl _)
  have hpics : NoEmptyPictures (exSbdPics written) := by
    constructor
    · intro p E h
      simp only [exSbdPics] at h
      split at h
      · rename_i hx
        cases h
        obtain ⟨n, -, e1, e2⟩ := h3 p _ hx.choose_spec
        exact ⟨by rw [e1]; decide, by rw [e2]; decide⟩
      · cases h
    · intro p P h
      simp only [exSbdPics] at h
      split at h
      · rename_i hx
        cases h
        obtain ⟨n, -, e1, e2⟩ := h4 p _ hx.choose_spec
        exact ⟨by rw [e1]; decide, by rw [e2]; decide⟩
      · cases h; exact ⟨by decide, by decide⟩
  have htext : ∀ x ∈ written, ∀ s, x.2 ≠ .text s := by
    rintro ⟨f, d⟩ hx s rfl
    exact h6 f s hx
  obtain ⟨outs, F, g1, g2⟩ := h5 ⟨exSbdFsAfter, fun _ => .ok exSbdFsAfter, fun _ => true, "t".toList, "t".toList⟩
    exSbdFsAfter ⟨exSbdPics written, refLib 1, id, fun _ _ => 0, 0⟩ hpics (fun _ => ⟨rfl, rfl⟩)
    ⟨by rfl, by rw [if_pos rfl], rfl⟩
    ⟨rfl, by simp, ['\n'], ["b".toList], [], by simp, by unfold OneLine; decide, by unfold OneLine; decide, rfl, rfl⟩
    (fun x hx => ⟨rfl, fun s hs => absurd hs (htext x hx s)⟩)
    (by
      rintro ⟨f, d⟩ hx
      constructor
      · rintro im rfl
        have he : ∃ im, (f, SbdContent.edges im) ∈ written := ⟨im, hx⟩
        have := h2 f _ _ he.choose_spec hx
        simp only [SbdContent.edges.injEq] at this
        simp only [exSbdPics]
        rw [dif_pos he, this]
      · rintro im rfl
        have he : ∃ im, (f, SbdContent.map im) ∈ written := ⟨im, hx⟩
        have := h2 f _ _ he.choose_spec hx
        simp only [SbdContent.map.injEq] at this
        simp only [exSbdPics]
        rw [dif_pos he, this])
    ⟨rfl, rfl, rfl⟩ (fun n _ c _ => by
      simp only [exSbdPics]
      split
      · exact ⟨_, rfl⟩
      · exact ⟨_, rfl⟩) (fun _ _ _ _ _ => 1 / 2) (fun _ _ _ _ _ => by norm_num)
  obtain ⟨n, hn⟩ := (g2 F le_rfl (fun _ => [.complete 0])).2 (by
    intro i _ j hj
    have : j < 1 := hj
    simp [show j = 0 by omega])
  exact ⟨FC, written, outs, F, _, h1, (g1 0 (by decide)).rows, hn⟩

end

end EdgeEval.Props
