import Verif.Props.ConvertThenEvaluate
import Verif.Props.CommandsMissing

/-!
# C85: options of the two commands that do not fit together
-/

namespace EdgeEval.Props

open Spec Text Evaluators Samples Datasets PathU MatFile Argparse EdgeEval.Convert EdgeEval.ConvertSbd EdgeEval.ConvertCommands
  Commands EndToEnd

section

/-- The ends of the names of the files of a Cityscapes conversion to PNG. -/
def cityEnds (inst half : Bool) : List Str :=
  ["_gtFine_labelTrainIds.png".toList, ".txt".toList] ++
  (["".toList, "raw_".toList, "thin_".toList] ++ if half then ["half_raw_".toList, "half_thin_".toList] else []).map fun k =>
    "_gtProc_".toList ++ k ++ (if inst then "isedge".toList else "edge".toList) ++ '.' :: "png".toList

/-- The end of the name of the edge maps an evaluator asks for. -/
def wantedEnd (k : Evaluators.Kind) (thin inst : Bool) : Str :=
  (if k = .half then "_gtProc_half_".toList else "_gtProc_".toList) ++ (if thin then "thin_".toList else "raw_".toList) ++
    (if inst then "isedge".toList else "edge".toList) ++ ".png".toList

theorem ends_apart (k : Evaluators.Kind) (hk : k = .cityscapes ∨ k = .half) (thin inst inst' half : Bool)
    (h : inst ≠ inst' ∨ (k = .half ∧ half = false)) :
    ∀ s ∈ cityEnds inst' half, ¬ s <:+ wantedEnd k thin inst ∧ ¬ wantedEnd k thin inst <:+ s := by
  rcases hk with rfl | rfl <;> cases thin <;> cases inst <;> cases inst' <;> cases half <;>
    first
    | decide
    | (exfalso; revert h; decide)

theorem written_ends {lib : DTLib} {fuel : Nat} {pics : Pictures} {a : CityArgs} (hext : a.ext = "png".toList)
    {poly label : Str → List Str} {x : Str × Content} (h : Expected lib fuel pics a poly label x) :
    ∃ s ∈ cityEnds a.inst a.saveHalfVal, s <:+ x.1 := by
  have fin : ∀ a b c n s : Str, s <:+ slashed [a, b, c, n ++ s] := fun a b c n s =>
    ⟨a ++ '/' :: (b ++ '/' :: (c ++ '/' :: n)), by simp [slashed]⟩
  rcases h with ⟨s, -, n, -, rfl⟩ | ⟨s, o, hj, n, -, enc, -, rfl⟩ | ⟨s, -, rfl⟩
  · exact ⟨_, List.mem_append_left _ List.mem_cons_self, fin _ _ _ _ _⟩
  · refine ⟨o.edgeSuffix, List.mem_append_right _ (List.mem_map.2 ?_), fin _ _ _ _ _⟩
    rcases hj with ⟨-, rfl⟩ | ⟨-, thin, half, hh, rfl⟩
    · refine ⟨[], List.mem_append_left _ (by decide), ?_⟩
      unfold jobOpts
      rw [hext]
    · refine ⟨(if half then "half_".toList else []) ++ (if thin then "thin_".toList else "raw_".toList), ?_, ?_⟩
      · cases half with
        | false => exact List.mem_append_left _ (by revert thin; decide)
        | true => rw [hh rfl]; exact List.mem_append_right _ (by revert thin; decide)
      · unfold jobOpts
        rw [hext]
  · exact ⟨".txt".toList, List.mem_append_left _ (List.mem_cons_of_mem _ List.mem_cons_self),
      ⟨a.root ++ '/' :: ("splits".toList ++ '/' :: s), by simp [slashed]⟩⟩

/-- **C85** The edge maps of a conversion are never those of an evaluation with a different opinion on instances, nor are there
half-size maps after `--only-full-scale`. -/
theorem C85_mismatched_files (lib : DTLib) (fuel : Nat) (pics : Pictures) (a : CityArgs) (hext : a.ext = "png".toList)
    (poly label : Str → List Str) (k : Evaluators.Kind) (hk : k = .cityscapes ∨ k = .half) (thin inst : Bool)
    (h : inst ≠ a.inst ∨ (k = .half ∧ a.saveHalfVal = false)) (dir n : Str) (c : Content) :
    ¬ Expected lib fuel pics a poly label (slashed [dir, "gtEval".toList, "val".toList, gtFile k thin inst n], c) := by
  intro hx
  obtain ⟨s, hs, h1⟩ := written_ends hext hx
  have h2 : wantedEnd k thin inst <:+ slashed [dir, "gtEval".toList, "val".toList, gtFile k thin inst n] := by
    refine ⟨dir ++ '/' :: ("gtEval".toList ++ '/' :: ("val".toList ++ '/' :: n)), ?_⟩
    rcases hk with rfl | rfl <;> simp [slashed, gtFile, wantedEnd]
  obtain ⟨g1, g2⟩ := ends_apart k hk thin inst a.inst a.saveHalfVal h s hs
  rcases List.suffix_or_suffix_of_suffix h1 h2 with g | g
  · exact g1 g
  · exact g2 g

/-- **C85** Converting with `--nonIS` and evaluating without it, or the other way round, and evaluating `--half` after
`--only-full-scale`: whatever is in the dataset, if the ground truth of the validation split is what the conversion wrote, the
evaluation ends with an `AssertionError`; edge maps of the other kind are never scored in their place. -/
theorem C85_mismatch_raw (lib : DTLib) (fuelC : Nat) (h : CityHost)
    -- the conversion
    (itemsC : List Item) (hpng : wordGiven itemsC "--ext" "png".toList = "png".toList) (poly label : Str → List Str)
    (written : List (Str × Content))
    (hw : ∀ x, x ∈ written ↔ Expected lib fuelC h.pics (cityArgsGiven itemsC) poly label x)
    -- the evaluation
    (w : World) (fs : Fs) (env : Env) (rnd : Nat → Nat → Nat → Nat → Nat → ℚ)
    (classes : List String) (argv : List Str) (items : List Item) (hl : CommandLine cityRawParser argv items)
    (root pred : Str) (hpos : positionalsOf items = [root, pred]) (hroot : DirArg root) (hpred : DirArg pred)
    (out : Str) (hout : OutputReady w pred (textGiven items "--output-path" none) out fs)
    (cs : List Int) (hcs : Cli.parseCategories 19 (textGiven items "--categories" none) = some cs)
    (hrange : ∀ c ∈ cs, 1 ≤ c ∧ c ≤ 19)
    (arg : ThresholdArg) (harg : Cli.parseThresholds (wordGiven items "--thresholds" "99".toList) = some arg)
    (hsc : flagGiven items "--half" = true ∨ (0 < numGiven items "--scale" (1 / 2) ∧ numGiven items "--scale" (1 / 2) ≤ 1))
    (hseal : flagGiven items "--pre-seal" = true → flagGiven items "--nonIS" = true)
    (names : List Str) (hne : names ≠ []) (hrel : ∀ n ∈ names, Relative n)
    (hlist : ListsSamples fs (slashed [root, "splits".toList, "val.txt".toList]) names)
    (honly : ∀ f, fs.ex (slashed [root, "gtEval".toList, "val".toList, f]) = true →
      ∃ c, (slashed [root, "gtEval".toList, "val".toList, f], c) ∈ written)
    (hmis : flagGiven items "--nonIS" ≠ flagGiven itemsC "--nonIS" ∨
      (flagGiven items "--half" = true ∧ flagGiven itemsC "--only-full-scale" = true))
    (sched : Nat → List PoolEvent) :
    Commands.cityRaw w env classes argv rnd sched = some (.raised .assertionError) := by
  have hinst : (if flagGiven items "--pre-seal" then preSeal
      else postSeal (numGiven items "--max-dist" (35 / 10000)) (!flagGiven items "--nonIS")).instances =
      !flagGiven items "--nonIS" := by
    cases h0 : flagGiven items "--pre-seal" with
    | false => rfl
    | true => rw [hseal h0]; rfl
  refine (C84_cityscapes_raw_missing w fs env rnd classes argv items hl root pred hpos hroot hpred out hout cs hcs hrange arg harg
    (if flagGiven items "--half" then .half else .cityscapes) rfl ?_ hseal _ rfl names hrel hlist sched).1 (Or.inr ?_)
  · rcases hsc with h0 | h0
    · left; rw [h0]; rfl
    · exact Or.inr h0
  · obtain ⟨n, hn⟩ := List.exists_mem_of_ne_nil names hne
    refine ⟨n, hn, Or.inl ?_⟩
    rw [hinst]
    by_contra hx
    obtain ⟨c, hc⟩ := honly _ (by simpa using hx)
    refine C85_mismatched_files lib fuelC h.pics (cityArgsGiven itemsC) hpng poly label _ ?_ false _ ?_ root n c ((hw _).1 hc)
    · split <;> simp
    · rcases hmis with hm | ⟨h1, h2⟩
      · left
        show (!flagGiven items "--nonIS") ≠ !flagGiven itemsC "--nonIS"
        intro he
        exact hm (by simpa using he)
      · right
        rw [h1]
        exact ⟨rfl, by show (!flagGiven itemsC "--only-full-scale") = false; rw [h2]; rfl⟩

open Classical in
/-- Everything exists, except that `d/gtEval/val` holds only what was written. -/
noncomputable def exOnlyFs (written : List (Str × Content)) : Fs :=
  ⟨fun p => decide ((∃ f, p = slashed ["d".toList, "gtEval".toList, "val".toList, f]) → ∃ c, (p, c) ∈ written),
    fun _ => some "bonn/b_0\n".toList, fun _ => none⟩

open Classical in
theorem exOnlyFs_ex (written : List (Str × Content)) (p : Str) : (exOnlyFs written).ex p = true ↔
    ((∃ f, p = slashed ["d".toList, "gtEval".toList, "val".toList, f]) → ∃ c, (p, c) ∈ written) := by
  unfold exOnlyFs
  exact decide_eq_true_iff

/-- `convert_datasets/cityscapes.py --root=d`, then `cityscapes_raw.py d p --nonIS`. -/
example (env : Env) (sched : Nat → List PoolEvent) : ∃ (fuelC : Nat) (written : List (Str × Content)),
    ConvertCommands.city (refLib 2) fuelC exConvHost (fun _ l => l) [] [] ["--root=d".toList] = some (.converted ⟨written, none⟩) ∧
    Commands.cityRaw ⟨exOnlyFs written, fun _ => .ok (exOnlyFs written), fun _ => true, "t".toList, "t".toList⟩ env
      (List.replicate 19 "c") ["d".toList, "p".toList, "--nonIS".toList] (fun _ _ _ _ _ => 1 / 2) sched =
        some (.raised .assertionError) := by
  obtain ⟨F, h⟩ := C85_convert_cityscapes (refLib 2) exConvHost exMaps_nonempty _ _ exConvCityLine rfl rfl "d".toList "gtEval".toList
    rfl rfl exRoot_ok (by decide) rfl rfl (Or.inl rfl) exPoly exLabels exTree_ok exact2 exact1 (fun n _ => exGood _ _ _ _ (by omega))
    (fun n _ => exGood _ _ _ _ (by split <;> omega))
  obtain ⟨written, h1, h2, -⟩ := h F le_rfl (fun _ l => l) (fun _ _ => .refl _) [] []
  refine ⟨F, written, h1, ?_⟩
  refine C85_mismatch_raw (refLib 2) F exConvHost [.opt (optStrD "--root" "data/cityscapes") (.str "d".toList)] rfl exPoly exLabels
    written h2 _ (exOnlyFs written) env _ _ _ [.pos "d".toList, .pos "p".toList, .opt (optFlag "--nonIS") (.flag true)]
    (.plain (.cons (a := ["d".toList]) (.pos (Or.inl (by decide +kernel)))
      (.cons (a := ["p".toList]) (.pos (Or.inl (by decide +kernel)))
      (.cons (a := ["--nonIS".toList]) (.flag ⟨List.mem_of_getElem? (i := 3) rfl, Or.inl (by decide +kernel)⟩ rfl) .nil))))
    "d".toList "p".toList rfl (by unfold DirArg; decide) (by unfold DirArg; decide) "p/edge_results_t".toList
    ⟨by rfl, by rw [if_neg (by decide)], rfl⟩ ((List.range 19).map fun (k : Nat) => (k : Int) + 1) rfl (by decide)
    (.int 99) (by rfl) (Or.inr (by show (0 : ℚ) < 1 / 2 ∧ (1 / 2 : ℚ) ≤ 1; norm_num)) (by intro h0; cases h0)
    ["bonn/b_0".toList] (by simp) (by unfold Relative; decide) ?_ ?_ (Or.inl (by decide)) sched
  · refine ⟨?_, by simp, ['\n'], ["bonn/b_0".toList], [], by simp, by unfold OneLine; decide, by unfold OneLine; decide, rfl, rfl⟩
    refine (exOnlyFs_ex _ _).2 ?_
    rintro ⟨f, hf⟩
    have := congrArg (fun l : Str => l.drop 2 |>.head?) hf
    exact absurd this (by simp [slashed])
  · intro f hf
    exact (exOnlyFs_ex _ _).1 hf ⟨f, rfl⟩

end

end EdgeEval.Props
