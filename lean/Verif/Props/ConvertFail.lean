import Verif.Props.ConvertDone

/-!
# C53: what a failing conversion leaves behind, and the order of the work
-/

namespace EdgeEval.Props

open Spec Text Evaluators Samples Datasets PathU EdgeEval.Convert

section
variable {lib : DTLib} {fuel : Nat} {pics : Pictures}

theorem runActions_fail {f : Action → Str × Content} {pre post : List Action} {x : Action} {e : PyErr}
    (h : ∀ y ∈ pre, runAction lib fuel pics y = .ok (some (f y))) (hx : runAction lib fuel pics x = .error e) :
    runActions lib fuel pics (pre ++ x :: post) = some ⟨pre.map f, some e⟩ := by
  induction pre with
  | nil => simp only [List.nil_append, runActions, hx, List.map_nil]
  | cons y ys ih =>
    simp only [List.cons_append, runActions, h y (by simp), ih fun z hz => h z (by simp [hz]), Option.map_some,
      List.map_cons]

theorem runPhases_fail {f : Action → Str × Content} {l : List (List Action)} {pre post : List Action} {x : Action}
    {e : PyErr} {r : List (Except PyErr (List Action))}
    (h : ∀ acts ∈ l, ∀ x ∈ acts, runAction lib fuel pics x = .ok (some (f x)))
    (hp : ∀ y ∈ pre, runAction lib fuel pics y = .ok (some (f y))) (hx : runAction lib fuel pics x = .error e) :
    runPhases lib fuel pics (l.map .ok ++ .ok (pre ++ x :: post) :: r) = some ⟨(l.flatten ++ pre).map f, some e⟩ := by
  rw [runPhases_append h]
  simp only [runPhases, runActions_fail hp hx, Option.map_some, List.map_append]

theorem runPhases_scan {f : Action → Str × Content} {l : List (List Action)} {e : PyErr}
    {r : List (Except PyErr (List Action))}
    (h : ∀ acts ∈ l, ∀ x ∈ acts, runAction lib fuel pics x = .ok (some (f x))) :
    runPhases lib fuel pics (l.map .ok ++ .error e :: r) = some ⟨l.flatten.map f, some e⟩ := by
  rw [runPhases_append h]
  simp [runPhases]

/-- The converter is past its checks. -/
theorem past_checks {tree : Str → Option Entries} {a : CityArgs} (hp : a.procDirname ≠ [])
    (hx : a.ext ∈ ["png".toList, "bin".toList, "tif".toList]) :
    convertCity lib fuel pics tree true a = runPhases lib fuel pics (cityPhases tree a) := by
  unfold convertCity
  rw [if_neg]
  rintro (h | h | h)
  · exact hp h
  · cases h
  · apply h
    simpa only [List.mem_cons, List.not_mem_nil, or_false] using hx

theorem trainActs_ok {a : CityArgs} {poly : Str → List Str} :
    ∀ x ∈ (poly "train".toList).map (trainAct a "train".toList) ++ (poly "val".toList).map (trainAct a "val".toList),
      runAction lib fuel pics x = .ok (some (outcome lib fuel pics x)) := by
  intro x hx
  simp only [List.mem_append, List.mem_map] at hx
  rcases hx with ⟨n, -, rfl⟩ | ⟨n, -, rfl⟩ <;> rfl

theorem textAct_ok {a : CityArgs} {poly : Str → List Str} {s : Str} :
    ∀ x ∈ [textAct a poly s], runAction lib fuel pics x = .ok (some (outcome lib fuel pics x)) := by
  intro x hx
  rw [List.mem_singleton] at hx
  subst hx; rfl

theorem edgeActs_ok {a : CityArgs} {label : Str → List Str} {J : Str → ConvOpts → Prop}
    (hjob : JobsOk lib fuel pics a label J) {s : Str} {l : List ConvOpts} (hl : ∀ o ∈ l, J s o) :
    ∀ x ∈ l.flatMap fun o => (label s).map (edgeAct a s o),
      runAction lib fuel pics x = .ok (some (outcome lib fuel pics x)) := by
  intro x hx
  simp only [List.mem_flatMap, List.mem_map] at hx
  obtain ⟨o, ho, n, hn, rfl⟩ := hx
  obtain ⟨enc, he⟩ := hjob s o (hl o ho) n hn
  have : runAction lib fuel pics (edgeAct a s o n) =
      .ok (some (sampleFile a.root a.procDirname s n o.edgeSuffix, .edges enc)) := by
    unfold edgeAct
    simp only [runAction, he]
    rfl
  unfold outcome
  rw [this]

theorem mem_trainActs {a : CityArgs} {poly : Str → List Str} {x : Str × Content} :
    x ∈ ((poly "train".toList).map (trainAct a "train".toList) ++
      (poly "val".toList).map (trainAct a "val".toList)).map (outcome lib fuel pics) ↔ TrainFile a poly x := by
  have o1 : ∀ s n, outcome lib fuel pics (trainAct a s n) =
      (sampleFile a.root a.procDirname s n "_gtFine_labelTrainIds.png".toList,
        .train (sampleFile a.root "gtFine".toList s n "_gtFine_polygons.json".toList)) := fun s n => rfl
  simp only [List.map_append, List.map_map, List.mem_append, List.mem_map, Function.comp, o1, TrainFile]
  constructor
  · rintro (⟨n, hn, rfl⟩ | ⟨n, hn, rfl⟩)
    · exact ⟨_, by simp, n, hn, rfl⟩
    · exact ⟨_, by simp, n, hn, rfl⟩
  · rintro ⟨s, hs, n, hn, rfl⟩
    simp only [List.mem_cons, List.not_mem_nil, or_false] at hs
    rcases hs with rfl | rfl
    · exact Or.inl ⟨n, hn, rfl⟩
    · exact Or.inr ⟨n, hn, rfl⟩

theorem mem_edgeActs {a : CityArgs} {label : Str → List Str} {J : Str → ConvOpts → Prop}
    (hjob : JobsOk lib fuel pics a label J) {s : Str} {l : List ConvOpts} (hl : ∀ o, o ∈ l ↔ J s o)
    {x : Str × Content} :
    x ∈ (l.flatMap fun o => (label s).map (edgeAct a s o)).map (outcome lib fuel pics) ↔
      EdgeFile lib fuel pics a label (fun s' o => s' = s ∧ J s' o) x := by
  have o3 : ∀ o, J s o → ∀ n ∈ label s, ∃ enc,
      convertLabel lib fuel pics o (sampleFile a.root "gtFine".toList s n "_gtFine_labelIds.png".toList) =
        .ok (some (sampleFile a.root a.procDirname s n o.edgeSuffix, enc)) ∧
      outcome lib fuel pics (edgeAct a s o n) = (sampleFile a.root a.procDirname s n o.edgeSuffix, .edges enc) := by
    intro o ho n hn
    obtain ⟨enc, he⟩ := hjob s o ho n hn
    refine ⟨enc, he, ?_⟩
    unfold outcome edgeAct
    simp only [runAction, he]
    rfl
  simp only [List.map_flatMap, List.mem_flatMap, List.map_map, List.mem_map, Function.comp, EdgeFile, hl]
  constructor
  · rintro ⟨o, ho, n, hn, rfl⟩
    obtain ⟨enc, h1, h2⟩ := o3 o ho n hn
    exact ⟨s, o, ⟨rfl, ho⟩, n, hn, enc, h1, h2⟩
  · rintro ⟨s', o, ⟨rfl, ho⟩, n, hn, enc, h1, rfl⟩
    obtain ⟨enc', h2, h3⟩ := o3 o ho n hn
    rw [h1] at h2
    injection h2 with h2; injection h2 with h2; injection h2 with _ h2
    subst h2
    exact ⟨o, ho, n, hn, h3⟩

end

/-- C53: with an empty target directory name, without the directory `gtFine` or with another extension than `png`,
`bin` and `tif` the conversion fails with `AssertionError` before writing any file; otherwise these checks pass. -/
theorem C53_checks (lib : DTLib) (fuel : Nat) (pics : Pictures) (tree : Str → Option Entries) (exGt : Bool)
    (a : CityArgs) (h : a.procDirname = [] ∨ exGt = false ∨ a.ext ∉ ["png".toList, "bin".toList, "tif".toList]) :
    convertCity lib fuel pics tree exGt a = some ⟨[], some .assertionError⟩ := by
  unfold convertCity
  rw [if_pos]
  rcases h with h | h | h
  · exact Or.inl h
  · exact Or.inr (Or.inl h)
  · exact Or.inr (Or.inr (by simpa only [List.mem_cons, List.not_mem_nil, or_false] using h))

/-- C53 (finding): the documented format `bin` fails with `TypeError` at the first training sample: by then only the
trainId pictures have been written. -/
theorem C53_bin_fails (lib : DTLib) (fuel : Nat) (pics : Pictures) (tree : Str → Option Entries)
    (a : CityArgs) (poly label : Str → List Str) (hr : CityRoot a.root) (hp : a.procDirname ≠ [])
    (hx : a.ext = "bin".toList) (ht : AnnotTree tree a.root poly label) (r : Nat) (h1 : a.trainRadius = r)
    (n : Str) (rest : List Str) (hn : label "train".toList = n :: rest) (hg : GoodSample pics a "train".toList n 34) :
    ∃ t, convertCity lib fuel pics tree true a = some t ∧ t.err = some .typeError ∧
      ∀ x, x ∈ t.written ↔ TrainFile a poly x := by
  have hN : SampleName n := ht.names "train".toList n (Or.inr (by rw [hn]; simp))
  have hs : "train".toList ∈ ["train".toList, "val".toList] := by simp
  have hrel : Relative (jobOpts a [] a.trainRadius false false).edgeSuffix := by
    unfold Relative jobOpts; simp
  obtain ⟨f1, f2, -⟩ := C53_file_names a.root "train".toList n hr (annotated hs) hN
    (jobOpts a [] a.trainRadius false false) rfl hrel
    (show Relative "_gtFine_instanceIds.png".toList by unfold Relative; decide) []
  have hext : pathExt (procFile (jobOpts a [] a.trainRadius false false)
      (sampleFile a.root "gtFine".toList "train".toList n "_gtFine_labelIds.png".toList)) = ".bin".toList := by
    rw [f1]
    have : (jobOpts a [] a.trainRadius false false).edgeSuffix =
      ("_gtProc_".toList ++ (if a.inst then "isedge".toList else "edge".toList)) ++ '.' :: "bin".toList := by
      unfold jobOpts; rw [← hx]; simp
    rw [this]
    refine pathExt_sample (annotated hs) hN _ _ _ _ ?_ (by decide) (by decide) ⟨'_', by simp, by decide⟩
    cases a.inst <;> decide
  have hfail : runAction lib fuel pics (edgeAct a "train".toList (jobOpts a [] a.trainRadius false false) n) =
      .error .typeError := by
    obtain ⟨L, g1, g2, g3⟩ := hg
    have hf : SampleFiles pics (jobOpts a [] a.trainRadius false false)
        (sampleFile a.root "gtFine".toList "train".toList n "_gtFine_labelIds.png".toList) L
        (if a.inst then pics.gray (sampleFile a.root "gtFine".toList "train".toList n "_gtFine_instanceIds.png".toList)
          else none) := by
      refine ⟨g1, fun h => ?_, fun h => ?_⟩
      · change a.inst = true at h
        obtain ⟨im, i1, i2⟩ := g3 h
        refine ⟨im, by rw [if_pos h, i1], ?_, i2⟩
        rw [f2]; exact i1
      · change a.inst = false at h
        rw [h]; rfl
    unfold edgeAct
    simp only [runAction]
    rw [C52_bin_fails lib fuel r pics _ _ L _ hf hext h1 rfl (by rw [job_scale]; simp) g2]
    rfl
  have hjobs : splitJobs a "train".toList = [jobOpts a [] a.trainRadius false false] := by
    have hm := (C53_jobs a "train".toList (jobOpts a [] a.trainRadius false false)).2 (Or.inl ⟨rfl, rfl⟩)
    unfold splitJobs at hm ⊢
    rw [if_pos rfl] at hm ⊢
    rw [List.mem_singleton] at hm
    rw [hm]
  have hph : cityPhases tree a =
      [(poly "train".toList).map (trainAct a "train".toList) ++ (poly "val".toList).map (trainAct a "val".toList)].map .ok ++
      .ok ([] ++ edgeAct a "train".toList (jobOpts a [] a.trainRadius false false) n ::
        rest.map (edgeAct a "train".toList (jobOpts a [] a.trainRadius false false))) :: (cityPhases tree a).drop 2 := by
    unfold cityPhases
    rw [poly_phase hr ht (by simp), poly_phase hr ht (by simp), edge_phase hr ht (s := "train".toList) (by simp), hjobs, hn]
    simp only [List.flatMap_cons, List.flatMap_nil, List.append_nil, List.map_cons]
    rfl
  have hall : ∀ acts ∈ [(poly "train".toList).map (trainAct a "train".toList) ++
      (poly "val".toList).map (trainAct a "val".toList)],
      ∀ x ∈ acts, runAction lib fuel pics x = .ok (some (outcome lib fuel pics x)) := by
    intro acts ha
    rw [List.mem_singleton] at ha
    rw [ha]
    exact trainActs_ok
  have hrun := runPhases_fail (lib := lib) (fuel := fuel) (pics := pics) (pre := [])
    (post := rest.map (edgeAct a "train".toList (jobOpts a [] a.trainRadius false false)))
    (r := (cityPhases tree a).drop 2) hall (fun y hy => by cases hy) hfail
  rw [← hph] at hrun
  refine ⟨_, by rw [past_checks hp (by rw [hx]; simp), hrun], rfl, ?_⟩
  intro x
  simp only [List.flatten_cons, List.flatten_nil, List.append_nil]
  exact mem_trainActs

/-- C53: with a radius for thinned maps other than 1 the conversion fails with `AssertionError` — but only when the
first thinned validation map is due: the trainIds, the training maps and the raw validation maps have been written, the
lists of sample names have not. -/
theorem C53_thin_radius (lib : DTLib) (fuel : Nat) (pics : Pictures) (tree : Str → Option Entries)
    (a : CityArgs) (poly label : Str → List Str) (hr : CityRoot a.root) (hp : a.procDirname ≠ [])
    (hx : a.ext ∈ ["png".toList, "bin".toList, "tif".toList]) (ht : AnnotTree tree a.root poly label)
    (h3 : a.thinValRadius ≠ 1) (hn : label "val".toList ≠ [])
    (hjob : JobsOk lib fuel pics a label fun s o =>
      (s = "train".toList ∧ o = jobOpts a [] a.trainRadius false false) ∨
      (s = "val".toList ∧ o = jobOpts a "raw_".toList a.rawValRadius false false)) :
    ∃ t, convertCity lib fuel pics tree true a = some t ∧ t.err = some .assertionError ∧
      ∀ x, x ∈ t.written ↔ TrainFile a poly x ∨ EdgeFile lib fuel pics a label (fun s o =>
        (s = "train".toList ∧ o = jobOpts a [] a.trainRadius false false) ∨
        (s = "val".toList ∧ o = jobOpts a "raw_".toList a.rawValRadius false false)) x := by
  obtain ⟨n, rest, hn⟩ := List.exists_cons_of_ne_nil hn
  have hjobs : splitJobs a "train".toList = [jobOpts a [] a.trainRadius false false] := by
    have hm := (C53_jobs a "train".toList (jobOpts a [] a.trainRadius false false)).2 (Or.inl ⟨rfl, rfl⟩)
    unfold splitJobs at hm ⊢
    rw [if_pos rfl] at hm ⊢
    rw [List.mem_singleton] at hm
    rw [hm]
  obtain ⟨more, hjobs2⟩ : ∃ more, splitJobs a "val".toList =
      jobOpts a "raw_".toList a.rawValRadius false false :: jobOpts a "thin_".toList a.thinValRadius true false :: more := by
    have hs : ∀ kind, citySuffix a kind =
        "_gtProc_".toList ++ kind ++ (if a.inst then "isedge".toList else "edge".toList) ++ '.' :: a.ext := by
      intro kind
      unfold citySuffix
      cases a.inst <;> simp
    unfold splitJobs
    rw [if_neg (by decide), if_pos rfl]
    unfold cityOpts
    simp only [hs]
    exact ⟨_, rfl⟩
  have hfail : runAction lib fuel pics (edgeAct a "val".toList (jobOpts a "thin_".toList a.thinValRadius true false) n) =
      .error .assertionError := by
    unfold edgeAct
    simp only [runAction]
    rw [(C52_refusals lib fuel pics (jobOpts a "thin_".toList a.thinValRadius true false) _).1 rfl h3]
    rfl
  have hph : cityPhases tree a =
      [(poly "train".toList).map (trainAct a "train".toList) ++ (poly "val".toList).map (trainAct a "val".toList),
       [jobOpts a [] a.trainRadius false false].flatMap fun o => (label "train".toList).map (edgeAct a "train".toList o)].map .ok ++
      .ok (([jobOpts a "raw_".toList a.rawValRadius false false].flatMap fun o => (label "val".toList).map (edgeAct a "val".toList o)) ++
        edgeAct a "val".toList (jobOpts a "thin_".toList a.thinValRadius true false) n ::
        (rest.map (edgeAct a "val".toList (jobOpts a "thin_".toList a.thinValRadius true false)) ++
          more.flatMap fun o => (label "val".toList).map (edgeAct a "val".toList o))) :: (cityPhases tree a).drop 3 := by
    unfold cityPhases
    rw [poly_phase hr ht (by simp), poly_phase hr ht (by simp), edge_phase hr ht (s := "train".toList) (by simp),
      edge_phase hr ht (s := "val".toList) (by simp), hjobs, hjobs2]
    simp only [List.flatMap_cons, List.flatMap_nil, List.append_nil, hn, List.map_cons, List.cons_append]
    rfl
  have hall : ∀ acts ∈ [(poly "train".toList).map (trainAct a "train".toList) ++
      (poly "val".toList).map (trainAct a "val".toList),
       [jobOpts a [] a.trainRadius false false].flatMap fun o => (label "train".toList).map (edgeAct a "train".toList o)],
      ∀ x ∈ acts, runAction lib fuel pics x = .ok (some (outcome lib fuel pics x)) := by
    intro acts ha
    simp only [List.mem_cons, List.not_mem_nil, or_false] at ha
    rcases ha with rfl | rfl
    · exact trainActs_ok
    · refine edgeActs_ok hjob ?_
      intro o ho
      rw [List.mem_singleton] at ho
      exact Or.inl ⟨rfl, ho⟩
  have hpre : ∀ x ∈ [jobOpts a "raw_".toList a.rawValRadius false false].flatMap fun o =>
      (label "val".toList).map (edgeAct a "val".toList o),
      runAction lib fuel pics x = .ok (some (outcome lib fuel pics x)) := by
    refine edgeActs_ok hjob ?_
    intro o ho
    rw [List.mem_singleton] at ho
    exact Or.inr ⟨rfl, ho⟩
  have hrun := runPhases_fail (lib := lib) (fuel := fuel) (pics := pics)
    (post := rest.map (edgeAct a "val".toList (jobOpts a "thin_".toList a.thinValRadius true false)) ++
          more.flatMap fun o => (label "val".toList).map (edgeAct a "val".toList o))
    (r := (cityPhases tree a).drop 3) hall hpre hfail
  rw [← hph] at hrun
  refine ⟨_, by rw [past_checks hp hx, hrun], rfl, ?_⟩
  intro x
  simp only [List.flatten_cons, List.flatten_nil, List.append_nil]
  rw [List.map_append, List.map_append, List.mem_append, List.mem_append, mem_trainActs,
    mem_edgeActs hjob (s := "train".toList) (l := [jobOpts a [] a.trainRadius false false])
      (by
        intro o
        rw [List.mem_singleton]
        constructor
        · intro h; exact Or.inl ⟨rfl, h⟩
        · rintro (⟨-, h⟩ | ⟨h, -⟩)
          · exact h
          · exact absurd h (by decide)),
    mem_edgeActs hjob (s := "val".toList) (l := [jobOpts a "raw_".toList a.rawValRadius false false])
      (by
        intro o
        rw [List.mem_singleton]
        constructor
        · intro h; exact Or.inr ⟨rfl, h⟩
        · rintro (⟨h, -⟩ | ⟨-, h⟩)
          · exact absurd h (by decide)
          · exact h)]
  rw [or_assoc]
  refine or_congr Iff.rfl ?_
  constructor
  · rintro (⟨s, o, ⟨-, h⟩, r⟩ | ⟨s, o, ⟨-, h⟩, r⟩)
    · exact ⟨s, o, h, r⟩
    · exact ⟨s, o, h, r⟩
  · rintro ⟨s, o, h, r⟩
    rcases h with h | h
    · exact Or.inl ⟨s, o, ⟨h.1, Or.inl h⟩, r⟩
    · exact Or.inr ⟨s, o, ⟨h.1, Or.inr h⟩, r⟩

/-- C53 (finding): a dataset without the test split is converted completely, and then the call fails with
`FileNotFoundError`: everything but the list of test samples has been written. -/
theorem C53_missing_test (lib : DTLib) (fuel : Nat) (pics : Pictures) (tree : Str → Option Entries)
    (a : CityArgs) (poly label : Str → List Str) (hr : CityRoot a.root) (hp : a.procDirname ≠ [])
    (hx : a.ext ∈ ["png".toList, "bin".toList, "tif".toList]) (ht : AnnotTree tree a.root poly label)
    (hmiss : tree (slashed [a.root, "gtFine".toList, "test".toList]) = none)
    (hjob : JobsOk lib fuel pics a label (IsJob a)) :
    ∃ t, convertCity lib fuel pics tree true a = some t ∧ t.err = some .fileNotFoundError ∧
      ∀ x, x ∈ t.written ↔ TrainFile a poly x ∨ EdgeFile lib fuel pics a label (IsJob a) x ∨
        ListFile a poly ["train".toList, "val".toList] x := by
  have hph : cityPhases tree a =
      [(poly "train".toList).map (trainAct a "train".toList) ++ (poly "val".toList).map (trainAct a "val".toList),
       (splitJobs a "train".toList).flatMap fun o => (label "train".toList).map (edgeAct a "train".toList o),
       (splitJobs a "val".toList).flatMap fun o => (label "val".toList).map (edgeAct a "val".toList o),
       [textAct a poly "train".toList], [textAct a poly "val".toList]].map .ok ++ .error .fileNotFoundError :: [] := by
    have htest : splitAction tree a "test".toList = .error .fileNotFoundError := by
      simp only [splitAction, scan, scandir, suffixes, (splitDir_eq hr (show "test".toList ∈ _ by simp)).1, hmiss]
      rfl
    unfold cityPhases
    rw [poly_phase hr ht (by simp), poly_phase hr ht (by simp), edge_phase hr ht (s := "train".toList) (by simp),
      edge_phase hr ht (s := "val".toList) (by simp), text_phase hr ht (by simp) (ht.textScan _ (by simp)),
      text_phase hr ht (by simp) (ht.textScan _ (by simp)), htest]
    rfl
  have hJ : ∀ s, ∀ o, o ∈ splitJobs a s ↔ IsJob a s o := fun s o => C53_jobs a s o
  have hall : ∀ acts ∈ [(poly "train".toList).map (trainAct a "train".toList) ++ (poly "val".toList).map (trainAct a "val".toList),
       (splitJobs a "train".toList).flatMap fun o => (label "train".toList).map (edgeAct a "train".toList o),
       (splitJobs a "val".toList).flatMap fun o => (label "val".toList).map (edgeAct a "val".toList o),
       [textAct a poly "train".toList], [textAct a poly "val".toList]],
      ∀ x ∈ acts, runAction lib fuel pics x = .ok (some (outcome lib fuel pics x)) := by
    intro acts ha
    simp only [List.mem_cons, List.not_mem_nil, or_false] at ha
    rcases ha with rfl | rfl | rfl | rfl | rfl
    · exact trainActs_ok
    · exact edgeActs_ok hjob fun o ho => (hJ _ o).1 ho
    · exact edgeActs_ok hjob fun o ho => (hJ _ o).1 ho
    · exact textAct_ok
    · exact textAct_ok
  have hrun := runPhases_scan (lib := lib) (fuel := fuel) (pics := pics) (e := .fileNotFoundError) (r := []) hall
  rw [← hph] at hrun
  refine ⟨_, by rw [past_checks hp hx, hrun], rfl, ?_⟩
  intro x
  have o2 : ∀ s, outcome lib fuel pics (textAct a poly s) =
      (slashed [a.root, "splits".toList, s ++ ".txt".toList], .text (linesText ['\n'] (poly s))) := fun s => rfl
  simp only [List.flatten_cons, List.flatten_nil, List.append_nil]
  rw [List.map_append, List.mem_append, mem_trainActs, List.map_append, List.mem_append,
    mem_edgeActs hjob (hJ "train".toList), List.map_append, List.mem_append, mem_edgeActs hjob (hJ "val".toList)]
  refine or_congr Iff.rfl ?_
  rw [← or_assoc]
  refine or_congr ?_ ?_
  · constructor
    · rintro (⟨s, o, ⟨-, h⟩, r⟩ | ⟨s, o, ⟨-, h⟩, r⟩)
      · exact ⟨s, o, h, r⟩
      · exact ⟨s, o, h, r⟩
    · rintro ⟨s, o, h, r⟩
      have hs := mem_jobs ((hJ s o).2 h)
      simp only [List.mem_cons, List.not_mem_nil, or_false] at hs
      rcases hs with rfl | rfl
      · exact Or.inl ⟨_, o, ⟨rfl, h⟩, r⟩
      · exact Or.inr ⟨_, o, ⟨rfl, h⟩, r⟩
  · simp only [List.cons_append, List.nil_append, List.map_cons, List.map_nil, o2, ListFile, List.mem_cons,
      List.not_mem_nil, or_false, exists_eq_or_imp, exists_eq_left]

/-- What is finally in a file: the last thing written to it. -/
def finally_ (written : List (Str × Content)) (p : Str) : Option Content :=
  (written.reverse.find? fun x => x.1 = p).map Prod.snd

theorem finally_iff {w : List (Str × Content)} (hn : (w.map Prod.fst).Nodup) (p : Str) (c : Content) :
    finally_ w p = some c ↔ (p, c) ∈ w := by
  have hn' : (w.reverse.map Prod.fst).Nodup := by rw [List.map_reverse]; exact List.nodup_reverse.2 hn
  unfold finally_
  rw [← List.mem_reverse]
  generalize w.reverse = l at hn'
  induction l with
  | nil => simp
  | cons y ys ih =>
    simp only [List.map_cons, List.nodup_cons] at hn'
    rw [List.find?_cons]
    by_cases hy : y.1 = p
    · simp only [hy, decide_true, Option.map_some, Option.some.injEq, List.mem_cons]
      constructor
      · rintro rfl; exact Or.inl (by rw [← hy])
      · rintro (h | h)
        · rw [← h]
        · exfalso
          apply hn'.1
          rw [hy]
          exact List.mem_map.2 ⟨_, h, rfl⟩
    · simp only [hy, decide_false, ih hn'.2, List.mem_cons]
      constructor
      · exact Or.inr
      · rintro (h | h)
        · exact absurd (by rw [← h]) hy
        · exact h

/-- C53: the order in which the workers do the work of a phase is irrelevant: if the run in the listed order
succeeds and writes no file twice, the run in any other order inside the phases succeeds as well and leaves the same
files with the same contents. -/
theorem C53_order_irrelevant (lib : DTLib) (fuel : Nat) (pics : Pictures) (P P' : List (List Action))
    (h : List.Forall₂ List.Perm P P') (t : Trace) (ht : runPhases lib fuel pics (P.map .ok) = some t)
    (he : t.err = none) (hn : (t.written.map Prod.fst).Nodup) :
    ∃ t', runPhases lib fuel pics (P'.map .ok) = some t' ∧ t'.err = none ∧ (t'.written.map Prod.fst).Nodup ∧
      ∀ p, finally_ t'.written p = finally_ t.written p := by
  have inv1 : ∀ (acts : List Action) (t : Trace), runActions lib fuel pics acts = some t → t.err = none →
      ∀ x ∈ acts, runAction lib fuel pics x = .ok (some (outcome lib fuel pics x)) := by
    intro acts
    induction acts with
    | nil => intro t _ _ x hx; cases hx
    | cons y ys ih =>
      intro t ht he x hx
      simp only [runActions] at ht
      cases hy : runAction lib fuel pics y with
      | error e => rw [hy] at ht; simp only at ht; injection ht with ht; subst ht; cases he
      | ok r =>
        cases r with
        | none => rw [hy] at ht; cases ht
        | some r =>
          rw [hy] at ht
          simp only [Option.map_eq_some_iff] at ht
          obtain ⟨t', h1, rfl⟩ := ht
          rcases List.mem_cons.1 hx with rfl | hx
          · unfold outcome; rw [hy]
          · exact ih t' h1 he x hx
  have inv2 : ∀ (P : List (List Action)) (t : Trace), runPhases lib fuel pics (P.map .ok) = some t → t.err = none →
      ∀ acts ∈ P, ∀ x ∈ acts, runAction lib fuel pics x = .ok (some (outcome lib fuel pics x)) := by
    intro P
    induction P with
    | nil => intro t _ _ x hx; cases hx
    | cons y ys ih =>
      intro t ht he acts ha
      simp only [List.map_cons, runPhases] at ht
      cases hy : runActions lib fuel pics y with
      | none => rw [hy] at ht; cases ht
      | some u =>
        rw [hy] at ht
        simp only at ht
        cases hu : u.err with
        | some e => rw [hu] at ht; simp only at ht; injection ht with ht; subst ht; rw [hu] at he; cases he
        | none =>
          rw [hu] at ht
          simp only [Option.map_eq_some_iff] at ht
          obtain ⟨t', h1, rfl⟩ := ht
          rcases List.mem_cons.1 ha with rfl | ha
          · exact inv1 _ u hy hu
          · exact ih t' h1 he acts ha
  have hok := inv2 P t ht he
  have hok' : ∀ acts ∈ P', ∀ x ∈ acts, runAction lib fuel pics x = .ok (some (outcome lib fuel pics x)) := by
    intro acts ha x hx
    obtain ⟨acts', ha', hperm⟩ : ∃ b ∈ P, List.Perm b acts := by
      clear ht hok
      induction h with
      | nil => cases ha
      | cons h1 h2 ih =>
        rcases List.mem_cons.1 ha with rfl | ha
        · exact ⟨_, by simp, h1⟩
        · obtain ⟨b, hb, h⟩ := ih ha
          exact ⟨b, by simp [hb], h⟩
    exact hok acts' ha' x (hperm.mem_iff.2 hx)
  rw [runPhases_ok hok] at ht
  injection ht with ht
  subst ht
  have hperm : List.Perm P.flatten P'.flatten := by
    clear hok hok' hn he
    induction h with
    | nil => exact List.Perm.refl _
    | cons h1 h2 ih => simpa using h1.append ih
  have hw := hperm.map (outcome lib fuel pics)
  have hn' : ((P'.flatten.map (outcome lib fuel pics)).map Prod.fst).Nodup :=
    (hw.map Prod.fst).nodup_iff.1 hn
  refine ⟨_, runPhases_ok hok', rfl, hn', fun p => ?_⟩
  apply Option.ext
  intro c
  rw [finally_iff hn, finally_iff hn']
  exact hw.symm.mem_iff

/-! ## A concrete dataset -/

/-- A city directory with one sample. -/
def exCity (n : Str) : Entries :=
  .cons (n ++ "_gtFine_polygons.json".toList) .file (.cons (n ++ "_gtFine_labelIds.png".toList) .file
    (.cons (n ++ "_gtFine_instanceIds.png".toList) .file .nil))

/-- A dataset `d` with one sample in each split. -/
def exDataset (p : Str) : Option Entries :=
  if p = "d/gtFine/train".toList then some (.cons "aachen".toList (.dir (exCity "a_0".toList)) .nil)
  else if p = "d/gtFine/val".toList then some (.cons "bonn".toList (.dir (exCity "b_0".toList)) .nil)
  else if p = "d/gtFine/test".toList then
    some (.cons "bern".toList (.dir (.cons "c_0_gtFine_polygons.json".toList .file .nil)) .nil)
  else none

def exPoly (s : Str) : List Str :=
  if s = "train".toList then ["aachen/a_0".toList] else if s = "val".toList then ["bonn/b_0".toList]
  else if s = "test".toList then ["bern/c_0".toList] else []

def exLabels (s : Str) : List Str :=
  if s = "train".toList then ["aachen/a_0".toList] else if s = "val".toList then ["bonn/b_0".toList] else []

theorem exNames (s n : Str) (h : n ∈ exPoly s ∨ n ∈ exLabels s) :
    n ∈ ["aachen/a_0".toList, "bonn/b_0".toList, "bern/c_0".toList] := by
  have key : ∀ l ∈ [["aachen/a_0".toList], ["bonn/b_0".toList], ["bern/c_0".toList], []], ∀ n ∈ l,
      n ∈ ["aachen/a_0".toList, "bonn/b_0".toList, "bern/c_0".toList] := by decide
  rcases h with h | h
  · refine key (exPoly s) ?_ n h
    unfold exPoly
    split
    · simp
    · split
      · simp
      · split <;> simp
  · refine key (exLabels s) ?_ n h
    unfold exLabels
    split
    · simp
    · split <;> simp

theorem exName_good : ∀ n ∈ ["aachen/a_0".toList, "bonn/b_0".toList, "bern/c_0".toList], SampleName n ∧ OneLine n := by
  intro n hn
  have h1 : ∀ n ∈ ["aachen/a_0".toList, "bonn/b_0".toList, "bern/c_0".toList],
    n.head? ≠ some '/' ∧ ¬ "//".toList <:+: n ∧ ¬ "gtFine".toList <:+: n ∧
    ∀ c ∈ n, c.toNat ∉ [10, 11, 12, 13, 28, 29, 30, 0x85, 0x2028, 0x2029] := by decide +kernel
  obtain ⟨a, b, c, d⟩ := h1 n hn
  exact ⟨⟨a, b, c⟩, d⟩

theorem exTree_ok : CityTree exDataset "d".toList exPoly exLabels where
  polyScan := by decide +kernel
  textScan := by decide +kernel
  labelScan := by decide +kernel
  names s n h := (exName_good n (exNames s n h)).1
  nodup s := by
    constructor
    · unfold exPoly
      split
      · simp
      · split
        · simp
        · split <;> simp
    · unfold exLabels
      split
      · simp
      · split <;> simp
  testScan := by decide +kernel

theorem exRoot_ok : CityRoot "d".toList := ⟨by unfold DirArg; decide, by decide +kernel⟩

/-- Every picture is a 68 × 2 map, upper half road (7), lower half sidewalk (8). -/
def exMaps : Pictures where
  rgb _ := none
  gray _ := some ⟨68, 2, fun i _ => if i < 34 then 7 else 8⟩
  mat _ := .error .assertionError

theorem exMaps_nonempty : NoEmptyPictures exMaps := by
  refine ⟨fun p E h => by simp [exMaps] at h, fun p P h => ?_⟩
  simp only [exMaps, Option.some.injEq] at h
  subst h
  simp

def exArgs (ext : Str) (inst half : Bool) (thin : Int) : CityArgs where
  procDirname := "gtEval".toList
  root := "d".toList
  inst := inst
  ext := ext
  saveHalfVal := half
  trainRadius := 1
  rawValRadius := 1
  thinValRadius := thin

theorem exGood (a : CityArgs) (s n : Str) (m : Nat) (hm : m ≤ 68) : GoodSample exMaps a s n m := by
  refine ⟨_, rfl, hm, fun _ => ⟨_, rfl, rfl, rfl, ?_⟩⟩
  intro i _ j _
  simp only
  split <;> omega

/-- The hypotheses of `C53_complete` (and so of `C53_run`) hold for the concrete dataset, in all modes; so it is
converted completely, and the half-size thin map of the validation sample is among the files. -/
example (ext : Str) (hx : ext = "png".toList ∨ ext = "tif".toList) (inst half : Bool) :
    ∃ F, ∀ fuel, F ≤ fuel → ∃ t, convertCity (refLib 1) fuel exMaps exDataset true (exArgs ext inst half 1) = some t ∧
      t.err = none ∧ ("d/splits/val.txt".toList, .text "bonn/b_0\n".toList) ∈ t.written ∧
      ("d/gtEval/val/bonn/b_0_gtFine_labelTrainIds.png".toList,
        .train "d/gtFine/val/bonn/b_0_gtFine_polygons.json".toList) ∈ t.written := by
  obtain ⟨F, h⟩ := C53_complete (refLib 1) exMaps exMaps_nonempty exDataset (exArgs ext inst half 1) exPoly exLabels
    exRoot_ok (show "gtEval".toList ≠ [] by decide) hx exTree_ok 1 1 rfl rfl rfl (by simpa using refLib_exact 1 true 0)
    (by simpa using refLib_exact 1 true 0) (refLib_exact 1 true 0) (fun n _ => exGood _ _ _ _ (by omega))
    (fun n _ => exGood _ _ _ _ (by split <;> omega))
  refine ⟨F, fun fuel hf => ?_⟩
  obtain ⟨t, h1, h2, h3, -⟩ := h fuel hf
  refine ⟨t, h1, h2, (h3 _).2 (Or.inr (Or.inr ⟨"val".toList, by simp, rfl⟩)),
    (h3 _).2 (Or.inl ⟨"val".toList, by simp, "bonn/b_0".toList, by decide, rfl⟩)⟩

/-- The converter's and the evaluator's path of a half-size thin map. -/
example : slashed [gtDirOf .half { datasetRoot := "d".toList, predRoot := "p".toList, split := "val".toList, thin := true },
      gtFile .half true true "bonn/b_0".toList] =
    "d/gtEval/val/bonn/b_0_gtProc_half_thin_isedge.png".toList := by decide +kernel

example : ∃ t, convertCity (refLib 1) 0 exMaps exDataset true (exArgs "bin".toList true true 1) = some t ∧
    t.err = some .typeError := by
  obtain ⟨t, h1, h2, -⟩ := C53_bin_fails (refLib 1) 0 exMaps exDataset (exArgs "bin".toList true true 1) exPoly exLabels
    exRoot_ok (by decide) rfl exTree_ok.toAnnotTree 1 rfl "aachen/a_0".toList [] rfl (exGood _ _ _ _ (by omega))
  exact ⟨t, h1, h2⟩

/-- `JobsOk` is met by the concrete dataset for the jobs that do not thin. -/
theorem exJobs (thin : Int) (fuel : Nat) : JobsOk (refLib 1) fuel exMaps (exArgs "png".toList true true thin) exLabels fun s o =>
      (s = "train".toList ∧ o = jobOpts (exArgs "png".toList true true thin) [] 1 false false) ∨
      (s = "val".toList ∧ o = jobOpts (exArgs "png".toList true true thin) "raw_".toList 1 false false) := by
  have key : ∀ s ∈ ["train".toList, "val".toList], ∀ kind : Str, '/' ∉ kind → ∀ n ∈ exLabels s, ∃ enc,
      convertLabel (refLib 1) fuel exMaps (jobOpts (exArgs "png".toList true true thin) kind 1 false false)
        (sampleFile "d".toList "gtFine".toList s n "_gtFine_labelIds.png".toList) =
      .ok (some (sampleFile "d".toList "gtEval".toList s n
        (jobOpts (exArgs "png".toList true true thin) kind 1 false false).edgeSuffix, enc)) := by
    intro s hs kind hk n hn
    obtain ⟨L, I, j1, j2, j3, j4, -⟩ := job_files (pics := exMaps) (a := exArgs "png".toList true true thin) (kind := kind)
      (radius := 1) (thin := false) (half := false) exRoot_ok hs (exName_good n (exNames s n (Or.inr hn))).1
      (exGood _ s n 34 (by omega)) (Or.inl rfl) hk
    rw [← j3] at j4
    obtain ⟨enc, _, _, e1, -⟩ := C52_contents (refLib 1) fuel 1 (by simpa using refLib_exact 1 true 0) exMaps exMaps_nonempty
      _ _ L I j1 j4 rfl rfl (by rw [job_scale]; simp) (Or.inl (by rw [job_scale]; simp))
      (by rw [job_scale, if_neg (by simp)]; exact j2)
    exact ⟨enc, by rw [j3] at e1; exact e1⟩
  rintro s o (⟨rfl, rfl⟩ | ⟨rfl, rfl⟩) n hn
  · exact key _ (by simp) [] (by simp) n hn
  · exact key _ (by simp) "raw_".toList (by decide) n hn

example : ∃ t, convertCity (refLib 1) 0 exMaps exDataset true (exArgs "png".toList true true 2) = some t ∧
    t.err = some .assertionError ∧ t.written ≠ [] := by
  obtain ⟨t, h1, h2, h3⟩ := C53_thin_radius (refLib 1) 0 exMaps exDataset (exArgs "png".toList true true 2) exPoly exLabels
    exRoot_ok (by decide) (by decide) exTree_ok.toAnnotTree (by decide) (by decide) (exJobs 2 0)
  refine ⟨t, h1, h2, ?_⟩
  have := (h3 _).2 (Or.inl ⟨"val".toList, by simp, "bonn/b_0".toList, by decide, rfl⟩)
  intro h
  rw [h] at this
  cases this

/-- The same dataset without the test split. -/
def exNoTest (p : Str) : Option Entries := if p = "d/gtFine/test".toList then none else exDataset p

theorem exNoTest_ok : AnnotTree exNoTest "d".toList exPoly exLabels where
  polyScan := by decide +kernel
  textScan := by decide +kernel
  labelScan := by decide +kernel
  names := exTree_ok.names
  nodup := exTree_ok.nodup

theorem exAllJobs (inst half : Bool) : ∃ F, ∀ fuel, F ≤ fuel →
    JobsOk (refLib 1) fuel exMaps (exArgs "png".toList inst half 1) exLabels (IsJob (exArgs "png".toList inst half 1)) :=
  C53_jobs_ok (refLib 1) exMaps exMaps_nonempty (exArgs "png".toList inst half 1) exLabels exRoot_ok (Or.inl rfl)
    (fun s n h => exTree_ok.names s n (Or.inr h)) 1 1 rfl rfl rfl (by simpa using refLib_exact 1 true 0)
    (by simpa using refLib_exact 1 true 0) (refLib_exact 1 true 0) (fun n _ => exGood _ _ _ _ (by omega))
    (fun n _ => exGood _ _ _ _ (by split <;> omega))

example : ∃ F, ∀ fuel, F ≤ fuel → ∃ t, convertCity (refLib 1) fuel exMaps exNoTest true (exArgs "png".toList true true 1) =
    some t ∧ t.err = some .fileNotFoundError ∧ ("d/splits/val.txt".toList, .text "bonn/b_0\n".toList) ∈ t.written := by
  obtain ⟨F, hF⟩ := exAllJobs true true
  refine ⟨F, fun fuel hf => ?_⟩
  obtain ⟨t, h1, h2, h3⟩ := C53_missing_test (refLib 1) fuel exMaps exNoTest (exArgs "png".toList true true 1) exPoly exLabels
    exRoot_ok (by decide) (by decide) exNoTest_ok rfl (hF fuel hf)
  exact ⟨t, h1, h2, (h3 _).2 (Or.inr (Or.inr ⟨"val".toList, by simp, rfl⟩))⟩

/-- The file system after the conversion (more files do not matter). -/
def exAfter : Fs where
  ex _ := true
  read p := if p = "d/splits/train.txt".toList then some "aachen/a_0\n".toList
    else if p = "d/splits/val.txt".toList then some "bonn/b_0\n".toList
    else if p = "d/splits/test.txt".toList then some "bern/c_0\n".toList else none
  list _ := none

/-- An evaluator for thinned half-size maps of the concrete dataset. -/
def exHalfEv : Ev where
  kind := .half
  ctor := { datasetRoot := "d".toList, predRoot := "p".toList, split := "val".toList, thin := true }
  names := none
  attrs := exEv.attrs

/-- After the conversion the evaluator for thinned half-size maps finds its samples. -/
example : ∃ data, setSampleNames exAfter .half exHalfEv.ctor .none none none = (some ["bonn/b_0".toList], none) ∧
    categoryData exAfter { exHalfEv with names := some ["bonn/b_0".toList] } 7 = .ok data ∧
    data.map (fun s => s.edgePath) = [some "d/gtEval/val/bonn/b_0_gtProc_half_thin_isedge.png".toList] := by
  obtain ⟨F, hF⟩ := exAllJobs true true
  obtain ⟨t, h1, h2, h3, h4⟩ := C53_run (refLib 1) F exMaps exDataset (exArgs "png".toList true true 1) exPoly exLabels
    exRoot_ok (by decide) (by decide) exTree_ok (hF F le_rfl)
  have hfs : Shows exAfter t.written := by
    intro x hx
    refine ⟨rfl, fun s hs => ?_⟩
    rcases (h3 x).1 hx with ⟨_, _, _, _, rfl⟩ | ⟨_, _, _, _, _, _, _, rfl⟩ | ⟨s', hs', rfl⟩
    · cases hs
    · cases hs
    · have key : ∀ s' ∈ ["train".toList, "val".toList, "test".toList],
          exAfter.read (slashed ["d".toList, "splits".toList, s' ++ ".txt".toList]) =
            some (linesText ['\n'] (exPoly s')) := by decide +kernel
      cases hs
      exact key s' hs'
  obtain ⟨k1, k2⟩ := C53_evaluator_ready (refLib 1) F exMaps (exArgs "png".toList true true 1) exPoly exLabels (by decide) rfl
    t.written h3 (hF F le_rfl)
    (fun n hn => exName_good n (exNames _ n (Or.inl hn))) (by decide) (by decide) exAfter hfs exHalfEv (Or.inr ⟨rfl, rfl⟩)
    ⟨by unfold DirArg; decide, by unfold DirArg; decide, Or.inl rfl, (by intro d h; cases h), (by intro d h; cases h)⟩
    rfl rfl (Or.inr ⟨rfl, rfl⟩) ⟨rfl, rfl, rfl, fun _ => rfl⟩ rfl _ rfl
  exact ⟨_, k1, k2 7 (by omega) (by omega), by decide +kernel⟩

/-- Two label files in the other order. -/
example : List.Forall₂ List.Perm
    [[trainAct (exArgs [] true true 1) [] "a".toList, trainAct (exArgs [] true true 1) [] "b".toList]]
    [[trainAct (exArgs [] true true 1) [] "b".toList, trainAct (exArgs [] true true 1) [] "a".toList]] :=
  .cons (List.Perm.swap _ _ _) .nil

end EdgeEval.Props
