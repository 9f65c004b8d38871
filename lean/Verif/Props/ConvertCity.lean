import Verif.Lemmas.Replace
import Verif.Props.ConvertOtf
import Verif.Props.SampleNames
import Verif.Props.Path

/-!
# C53: converting the whole Cityscapes dataset, and evaluating against it
-/

namespace EdgeEval.Props

open Spec Text Evaluators Samples Datasets PathU EdgeEval.Convert

/-! ## Specification -/

/-- A sample name such as `frankfurt/frankfurt_000000_000294`: a relative path without empty components in which
`gtFine` does not occur. -/
structure SampleName (n : Str) : Prop where
  rel : Relative n
  noEmpty : ¬ "//".toList <:+: n
  plain : ¬ "gtFine".toList <:+: n

/-- A dataset root: no trailing slash, `gtFine` does not occur in it. -/
structure CityRoot (root : Str) : Prop where
  dir : DirArg root
  plain : ¬ "gtFine".toList <:+: root

/-- The file of a sample below a directory of the root: `root/dir/split/name` and a suffix. -/
def sampleFile (root dir split name sfx : Str) : Str := slashed [root, dir, split, name ++ sfx]

/-- The directory `gtFine` holds, in the training and validation split, the polygon files of the samples `poly split`
and the label maps of the samples `label split`. -/
structure AnnotTree (tree : Str → Option Entries) (root : Str) (poly label : Str → List Str) : Prop where
  polyScan : ∀ s ∈ ["train".toList, "val".toList], scandir tree (.path (slashed [root, "gtFine".toList, s]))
    (.str "_gtFine_polygons.json".toList) true true = .ok ((poly s).map (· ++ "_gtFine_polygons.json".toList))
  textScan : ∀ s ∈ ["train".toList, "val".toList], scandir tree (.path (slashed [root, "gtFine".toList, s]))
    (.str "_polygons.json".toList) true true = .ok ((poly s).map (· ++ "_gtFine_polygons.json".toList))
  labelScan : ∀ s ∈ ["train".toList, "val".toList], scandir tree (.path (slashed [root, "gtFine".toList, s]))
    (.str "_gtFine_labelIds.png".toList) true true = .ok ((label s).map (· ++ "_gtFine_labelIds.png".toList))
  names : ∀ s n, n ∈ poly s ∨ n ∈ label s → SampleName n
  nodup : ∀ s, (poly s).Nodup ∧ (label s).Nodup

/-- The test split is there as well, with its (dummy) polygon files; no label maps are looked for in it. -/
structure CityTree (tree : Str → Option Entries) (root : Str) (poly label : Str → List Str) : Prop
    extends AnnotTree tree root poly label where
  testScan : scandir tree (.path (slashed [root, "gtFine".toList, "test".toList]))
    (.str "_polygons.json".toList) true true = .ok ((poly "test".toList).map (· ++ "_gtFine_polygons.json".toList))

/-- The options of an edge job: which file name ending, which radius, thinned or not, full or half size. -/
def jobOpts (a : CityArgs) (kind : Str) (radius : Int) (thin half : Bool) : ConvOpts :=
  { inst := a.inst, procDir := a.procDirname, labelSuffix := "_gtFine_labelIds.png".toList
    instSuffix := "_gtFine_instanceIds.png".toList
    edgeSuffix := "_gtProc_".toList ++ kind ++ (if a.inst then "isedge".toList else "edge".toList) ++ '.' :: a.ext
    radius := radius, thin := thin, scale := if half then 1 / 2 else 1, sealed := true }

/-- The edge jobs of a split: one for training; raw and thin, in full and (if wanted) half size, for validation. -/
def IsJob (a : CityArgs) (split : Str) (o : ConvOpts) : Prop :=
  (split = "train".toList ∧ o = jobOpts a [] a.trainRadius false false) ∨
  (split = "val".toList ∧ ∃ thin half : Bool, (half = true → a.saveHalfVal = true) ∧
    o = jobOpts a ((if half then "half_".toList else []) ++ (if thin then "thin_".toList else "raw_".toList))
      (if thin then a.thinValRadius else a.rawValRadius) thin half)

/-- The trainId picture of an annotated sample. -/
def TrainFile (a : CityArgs) (poly : Str → List Str) (x : Str × Content) : Prop :=
  ∃ s ∈ ["train".toList, "val".toList], ∃ n ∈ poly s,
    x = (sampleFile a.root a.procDirname s n "_gtFine_labelTrainIds.png".toList,
      .train (sampleFile a.root "gtFine".toList s n "_gtFine_polygons.json".toList))

/-- The edge map of a sample made by a job of a class `J` of jobs. -/
def EdgeFile (lib : DTLib) (fuel : Nat) (pics : Pictures) (a : CityArgs) (label : Str → List Str)
    (J : Str → ConvOpts → Prop) (x : Str × Content) : Prop :=
  ∃ s o, J s o ∧ ∃ n ∈ label s, ∃ enc,
    convertLabel lib fuel pics o (sampleFile a.root "gtFine".toList s n "_gtFine_labelIds.png".toList) =
      .ok (some (sampleFile a.root a.procDirname s n o.edgeSuffix, enc)) ∧
    x = (sampleFile a.root a.procDirname s n o.edgeSuffix, .edges enc)

/-- The list of the sample names of one of the splits `S`. -/
def ListFile (a : CityArgs) (poly : Str → List Str) (S : List Str) (x : Str × Content) : Prop :=
  ∃ s ∈ S, x = (slashed [a.root, "splits".toList, s ++ ".txt".toList], .text (linesText ['\n'] (poly s)))

/-- A file written by a complete conversion. -/
def Expected (lib : DTLib) (fuel : Nat) (pics : Pictures) (a : CityArgs) (poly label : Str → List Str)
    (x : Str × Content) : Prop :=
  TrainFile a poly x ∨ EdgeFile lib fuel pics a label (IsJob a) x ∨
    ListFile a poly ["train".toList, "val".toList, "test".toList] x

/-- The jobs `J` of a split succeed on all its label maps. -/
def JobsOk (lib : DTLib) (fuel : Nat) (pics : Pictures) (a : CityArgs) (label : Str → List Str)
    (J : Str → ConvOpts → Prop) : Prop :=
  ∀ s o, J s o → ∀ n ∈ label s, ∃ enc,
    convertLabel lib fuel pics o (sampleFile a.root "gtFine".toList s n "_gtFine_labelIds.png".toList) =
      .ok (some (sampleFile a.root a.procDirname s n o.edgeSuffix, enc))

/-! ## Paths -/

theorem name_parts {n : Str} (h : SampleName n) :
    '/' ∉ n ∨ ∃ d stem, n = d ++ '/' :: stem ∧ DirArg d ∧ '/' ∉ stem := by
  by_cases hs : '/' ∈ n
  · right
    obtain ⟨as, bs, e, hne⟩ := List.eq_append_cons_of_mem (List.mem_reverse.2 hs)
    have hn : n = bs.reverse ++ '/' :: as.reverse := by
      rw [← List.reverse_reverse n, e]; simp
    refine ⟨bs.reverse, as.reverse, hn, ⟨?_, ?_⟩, by simpa using hne⟩
    · intro hd
      rw [hd] at hn
      exact h.rel (by rw [hn]; rfl)
    · intro hl
      obtain ⟨d', hd'⟩ := List.getLast?_eq_some_iff.1 hl
      refine h.noEmpty ⟨d', as.reverse, ?_⟩
      rw [hn, hd']
      simp
  · exact Or.inl hs

theorem infix_append_left {p a b : Str} (h : p <:+: a) : p <:+: a ++ b := h.trans ⟨[], b, by simp⟩
theorem infix_append_right {p a b : Str} (h : p <:+: b) : p <:+: a ++ b := h.trans ⟨a, [], by simp⟩

theorem dirArg_append {a b : Str} (h : DirArg b) : DirArg (a ++ b) := by
  refine ⟨by simp [h.1], ?_⟩
  rw [List.getLast?_append]
  cases hb : b.getLast? with
  | none => rw [List.getLast?_eq_none_iff] at hb; exact absurd hb h.1
  | some c => have := h.2; rw [hb] at this; simpa using this

theorem dirArg_cons {c : Char} {b : Str} (h : DirArg b) : DirArg (c :: b) := dirArg_append (a := [c]) h

theorem path_form {split n : Str} (hs : DirArg split) (hs' : ¬ "gtFine".toList <:+: split) (hn : SampleName n) :
    ∃ post stem, '/' ∉ stem ∧ ¬ "gtFine".toList <:+: post ∧ ¬ "gtFine".toList <:+: stem ∧ DirArg post ∧
      ∀ root mid sfx, sampleFile root mid split n sfx = (root ++ '/' :: mid ++ post) ++ '/' :: (stem ++ sfx) := by
  have hsl : '/' ∉ "gtFine".toList := by decide
  have h0 : ¬ "gtFine".toList <:+: [] := by
    intro h; rw [List.infix_nil] at h; exact absurd h (by decide)
  rcases name_parts hn with h | ⟨d, stem, rfl, hd, hst⟩
  · refine ⟨'/' :: split, n, h, ?_, hn.plain, dirArg_cons hs, ?_⟩
    · exact not_infix_slash (a := []) hsl h0 hs'
    · intro root mid sfx
      simp [sampleFile, slashed]
  · have hpl : ¬ "gtFine".toList <:+: d ∧ ¬ "gtFine".toList <:+: stem := by
      refine ⟨fun h => hn.plain (infix_append_left h), fun h => hn.plain ?_⟩
      rw [show d ++ '/' :: stem = (d ++ ['/']) ++ stem by simp]
      exact infix_append_right h
    refine ⟨'/' :: split ++ '/' :: d, stem, hst, ?_, hpl.2, dirArg_append (dirArg_cons hd), ?_⟩
    · exact not_infix_slash hsl (not_infix_slash (a := []) hsl h0 hs') hpl.1
    · intro root mid sfx
      simp [sampleFile, slashed]

theorem borderless_gtFine : Borderless "gtFine".toList := (borderless_iff _).2 (by decide)
theorem borderless_label : Borderless "_gtFine_labelIds.png".toList := (borderless_iff _).2 (by decide)
theorem borderless_poly : Borderless "_gtFine_polygons.json".toList := (borderless_iff _).2 (by decide)

/-- The common part of the two path computations of the converter. -/
theorem rewritten {root split n : Str} (hr : CityRoot root) (hs : DirArg split) (hs' : ¬ "gtFine".toList <:+: split)
    (hn : SampleName n) (proc sfx sfx' : Str) (h1 : '/' ∉ sfx) (h2 : Borderless sfx) (h3 : "gtFine".toList <:+: sfx)
    (h4 : Relative sfx') :
    pjoin (replaceAll "gtFine".toList proc (dirname (sampleFile root "gtFine".toList split n sfx)))
      (replaceAll sfx sfx' (basename (sampleFile root "gtFine".toList split n sfx))) = sampleFile root proc split n sfx' ∧
    pjoin (dirname (sampleFile root "gtFine".toList split n sfx))
      (replaceAll sfx sfx' (basename (sampleFile root "gtFine".toList split n sfx))) =
        sampleFile root "gtFine".toList split n sfx' := by
  obtain ⟨post, stem, p1, p2, p3, p4, p5⟩ := path_form hs hs' hn
  have hsl : '/' ∉ "gtFine".toList := by decide
  have hb : '/' ∉ stem ++ sfx := by simp only [List.mem_append, not_or]; exact ⟨p1, h1⟩
  have hne : sfx ≠ [] := by
    rintro rfl
    rw [List.infix_nil] at h3
    exact absurd h3 (by decide)
  have hrel : Relative (stem ++ sfx') := by
    refine relative_append ?_ h4
    unfold Relative
    intro h
    rw [List.head?_eq_some_iff] at h
    obtain ⟨_, rfl⟩ := h
    exact p1 (by simp)
  have hd : ∀ mid, DirArg (root ++ '/' :: mid ++ post) := fun mid => dirArg_append p4
  have e1 : dirname (sampleFile root "gtFine".toList split n sfx) = root ++ '/' :: "gtFine".toList ++ post := by
    rw [p5]; exact dirname_slash (hd _) hb
  have e2 : basename (sampleFile root "gtFine".toList split n sfx) = stem ++ sfx := by
    rw [p5]; exact basename_slash hb
  have e3 : replaceAll sfx sfx' (stem ++ sfx) = stem ++ sfx' := by
    have := replaceAll_once sfx sfx' stem [] hne h2 (fun h => p3 (h3.trans h))
      (fun h => hne (List.infix_nil.1 h))
    simpa using this
  have e4 : replaceAll "gtFine".toList proc (root ++ '/' :: "gtFine".toList ++ post) = root ++ '/' :: proc ++ post := by
    have hpre : ¬ "gtFine".toList <:+: root ++ ['/'] := by
      refine not_infix_slash hsl hr.plain ?_
      intro h; rw [List.infix_nil] at h; exact absurd h (by decide)
    have := replaceAll_once "gtFine".toList proc (root ++ ['/']) post (by decide) borderless_gtFine hpre p2
    simpa using this
  rw [e1, e2, e3, e4, p5, p5]
  constructor
  · rw [pjoin_slash (hd _) hrel]; rfl
  · rw [pjoin_slash (hd _) hrel]; rfl

theorem split_good {s : Str} (h : s ∈ ["train".toList, "val".toList, "test".toList]) :
    DirArg s ∧ Relative s ∧ ¬ "gtFine".toList <:+: s := by
  have : ∀ s ∈ ["train".toList, "val".toList, "test".toList], DirArg s ∧ Relative s ∧ ¬ "gtFine".toList <:+: s := by
    unfold DirArg Relative; decide
  exact this s h

/-- C53: the edges of the sample `n` are written to the file of the same name in the processed directory, from the
label map and the instance map of that sample; the trainIds likewise. -/
theorem C53_file_names (root split n : Str) (hr : CityRoot root)
    (hs : split ∈ ["train".toList, "val".toList, "test".toList]) (hn : SampleName n) (o : ConvOpts)
    (h1 : o.labelSuffix = "_gtFine_labelIds.png".toList) (h2 : Relative o.edgeSuffix) (h3 : Relative o.instSuffix)
    (proc : Str) :
    procFile o (sampleFile root "gtFine".toList split n "_gtFine_labelIds.png".toList) =
      sampleFile root o.procDir split n o.edgeSuffix ∧
    instFile o (sampleFile root "gtFine".toList split n "_gtFine_labelIds.png".toList) =
      sampleFile root "gtFine".toList split n o.instSuffix ∧
    trainIdFile proc (sampleFile root "gtFine".toList split n "_gtFine_polygons.json".toList) =
      sampleFile root proc split n "_gtFine_labelTrainIds.png".toList := by
  obtain ⟨g1, -, g3⟩ := split_good hs
  refine ⟨?_, ?_, ?_⟩
  · unfold procFile
    rw [h1]
    exact (rewritten hr g1 g3 hn _ _ _ (by decide) borderless_label (by decide) h2).1
  · unfold instFile
    rw [h1]
    exact (rewritten hr g1 g3 hn [] _ _ (by decide) borderless_label (by decide) h3).2
  · unfold trainIdFile
    exact (rewritten hr g1 g3 hn _ _ _ (by decide) borderless_poly (by decide) (by unfold Relative; decide)).1

/-- C53 (finding): the converter replaces `gtFine` everywhere in the path of a label file, not only in the directory it has itself added: with a
dataset root that contains the word, here `/d/gtFine`, the ground truth is written outside the root, where no evaluator looks for it. -/
theorem C53_root_rewritten :
    procFile {} "/d/gtFine/gtFine/train/a_gtFine_labelIds.png".toList = "/d/gtEval/gtEval/train/a_gtProc_edge.png".toList ∧
    ¬ "/d/gtFine".toList <+: procFile {} "/d/gtFine/gtFine/train/a_gtFine_labelIds.png".toList := by
  decide +kernel

end EdgeEval.Props
