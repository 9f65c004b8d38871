import Verif.Props.ConvertRun

/-!
# C53: a well-formed dataset is converted completely, and the evaluators find what they need
-/

namespace EdgeEval.Props

open Spec Text Evaluators Samples Datasets PathU EdgeEval.Convert

/-- The pictures of the sample `n`: a label map of at least `minRows` rows and, when instances are distinguished, an
instance map of the same size with five-digit ids. -/
def GoodSample (pics : Pictures) (a : CityArgs) (s n : Str) (minRows : Nat) : Prop :=
  ∃ L, pics.gray (sampleFile a.root "gtFine".toList s n "_gtFine_labelIds.png".toList) = some L ∧ minRows ≤ L.rows ∧
    (a.inst = true → ∃ im, pics.gray (sampleFile a.root "gtFine".toList s n "_gtFine_instanceIds.png".toList) = some im ∧
      im.rows = L.rows ∧ im.cols = L.cols ∧ ∀ i < im.rows, ∀ j < im.cols, im.at_ i j < 100000)

theorem pathExt_sample {split n : Str} (hs : split ∈ ["train".toList, "val".toList, "test".toList]) (hn : SampleName n)
    (root proc pre ext : Str) (h1 : '/' ∉ pre) (h2 : '/' ∉ ext) (h3 : '.' ∉ ext) (h4 : ∃ c ∈ pre, c ≠ '.') :
    pathExt (sampleFile root proc split n (pre ++ '.' :: ext)) = '.' :: ext := by
  obtain ⟨g1, -, g3⟩ := split_good hs
  obtain ⟨post, stem, p1, p2, p3, p4, p5⟩ := path_form g1 g3 hn
  unfold pathExt
  rw [p5, basename_slash]
  · have : stem ++ (pre ++ '.' :: ext) = (stem ++ pre) ++ '.' :: ext := by simp
    rw [this, splitext_dot _ _ h3]
    obtain ⟨c, hc, hne⟩ := h4
    exact ⟨c, by simp [hc], hne⟩
  · simp only [List.mem_append, List.mem_cons, not_or]
    exact ⟨p1, h1, by decide, h2⟩

/-- What the converter sees for a job. -/
theorem job_files {pics : Pictures} {a : CityArgs} (hr : CityRoot a.root) {s n kind : Str} {minRows : Nat}
    {radius : Int} {thin half : Bool} (hs : s ∈ ["train".toList, "val".toList]) (hn : SampleName n)
    (hg : GoodSample pics a s n minRows) (hx : a.ext = "png".toList ∨ a.ext = "tif".toList) (hk : '/' ∉ kind) :
    ∃ L I, SampleFiles pics (jobOpts a kind radius thin half)
        (sampleFile a.root "gtFine".toList s n "_gtFine_labelIds.png".toList) L I ∧ minRows ≤ L.rows ∧
      procFile (jobOpts a kind radius thin half) (sampleFile a.root "gtFine".toList s n "_gtFine_labelIds.png".toList) =
        sampleFile a.root a.procDirname s n (jobOpts a kind radius thin half).edgeSuffix ∧
      (pathExt (sampleFile a.root a.procDirname s n (jobOpts a kind radius thin half).edgeSuffix) = ".png".toList ∨
       pathExt (sampleFile a.root a.procDirname s n (jobOpts a kind radius thin half).edgeSuffix) = ".tif".toList) ∧
      pics.gray (sampleFile a.root "gtFine".toList s n "_gtFine_labelIds.png".toList) = some L ∧
      (a.inst = true → pics.gray (sampleFile a.root "gtFine".toList s n "_gtFine_instanceIds.png".toList) = I) ∧
      (a.inst = false → I = none) := by
  have hs' := annotated hs
  have hrel : Relative (jobOpts a kind radius thin half).edgeSuffix := by
    unfold Relative jobOpts; simp
  obtain ⟨f1, f2, -⟩ := C53_file_names a.root s n hr hs' hn (jobOpts a kind radius thin half) rfl hrel
    (show Relative "_gtFine_instanceIds.png".toList by unfold Relative; decide) []
  obtain ⟨L, g1, g2, g3⟩ := hg
  have hext : ∀ e : Str, a.ext = e → '/' ∉ e → '.' ∉ e →
      pathExt (sampleFile a.root a.procDirname s n (jobOpts a kind radius thin half).edgeSuffix) = '.' :: e := by
    intro e he h1 h2
    have : (jobOpts a kind radius thin half).edgeSuffix =
      ("_gtProc_".toList ++ kind ++ (if a.inst then "isedge".toList else "edge".toList)) ++ '.' :: e := by
      unfold jobOpts; rw [← he]
    rw [this]
    refine pathExt_sample hs' hn _ _ _ _ ?_ h1 h2 ⟨'_', by simp, by decide⟩
    simp only [List.mem_append, not_or]
    refine ⟨⟨by decide, hk⟩, ?_⟩
    split <;> decide
  have hext' : pathExt (sampleFile a.root a.procDirname s n (jobOpts a kind radius thin half).edgeSuffix) = ".png".toList ∨
       pathExt (sampleFile a.root a.procDirname s n (jobOpts a kind radius thin half).edgeSuffix) = ".tif".toList := by
    rcases hx with hx | hx
    · exact Or.inl (hext _ hx (by decide) (by decide))
    · exact Or.inr (hext _ hx (by decide) (by decide))
  cases hi : a.inst with
  | false =>
    refine ⟨L, none, ⟨g1, fun h => ?_, fun _ => rfl⟩, g2, f1, hext', g1, fun h => by simp_all, fun _ => rfl⟩
    change a.inst = true at h
    rw [hi] at h; cases h
  | true =>
    obtain ⟨im, i1, i2, i3, i4⟩ := g3 hi
    refine ⟨L, some im, ⟨g1, fun _ => ⟨im, rfl, by rw [f2]; exact i1, i2, i3, i4⟩, fun h => ?_⟩, g2, f1, hext', g1,
      fun _ => i1, fun h => by simp_all⟩
    change a.inst = false at h
    rw [hi] at h; cases h

theorem uniform_fuel {α : Type} {P : α → Nat → Prop} (l : List α)
    (h : ∀ x ∈ l, ∃ F, ∀ fuel, F ≤ fuel → P x fuel) : ∃ F, ∀ fuel, F ≤ fuel → ∀ x ∈ l, P x fuel := by
  induction l with
  | nil => exact ⟨0, fun _ _ x hx => by cases hx⟩
  | cons a l ih =>
    obtain ⟨F1, h1⟩ := ih fun x hx => h x (by simp [hx])
    obtain ⟨F2, h2⟩ := h a (by simp)
    refine ⟨max F1 F2, fun fuel hf x hx => ?_⟩
    rcases List.mem_cons.1 hx with rfl | hx
    · exact h2 fuel (by omega)
    · exact h1 fuel (by omega) x hx

theorem job_scale (a : CityArgs) (kind : Str) (radius : Int) (thin half : Bool) :
    (jobOpts a kind radius thin half).scale = if half then 1 / 2 else 1 := rfl

theorem roundsTo_pos {x : ℚ} {m : Nat} (h : RoundsTo x m) (hx : 1 / 2 ≤ x) : 0 < m := by
  rcases Nat.eq_zero_or_pos m with rfl | h0
  · have := h.2
    norm_num at this
    linarith
  · exact h0

theorem source_pos {scaled : Prop} {scale : ℚ} {L0 L : Img Nat} (h : Source scaled scale L0 L0 L) (hL : 0 < L0.rows ∧ 0 < L0.cols)
    (hbig : scaled → 1 / 2 ≤ L0.rows * scale ∧ 1 / 2 ≤ L0.cols * scale) : 0 < L.rows ∧ 0 < L.cols := by
  by_cases hs : scaled
  · obtain ⟨h1, h2, -⟩ := h.2 hs
    exact ⟨roundsTo_pos h1 (hbig hs).1, roundsTo_pos h2 (hbig hs).2⟩
  · rw [h.1 hs]; exact hL

theorem job_done {lib : DTLib} {pics : Pictures} (hne : NoEmptyPictures pics) {a : CityArgs} (hr : CityRoot a.root)
    {s n kind : Str} {r : Nat} {thin half : Bool} (hs : s ∈ ["train".toList, "val".toList]) (hn : SampleName n)
    (hg : GoodSample pics a s n (if half then 67 else 34)) (hx : a.ext = "png".toList ∨ a.ext = "tif".toList)
    (hk : '/' ∉ kind) (H : SoundDT lib true 0 r) (hthin : thin = true → r = 1) :
    ∃ F, ∀ fuel, F ≤ fuel → ∃ enc,
      convertLabel lib fuel pics (jobOpts a kind r thin half)
        (sampleFile a.root "gtFine".toList s n "_gtFine_labelIds.png".toList) =
        .ok (some (sampleFile a.root a.procDirname s n (jobOpts a kind r thin half).edgeSuffix, enc)) ∧
      0 < (encSize enc).1 ∧ 0 < (encSize enc).2 := by
  obtain ⟨L, I, j1, j2, j3, j4, -⟩ := job_files (kind := kind) (radius := r) (thin := thin) (half := half)
    hr hs hn hg hx hk
  have hsc := job_scale a kind r thin half
  have e1 : (jobOpts a kind r thin half).radius = r := rfl
  have e2 : (jobOpts a kind r thin half).thin = thin := rfl
  have e3 : (jobOpts a kind r thin half).sealed = true := rfl
  rw [← j3] at j4
  rw [← j3]
  revert j1 j3 j4 hsc e1 e2 e3
  generalize jobOpts a kind r thin half = o
  intro j1 j3 j4 hsc e1 e2 e3
  have hL := (hne.2 _ _ j1.label)
  have h34 : 34 ≤ L.rows := by split at j2 <;> omega
  have hbig : half = true → (67 / 2 : ℚ) ≤ L.rows * (1 / 2) ∧ (1 / 2 : ℚ) ≤ L.cols * (1 / 2) := by
    intro h
    rw [h, if_pos rfl] at j2
    have q1 : (67 : ℚ) ≤ L.rows := by exact_mod_cast j2
    have q2 : (1 : ℚ) ≤ L.cols := by exact_mod_cast hL.2
    constructor <;> linarith
  have hs0 : 0 ≤ o.scale := by rw [hsc]; cases half <;> norm_num
  have hpos : o.scale < 1 → (1 / 2 : ℚ) ≤ L.rows * o.scale ∧ (1 / 2 : ℚ) ≤ L.cols * o.scale := by
    rw [hsc]
    cases half with
    | false => intro h; norm_num at h
    | true =>
      intro _
      obtain ⟨b1, b2⟩ := hbig rfl
      rw [if_pos rfl]
      exact ⟨by linarith, b2⟩
  cases thin with
  | true =>
    obtain rfl := hthin rfl
    obtain ⟨L', _, hsrc, -, -, F, hF⟩ := C52_thin lib (by exact_mod_cast H) pics hne _ _ L I j1 j4 e1 e2 hs0 (by
      rw [hsc]
      cases half with
      | false => rw [if_neg (by simp)]; exact h34
      | true => rw [if_pos (by norm_num)]; exact hbig rfl)
    refine ⟨F, fun fuel hf => ?_⟩
    obtain ⟨enc, e1, -, e2, -⟩ := hF fuel hf
    obtain ⟨g1, g2⟩ := source_pos hsrc hL hpos
    exact ⟨enc, e1, by rw [e2]; exact ⟨g1, g2⟩⟩
  | false =>
    refine ⟨0, fun fuel _ => ?_⟩
    cases half with
    | false =>
      obtain ⟨enc, L', _, e1, -, hsrc, -, -, e2, -⟩ := C52_contents lib fuel r H pics hne _ _ L I j1 j4 e1 e2
        hs0 (Or.inl (by rw [hsc]; simp)) (by rw [hsc, if_neg (by simp)]; exact h34)
      obtain ⟨g1, g2⟩ := source_pos hsrc hL hpos
      exact ⟨enc, e1, by rw [e2]; exact ⟨g1, g2⟩⟩
    | true =>
      obtain ⟨b1, b2⟩ := hbig rfl
      obtain ⟨enc, h, w, e1, -, e2, r1, r2, -⟩ := C52_sealed lib fuel r H pics hne _ _ L I j1 j4 e1 e2
        hs0 (by rw [hsc]; norm_num) e3 h34
        (by rw [hsc, if_pos rfl]; linarith) (by rw [hsc, if_pos rfl]; exact b2)
      rw [hsc, if_pos rfl] at r1 r2
      refine ⟨enc, e1, ?_⟩
      rw [e2]
      exact ⟨roundsTo_pos r1 (by linarith), roundsTo_pos r2 b2⟩

/-- The jobs `J` of a split succeed on all its label maps, and their pictures are not empty. -/
def JobsSized (lib : DTLib) (fuel : Nat) (pics : Pictures) (a : CityArgs) (label : Str → List Str)
    (J : Str → ConvOpts → Prop) : Prop :=
  ∀ s o, J s o → ∀ n ∈ label s, ∃ enc,
    convertLabel lib fuel pics o (sampleFile a.root "gtFine".toList s n "_gtFine_labelIds.png".toList) =
      .ok (some (sampleFile a.root a.procDirname s n o.edgeSuffix, enc)) ∧ 0 < (encSize enc).1 ∧ 0 < (encSize enc).2

/-- `C53_jobs_ok` with the sizes. -/
theorem jobs_sized (lib : DTLib) (pics : Pictures) (hne : NoEmptyPictures pics)
    (a : CityArgs) (label : Str → List Str) (hr : CityRoot a.root)
    (hx : a.ext = "png".toList ∨ a.ext = "tif".toList) (hnames : ∀ s, ∀ n ∈ label s, SampleName n)
    (rt rr : Nat) (h1 : a.trainRadius = rt) (h2 : a.rawValRadius = rr) (h3 : a.thinValRadius = 1)
    (H1 : SoundDT lib true 0 rt) (H2 : SoundDT lib true 0 rr) (H3 : SoundDT lib true 0 1)
    (hgt : ∀ n ∈ label "train".toList, GoodSample pics a "train".toList n 34)
    (hgv : ∀ n ∈ label "val".toList, GoodSample pics a "val".toList n (if a.saveHalfVal then 67 else 34)) :
    ∃ F, ∀ fuel, F ≤ fuel → JobsSized lib fuel pics a label (IsJob a) := by
  have hjob : ∀ s, ∀ o ∈ splitJobs a s, ∀ n ∈ label s, ∃ F, ∀ fuel, F ≤ fuel → ∃ enc,
      convertLabel lib fuel pics o (sampleFile a.root "gtFine".toList s n "_gtFine_labelIds.png".toList) =
        .ok (some (sampleFile a.root a.procDirname s n o.edgeSuffix, enc)) ∧ 0 < (encSize enc).1 ∧ 0 < (encSize enc).2 := by
    intro s o ho n hn
    have hN := hnames s n hn
    rcases (C53_jobs a s o).1 ho with ⟨rfl, rfl⟩ | ⟨rfl, thin, half, hh, rfl⟩
    · rw [h1]
      exact job_done hne hr (by simp) hN (hgt n hn) hx (by simp) H1 (by simp)
    · have hk : ∀ thin half : Bool, '/' ∉ (if half then "half_".toList else []) ++
          (if thin then "thin_".toList else "raw_".toList) := by decide
      have hg : GoodSample pics a "val".toList n (if half then 67 else 34) := by
        obtain ⟨L, g1, g2, g3⟩ := hgv n hn
        refine ⟨L, g1, ?_, g3⟩
        split
        · next h => rw [hh h] at g2; exact g2
        · split at g2 <;> omega
      cases thin with
      | true =>
        have := hk true half
        revert this
        generalize (if half then "half_".toList else []) ++ (if true then "thin_".toList else "raw_".toList) = kind
        intro hk
        rw [if_pos rfl, h3]
        exact job_done hne hr (by simp) hN hg hx hk (r := 1) (by exact_mod_cast H3) (fun _ => rfl)
      | false =>
        have := hk false half
        revert this
        generalize (if half then "half_".toList else []) ++ (if false then "thin_".toList else "raw_".toList) = kind
        intro hk
        rw [if_neg (by simp), h2]
        exact job_done hne hr (by simp) hN hg hx hk H2 (by simp)
  have hjob2 : ∀ s, ∃ F, ∀ fuel, F ≤ fuel → ∀ o ∈ splitJobs a s, ∀ n ∈ label s, ∃ enc,
      convertLabel lib fuel pics o (sampleFile a.root "gtFine".toList s n "_gtFine_labelIds.png".toList) =
        .ok (some (sampleFile a.root a.procDirname s n o.edgeSuffix, enc)) ∧ 0 < (encSize enc).1 ∧ 0 < (encSize enc).2 := by
    intro s
    refine uniform_fuel (P := fun o fuel => ∀ n ∈ label s, ∃ enc,
      convertLabel lib fuel pics o (sampleFile a.root "gtFine".toList s n "_gtFine_labelIds.png".toList) =
        .ok (some (sampleFile a.root a.procDirname s n o.edgeSuffix, enc)) ∧ 0 < (encSize enc).1 ∧ 0 < (encSize enc).2) _ fun o ho => ?_
    exact uniform_fuel _ fun n hn => hjob s o ho n hn
  obtain ⟨F1, k1⟩ := hjob2 "train".toList
  obtain ⟨F2, k2⟩ := hjob2 "val".toList
  refine ⟨max F1 F2, fun fuel hf => ?_⟩
  intro s o ho n hn
  have ho' := (C53_jobs a s o).2 ho
  have hs := mem_jobs ho'
  simp only [List.mem_cons, List.not_mem_nil, or_false] at hs
  rcases hs with rfl | rfl
  · exact k1 fuel (by omega) o ho' n hn
  · exact k2 fuel (by omega) o ho' n hn

/-- C53: in a well-formed dataset every edge job succeeds on every label map (for all sufficiently large bounds on the
number of thinning steps). -/
theorem C53_jobs_ok (lib : DTLib) (pics : Pictures) (hne : NoEmptyPictures pics)
    (a : CityArgs) (label : Str → List Str) (hr : CityRoot a.root)
    (hx : a.ext = "png".toList ∨ a.ext = "tif".toList) (hnames : ∀ s, ∀ n ∈ label s, SampleName n)
    (rt rr : Nat) (h1 : a.trainRadius = rt) (h2 : a.rawValRadius = rr) (h3 : a.thinValRadius = 1)
    (H1 : SoundDT lib true 0 rt) (H2 : SoundDT lib true 0 rr) (H3 : SoundDT lib true 0 1)
    (hgt : ∀ n ∈ label "train".toList, GoodSample pics a "train".toList n 34)
    (hgv : ∀ n ∈ label "val".toList, GoodSample pics a "val".toList n (if a.saveHalfVal then 67 else 34)) :
    ∃ F, ∀ fuel, F ≤ fuel → JobsOk lib fuel pics a label (IsJob a) := by
  obtain ⟨F, h⟩ := jobs_sized lib pics hne a label hr hx hnames rt rr h1 h2 h3 H1 H2 H3 hgt hgv
  exact ⟨F, fun fuel hf s o ho n hn => (h fuel hf s o ho n hn).imp fun _ h => h.1⟩

/-- C53: a well-formed dataset is converted completely: the run ends (for all sufficiently large bounds on the number
of thinning steps) without an exception and has written exactly the expected files, none twice.  Needed are label
maps of at least 34 rows, and of at least 67 rows in the validation split if the half-size maps are wanted. -/
theorem C53_complete (lib : DTLib) (pics : Pictures) (hne : NoEmptyPictures pics) (tree : Str → Option Entries)
    (a : CityArgs) (poly label : Str → List Str) (hr : CityRoot a.root) (hp : a.procDirname ≠ [])
    (hx : a.ext = "png".toList ∨ a.ext = "tif".toList) (ht : CityTree tree a.root poly label)
    (rt rr : Nat) (h1 : a.trainRadius = rt) (h2 : a.rawValRadius = rr) (h3 : a.thinValRadius = 1)
    (H1 : SoundDT lib true 0 rt) (H2 : SoundDT lib true 0 rr) (H3 : SoundDT lib true 0 1)
    (hgt : ∀ n ∈ label "train".toList, GoodSample pics a "train".toList n 34)
    (hgv : ∀ n ∈ label "val".toList, GoodSample pics a "val".toList n (if a.saveHalfVal then 67 else 34)) :
    ∃ F, ∀ fuel, F ≤ fuel → ∃ t, convertCity lib fuel pics tree true a = some t ∧ t.err = none ∧
      (∀ x, x ∈ t.written ↔ Expected lib fuel pics a poly label x) ∧ (t.written.map Prod.fst).Nodup := by
  obtain ⟨F, hF⟩ := C53_jobs_ok lib pics hne a label hr hx (fun s n h => ht.names s n (Or.inr h)) rt rr h1 h2 h3 H1 H2 H3
    hgt hgv
  refine ⟨F, fun fuel hf => ?_⟩
  refine C53_run lib fuel pics tree a poly label hr hp ?_ ht (hF fuel hf)
  rcases hx with h | h <;> rw [h] <;> simp

/-- The file system shows the files a run has written: they exist, and text files can be read back. -/
def Shows (fs : Fs) (written : List (Str × Content)) : Prop :=
  ∀ x ∈ written, fs.ex x.1 = true ∧ ∀ s, x.2 = .text s → fs.read x.1 = some s

/-- C53: the paths of the converter are those of the evaluators: the evaluator of kind `k` (full or half size), thin
or raw, looks for the ground truth of a validation sample exactly where the conversion with the PNG format puts it. -/
theorem C53_paths_agree (a : CityArgs) (hext : a.ext = "png".toList) (k : Evaluators.Kind) (hk : k = .cityscapes ∨ k = .half)
    (c : Ctor) (hroot : c.datasetRoot = a.root) (hsplit : c.split = "val".toList) (hp : a.procDirname ≠ [])
    (hgt : c.gtDir = some a.procDirname ∨ (c.gtDir = none ∧ a.procDirname = "gtEval".toList)) (n : Str) :
    slashed [gtDirOf k c, gtFile k c.thin a.inst n] =
      sampleFile a.root a.procDirname "val".toList n
        (jobOpts a ((if k = .half then "half_".toList else []) ++ (if c.thin then "thin_".toList else "raw_".toList))
          (if c.thin then a.thinValRadius else a.rawValRadius) c.thin (decide (k = .half))).edgeSuffix ∧
    slashed [gtDirOf k c, segFile k n] =
      sampleFile a.root a.procDirname "val".toList n "_gtFine_labelTrainIds.png".toList := by
  have hd : gtDirOf k c = slashed [a.root, a.procDirname, "val".toList] := by
    unfold gtDirOf
    rw [if_neg (by rcases hk with rfl | rfl <;> decide), hroot, hsplit]
    rcases hgt with h | ⟨h, h'⟩
    · rw [h]; simp only [if_neg hp]
    · rw [h, h']
  rw [hd]
  have hsuf : gtFile k c.thin a.inst n = n ++ (jobOpts a ((if k = .half then "half_".toList else []) ++
      (if c.thin then "thin_".toList else "raw_".toList)) (if c.thin then a.thinValRadius else a.rawValRadius) c.thin
      (decide (k = .half))).edgeSuffix := by
    unfold gtFile jobOpts
    rw [hext]
    rcases hk with rfl | rfl
    · rw [if_neg (show ¬ (Evaluators.Kind.cityscapes = .half) by decide)]; simp
    · rw [if_pos rfl]; simp
  have hseg : segFile k n = n ++ "_gtFine_labelTrainIds.png".toList := by rcases hk with rfl | rfl <;> rfl
  rw [hsuf, hseg]
  constructor <;> simp only [sampleFile, slashed, List.append_assoc, List.cons_append]

/-- C53: after a complete conversion to PNG an evaluator of validation samples (full size, or half size if those maps
were wanted), thin or raw, that is told the same root and directory and the same `instance_sensitive`, finds all it
needs: the default split file gives it the annotated samples, and the work list of every category is complete. -/
theorem C53_evaluator_ready (lib : DTLib) (fuel : Nat) (pics : Pictures) (a : CityArgs) (poly label : Str → List Str)
    (hp : a.procDirname ≠ []) (hext : a.ext = "png".toList) (written : List (Str × Content))
    (hw : ∀ x, x ∈ written ↔ Expected lib fuel pics a poly label x)
    (hjob : JobsOk lib fuel pics a label (IsJob a))
    (hnames : ∀ n ∈ poly "val".toList, SampleName n ∧ OneLine n) (hne : poly "val".toList ≠ [])
    (hpl : ∀ n ∈ poly "val".toList, n ∈ label "val".toList)
    (fs : Fs) (hfs : Shows fs written) (e : Ev) (hk : e.kind = .cityscapes ∨ (e.kind = .half ∧ a.saveHalfVal = true))
    (hc : CtorOk e.ctor) (hroot : e.ctor.datasetRoot = a.root) (hsplit : e.ctor.split = "val".toList)
    (hgt : e.ctor.gtDir = some a.procDirname ∨ (e.ctor.gtDir = none ∧ a.procDirname = "gtEval".toList))
    (hroots : Roots fs e) (hinst : e.attrs.instanceSensitive = some a.inst) (ps : Params)
    (hps : evalParams e.kind e.ctor.thin e.attrs = .ok ps) :
    setSampleNames fs e.kind e.ctor .none none e.names = (some (poly "val".toList), none) ∧
    ∀ category : Int, 1 ≤ category → category ≤ 19 →
      categoryData fs { e with names := some (poly "val".toList) } category =
        .ok ((poly "val".toList).map (expected { e with names := some (poly "val".toList) } category a.inst ps)) := by
  have hk' : e.kind = .cityscapes ∨ e.kind = .half := hk.imp_right And.left
  have hnb : e.kind ≠ .bsds := by rcases hk' with h | h <;> rw [h] <;> decide
  have hns : ¬ (e.kind = .sbd ∨ e.kind = .reanno) := by rcases hk' with h | h <;> rw [h] <;> decide
  constructor
  · have hx := hfs (slashed [a.root, "splits".toList, "val".toList ++ ".txt".toList],
      .text (linesText ['\n'] (poly "val".toList))) ((hw _).2 (Or.inr (Or.inr ⟨_, by simp, rfl⟩)))
    have := C47_split_file fs e.kind hnb e.ctor hc.root none
      (slashed [a.root, "splits".toList, "val".toList ++ ".txt".toList]) (by simp only [if_neg hns, hroot, hsplit])
      (by rw [hsplit]; unfold Relative; decide) ['\n'] (Or.inl rfl) (poly "val".toList) (fun n hn => (hnames n hn).2)
      [] (by unfold OneLine; simp) hx.1 (by rw [hx.2 _ rfl]; simp) (Or.inl hne) e.names
    simpa using this
  · intro category h1 h2
    rw [C48_samples fs { e with names := some (poly "val".toList) } hnb
      (by rcases hk' with h | h <;> simp only [h] <;> decide) hc _ rfl (fun n hn => (hnames n hn).1.rel)]
    refine ⟨hne, hroots, h1, by simp only [if_neg hns]; exact h2, a.inst, ps, hinst, hps, ?_, rfl⟩
    intro n hn
    obtain ⟨p1, p2⟩ := C53_paths_agree a hext e.kind hk' e.ctor hroot hsplit hp hgt n
    simp only
    rw [p1, p2]
    constructor
    · have hj : IsJob a "val".toList (jobOpts a ((if e.kind = .half then "half_".toList else []) ++
          (if e.ctor.thin then "thin_".toList else "raw_".toList))
          (if e.ctor.thin then a.thinValRadius else a.rawValRadius) e.ctor.thin (decide (e.kind = .half))) := by
        refine Or.inr ⟨rfl, e.ctor.thin, decide (e.kind = .half), ?_, by simp only [decide_eq_true_eq]⟩
        intro h
        rw [decide_eq_true_eq] at h
        rcases hk with hk | hk
        · rw [hk] at h; cases h
        · exact hk.2
      obtain ⟨enc, he⟩ := hjob _ _ hj n (hpl n hn)
      exact (hfs _ ((hw _).2 (Or.inr (Or.inl ⟨_, _, hj, n, hpl n hn, enc, he, rfl⟩)))).1
    · exact (hfs _ ((hw _).2 (Or.inl ⟨_, by simp, n, hn, rfl⟩))).1

end EdgeEval.Props
