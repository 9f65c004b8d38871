import Verif.Model.BsdsFiles
import Verif.Props.MatFile
import Verif.Props.EndToEnd
import Verif.Props.Tighten6

/-!
# C82: the BSDS evaluation from the MATLAB files of the annotators
-/

namespace EdgeEval.Props

open Text Samples Datasets Evaluators EndToEnd MatFile Spec

/-- The file at `path` holds these annotations, the way BSDS stores them. -/
def AnnotationFile (env : MatEnv) (path : Str) (l : List (Img Nat)) : Prop :=
  ∃ f v, env.files path = some f ∧ HasVar f "groundTruth".toList v ∧ IsBsds v l

/-- Two pictures of the same size with the same values inside. -/
def SamePicture (a b : Img Nat) : Prop :=
  a.rows = b.rows ∧ a.cols = b.cols ∧ ∀ i < a.rows, ∀ j < a.cols, a.at_ i j = b.at_ i j

section

theorem mapM_asAnnotation : ∀ (r : List PyVal) (l : List (Img Nat)), List.Forall₂ IsArray r l →
    ∃ l', r.mapM asAnnotation = .ok l' ∧ List.Forall₂ SamePicture l' l
  | _, _, .nil => ⟨[], rfl, .nil⟩
  | _, _, .cons (a := v) (b := s) (l₁ := r) (l₂ := l) h t => by
    obtain ⟨l', h1, h2⟩ := mapM_asAnnotation r l t
    obtain ⟨g, rfl, hg⟩ := h
    refine ⟨⟨s.rows, s.cols, fun i j => (g [i, j]).toNat⟩ :: l', ?_, .cons ⟨rfl, rfl, fun i hi j hj => ?_⟩ h2⟩
    · rw [List.mapM_cons, h1]; rfl
    · show (g [i, j]).toNat = _
      rw [hg i hi j hj]; simp

theorem mat_of (env : MatEnv) (rgb : Str → Option Rgb) (gray : Str → Option (Img Nat)) (p : Str) (l : List (Img Nat))
    (h : AnnotationFile env p l) : ∃ l', (picturesOf env rgb gray).mat p = .ok l' ∧ List.Forall₂ SamePicture l' l := by
  obtain ⟨f, v, h1, h2, h3⟩ := h
  obtain ⟨r, e, hr⟩ := (C80_bsds env p f v l h1 h2 h3).1
  obtain ⟨l', e', hl⟩ := mapM_asAnnotation r l hr
  refine ⟨l', ?_, hl⟩
  show (do let l ← bsdsBoundaries env p false; l.mapM asAnnotation) = _
  rw [e]; exact e'

theorem mat_error (env : MatEnv) (rgb : Str → Option Rgb) (gray : Str → Option (Img Nat)) (p : Str) (e : PyErr)
    (h : bsdsBoundaries env p false = .error e) : (picturesOf env rgb gray).mat p = .error e := by
  show (do let l ← bsdsBoundaries env p false; l.mapM asAnnotation) = _
  rw [h]; rfl

theorem same_count {l' l : List (Img Nat)} (h : List.Forall₂ SamePicture l' l) :
    (l'.map fun g => ((Finset.range g.rows ×ˢ Finset.range g.cols).filter fun q => g.at_ q.1 q.2 = 1).card).sum =
    (l.map fun g => ((Finset.range g.rows ×ˢ Finset.range g.cols).filter fun q => g.at_ q.1 q.2 = 1).card).sum := by
  induction h with
  | nil => rfl
  | cons a _ ih =>
    obtain ⟨h1, h2, h3⟩ := a
    simp only [List.map_cons, List.sum_cons, ih]
    congr 2
    rw [← h1, ← h2]
    apply Finset.filter_congr
    intro q hq
    rw [Finset.mem_product, Finset.mem_range, Finset.mem_range] at hq
    rw [h3 _ hq.1 _ hq.2]

end

/-- C82: the BSDS evaluation from MATLAB files to scores.  When every sample has its prediction and its annotation file, all
annotations have the size of the prediction and are binary, there is one table of sound scores, whatever the workers'
schedules: recall at a threshold is the matched fraction of the boundary pixels all annotators stored, precision
(without NMS and thinning) the matched fraction of the responses reaching it. -/
theorem C82_scores (fs : Fs) (menv : MatEnv) (rgb : Str → Option Rgb) (gray : Str → Option (Img Nat)) (env : Env)
    (henv : env.pics = picturesOf menv rgb gray) (e : Ev) (hk : e.kind = .bsds) (hroot : DirArg e.ctor.datasetRoot)
    (hpred : DirArg e.ctor.predRoot) (names : List Str) (hn : e.names = some names) (hne0 : names ≠ [])
    (hrel : ∀ n ∈ names, Relative n)
    (hdirs : fs.ex e.ctor.datasetRoot = true ∧ fs.ex (slashed [e.ctor.datasetRoot, "groundTruth".toList]) = true ∧
      fs.ex e.ctor.predRoot = true)
    (ps : Params) (hps : evalParams .bsds e.ctor.thin e.attrs = .ok ps) (hd : 0 < ps.maxDist)
    (hex : ∀ n ∈ names, fs.ex (slashed [e.ctor.datasetRoot, "groundTruth".toList, n ++ ".mat".toList]) = true ∧
      fs.ex (slashed [e.ctor.predRoot, n ++ ".png".toList]) = true)
    (arg : ThresholdArg) (ths : List ℚ) (hth : checkThresholds arg = .ok ths) (hne : ths ≠ [])
    (hpics : NoEmptyPictures env.pics) (hnms : KeepsShape env.nms)
    (rnd : Nat → Nat → Nat → Nat → ℚ) (hrnd : ∀ i, UnitStreams (rnd i)) (P : Str → Img Nat) (G : Str → List (Img Nat))
    (hfiles : ∀ n ∈ names, gray (slashed [e.ctor.predRoot, n ++ ".png".toList]) = some (P n) ∧
      AnnotationFile menv (slashed [e.ctor.datasetRoot, "groundTruth".toList, n ++ ".mat".toList]) (G n) ∧
      ∀ g ∈ G n, g.rows = (P n).rows ∧ g.cols = (P n).cols ∧
        ∀ i j, i < g.rows → j < g.cols → g.at_ i j = 0 ∨ g.at_ i j = 1)
    (save : Bool) :
    ∃ (out : Outcome) (F : Nat),
      (∀ fuel, F ≤ fuel → ∀ nproc sched,
        (∀ o', evaluateBsds fs { env with fuel := fuel } e arg nproc save false rnd sched = some o' → o' = .ok out) ∧
        ((∀ i < names.length, .complete i ∈ sched) → ∃ k, evaluateBsds fs { env with fuel := fuel } e arg nproc save false
          rnd (sched ++ List.replicate k .next) = some (.ok out))) ∧
      GoodScores (names.map String.ofList) ths out.samples out.table out.overall ∧
      out.returned = overallDict out.overall ∧ SavedFiles save [] out ∧
      ∀ k < ths.length, ∃ row, out.table[k]? = some row ∧ row.threshold = ths.getD k 0 ∧
        (let E := ((List.range names.length).map fun (i : Nat) => ((((G (names.getD i [])).map fun g =>
            ((Finset.range g.rows ×ˢ Finset.range g.cols).filter fun q => g.at_ q.1 q.2 = 1).card).sum : Nat) : ℚ)).sum
         ∃ m, 0 ≤ m ∧ m ≤ E ∧ row.recall = if E = 0 then 0 else m / E) ∧
        (ps.nms = false → ps.thinning = false →
          let R := ((List.range names.length).map fun (i : Nat) =>
            (((Finset.range (P (names.getD i [])).rows ×ˢ Finset.range (P (names.getD i [])).cols).filter fun q =>
                ths.getD k 0 ≤ ((P (names.getD i [])).at_ q.1 q.2 : ℚ) / 255).card : ℚ)).sum
          ∃ m, 0 ≤ m ∧ m ≤ R ∧ row.precision = if R = 0 then 0 else m / R) := by
  have hone : ∀ n, ∃ l', n ∈ names → env.pics.mat (slashed [e.ctor.datasetRoot, "groundTruth".toList, n ++ ".mat".toList]) = .ok l' ∧
      List.Forall₂ SamePicture l' (G n) := by
    intro n
    by_cases h : n ∈ names
    · obtain ⟨l', h'⟩ := mat_of menv rgb gray _ _ (hfiles n h).2.1
      exact ⟨l', fun _ => by rw [henv]; exact h'⟩
    · exact ⟨[], fun h' => absurd h' h⟩
  choose G' hG' using hone
  have hmem : ∀ n, ∀ g ∈ G' n, n ∈ names → ∃ g0 ∈ G n, SamePicture g g0 := by
    intro n g hg h
    obtain ⟨i, hi, rfl⟩ := List.getElem_of_mem hg
    have hf := (hG' n h).2
    have hl := hf.length_eq
    exact ⟨(G n)[i]'(hl ▸ hi), List.getElem_mem _, (List.forall₂_iff_get.1 hf).2 i hi (hl ▸ hi)⟩
  obtain ⟨out, F, h1, h2, h3, h4, h5⟩ := C50_bsds fs env e hk hroot hpred names hn hne0 hrel hdirs ps hps hd hex arg ths hth hne hpics hnms
    rnd hrnd P G' (fun n h => ⟨by rw [henv]; exact (hfiles n h).1, (hG' n h).1, fun g hg => by
      obtain ⟨g0, m0, s1, s2, s3⟩ := hmem n g hg h
      obtain ⟨a, b, c⟩ := (hfiles n h).2.2 g0 m0
      exact ⟨s1.trans a, s2.trans b, fun i j hi hj => by rw [s3 i hi j hj]; exact c i j (s1 ▸ hi) (s2 ▸ hj)⟩⟩) save
  refine ⟨out, F, h1, h2, h3, h4, fun k hk => ?_⟩
  obtain ⟨row, r1, r2, r3, r4⟩ := h5 k hk
  refine ⟨row, r1, r2, ?_, r4⟩
  have hE : ((List.range names.length).map fun (i : Nat) => ((((G' (names.getD i [])).map fun g =>
            ((Finset.range g.rows ×ˢ Finset.range g.cols).filter fun q => g.at_ q.1 q.2 = 1).card).sum : Nat) : ℚ)) =
      ((List.range names.length).map fun (i : Nat) => ((((G (names.getD i [])).map fun g =>
            ((Finset.range g.rows ×ˢ Finset.range g.cols).filter fun q => g.at_ q.1 q.2 = 1).card).sum : Nat) : ℚ)) := by
    apply List.map_congr_left
    intro i hi
    have hi := List.mem_range.1 hi
    have hm : names.getD i [] ∈ names := by
      simp only [List.getD_eq_getElem?_getD, List.getElem?_eq_getElem hi, Option.getD_some]
      exact List.getElem_mem hi
    rw [same_count (hG' _ hm).2]
  rw [← hE]
  exact r3

section

theorem calc_error {S : Type} (ev : S → Except PyErr Counts) (name : S → String) (arg : ThresholdArg) (l : List S) (nproc : Nat)
    (sched : List PoolEvent) (out) (h : calculateMetrics ev name arg l nproc sched = some out) (er : PyErr)
    (he : l.mapM ev = .error er) : out = .error er := by
  have hseq := C06_calculate_metrics_parallel _ _ _ _ _ _ _ h
  unfold calculateMetrics at hseq
  have hs1 : sampleMetrics ev l 1 [] = some (l.mapM ev) := by
    simp only [sampleMetrics, gt_iff_lt, lt_irrefl, if_false, trackProgress, TaskArg.resolve, bind, Except.bind]
    rw [trackLoop_spec _ _ _ _ (by simp [Bar.mk'])]
    cases l.mapM ev <;> simp [Except.map]
  rw [hs1, he] at hseq
  simp only [Option.map_some, bind, Except.bind, Option.some.injEq] at hseq
  exact hseq.symm

theorem mapM_first_error {S T : Type} (ev : S → Except PyErr T) (er : PyErr) (x : S) (hx : ev x = .error er) (post : List S) :
    ∀ (pre : List S), (∀ s ∈ pre, ∃ y, ev s = .ok y) → (pre ++ x :: post).mapM ev = .error er
  | [], _ => by rw [List.nil_append, List.mapM_cons, hx]; rfl
  | a :: as, h => by
    obtain ⟨y, hy⟩ := h a List.mem_cons_self
    rw [List.cons_append, List.mapM_cons, hy]
    show (do let ys ← (as ++ x :: post).mapM ev; pure (y :: ys)) = _
    rw [mapM_first_error ev er x hx post as fun s hs => h s (List.mem_cons_of_mem _ hs)]
    rfl

theorem exists_bound {α : Type} (Q : α → Nat → Prop) : ∀ (l : List α), (∀ x ∈ l, ∃ F, ∀ fuel, F ≤ fuel → Q x fuel) →
    ∃ F, ∀ x ∈ l, ∀ fuel, F ≤ fuel → Q x fuel
  | [], _ => ⟨0, fun _ h => absurd h List.not_mem_nil⟩
  | a :: l, h => by
    obtain ⟨F1, h1⟩ := h a List.mem_cons_self
    obtain ⟨F2, h2⟩ := exists_bound Q l fun x hx => h x (List.mem_cons_of_mem _ hx)
    refine ⟨max F1 F2, fun x hx fuel hf => ?_⟩
    rcases List.mem_cons.1 hx with rfl | hx
    · exact h1 fuel ((le_max_left _ _).trans hf)
    · exact h2 x hx fuel ((le_max_right _ _).trans hf)

end

/-- C82: an annotation file that is there but cannot be read (no `groundTruth`, no `Boundaries`, …) stops the evaluation: when
the samples before it are in order, every run, whatever the workers' schedule, ends in the exception of the reader, and
nothing is returned or saved. -/
theorem C82_unreadable (fs : Fs) (menv : MatEnv) (rgb : Str → Option Rgb) (gray : Str → Option (Img Nat)) (env : Env)
    (henv : env.pics = picturesOf menv rgb gray) (e : Ev) (hk : e.kind = .bsds) (hroot : DirArg e.ctor.datasetRoot)
    (hpred : DirArg e.ctor.predRoot) (pre : List Str) (bad : Str) (post : List Str) (hn : e.names = some (pre ++ bad :: post))
    (hrel : ∀ n ∈ pre ++ bad :: post, Relative n)
    (hdirs : fs.ex e.ctor.datasetRoot = true ∧ fs.ex (slashed [e.ctor.datasetRoot, "groundTruth".toList]) = true ∧
      fs.ex e.ctor.predRoot = true)
    (ps : Params) (hps : evalParams .bsds e.ctor.thin e.attrs = .ok ps) (hd : 0 < ps.maxDist)
    (hex : ∀ n ∈ pre ++ bad :: post, fs.ex (slashed [e.ctor.datasetRoot, "groundTruth".toList, n ++ ".mat".toList]) = true ∧
      fs.ex (slashed [e.ctor.predRoot, n ++ ".png".toList]) = true)
    (arg : ThresholdArg) (ths : List ℚ) (hth : checkThresholds arg = .ok ths)
    (hpics : NoEmptyPictures env.pics) (hnms : KeepsShape env.nms)
    (rnd : Nat → Nat → Nat → Nat → ℚ) (hrnd : ∀ i, UnitStreams (rnd i)) (P : Str → Img Nat) (G : Str → List (Img Nat))
    (hfiles : ∀ n ∈ pre, gray (slashed [e.ctor.predRoot, n ++ ".png".toList]) = some (P n) ∧
      AnnotationFile menv (slashed [e.ctor.datasetRoot, "groundTruth".toList, n ++ ".mat".toList]) (G n) ∧
      ∀ g ∈ G n, g.rows = (P n).rows ∧ g.cols = (P n).cols ∧
        ∀ i j, i < g.rows → j < g.cols → g.at_ i j = 0 ∨ g.at_ i j = 1)
    (hbad : (gray (slashed [e.ctor.predRoot, bad ++ ".png".toList])).isSome) (er : PyErr)
    (herr : bsdsBoundaries menv (slashed [e.ctor.datasetRoot, "groundTruth".toList, bad ++ ".mat".toList]) false = .error er)
    (save : Bool) :
    ∃ F, ∀ fuel, F ≤ fuel → ∀ nproc sched,
        (∀ o', evaluateBsds fs { env with fuel := fuel } e arg nproc save false rnd sched = some o' → o' = .error er) ∧
        ((∀ i < (pre ++ bad :: post).length, .complete i ∈ sched) → ∃ k, evaluateBsds fs { env with fuel := fuel } e arg nproc
          save false rnd (sched ++ List.replicate k .next) = some (.error er)) := by
  set mk : Str → Sample := fun n =>
    { name := n, category := 0
      edgePath := some (slashed [e.ctor.datasetRoot, "groundTruth".toList, n ++ ".mat".toList])
      segPath := none, instPath := none
      predPath := slashed [e.ctor.predRoot, n ++ ".png".toList], params := ps } with hmk
  have hdata : bsdsData fs e false = .ok ((pre ++ bad :: post).map mk) := by
    rw [C48_bsds_samples fs e hk hroot hpred _ hn hrel]
    exact ⟨by simp, hdirs.1, hdirs.2.1, hdirs.2.2, ps, hps, hex, rfl⟩
  have hgood : ∀ x ∈ numbered (pre.map mk), ∃ F, ∀ fuel, F ≤ fuel →
      ∃ y, single { env with fuel := fuel } e.kind arg rnd x = .ok y := by
    intro x hx
    obtain ⟨⟨s, i⟩, hs, rfl⟩ := List.mem_map.1 hx
    have hs' := List.fst_mem_of_mem_zipIdx hs
    obtain ⟨n, hn', rfl⟩ := List.mem_map.1 hs'
    obtain ⟨f1, f2, f3⟩ := hfiles n hn'
    obtain ⟨l', e1, e2⟩ := mat_of menv rgb gray _ _ f2
    have hmem : ∀ g ∈ l', ∃ g0 ∈ G n, SamePicture g g0 := by
      intro g hg
      obtain ⟨i, hi, rfl⟩ := List.getElem_of_mem hg
      have hl := e2.length_eq
      exact ⟨(G n)[i]'(hl ▸ hi), List.getElem_mem _, (List.forall₂_iff_get.1 e2).2 i hi (hl ▸ hi)⟩
    obtain ⟨F, rows, g1, -, -⟩ := C49_bsds_single env hpics hnms arg ths hth (rnd i) (hrnd i) (mk n) _
      rfl hd (P n) l' (by rw [henv]; exact f1) (by rw [henv]; exact e1)
      (fun g hg => by
        obtain ⟨g0, m0, s1, s2, s3⟩ := hmem g hg
        exact ⟨s1.trans (f3 g0 m0).1, s2.trans (f3 g0 m0).2.1⟩)
      (fun g hg i j hi hj => by
        obtain ⟨g0, m0, s1, s2, s3⟩ := hmem g hg
        rw [s3 i hi j hj]; exact (f3 g0 m0).2.2 i j (s1 ▸ hi) (s2 ▸ hj))
    refine ⟨F, fun fuel hf => ⟨toCounts rows, ?_⟩⟩
    have h6 : bsdsSingle { env with fuel := fuel } arg (mk n) (rnd i) = .ok (some rows) := g1 fuel hf ps.scale
    unfold single
    simp only [hk, if_true, h6]
  obtain ⟨F, hF⟩ := exists_bound (fun x fuel => ∃ y, single { env with fuel := fuel } e.kind arg rnd x = .ok y) _ hgood
  have hnum : numbered ((pre ++ bad :: post).map mk) =
      numbered (pre.map mk) ++ (pre.length, mk bad) :: ((post.map mk).zipIdx (pre.length + 1)).map fun x => (x.2, x.1) := by
    unfold numbered
    rw [List.map_append, List.map_cons, List.zipIdx_append, List.map_append, List.zipIdx_cons, List.map_cons]
    simp
  have herror : ∀ fuel, F ≤ fuel → (numbered ((pre ++ bad :: post).map mk)).mapM (single { env with fuel := fuel } e.kind arg rnd) =
      .error er := by
    intro fuel hf
    rw [hnum]
    refine mapM_first_error _ er _ ?_ _ _ fun x hx => hF x hx fuel hf
    have h6 : bsdsSingle { env with fuel := fuel } arg (mk bad) (rnd pre.length) = .error er :=
      ((C49_bsds_missing { env with fuel := fuel } arg ths hth (mk bad) _ rfl (rnd pre.length) er).2
        (by show (env.pics.gray _).isSome = true; rw [henv]; exact hbad)
        (by show env.pics.mat _ = _; rw [henv]; exact mat_error menv rgb gray _ _ herr)).1
    unfold single
    simp only [hk, if_true, h6]
  refine ⟨F, fun fuel hf nproc sched => ?_⟩
  have hrun : ∀ sched out, calculateMetrics (single { env with fuel := fuel } e.kind arg rnd) (fun x => String.ofList x.2.name) arg
      (numbered ((pre ++ bad :: post).map mk)) nproc sched = some out →
      evaluateBsds fs { env with fuel := fuel } e arg nproc save false rnd sched = some (.error er) := by
    intro sched out h
    have := calc_error _ _ _ _ _ _ _ h er (herror fuel hf)
    unfold evaluateBsds
    rw [hdata]
    simp only [h, this, Option.map_some]
  constructor
  · intro o' h
    have h' := h
    unfold evaluateBsds at h'
    rw [hdata] at h'
    obtain ⟨y, hy, -⟩ := Option.map_eq_some_iff.1 h'
    rw [hrun sched y hy] at h
    exact (Option.some.inj h).symm
  · intro hc
    obtain ⟨k, out, h⟩ := C06_calculate_metrics_total (single { env with fuel := fuel } e.kind arg rnd)
      (fun x => String.ofList x.2.name) arg (numbered ((pre ++ bad :: post).map mk)) nproc sched
      (by intro i hi; exact hc i (by simpa [numbered] using hi))
    exact ⟨k, hrun _ _ h⟩

/-! ## Concrete cases -/

/-- Two annotators of a 2×2 picture. -/
def exBsdsMat : MatEnv := ⟨fun p => if p = "data/groundTruth/val/1.mat".toList then some (exBsdsFile 2) else
  if p = "data/groundTruth/val/2.mat".toList then some ⟨[], fun _ => .char []⟩ else none, false⟩

theorem exBsdsMat_ok : AnnotationFile exBsdsMat "data/groundTruth/val/1.mat".toList [exBsdsImg 0, exBsdsImg 1] :=
  ⟨exBsdsFile 2, _, rfl, ⟨by decide, rfl⟩, exBsds_ok 2 (Or.inr rfl)⟩

def exBsdsFilePics : Pictures := picturesOf exBsdsMat (fun _ => none) fun _ => some ⟨2, 2, fun i _ => 100 * i⟩

theorem exBsdsFilePics_ok : NoEmptyPictures exBsdsFilePics := by
  constructor
  · intro p E h; cases h
  · intro p P h; cases h; exact ⟨by decide, by decide⟩

theorem exBsds_binary : ∀ g ∈ [exBsdsImg 0, exBsdsImg 1], g.rows = 2 ∧ g.cols = 2 ∧
    ∀ i j, i < g.rows → j < g.cols → g.at_ i j = 0 ∨ g.at_ i j = 1 := by
  intro g hg
  simp only [List.mem_cons, List.not_mem_nil, or_false] at hg
  rcases hg with rfl | rfl <;> refine ⟨rfl, rfl, fun i j _ _ => ?_⟩ <;> simp only [exBsdsImg] <;> split <;> simp

/-- The annotators marked one and two pixels: recall is a number of thirds. -/
example : ∃ (out : Outcome) (fuel : Nat) (sched : List PoolEvent),
    evaluateBsds ⟨fun _ => true, fun _ => none, fun _ => none⟩ ⟨exBsdsFilePics, refLib 1, id, fun _ _ => 0, fuel⟩ exEvBsds
      (.list [1 / 2]) 2 true false (fun _ _ _ _ => 1 / 2) sched = some (.ok out) ∧ out.writes.length = 3 ∧
    ∃ row m, out.table[0]? = some row ∧ row.recall = m / 3 := by
  obtain ⟨out, F, h, -, -, g, r⟩ := C82_scores ⟨fun _ => true, fun _ => none, fun _ => none⟩ exBsdsMat (fun _ => none)
    (fun _ => some ⟨2, 2, fun i _ => 100 * i⟩)
    ⟨exBsdsFilePics, refLib 1, id, fun _ _ => 0, 0⟩ rfl exEvBsds rfl (by unfold DirArg; decide) (by unfold DirArg; decide)
    ["val/1".toList] rfl (by simp) (by unfold Relative; decide) ⟨rfl, rfl, rfl⟩
    ⟨1, false, false, 2 / 100, none, none, none⟩ rfl (by norm_num) (fun _ _ => ⟨rfl, rfl⟩) (.list [1 / 2]) [1 / 2]
    (by decide +kernel) (by simp) exBsdsFilePics_ok (fun _ => ⟨rfl, rfl⟩) (fun _ _ _ _ => 1 / 2) (fun _ _ _ _ => by norm_num)
    (fun _ => ⟨2, 2, fun i _ => 100 * i⟩) (fun _ => [exBsdsImg 0, exBsdsImg 1])
    (by
      intro n hn
      obtain rfl := List.mem_singleton.1 hn
      exact ⟨rfl, exBsdsMat_ok, exBsds_binary⟩) true
  obtain ⟨k, hk⟩ := (h F le_rfl 2 [.complete 0]).2 (by
    intro j hj
    simp at hj
    simp [hj])
  obtain ⟨row, r1, -, r2, -⟩ := r 0 (by simp)
  refine ⟨out, F, _, hk, by rw [g.2 rfl]; rfl, row, ?_⟩
  obtain ⟨m, -, -, r3⟩ := r2
  have hE : ((List.range ["val/1".toList].length).map fun (i : Nat) => (((([exBsdsImg 0, exBsdsImg 1]).map fun g =>
            ((Finset.range g.rows ×ˢ Finset.range g.cols).filter fun q => g.at_ q.1 q.2 = 1).card).sum : Nat) : ℚ)).sum = 3 := by
    have : (([exBsdsImg 0, exBsdsImg 1]).map fun g =>
            ((Finset.range g.rows ×ˢ Finset.range g.cols).filter fun q => g.at_ q.1 q.2 = 1).card).sum = 3 := by decide +kernel
    rw [this]
    norm_num
  rw [hE, if_neg (by norm_num)] at r3
  exact ⟨m, r1, r3⟩

/-- The second annotation file has no variable at all: `KeyError`, after the first sample was evaluated. -/
example : ∃ (fuel : Nat) (sched : List PoolEvent),
    evaluateBsds ⟨fun _ => true, fun _ => none, fun _ => none⟩ ⟨exBsdsFilePics, refLib 1, id, fun _ _ => 0, fuel⟩
      { exEvBsds with names := some ["val/1".toList, "val/2".toList] }
      (.list [1 / 2]) 2 true false (fun _ _ _ _ => 1 / 2) sched = some (.error .keyError) := by
  obtain ⟨F, h⟩ := C82_unreadable ⟨fun _ => true, fun _ => none, fun _ => none⟩ exBsdsMat (fun _ => none)
    (fun _ => some ⟨2, 2, fun i _ => 100 * i⟩)
    ⟨exBsdsFilePics, refLib 1, id, fun _ _ => 0, 0⟩ rfl { exEvBsds with names := some ["val/1".toList, "val/2".toList] }
    rfl (by unfold DirArg; decide) (by unfold DirArg; decide)
    ["val/1".toList] "val/2".toList [] rfl (by unfold Relative; decide) ⟨rfl, rfl, rfl⟩
    ⟨1, false, false, 2 / 100, none, none, none⟩ rfl (by norm_num) (fun _ _ => ⟨rfl, rfl⟩) (.list [1 / 2]) [1 / 2]
    (by decide +kernel) exBsdsFilePics_ok (fun _ => ⟨rfl, rfl⟩) (fun _ _ _ _ => 1 / 2) (fun _ _ _ _ => by norm_num)
    (fun _ => ⟨2, 2, fun i _ => 100 * i⟩) (fun _ => [exBsdsImg 0, exBsdsImg 1])
    (by
      intro n hn
      obtain rfl := List.mem_singleton.1 hn
      exact ⟨rfl, exBsdsMat_ok, exBsds_binary⟩) rfl .keyError (by rfl) true
  obtain ⟨k, hk⟩ := (h F le_rfl 2 [.complete 0, .complete 1]).2 (by
    intro j hj
    have : j < 2 := hj
    interval_cases j <;> simp)
  exact ⟨F, _, hk⟩

end EdgeEval.Props
