import Verif.Model.EndToEnd
import Verif.Spec.EndToEnd
import Verif.Props.Otf
import Verif.Props.Progress
import Verif.Props.Metrics
import Verif.Props.Evaluators

/-!
# C50: the evaluation of a category, end to end
-/

namespace EdgeEval.Props

open Spec Text Evaluators Samples Datasets EndToEnd

theorem calc_good {arg : ThresholdArg} {ss : List (String × Counts)} {r : List SampleResult}
    {t : List ThresholdResult} {o : OverallResult} {th : List ℚ}
    (h : calculateFromCounts arg ss = .ok (r, t, o)) (hth : checkThresholds arg = .ok th)
    (hs : ∀ s ∈ ss, Spec.Sane th.length s.2) : GoodScores (ss.map Prod.fst) th r t o := by
  obtain ⟨best, b1, b2, -, -, b5, b6, b7, b8⟩ := C07_ois h hth hs
  obtain ⟨a1, a2, a3, a4, a5, a6⟩ := C04_ods_of_run h hth hs
  obtain ⟨t1, t2⟩ := C05_table_pools_counts h hth
  have hrange := rows_range h hth hs
  have hrow : ∀ x ∈ t, x.f1 = f1 x.precision x.recall := by
    intro x hx
    obtain ⟨k, hk, rfl⟩ := List.getElem_of_mem hx
    obtain ⟨y, y1, -, -, -, y5⟩ := t2 k (by omega)
    rw [List.getElem?_eq_getElem hk] at y1
    cases y1
    exact y5
  refine ⟨?_, ?_, ?_, ?_, ⟨a4, a5, a3, a2⟩, a1, a6, ⟨b6, b7, b8, b5⟩, C09_auc_bounds h hth hs, ?_⟩
  · rw [b2, List.map_map]; rfl
  · apply List.ext_getElem
    · rw [List.length_map, t1]
    · intro k h1 h2
      obtain ⟨y, y1, y2, -⟩ := t2 k h2
      rw [List.getElem?_eq_getElem (by omega)] at y1
      cases y1
      rw [List.getElem_map, y2]
      simp [h2]
  · intro s hs'
    rw [b2] at hs'
    obtain ⟨x, hx, rfl⟩ := List.mem_map.1 hs'
    have hsx := hs x hx
    have hb := (b1 x hx).1
    have r0 : 0 ≤ recAt x.2 (best x.2) := recall_nonneg (hsx.r (best x.2)).1 (hsx.r (best x.2)).2
    have r1 : recAt x.2 (best x.2) ≤ 1 := recall_le_one (hsx.r (best x.2)).1 (hsx.r (best x.2)).2
    have p0 : 0 ≤ precAt x.2 (best x.2) := recall_nonneg (hsx.p (best x.2)).1 (hsx.p (best x.2)).2
    have p1 : precAt x.2 (best x.2) ≤ 1 := recall_le_one (hsx.p (best x.2)).1 (hsx.p (best x.2)).2
    refine ⟨?_, ⟨r0, r1⟩, ⟨p0, p1⟩, ?_, rfl⟩
    · simp only [List.getD_eq_getElem?_getD, List.getElem?_eq_getElem hb, Option.getD_some]
      exact List.getElem_mem hb
    · show Unit01 (Spec.harmonic _ _)
      rw [← f1_harmonic p0 r0]
      exact ⟨f1_nonneg p0 r0, f1_le_one ⟨p0, p1⟩ ⟨r0, r1⟩⟩
  · intro x hx
    obtain ⟨q1, q2⟩ := hrange x hx
    refine ⟨q1, q2, ?_, ?_⟩
    · rw [hrow x hx]; exact ⟨f1_nonneg q2.1 q1.1, f1_le_one q2 q1⟩
    · rw [hrow x hx]; exact f1_harmonic q2.1 q1.1
  · obtain ⟨c1, c2⟩ := C08_ap_bounds h hth hs
    exact ⟨c1, c2.trans (by norm_num)⟩

/-- Any pool run of successful evaluations ends with the scores of the pooled counts. -/
theorem pipeline {S : Type} (ev : S → Except PyErr Counts) (name : S → String) (arg : ThresholdArg) (ths : List ℚ)
    (hth : checkThresholds arg = .ok ths) (hne : ths ≠ []) (samples : List S) (cs : S → Counts)
    (hev : ∀ s ∈ samples, ev s = .ok (cs s) ∧ Spec.Sane ths.length (cs s)) :
    ∃ r t o, calculateFromCounts arg (samples.map fun s => (name s, cs s)) = .ok (r, t, o) ∧
      GoodScores (samples.map name) ths r t o ∧
      ∀ nproc sched, (∀ out, calculateMetrics ev name arg samples nproc sched = some out → out = .ok (r, t, o)) ∧
        ((∀ i < samples.length, .complete i ∈ sched) → ∃ k, calculateMetrics ev name arg samples nproc
          (sched ++ List.replicate k .next) = some (.ok (r, t, o))) := by
  have hsane : ∀ s ∈ samples.map fun s => (name s, cs s), Spec.Sane ths.length s.2 := by
    intro s hs
    obtain ⟨x, hx, rfl⟩ := List.mem_map.1 hs
    exact (hev x hx).2
  obtain ⟨⟨r, t, o⟩, hx⟩ := (C05_success_iff arg (samples.map fun s => (name s, cs s))).2 ⟨ths, hth, hne, fun s hs =>
    ⟨(hsane s hs).lenCR, (hsane s hs).lenSR, (hsane s hs).lenCP, (hsane s hs).lenSP⟩⟩
  have hmap : samples.mapM ev = .ok (samples.map cs) := by
    clear hx hsane
    induction samples with
    | nil => rfl
    | cons a as ih =>
      rw [List.mapM_cons, (hev a (by simp)).1, ih fun s hs => hev s (by simp [hs])]
      rfl
  have hseq : calculateMetrics ev name arg samples 1 [] = some (.ok (r, t, o)) := by
    unfold calculateMetrics
    have : sampleMetrics ev samples 1 [] = some (samples.mapM ev) := by
      simp only [sampleMetrics, gt_iff_lt, lt_irrefl, if_false, trackProgress, TaskArg.resolve, bind,
        Except.bind]
      rw [trackLoop_spec _ _ _ _ (by simp [Bar.mk'])]
      cases samples.mapM ev <;> simp [Except.map]
    rw [this, hmap]
    simp only [Option.map_some, bind, Except.bind]
    rw [← hx]
    congr 2
    apply List.ext_getElem (by simp)
    intro i h1 h2
    simp
  refine ⟨r, t, o, hx, ?_, ?_⟩
  · have := calc_good hx hth hsane
    rw [List.map_map] at this
    exact this
  · intro nproc sched
    have huniq : ∀ sched out, calculateMetrics ev name arg samples nproc sched = some out → out = .ok (r, t, o) := by
      intro sched out h
      have := C06_calculate_metrics_parallel ev name arg samples nproc sched out h
      rw [hseq] at this
      exact (Option.some.inj this).symm
    refine ⟨huniq sched, fun hall => ?_⟩
    obtain ⟨k, out, hk⟩ := C06_calculate_metrics_total ev name arg samples nproc sched hall
    exact ⟨k, by rw [hk, huniq _ _ hk]⟩

theorem numbered_map {α : Type} (names : List α) (d : α) (f : α → Sample) :
    numbered (names.map f) = (List.range names.length).map fun (i : Nat) => (i, f (names.getD i d)) := by
  unfold numbered
  apply List.ext_getElem
  · simp
  · intro i h1 h2
    have : i < names.length := by simpa using h2
    simp [this]

/-- The three files written for a category (none unless saving was asked for). -/
def SavedFiles (save : Bool) (dir : Str) (out : Outcome) : Prop :=
  (save = false → out.writes = []) ∧
  (save = true → out.writes = [⟨dir, "eval_bdry_img.txt", Io.sampleFile out.samples⟩,
    ⟨dir, "eval_bdry_thr.txt", Io.thresholdFile out.table⟩, ⟨dir, "eval_bdry.txt", Io.overallFile out.overall⟩])

theorem toCounts_sumR (rows : List Row) (k : Nat) : (toCounts rows).sumR.getD k 0 = (rowAt rows k).sumR := by
  unfold toCounts rowAt
  simp only [List.getD_eq_getElem?_getD, List.getElem?_map]
  cases rows[k]? <;> rfl

theorem toCounts_sumP (rows : List Row) (k : Nat) : (toCounts rows).sumP.getD k 0 = (rowAt rows k).sumP := by
  unfold toCounts rowAt
  simp only [List.getD_eq_getElem?_getD, List.getElem?_map]
  cases rows[k]? <;> rfl

theorem recall_pooled {n : Nat} {cr sr : Nat → ℚ} (h : ∀ i, i < n → 0 ≤ cr i ∧ cr i ≤ sr i) :
    let R := ((List.range n).map sr).sum
    ∃ m, 0 ≤ m ∧ m ≤ R ∧ recall ((List.range n).map cr).sum R = if R = 0 then 0 else m / R := by
  intro R
  have h0 : 0 ≤ ((List.range n).map cr).sum := by
    apply List.sum_nonneg
    intro x hx
    obtain ⟨i, hi, rfl⟩ := List.mem_map.1 hx
    exact (h i (List.mem_range.1 hi)).1
  have h1 : ((List.range n).map cr).sum ≤ R :=
    sum_map_le fun i hi => (h i (List.mem_range.1 hi)).2
  refine ⟨_, h0, h1, ?_⟩
  split
  · rename_i hR
    rw [hR, recall_zero]
    rw [hR] at h1
    linarith
  · rename_i hR
    exact recall_eq hR

/-- The evaluation of a list of samples whose sub-routine succeeds, in terms of the four totals of each sample. -/
theorem core {env : Env} {k : Kind} {arg : ThresholdArg} {ths : List ℚ} (hth : checkThresholds arg = .ok ths)
    (hne : ths ≠ []) (rnd : Nat → Nat → Nat → Nat → ℚ) (names : List Str) (f : Str → Sample) (hf : ∀ n, (f n).name = n)
    (F : Nat → Nat) (rows : Nat → List Row)
    (hall : ∀ i < names.length, (∀ fuel, F i ≤ fuel →
      single { env with fuel := fuel } k arg rnd (i, f (names.getD i [])) = .ok (toCounts (rows i))) ∧
      Spec.Sane ths.length (toCounts (rows i))) :
    ∃ r t o, GoodScores (names.map String.ofList) ths r t o ∧
      (∀ fuel, ((List.range names.length).map F).sum ≤ fuel → ∀ nproc sched,
        (∀ out, calculateMetrics (single { env with fuel := fuel } k arg rnd) (fun x => String.ofList x.2.name) arg
          (numbered (names.map f)) nproc sched = some out → out = .ok (r, t, o)) ∧
        ((∀ i < names.length, .complete i ∈ sched) → ∃ k', calculateMetrics (single { env with fuel := fuel } k arg rnd)
          (fun x => String.ofList x.2.name) arg (numbered (names.map f)) nproc (sched ++ List.replicate k' .next) =
            some (.ok (r, t, o)))) ∧
      ∀ j < ths.length, ∃ row, t[j]? = some row ∧ row.threshold = ths.getD j 0 ∧
        (∀ g : Nat → ℚ, (∀ i < names.length, (rowAt (rows i) j).sumR = g i) →
          ∃ m, 0 ≤ m ∧ m ≤ ((List.range names.length).map g).sum ∧
            row.recall = if ((List.range names.length).map g).sum = 0 then 0 else m / ((List.range names.length).map g).sum) ∧
        (∀ g : Nat → ℚ, (∀ i < names.length, (rowAt (rows i) j).sumP = g i) →
          ∃ m, 0 ≤ m ∧ m ≤ ((List.range names.length).map g).sum ∧
            row.precision = if ((List.range names.length).map g).sum = 0 then 0 else
              m / ((List.range names.length).map g).sum) := by
  have hF : ∀ i, i < names.length → F i ≤ ((List.range names.length).map F).sum := fun i hi =>
    List.single_le_sum (by simp) _ (List.mem_map.2 ⟨i, List.mem_range.2 hi, rfl⟩)
  have hpipe := fun fuel => pipeline (single { env with fuel := fuel } k arg rnd)
    (fun x => String.ofList x.2.name) arg ths hth hne (numbered (names.map f))
    (fun x => toCounts (rows x.1))
  have hev : ∀ fuel, ((List.range names.length).map F).sum ≤ fuel → ∀ s ∈ numbered (names.map f),
      single { env with fuel := fuel } k arg rnd s = .ok (toCounts (rows s.1)) ∧
      Spec.Sane ths.length (toCounts (rows s.1)) := by
    intro fuel hf s hs
    rw [numbered_map names []] at hs
    obtain ⟨i, hi, rfl⟩ := List.mem_map.1 hs
    have hi' := List.mem_range.1 hi
    exact ⟨(hall i hi').1 fuel ((hF i hi').trans hf), (hall i hi').2⟩
  obtain ⟨r, t, o, p1, p2, -⟩ := hpipe _ (hev _ le_rfl)
  obtain ⟨hlen, htab⟩ := C05_table_pools_counts p1 hth
  refine ⟨r, t, o, ?_, ?_, ?_⟩
  · rw [numbered_map names [], List.map_map] at p2
    have : (List.range names.length).map ((fun x : Nat × Sample => String.ofList x.2.name) ∘ fun (i : Nat) =>
        (i, f (names.getD i []))) = names.map String.ofList := by
      apply List.ext_getElem
      · simp
      · intro i h1 h2
        have : i < names.length := by simpa using h2
        simp [hf, this]
    rw [this] at p2
    exact p2
  · intro fuel hfu nproc sched
    obtain ⟨r', t', o', q1, -, q3⟩ := hpipe fuel (hev fuel hfu)
    rw [p1] at q1
    cases q1
    obtain ⟨u1, u2⟩ := q3 nproc sched
    exact ⟨u1, fun hc => u2 (by rw [numbered_map names []]; simpa using hc)⟩
  · intro j hj
    obtain ⟨row, w1, w2, w3, w4, -⟩ := htab j hj
    have hpool : ∀ g : Counts → List ℚ, Spec.pooled g ((numbered (names.map f)).map fun s =>
        (String.ofList s.2.name, toCounts (rows s.1))) j =
        ((List.range names.length).map fun (i : Nat) => (g (toCounts (rows i))).getD j 0).sum := by
      intro g
      unfold Spec.pooled
      rw [numbered_map names [], List.map_map, List.map_map]
      rfl
    refine ⟨row, w1, w2, ?_, ?_⟩
    · intro g hg
      have hsum : ((List.range names.length).map fun (i : Nat) => ((toCounts (rows i)).sumR).getD j 0).sum =
          ((List.range names.length).map g).sum := by
        congr 1
        apply List.map_congr_left
        intro i hi
        rw [← hg i (List.mem_range.1 hi)]
        exact toCounts_sumR _ _
      rw [w3, hpool, hpool, hsum]
      have := recall_pooled (n := names.length) (cr := fun i => ((toCounts (rows i)).countR).getD j 0)
        (sr := fun i => ((toCounts (rows i)).sumR).getD j 0) (fun i hi => (hall i hi).2.r j)
      simp only [hsum] at this
      exact this
    · intro g hg
      have hsum : ((List.range names.length).map fun (i : Nat) => ((toCounts (rows i)).sumP).getD j 0).sum =
          ((List.range names.length).map g).sum := by
        congr 1
        apply List.map_congr_left
        intro i hi
        rw [← hg i (List.mem_range.1 hi)]
        exact toCounts_sumP _ _
      rw [w4, hpool, hpool, hsum]
      have := recall_pooled (n := names.length) (cr := fun i => ((toCounts (rows i)).countP).getD j 0)
        (sr := fun i => ((toCounts (rows i)).sumP).getD j 0) (fun i hi => (hall i hi).2.p j)
      simp only [hsum] at this
      exact this

theorem saved_files {names : List Str} {ths : List ℚ} {r : List SampleResult} {t : List ThresholdResult}
    {o : OverallResult} (g : GoodScores (names.map String.ofList) ths r t o) (hn : names ≠ []) (hne : ths ≠ [])
    (save : Bool) (dir : Str) : SavedFiles save dir ⟨r, t, o, overallDict o,
      if save then Io.saveInto dir r t (some o) else []⟩ := by
  constructor
  · intro hs; simp [hs]
  · intro hs
    have hrne : r ≠ [] := by
      rintro rfl
      have := g.rows
      simp at this
      exact hn this
    have htne : t ≠ [] := by
      rintro rfl
      have := g.thresholds
      simp at this
      exact hne this
    simp only [hs, if_true, Io.saveInto, if_neg hrne, if_neg htne, List.cons_append, List.nil_append]

/-- C50: the evaluation of a category of the Cityscapes, half-scale and SBD evaluators, from files to scores. With the
directories, ground truth, predictions (and label maps, if internal pixels are removed) in place and valid
parameters, there is one outcome `out` — for every number of processes and every schedule, no run ends with
anything else, and every run in which all workers finish ends with it — whose tables fit together; at each
threshold, recall is the pooled fraction of ground-truth pixels that were matched, the pool being the category's
pixels in all resampled ground truths, and (without NMS, thinning and removal of internal pixels) precision is the
pooled fraction of responses reaching the threshold that were matched. The three result files hold these tables. -/
theorem C50_category (fs : Fs) (env : Env) (e : Ev)
    (hk : e.kind = .cityscapes ∨ e.kind = .half ∨ e.kind = .sbd ∨ e.kind = .reanno) (hctor : CtorOk e.ctor)
    (names : List Str) (hn : e.names = some names) (hne0 : names ≠ []) (hrel : ∀ n ∈ names, Relative n)
    (hroots : Roots fs e) (c : Nat) (hc1 : 1 ≤ c) (hc2 : c ≤ if e.kind = .sbd ∨ e.kind = .reanno then 20 else 19)
    (inst kill skip : Bool) (ps : Params) (hinst : e.attrs.instanceSensitive = some inst)
    (hps : evalParams e.kind e.ctor.thin e.attrs = .ok ps) (hkill : ps.killInternal = some kill)
    (hskip : ps.skipIfNonexistent = some skip) (hd : 0 < ps.maxDist) (hscale : 0 ≤ ps.scale)
    (hex : ∀ n ∈ names, fs.ex (slashed [gtDirOf e.kind e.ctor, gtFile e.kind e.ctor.thin inst n]) = true ∧
      fs.ex (slashed [gtDirOf e.kind e.ctor, segFile e.kind n]) = true)
    (arg : ThresholdArg) (ths : List ℚ) (hth : checkThresholds arg = .ok ths) (hne : ths ≠ [])
    (hpics : NoEmptyPictures env.pics) (hnms : KeepsShape env.nms)
    (rnd : Nat → Nat → Nat → Nat → ℚ) (hrnd : ∀ i, UnitStreams (rnd i))
    (hfiles : ∀ n ∈ names,
      (∃ E, env.pics.rgb (slashed [gtDirOf e.kind e.ctor, gtFile e.kind e.ctor.thin inst n]) = some E ∧
        1 / 2 ≤ E.h * ps.scale ∧ 1 / 2 ≤ E.w * ps.scale) ∧
      (∃ P, env.pics.gray (slashed [e.ctor.predRoot, "class_".toList ++ threeDigits c, n ++ predEnd e.kind e.ctor]) =
        some P) ∧
      (kill = true → ∃ S, env.pics.gray (slashed [gtDirOf e.kind e.ctor, segFile e.kind n]) = some S))
    (save : Bool) :
    ∃ (x : Nat → Inputs) (out : Outcome) (F : Nat),
      (∀ i < names.length, ∃ E P S,
        env.pics.rgb (slashed [gtDirOf e.kind e.ctor, gtFile e.kind e.ctor.thin inst (names.getD i [])]) = some E ∧
        env.pics.gray (slashed [e.ctor.predRoot, "class_".toList ++ threeDigits c,
          names.getD i [] ++ predEnd e.kind e.ctor]) = some P ∧
        (kill = true → ∃ T, S = some T ∧
          env.pics.gray (slashed [gtDirOf e.kind e.ctor, segFile e.kind (names.getD i [])]) = some T) ∧
        (kill = false → S = none) ∧
        SampleInputs E P S ps.scale c (if e.kind = .sbd ∨ e.kind = .reanno then 5 else 0) ((c : Int) - 1) (x i)) ∧
      (∀ fuel, F ≤ fuel → ∀ nproc sched,
        (∀ o', evaluateCategory fs { env with fuel := fuel } e c arg nproc save rnd sched = some o' → o' = .ok out) ∧
        ((∀ i < names.length, .complete i ∈ sched) → ∃ k, evaluateCategory fs { env with fuel := fuel } e c arg nproc save
          rnd (sched ++ List.replicate k .next) = some (.ok out))) ∧
      GoodScores (names.map String.ofList) ths out.samples out.table out.overall ∧
      out.returned = overallDict out.overall ∧ SavedFiles save ("class_".toList ++ threeDigits c) out ∧
      ∀ k < ths.length, ∃ row, out.table[k]? = some row ∧ row.threshold = ths.getD k 0 ∧
        (let G := ((List.range names.length).map fun (i : Nat) => ((edgePixels (x i).gt).card : ℚ)).sum
         ∃ m, 0 ≤ m ∧ m ≤ G ∧ row.recall = if G = 0 then 0 else m / G) ∧
        (ps.nms = false → ps.thinning = false → kill = false →
          let R := ((List.range names.length).map fun (i : Nat) =>
            if skip = true ∧ edgePixels (x i).gt = ∅ then (0 : ℚ) else
              (((Finset.range (x i).gt.rows ×ˢ Finset.range (x i).gt.cols).filter fun q =>
                ths.getD k 0 ≤ (x i).pred.at_ q.1 q.2).card : ℚ)).sum
          ∃ m, 0 ≤ m ∧ m ≤ R ∧ row.precision = if R = 0 then 0 else m / R) := by
  have hkb : e.kind ≠ .bsds := by rintro h; rw [h] at hk; simp at hk
  have hko : e.kind ≠ .otf := by rintro h; rw [h] at hk; simp at hk
  have hdata : categoryData fs e c = .ok (names.map (expected e c inst ps)) :=
    (C48_samples fs e hkb hko hctor names hn hrel c _).2 ⟨hne0, hroots, by omega, by exact_mod_cast hc2, inst, ps, hinst,
      hps, hex, rfl⟩
  have hone : ∀ i : Nat, ∃ E P S x F rows, i < names.length →
      env.pics.rgb (slashed [gtDirOf e.kind e.ctor, gtFile e.kind e.ctor.thin inst (names.getD i [])]) = some E ∧
      env.pics.gray (slashed [e.ctor.predRoot, "class_".toList ++ threeDigits c,
          names.getD i [] ++ predEnd e.kind e.ctor]) = some P ∧
      (kill = true → ∃ T, S = some T ∧
          env.pics.gray (slashed [gtDirOf e.kind e.ctor, segFile e.kind (names.getD i [])]) = some T) ∧
      (kill = false → S = none) ∧
      SampleInputs E P S ps.scale c (if e.kind = .sbd ∨ e.kind = .reanno then 5 else 0) ((c : Int) - 1) x ∧
      (∀ fuel, F ≤ fuel → multiLabelSingle { env with fuel := fuel } e.kind arg (expected e c inst ps (names.getD i []))
        (rnd i) = .ok (some rows)) ∧
      Spec.Sane ths.length (toCounts rows) ∧
      ∀ j < ths.length, (rowAt rows j).sumR = (edgePixels x.gt).card ∧
        (ps.nms = false → ps.thinning = false → kill = false →
          (rowAt rows j).sumP = if skip = true ∧ edgePixels x.gt = ∅ then 0 else
            (((Finset.range x.gt.rows ×ˢ Finset.range x.gt.cols).filter fun q =>
              ths.getD j 0 ≤ x.pred.at_ q.1 q.2).card : ℚ)) := by
    intro i
    by_cases hi : i < names.length
    · have hmem : names.getD i [] ∈ names := by
        simp only [List.getD_eq_getElem?_getD, List.getElem?_eq_getElem hi, Option.getD_some]
        exact List.getElem_mem hi
      obtain ⟨f1, f2, f3⟩ := hfiles _ hmem
      obtain ⟨E, P, S, x, F, rows, g⟩ := C49_single env hpics hnms e.kind hk arg ths hth (rnd i) (hrnd i)
        (expected e c inst ps (names.getD i [])) _ _ kill skip rfl rfl hkill hskip hd c rfl hc1 hc2 hscale f1
        (by simpa [expected] using f2) f3
      exact ⟨E, P, S, x, F, rows, fun _ => by simpa [expected] using g⟩
    · exact ⟨⟨0, 0, fun _ _ => 0, fun _ _ => 0, fun _ _ => 0⟩, ⟨0, 0, fun _ _ => 0⟩, none,
        ⟨⟨0, 0, fun _ _ => 0⟩, ⟨0, 0, fun _ _ => 0⟩, none⟩, 0, [], fun h => absurd h hi⟩
  choose E P S x F rows hall using hone
  obtain ⟨r, t, o, p1, p2, p3⟩ := core (env := env) (k := e.kind) hth hne rnd names (expected e c inst ps) (fun _ => rfl) F rows
    (fun i hi => by
      obtain ⟨-, -, -, -, -, h6, h7, -⟩ := hall i hi
      refine ⟨fun fuel hf => ?_, h7⟩
      unfold single
      simp only [if_neg hkb, h6 fuel hf])
  have hcd : Io.classDir c = "class_".toList ++ threeDigits c := classDir_eq (by split at hc2 <;> omega)
  have hcases : ∀ fuel nproc sched, evaluateCategory fs { env with fuel := fuel } e c arg nproc save rnd sched =
      (calculateMetrics (single { env with fuel := fuel } e.kind arg rnd) (fun x => String.ofList x.2.name) arg
        (numbered (names.map (expected e c inst ps))) nproc sched).map fun r =>
      match r with
      | .error er => .error er
      | .ok (ss, ts, o) =>
        .ok ⟨ss, ts, o, overallDict o,
          if save then Io.saveInto ("class_".toList ++ threeDigits c) ss ts (some o) else []⟩ := by
    intro fuel nproc sched
    unfold evaluateCategory Io.saveCategory
    rw [hdata, Int.toNat_natCast, hcd]
    rfl
  refine ⟨x, ⟨r, t, o, overallDict o, if save then Io.saveInto ("class_".toList ++ threeDigits c) r t (some o) else []⟩,
    ((List.range names.length).map F).sum, ?_, ?_, p1, rfl, saved_files p1 hne0 hne save _, ?_⟩
  · intro i hi
    obtain ⟨h1, h2, h3, h4, h5, -⟩ := hall i hi
    exact ⟨E i, P i, S i, h1, h2, h3, h4, h5⟩
  · intro fuel hf nproc sched
    obtain ⟨u1, u2⟩ := p2 fuel hf nproc sched
    rw [hcases]
    constructor
    · intro o' ho
      obtain ⟨y, hy, rfl⟩ := Option.map_eq_some_iff.1 ho
      rw [u1 y hy]
    · intro hc
      obtain ⟨k, hk'⟩ := u2 hc
      exact ⟨k, by rw [hcases, hk']; rfl⟩
  · intro k hk'
    obtain ⟨row, w1, w2, w3, w4⟩ := p3 k hk'
    refine ⟨row, w1, w2, w3 _ fun i hi => ((hall i hi).2.2.2.2.2.2.2 k hk').1, fun g1 g2 g3 => w4 _ fun i hi =>
      ((hall i hi).2.2.2.2.2.2.2 k hk').2 g1 g2 g3⟩

/-- C50: the on-the-fly evaluator, end to end: the same, the pool being the boundary pixels computed from the resampled
label (and instance) maps with radius 1 for thin and 2 for raw boundaries; instance maps are used when the evaluator is
instance sensitive. -/
theorem C50_otf (fs : Fs) (env : Env) (e : Ev) (hk : e.kind = .otf) (hctor : CtorOk e.ctor)
    (names : List Str) (hn : e.names = some names) (hne0 : names ≠ []) (hrel : ∀ n ∈ names, Relative n)
    (hroots : Roots fs e) (c : Nat) (hc1 : 1 ≤ c) (hc2 : c ≤ 19)
    (inst kill skip : Bool) (ps : Params) (hinst : e.attrs.instanceSensitive = some inst)
    (hps : evalParams .otf e.ctor.thin e.attrs = .ok ps) (hkill : ps.killInternal = some kill)
    (hskip : ps.skipIfNonexistent = some skip) (hd : 0 < ps.maxDist) (hscale : 0 ≤ ps.scale)
    (hex : ∀ n ∈ names, fs.ex (slashed [fineDirOf e.ctor, n ++ "_gtFine_labelIds.png".toList]) = true ∧
      (inst = true → fs.ex (slashed [fineDirOf e.ctor, n ++ "_gtFine_instanceIds.png".toList]) = true))
    (arg : ThresholdArg) (ths : List ℚ) (hth : checkThresholds arg = .ok ths) (hne : ths ≠ [])
    (hpics : NoEmptyPictures env.pics) (hnms : KeepsShape env.nms)
    (H : SoundDT env.lib true 0 (if e.ctor.thin then 1 else 2))
    (rnd : Nat → Nat → Nat → Nat → ℚ) (hrnd : ∀ i, UnitStreams (rnd i))
    (hfiles : ∀ n ∈ names,
      (∃ L, env.pics.gray (slashed [fineDirOf e.ctor, n ++ "_gtFine_labelIds.png".toList]) = some L ∧
        67 / 2 ≤ L.rows * ps.scale ∧ 1 / 2 ≤ L.cols * ps.scale) ∧
      (∃ P, env.pics.gray (slashed [e.ctor.predRoot, "class_".toList ++ threeDigits c, n ++ predEnd e.kind e.ctor]) =
        some P) ∧
      (inst = true → ∃ I, env.pics.gray (slashed [fineDirOf e.ctor, n ++ "_gtFine_instanceIds.png".toList]) = some I ∧
        ∀ i j, i < I.rows → j < I.cols → I.at_ i j < 100000))
    (save : Bool) :
    ∃ (x : Nat → Inputs) (out : Outcome) (F : Nat),
      (∀ i < names.length, ∃ L P I,
        env.pics.gray (slashed [fineDirOf e.ctor, names.getD i [] ++ "_gtFine_labelIds.png".toList]) = some L ∧
        env.pics.gray (slashed [e.ctor.predRoot, "class_".toList ++ threeDigits c,
          names.getD i [] ++ predEnd e.kind e.ctor]) = some P ∧
        (inst = true → ∃ T, I = some T ∧
          env.pics.gray (slashed [fineDirOf e.ctor, names.getD i [] ++ "_gtFine_instanceIds.png".toList]) = some T) ∧
        (inst = false → I = none) ∧
        OtfInputsOk L P I ps.scale (if e.ctor.thin then 1 else 2) c kill (x i)) ∧
      (∀ fuel, F ≤ fuel → ∀ nproc sched,
        (∀ o', evaluateCategory fs { env with fuel := fuel } e c arg nproc save rnd sched = some o' → o' = .ok out) ∧
        ((∀ i < names.length, .complete i ∈ sched) → ∃ k, evaluateCategory fs { env with fuel := fuel } e c arg nproc save
          rnd (sched ++ List.replicate k .next) = some (.ok out))) ∧
      GoodScores (names.map String.ofList) ths out.samples out.table out.overall ∧
      out.returned = overallDict out.overall ∧ SavedFiles save ("class_".toList ++ threeDigits c) out ∧
      ∀ k < ths.length, ∃ row, out.table[k]? = some row ∧ row.threshold = ths.getD k 0 ∧
        (let G := ((List.range names.length).map fun (i : Nat) => ((edgePixels (x i).gt).card : ℚ)).sum
         ∃ m, 0 ≤ m ∧ m ≤ G ∧ row.recall = if G = 0 then 0 else m / G) ∧
        (ps.nms = false → ps.thinning = false → kill = false →
          let R := ((List.range names.length).map fun (i : Nat) =>
            if skip = true ∧ edgePixels (x i).gt = ∅ then (0 : ℚ) else
              (((Finset.range (x i).gt.rows ×ˢ Finset.range (x i).gt.cols).filter fun q =>
                ths.getD k 0 ≤ (x i).pred.at_ q.1 q.2).card : ℚ)).sum
          ∃ m, 0 ≤ m ∧ m ≤ R ∧ row.precision = if R = 0 then 0 else m / R) := by
  have hkb : e.kind ≠ .bsds := by rw [hk]; decide
  set mk : Str → Sample := fun n =>
    { name := n, category := (c : Int), edgePath := none
      segPath := some (slashed [fineDirOf e.ctor, n ++ "_gtFine_labelIds.png".toList])
      instPath := if inst then some (slashed [fineDirOf e.ctor, n ++ "_gtFine_instanceIds.png".toList])
        else none
      predPath := slashed [e.ctor.predRoot, "class_".toList ++ threeDigits c, n ++ predEnd e.kind e.ctor]
      params := ps } with hmk
  have hdata : categoryData fs e c = .ok (names.map mk) := by
    rw [C48_otf_samples fs e hk hctor names hn hrel c]
    refine ⟨hne0, hroots, by omega, by exact_mod_cast hc2, inst, ps, hinst, hps, hex, ?_⟩
    rw [hmk, Int.toNat_natCast]
  have hradius : ps.radius = some (if e.ctor.thin then 1 else 2) := by
    unfold evalParams at hps
    simp only [bind_ok, attr_ok, if_true, reduceCtorEq, if_false] at hps
    obtain ⟨a, -, b, -, c', -, d, -, k', -, s, -, h⟩ := hps
    cases h
    rfl
  have hone : ∀ i : Nat, ∃ L P I x F rows, i < names.length →
      env.pics.gray (slashed [fineDirOf e.ctor, names.getD i [] ++ "_gtFine_labelIds.png".toList]) = some L ∧
      env.pics.gray (slashed [e.ctor.predRoot, "class_".toList ++ threeDigits c,
          names.getD i [] ++ predEnd e.kind e.ctor]) = some P ∧
      (inst = true → ∃ T, I = some T ∧
          env.pics.gray (slashed [fineDirOf e.ctor, names.getD i [] ++ "_gtFine_instanceIds.png".toList]) = some T) ∧
      (inst = false → I = none) ∧
      OtfInputsOk L P I ps.scale (if e.ctor.thin then 1 else 2) c kill x ∧
      (∀ fuel, F ≤ fuel → multiLabelSingle { env with fuel := fuel } .otf arg (mk (names.getD i []))
        (rnd i) = .ok (some rows)) ∧
      Spec.Sane ths.length (toCounts rows) ∧
      ∀ j < ths.length, (rowAt rows j).sumR = (edgePixels x.gt).card ∧
        (ps.nms = false → ps.thinning = false → kill = false →
          (rowAt rows j).sumP = if skip = true ∧ edgePixels x.gt = ∅ then 0 else
            (((Finset.range x.gt.rows ×ˢ Finset.range x.gt.cols).filter fun q =>
              ths.getD j 0 ≤ x.pred.at_ q.1 q.2).card : ℚ)) := by
    intro i
    by_cases hi : i < names.length
    · have hmem : names.getD i [] ∈ names := by
        simp only [List.getD_eq_getElem?_getD, List.getElem?_eq_getElem hi, Option.getD_some]
        exact List.getElem_mem hi
      obtain ⟨⟨L, hL, hr, hw⟩, ⟨P, hP⟩, hI⟩ := hfiles _ hmem
      have hI' : ∃ I : Option (Img Nat), (inst = true → ∃ T, I = some T ∧
          env.pics.gray (slashed [fineDirOf e.ctor, names.getD i [] ++ "_gtFine_instanceIds.png".toList]) = some T ∧
          ∀ i j, i < T.rows → j < T.cols → T.at_ i j < 100000) ∧ (inst = false → I = none) := by
        cases inst
        · exact ⟨none, by simp, by simp⟩
        · obtain ⟨I, h1, h2⟩ := hI rfl
          exact ⟨some I, fun _ => ⟨I, rfl, h1, h2⟩, by simp⟩
      obtain ⟨I, hI1, hI2⟩ := hI'
      have H' : SoundDT env.lib true 0 ((if e.ctor.thin then 1 else 2 : Nat) : ℝ) := by
        cases h : e.ctor.thin
        · simpa [h] using H
        · simpa [h] using H
      obtain ⟨x, F, rows, g1, g2⟩ := C49_otf_single env hpics hnms arg ths hth (rnd i) (hrnd i) (mk (names.getD i []))
        _ kill skip (if e.ctor.thin then 1 else 2) c rfl hkill hskip hradius hd rfl hc1 hc2 hscale H' L P I hL hP
        (by simp only [hmk]; cases inst <;> simp [slashed])
        (by
          intro ip hip
          simp only [hmk] at hip
          cases inst
          · simp at hip
          · simp only [if_true, Option.some.injEq] at hip
            subst hip
            exact hI1 rfl)
        (by
          intro hip
          simp only [hmk] at hip
          cases inst
          · exact hI2 rfl
          · simp at hip) hr hw
      exact ⟨L, P, I, x, F, rows, fun _ => ⟨hL, hP, fun h => by obtain ⟨T, a, b, -⟩ := hI1 h; exact ⟨T, a, b⟩, hI2, g1, g2⟩⟩
    · exact ⟨⟨0, 0, fun _ _ => 0⟩, ⟨0, 0, fun _ _ => 0⟩, none,
        ⟨⟨0, 0, fun _ _ => 0⟩, ⟨0, 0, fun _ _ => 0⟩, none⟩, 0, [], fun h => absurd h hi⟩
  choose L P I x F rows hall using hone
  obtain ⟨r, t, o, p1, p2, p3⟩ := core (env := env) (k := e.kind) hth hne rnd names mk (fun _ => rfl) F rows
    (fun i hi => by
      obtain ⟨-, -, -, -, -, h6, h7, -⟩ := hall i hi
      refine ⟨fun fuel hf => ?_, h7⟩
      unfold single
      simp only [hk, reduceCtorEq, if_false, h6 fuel hf])
  have hcd : Io.classDir c = "class_".toList ++ threeDigits c := classDir_eq (by omega)
  have hcases : ∀ fuel nproc sched, evaluateCategory fs { env with fuel := fuel } e c arg nproc save rnd sched =
      (calculateMetrics (single { env with fuel := fuel } e.kind arg rnd) (fun x => String.ofList x.2.name) arg
        (numbered (names.map mk)) nproc sched).map fun r =>
      match r with
      | .error er => .error er
      | .ok (ss, ts, o) =>
        .ok ⟨ss, ts, o, overallDict o,
          if save then Io.saveInto ("class_".toList ++ threeDigits c) ss ts (some o) else []⟩ := by
    intro fuel nproc sched
    unfold evaluateCategory Io.saveCategory
    rw [hdata, Int.toNat_natCast, hcd]
    rfl
  refine ⟨x, ⟨r, t, o, overallDict o, if save then Io.saveInto ("class_".toList ++ threeDigits c) r t (some o) else []⟩,
    ((List.range names.length).map F).sum, ?_, ?_, p1, rfl, saved_files p1 hne0 hne save _, ?_⟩
  · intro i hi
    obtain ⟨h1, h2, h3, h4, h5, -⟩ := hall i hi
    exact ⟨L i, P i, I i, h1, h2, h3, h4, h5⟩
  · intro fuel hf nproc sched
    obtain ⟨u1, u2⟩ := p2 fuel hf nproc sched
    rw [hcases]
    constructor
    · intro o' ho
      obtain ⟨y, hy, rfl⟩ := Option.map_eq_some_iff.1 ho
      rw [u1 y hy]
    · intro hc
      obtain ⟨k, hk'⟩ := u2 hc
      exact ⟨k, by rw [hcases, hk']; rfl⟩
  · intro k hk'
    obtain ⟨row, w1, w2, w3, w4⟩ := p3 k hk'
    refine ⟨row, w1, w2, w3 _ fun i hi => ((hall i hi).2.2.2.2.2.2.2 k hk').1, fun g1 g2 g3 => w4 _ fun i hi =>
      ((hall i hi).2.2.2.2.2.2.2 k hk').2 g1 g2 g3⟩

/-- C50: the BSDS evaluation, end to end (with split directories under the prediction root): at each threshold,
recall is the matched fraction of the edge pixels of all annotators of all pictures, and (without NMS and thinning)
precision the matched fraction of responses reaching the threshold. -/
theorem C50_bsds (fs : Fs) (env : Env) (e : Ev) (hk : e.kind = .bsds) (hroot : DirArg e.ctor.datasetRoot)
    (hpred : DirArg e.ctor.predRoot) (names : List Str) (hn : e.names = some names) (hne0 : names ≠ [])
    (hrel : ∀ n ∈ names, Relative n)
    (hdirs : fs.ex e.ctor.datasetRoot = true ∧ fs.ex (slashed [e.ctor.datasetRoot, "groundTruth".toList]) = true ∧
      fs.ex e.ctor.predRoot = true)
    (ps : Params) (hps : evalParams .bsds e.ctor.thin e.attrs = .ok ps) (hd : 0 < ps.maxDist)
    (hex : ∀ n ∈ names, fs.ex (slashed [e.ctor.datasetRoot, "groundTruth".toList, n ++ ".mat".toList]) = true ∧
      fs.ex (slashed [e.ctor.predRoot, n ++ ".png".toList]) = true)
    (arg : ThresholdArg) (ths : List ℚ) (hth : checkThresholds arg = .ok ths) (hne : ths ≠ [])
    (hpics : NoEmptyPictures env.pics) (hnms : KeepsShape env.nms)
    (rnd : Nat → Nat → Nat → Nat → ℚ) (hrnd : ∀ i, UnitStreams (rnd i)) (P : Str → Img Nat) (G : Str → List (Img Nat))
    (hfiles : ∀ n ∈ names, env.pics.gray (slashed [e.ctor.predRoot, n ++ ".png".toList]) = some (P n) ∧
      env.pics.mat (slashed [e.ctor.datasetRoot, "groundTruth".toList, n ++ ".mat".toList]) = .ok (G n) ∧
      ∀ g ∈ G n, g.rows = (P n).rows ∧ g.cols = (P n).cols ∧
        ∀ i j, i < g.rows → j < g.cols → g.at_ i j = 0 ∨ g.at_ i j = 1)
    (save : Bool) :
    ∃ (out : Outcome) (F : Nat),
      (∀ fuel, F ≤ fuel → ∀ nproc sched,
        (∀ o', evaluateBsds fs { env with fuel := fuel } e arg nproc save false rnd sched = some o' → o' = .ok out) ∧
        ((∀ i < names.length, .complete i ∈ sched) → ∃ k, evaluateBsds fs { env with fuel := fuel } e arg nproc save false
          rnd (sched ++ List.replicate k .next) = some (.ok out))) ∧
      GoodScores (names.map String.ofList) ths out.samples out.table out.overall ∧
      out.returned = overallDict out.overall ∧ SavedFiles save [] out ∧
      ∀ k < ths.length, ∃ row, out.table[k]? = some row ∧ row.threshold = ths.getD k 0 ∧
        (let E := ((List.range names.length).map fun (i : Nat) => ((((G (names.getD i [])).map fun g =>
            ((Finset.range g.rows ×ˢ Finset.range g.cols).filter fun q => g.at_ q.1 q.2 = 1).card).sum : Nat) : ℚ)).sum
         ∃ m, 0 ≤ m ∧ m ≤ E ∧ row.recall = if E = 0 then 0 else m / E) ∧
        (ps.nms = false → ps.thinning = false →
          let R := ((List.range names.length).map fun (i : Nat) =>
            (((Finset.range (P (names.getD i [])).rows ×ˢ Finset.range (P (names.getD i [])).cols).filter fun q =>
                ths.getD k 0 ≤ ((P (names.getD i [])).at_ q.1 q.2 : ℚ) / 255).card : ℚ)).sum
          ∃ m, 0 ≤ m ∧ m ≤ R ∧ row.precision = if R = 0 then 0 else m / R) := by
  set mk : Str → Sample := fun n =>
    { name := n, category := 0
      edgePath := some (slashed [e.ctor.datasetRoot, "groundTruth".toList, n ++ ".mat".toList])
      segPath := none, instPath := none
      predPath := slashed [e.ctor.predRoot, n ++ ".png".toList], params := ps } with hmk
  have hdata : bsdsData fs e false = .ok (names.map mk) := by
    rw [C48_bsds_samples fs e hk hroot hpred names hn hrel]
    exact ⟨hne0, hdirs.1, hdirs.2.1, hdirs.2.2, ps, hps, hex, rfl⟩
  have hone : ∀ i : Nat, ∃ F rows, i < names.length →
      (∀ fuel, F ≤ fuel → bsdsSingle { env with fuel := fuel } arg (mk (names.getD i [])) (rnd i) = .ok (some rows)) ∧
      Spec.Sane ths.length (toCounts rows) ∧
      ∀ k < ths.length,
        (rowAt rows k).sumR = (((G (names.getD i [])).map fun g =>
            ((Finset.range g.rows ×ˢ Finset.range g.cols).filter fun q => g.at_ q.1 q.2 = 1).card).sum : Nat) ∧
        (ps.nms = false → ps.thinning = false →
          (rowAt rows k).sumP = (((Finset.range (P (names.getD i [])).rows ×ˢ Finset.range (P (names.getD i [])).cols).filter fun q =>
              ths.getD k 0 ≤ ((P (names.getD i [])).at_ q.1 q.2 : ℚ) / 255).card : ℚ)) := by
    intro i
    by_cases hi : i < names.length
    · have hmem : names.getD i [] ∈ names := by
        simp only [List.getD_eq_getElem?_getD, List.getElem?_eq_getElem hi, Option.getD_some]
        exact List.getElem_mem hi
      obtain ⟨f1, f2, f3⟩ := hfiles _ hmem
      obtain ⟨F, rows, g1, g2, g3⟩ := C49_bsds_single env hpics hnms arg ths hth (rnd i) (hrnd i) (mk (names.getD i [])) _
        rfl hd _ _ f1 f2 (fun g hg => ⟨(f3 g hg).1, (f3 g hg).2.1⟩) (fun g hg => (f3 g hg).2.2)
      refine ⟨F, rows, fun _ => ⟨fun fuel hf => g1 fuel hf ps.scale, g2, fun k hk => ⟨?_, (g3 k hk).2⟩⟩⟩
      rw [(g3 k hk).1]
      congr 2
      apply List.map_congr_left
      intro g hg
      rw [(f3 g hg).1, (f3 g hg).2.1]
    · exact ⟨0, [], fun h => absurd h hi⟩
  choose F rows hall using hone
  obtain ⟨r, t, o, p1, p2, p3⟩ := core (env := env) (k := e.kind) hth hne rnd names mk (fun _ => rfl) F rows
    (fun i hi => by
      obtain ⟨h6, h7, -⟩ := hall i hi
      refine ⟨fun fuel hf => ?_, h7⟩
      unfold single
      simp only [hk, if_true, h6 fuel hf])
  have hcases : ∀ fuel nproc sched, evaluateBsds fs { env with fuel := fuel } e arg nproc save false rnd sched =
      (calculateMetrics (single { env with fuel := fuel } e.kind arg rnd) (fun x => String.ofList x.2.name) arg
        (numbered (names.map mk)) nproc sched).map fun r =>
      match r with
      | .error er => .error er
      | .ok (ss, ts, o) =>
        .ok ⟨ss, ts, o, overallDict o,
          if save then Io.saveInto [] ss ts (some o) else []⟩ := by
    intro fuel nproc sched
    unfold evaluateBsds
    rw [hdata]
    rfl
  refine ⟨⟨r, t, o, overallDict o, if save then Io.saveInto [] r t (some o) else []⟩,
    ((List.range names.length).map F).sum, ?_, p1, rfl, saved_files p1 hne0 hne save _, ?_⟩
  · intro fuel hf nproc sched
    obtain ⟨u1, u2⟩ := p2 fuel hf nproc sched
    rw [hcases]
    constructor
    · intro o' ho
      obtain ⟨y, hy, rfl⟩ := Option.map_eq_some_iff.1 ho
      rw [u1 y hy]
    · intro hc
      obtain ⟨k, hk'⟩ := u2 hc
      exact ⟨k, by rw [hcases, hk']; rfl⟩
  · intro k hk'
    obtain ⟨row, w1, w2, w3, w4⟩ := p3 k hk'
    refine ⟨row, w1, w2, w3 _ fun i hi => ((hall i hi).2.2 k hk').1, fun g1 g2 => w4 _ fun i hi =>
      ((hall i hi).2.2 k hk').2 g1 g2⟩

/-- A sample whose prediction cannot be read is not evaluated. -/
theorem single_missing (env : Env) (k : Kind) (arg : ThresholdArg) (rnd : Nat → Nat → Nat → Nat → ℚ) (i : Nat) (s : Sample)
    (h : env.pics.gray s.predPath = none) : ∃ er, single env k arg rnd (i, s) = .error er := by
  have hno : ∀ x, (if k = .bsds then bsdsSingle env arg s (rnd i) else multiLabelSingle env k arg s (rnd i)) ≠ .ok x := by
    intro x hx
    split at hx
    · unfold bsdsSingle bsdsPred at hx
      simp only [bind_ok, load_ok, h, reduceCtorEq, false_and, exists_false, and_false] at hx
    · unfold multiLabelSingle at hx
      simp only [bind_ok] at hx
      obtain ⟨kill, -, skip, -, ths, -, hx⟩ := hx
      split at hx <;> obtain ⟨y, hy, -⟩ := bind_ok.1 hx
      · unfold otfInputs at hy
        simp only [bind_ok, load_ok, h, reduceCtorEq, false_and, exists_false, and_false] at hy
      · unfold precomputedInputs loadPred at hy
        simp only [bind_ok, load_ok, h, reduceCtorEq, false_and, exists_false, and_false] at hy
  unfold single
  simp only
  generalize (if k = .bsds then bsdsSingle env arg s (rnd i) else multiLabelSingle env k arg s (rnd i)) = y at hno ⊢
  match y, hno with
  | .error er, _ => exact ⟨er, rfl⟩
  | .ok none, _ => exact ⟨_, rfl⟩
  | .ok (some r), hno => exact absurd rfl (hno (some r))

theorem mapM_error {S T : Type} (ev : S → Except PyErr T) : ∀ (l : List S), (∃ s ∈ l, ∃ er, ev s = .error er) →
    ∃ er, l.mapM ev = .error er
  | [], h => by simp at h
  | a :: as, h => by
    rw [List.mapM_cons]
    cases ha : ev a with
    | error er => exact ⟨er, rfl⟩
    | ok b =>
      obtain ⟨s, hs, er, he⟩ := h
      rcases List.mem_cons.1 hs with rfl | hs
      · rw [ha] at he; cases he
      · obtain ⟨er', h'⟩ := mapM_error ev as ⟨s, hs, er, he⟩
        exact ⟨er', by rw [h']; rfl⟩

/-- C50: if the prediction of any sample is missing, no run of the evaluation of the category (of any evaluator, for
any schedule) returns scores or writes files: every run that ends, ends with an exception. -/
theorem C50_missing_prediction (fs : Fs) (env : Env) (e : Ev) (category : Int) (arg : ThresholdArg) (data : List Sample)
    (hdata : categoryData fs e category = .ok data) (s : Sample) (hs : s ∈ data) (hmiss : env.pics.gray s.predPath = none)
    (rnd : Nat → Nat → Nat → Nat → ℚ) (nproc : Nat) (save : Bool) (sched : List PoolEvent) (out : Except PyErr Outcome)
    (h : evaluateCategory fs env e category arg nproc save rnd sched = some out) : ∃ er, out = .error er := by
  unfold evaluateCategory at h
  rw [hdata] at h
  obtain ⟨y, hy, rfl⟩ := Option.map_eq_some_iff.1 h
  have hseq := C06_calculate_metrics_parallel _ _ _ _ _ _ _ hy
  unfold calculateMetrics at hseq
  obtain ⟨er, he⟩ := mapM_error (single env e.kind arg rnd) (numbered data) (by
    obtain ⟨i, hi, rfl⟩ := List.getElem_of_mem hs
    refine ⟨(i, data[i]), ?_, single_missing env e.kind arg rnd i _ hmiss⟩
    unfold numbered
    refine List.mem_map.2 ⟨(data[i], i), ?_, rfl⟩
    rw [List.mem_zipIdx_iff_getElem?]
    simp [hi])
  have hs1 : sampleMetrics (single env e.kind arg rnd) (numbered data) 1 [] =
      some ((numbered data).mapM (single env e.kind arg rnd)) := by
    simp only [sampleMetrics, gt_iff_lt, lt_irrefl, if_false, trackProgress, TaskArg.resolve, bind, Except.bind]
    rw [trackLoop_spec _ _ _ _ (by simp [Bar.mk'])]
    cases (numbered data).mapM (single env e.kind arg rnd) <;> simp [Except.map]
  rw [hs1, he] at hseq
  simp only [Option.map_some, bind, Except.bind, Option.some.injEq] at hseq
  subst hseq
  exact ⟨er, rfl⟩

/-- The report on categories `cs` with overall results `res`: row `i` is named after the `i`-th category and holds its
own scores (per cent, three decimals; threshold with two); the summary and the saved file hold averages. -/
def reportOf (classes : List String) (cs : List Int) (res : Nat → OverallResult) (save : Bool) : Report :=
  { saved := if save then some
      [("ODS_threshold", roundDec 6 (average cs.length fun i => (res i).odsThreshold)),
       ("ODS_recall", roundDec 6 (average cs.length fun i => (res i).odsRecall)),
       ("ODS_precision", roundDec 6 (average cs.length fun i => (res i).odsPrecision)),
       ("ODS_f1", roundDec 6 (average cs.length fun i => (res i).odsF1)),
       ("OIS_recall", roundDec 6 (average cs.length fun i => (res i).oisRecall)),
       ("OIS_precision", roundDec 6 (average cs.length fun i => (res i).oisPrecision)),
       ("OIS_f1", roundDec 6 (average cs.length fun i => (res i).oisF1)),
       ("AUC", roundDec 6 (average cs.length fun i => (res i).auc)),
       ("AP", roundDec 6 (average cs.length fun i => (res i).ap))] else none
    classNames := cs.map fun c => classes.getD (c - 1).toNat ""
    classTable :=
      [("ODS_recall", (List.range cs.length).map fun (i : Nat) => roundDec 3 ((res i).odsRecall * 100)),
       ("ODS_precision", (List.range cs.length).map fun (i : Nat) => roundDec 3 ((res i).odsPrecision * 100)),
       ("ODS_f1", (List.range cs.length).map fun (i : Nat) => roundDec 3 ((res i).odsF1 * 100)),
       ("ODS_threshold", (List.range cs.length).map fun (i : Nat) => roundDec 2 (res i).odsThreshold)]
    summary :=
      [("ODS_recall", roundDec 3 (average cs.length (fun i => (res i).odsRecall) * 100)),
       ("ODS_precision", roundDec 3 (average cs.length (fun i => (res i).odsPrecision) * 100)),
       ("ODS_f1", roundDec 3 (average cs.length (fun i => (res i).odsF1) * 100)),
       ("AUC", roundDec 3 (average cs.length (fun i => (res i).auc) * 100))] }

/-- C50: the evaluation of all requested categories (Cityscapes, half-scale and SBD evaluators): with the files of every
requested category in place, each category has one table of sound scores, whatever the workers' schedules, and every
evaluation whose runs end reports exactly these; the run of a category ends in no other way. -/
theorem C50_evaluate (fs : Fs) (env : Env) (e : Ev)
    (hk : e.kind = .cityscapes ∨ e.kind = .half ∨ e.kind = .sbd ∨ e.kind = .reanno) (hctor : CtorOk e.ctor)
    (names : List Str) (hn : e.names = some names) (hne0 : names ≠ []) (hrel : ∀ n ∈ names, Relative n)
    (hroots : Roots fs e) (classes : List String)
    (hclasses : classes.length = if e.kind = .sbd ∨ e.kind = .reanno then 20 else 19)
    (cats : CategoriesArg) (cs : List Int) (hsel : normCategories classes.length cats = .ok cs)
    (hrange : ∀ c ∈ cs, 1 ≤ c ∧ c ≤ classes.length)
    (inst kill skip : Bool) (ps : Params) (hinst : e.attrs.instanceSensitive = some inst)
    (hps : evalParams e.kind e.ctor.thin e.attrs = .ok ps) (hkill : ps.killInternal = some kill)
    (hskip : ps.skipIfNonexistent = some skip) (hd : 0 < ps.maxDist) (hscale : 0 ≤ ps.scale)
    (hex : ∀ n ∈ names, fs.ex (slashed [gtDirOf e.kind e.ctor, gtFile e.kind e.ctor.thin inst n]) = true ∧
      fs.ex (slashed [gtDirOf e.kind e.ctor, segFile e.kind n]) = true)
    (arg : ThresholdArg) (ths : List ℚ) (hth : checkThresholds arg = .ok ths) (hne : ths ≠ [])
    (hpics : NoEmptyPictures env.pics) (hnms : KeepsShape env.nms)
    (rnd : Nat → Nat → Nat → Nat → Nat → ℚ) (hrnd : ∀ j i, UnitStreams (rnd j i))
    (hfiles : ∀ n ∈ names,
      (∃ E, env.pics.rgb (slashed [gtDirOf e.kind e.ctor, gtFile e.kind e.ctor.thin inst n]) = some E ∧
        1 / 2 ≤ E.h * ps.scale ∧ 1 / 2 ≤ E.w * ps.scale) ∧
      (∀ c ∈ cs, ∃ P, env.pics.gray (slashed [e.ctor.predRoot, "class_".toList ++ threeDigits c.toNat,
        n ++ predEnd e.kind e.ctor]) = some P) ∧
      (kill = true → ∃ S, env.pics.gray (slashed [gtDirOf e.kind e.ctor, segFile e.kind n]) = some S))
    (save : Bool) :
    ∃ (outs : Nat → Outcome) (F : Nat),
      (∀ i < cs.length, GoodScores (names.map String.ofList) ths (outs i).samples (outs i).table (outs i).overall) ∧
      ∀ fuel, F ≤ fuel → ∀ (nproc : Nat) (sched : Nat → List PoolEvent),
        (∀ i (h : i < cs.length) o', evaluateCategory fs { env with fuel := fuel } e cs[i] arg nproc save (rnd i) (sched i) =
          some o' → o' = .ok (outs i)) ∧
        ((∀ i (h : i < cs.length), (evaluateCategory fs { env with fuel := fuel } e cs[i] arg nproc save (rnd i) (sched i)).isSome) →
          evaluateAll fs { env with fuel := fuel } e classes cats arg nproc save defaultPrint rnd sched =
            .ok (reportOf classes cs (fun i => (outs i).overall) save)) ∧
        ((∀ i < cs.length, ∀ j < names.length, .complete j ∈ sched i) → ∃ k : Nat → Nat,
          evaluateAll fs { env with fuel := fuel } e classes cats arg nproc save defaultPrint rnd
            (fun i => sched i ++ List.replicate (k i) .next) =
            .ok (reportOf classes cs (fun i => (outs i).overall) save)) := by
  have hone : ∀ i : Nat, ∃ (out : Outcome) (F : Nat), ∀ h : i < cs.length,
      GoodScores (names.map String.ofList) ths out.samples out.table out.overall ∧
      out.returned = overallDict out.overall ∧
      ∀ fuel, F ≤ fuel → ∀ nproc sched,
        (∀ o', evaluateCategory fs { env with fuel := fuel } e cs[i] arg nproc save (rnd i) sched = some o' → o' = .ok out) ∧
        ((∀ j < names.length, .complete j ∈ sched) → ∃ k, evaluateCategory fs { env with fuel := fuel } e cs[i] arg nproc
          save (rnd i) (sched ++ List.replicate k .next) = some (.ok out)) := by
    intro i
    by_cases hi : i < cs.length
    · obtain ⟨r1, r2⟩ := hrange cs[i] (List.getElem_mem hi)
      obtain ⟨c, hc⟩ := Int.eq_ofNat_of_zero_le (show 0 ≤ cs[i] by omega)
      rw [hc] at r1 r2
      obtain ⟨x, out, F, -, g2, g3, g4, -⟩ := C50_category fs env e hk hctor names hn hne0 hrel hroots c (by omega)
        (by rw [← hclasses]; exact_mod_cast r2) inst kill skip ps hinst hps hkill hskip hd hscale hex arg ths hth hne hpics hnms
        (rnd i) (hrnd i) (fun n hnn => by
          obtain ⟨f1, f2, f3⟩ := hfiles n hnn
          refine ⟨f1, ?_, f3⟩
          have := f2 cs[i] (List.getElem_mem hi)
          rw [hc] at this
          exact this) save
      exact ⟨out, F, fun _ => by rw [hc]; exact ⟨g3, g4, g2⟩⟩
    · exact ⟨⟨[], [], ⟨0, 0, 0, 0, 0, 0, 0, 0, 0⟩, [], []⟩, 0, fun h => absurd h hi⟩
  choose outs F hall using hone
  have hF : ∀ i, i < cs.length → F i ≤ ((List.range cs.length).map F).sum := fun i hi =>
    List.single_le_sum (by simp) _ (List.mem_map.2 ⟨i, List.mem_range.2 hi, rfl⟩)
  refine ⟨outs, ((List.range cs.length).map F).sum, fun i hi => (hall i hi).1, ?_⟩
  intro fuel hf nproc sched
  have main : ∀ sched : Nat → List PoolEvent,
      (∀ i (h : i < cs.length), (evaluateCategory fs { env with fuel := fuel } e cs[i] arg nproc save (rnd i) (sched i)).isSome) →
        evaluateAll fs { env with fuel := fuel } e classes cats arg nproc save defaultPrint rnd sched =
          .ok (reportOf classes cs (fun i => (outs i).overall) save) := by
    intro sched hend
    unfold evaluateAll
    rw [C33_report classes cats cs hsel hrange _ (fun i => (outs i).overall) ?_ save]
    · rfl
    · intro i hi
      obtain ⟨-, g2, g3⟩ := hall i hi
      obtain ⟨o', ho'⟩ := Option.isSome_iff_exists.1 (hend i hi)
      have := (g3 fuel ((hF i hi).trans hf) nproc (sched i)).1 o' ho'
      subst this
      simp only [ho', g2]
  refine ⟨fun i hi o' ho => ((hall i hi).2.2 fuel ((hF i hi).trans hf) nproc (sched i)).1 o' ho, main sched, fun hc => ?_⟩
  have : ∀ i : Nat, ∃ k, ∀ h : i < cs.length, evaluateCategory fs { env with fuel := fuel } e cs[i] arg nproc
          save (rnd i) (sched i ++ List.replicate k .next) = some (.ok (outs i)) := by
    intro i
    by_cases hi : i < cs.length
    · obtain ⟨-, -, g3⟩ := hall i hi
      obtain ⟨k, hk'⟩ := (g3 fuel ((hF i hi).trans hf) nproc (sched i)).2 (hc i hi)
      exact ⟨k, fun _ => hk'⟩
    · exact ⟨0, fun h => absurd h hi⟩
  choose k hk' using this
  exact ⟨k, main _ fun i hi => by rw [hk' i hi]; rfl⟩

/-! ## A concrete case -/

/-- The files of `exEv` and its predictions for every category. -/
def exE2EPics : Pictures where
  rgb p := if p = "data/gtEval/val/bonn/b_gtProc_half_thin_isedge.png".toList then
    some ⟨2, 2, fun _ _ => 0, fun _ _ => 0, fun i j => if i = 0 ∧ j = 0 then 1 else 0⟩ else none
  gray _ := some ⟨2, 2, fun i _ => 200 * i⟩
  mat _ := .error .assertionError

theorem exE2EPics_nonempty : NoEmptyPictures exE2EPics := by
  constructor
  · intro p E h
    simp only [exE2EPics] at h
    split at h
    · cases h; exact ⟨by decide, by decide⟩
    · cases h
  · intro p P h
    cases h; exact ⟨by decide, by decide⟩

/-- The evaluation of all 19 categories of `exEv` on two workers: some schedule completes it. -/
example : ∃ (outs : Nat → Outcome) (fuel : Nat) (sched : Nat → List PoolEvent),
    evaluateAll exFs ⟨exE2EPics, refLib 1, id, fun _ _ => 0, fuel⟩ exEv (List.replicate 19 "c") .none (.list [1 / 4, 1 / 2]) 2
      true defaultPrint (fun _ _ _ _ _ => 1 / 2) sched =
      .ok (reportOf (List.replicate 19 "c") ((List.range 19).map fun (k : Nat) => (k : Int) + 1) (fun i => (outs i).overall) true) := by
  obtain ⟨outs, F, -, h⟩ := C50_evaluate exFs ⟨exE2EPics, refLib 1, id, fun _ _ => 0, 0⟩ exEv (Or.inr (Or.inl rfl)) exEv_ok
    ["bonn/b".toList] rfl (by simp) (by unfold Relative; decide) (by unfold Roots; decide) (List.replicate 19 "c") rfl .none
    ((List.range 19).map fun (k : Nat) => (k : Int) + 1) rfl (by decide) true false false
    ⟨1, true, false, 2 / 100, some false, some false, none⟩ rfl rfl rfl rfl (by norm_num) (by norm_num) (by decide)
    (.list [1 / 4, 1 / 2]) [1 / 4, 1 / 2] (by decide +kernel) (by simp) exE2EPics_nonempty (fun _ => ⟨rfl, rfl⟩)
    (fun _ _ _ _ _ => 1 / 2) (fun _ _ _ _ _ => by norm_num)
    (by
      intro n hn
      simp only [List.mem_singleton] at hn
      subst hn
      refine ⟨⟨_, rfl, by norm_num, by norm_num⟩, fun c _ => ⟨_, rfl⟩, by simp⟩) true
  obtain ⟨k, hk⟩ := (h F le_rfl 2 (fun _ => [.complete 0])).2.2 (by
    intro i _ j hj
    simp at hj
    simp [hj])
  exact ⟨outs, F, _, hk⟩

/-- An on-the-fly evaluator with one sample and instance maps. -/
def exEvOtf : Ev :=
  { kind := .otf
    ctor := { datasetRoot := "data".toList, predRoot := "out".toList, split := "val".toList, thin := true }
    names := some ["b".toList]
    attrs := { scale := some 1, thinning := some true, nms := some false, maxDist := some (2 / 100), killInternal := some false,
               skipIfNonexistent := some false, instanceSensitive := some true } }

def exFsOtf : Fs :=
  { ex := fun p => decide (p ∈ ["data".toList, "out".toList, "data/gtEval/val".toList, "data/gtFine/val".toList,
      "data/gtFine/val/b_gtFine_labelIds.png".toList, "data/gtFine/val/b_gtFine_instanceIds.png".toList])
    read := fun _ => none, list := fun _ => none }

/-- Every grey picture is 40 rows of road over 40 rows of the first car. -/
def exOtfPics : Pictures where
  rgb _ := none
  gray p := if p = "data/gtFine/val/b_gtFine_instanceIds.png".toList then some ⟨80, 3, fun i _ => if i < 40 then 7 else 26000⟩
    else some ⟨80, 3, fun i _ => if i < 40 then 7 else 26⟩
  mat _ := .error .assertionError

example : ∃ (out : Outcome) (fuel : Nat) (sched : List PoolEvent),
    evaluateCategory exFsOtf ⟨exOtfPics, refLib 1, id, fun _ _ => 0, fuel⟩ exEvOtf 14 (.int 3) 2 true
      (fun _ _ _ _ => 1 / 2) sched = some (.ok out) ∧ out.table.length = 3 := by
  have hp : NoEmptyPictures exOtfPics := by
    constructor
    · intro p E h; cases h
    · intro p P h
      simp only [exOtfPics] at h
      split at h <;> cases h <;> exact ⟨by decide, by decide⟩
  obtain ⟨x, out, F, -, h, g, -⟩ := C50_otf exFsOtf ⟨exOtfPics, refLib 1, id, fun _ _ => 0, 0⟩ exEvOtf rfl
    { root := by unfold DirArg; decide
      pred := by unfold DirArg; decide
      split := .inl rfl
      gt := by intro d hd; simp [exEvOtf] at hd
      suffix := by intro d hd; simp [exEvOtf] at hd }
    ["b".toList] rfl (by simp) (by unfold Relative; decide) (by unfold Roots; decide) 14 (by decide) (by decide) true false false
    ⟨1, true, false, 2 / 100, some false, some false, some 1⟩ rfl rfl rfl rfl (by norm_num) (by norm_num) (by decide)
    (.int 3) _ rfl (by decide) hp (fun _ => ⟨rfl, rfl⟩) (by simpa [exEvOtf] using refLib_exact 1 true 0)
    (fun _ _ _ _ => 1 / 2) (fun _ _ _ _ => by norm_num)
    (by
      intro n hn
      simp only [List.mem_singleton] at hn
      subst hn
      refine ⟨⟨_, rfl, by norm_num, by norm_num⟩, ⟨_, rfl⟩, fun _ => ⟨_, rfl, ?_⟩⟩
      intro i j _ _
      simp only
      split <;> decide) true
  obtain ⟨k, hk⟩ := (h F le_rfl 2 [.complete 0]).2 (by
    intro j hj
    simp at hj
    simp [hj])
  refine ⟨out, F, _, hk, ?_⟩
  have := congrArg List.length g.thresholds
  rw [List.length_map] at this
  rw [this]
  simp [linspace]

/-- A BSDS evaluator with one sample and two annotators. -/
def exEvBsds : Ev :=
  { kind := .bsds
    ctor := { datasetRoot := "data".toList, predRoot := "out".toList, split := "val".toList }
    names := some ["val/1".toList]
    attrs := { scale := some 1, thinning := some false, nms := some false, maxDist := some (2 / 100) } }

def exBsdsPics : Pictures where
  rgb _ := none
  gray _ := some ⟨3, 2, fun i _ => 100 * i⟩
  mat _ := .ok [⟨3, 2, fun i _ => if i = 1 then 1 else 0⟩, ⟨3, 2, fun i _ => if i = 2 then 1 else 0⟩]

example : ∃ (out : Outcome) (fuel : Nat) (sched : List PoolEvent),
    evaluateBsds ⟨fun _ => true, fun _ => none, fun _ => none⟩ ⟨exBsdsPics, refLib 1, id, fun _ _ => 0, fuel⟩ exEvBsds
      (.list [1 / 2]) 2 true false (fun _ _ _ _ => 1 / 2) sched = some (.ok out) ∧ out.writes.length = 3 := by
  have hp : NoEmptyPictures exBsdsPics := by
    constructor
    · intro p E h; cases h
    · intro p P h; cases h; exact ⟨by decide, by decide⟩
  obtain ⟨out, F, h, -, -, g, -⟩ := C50_bsds ⟨fun _ => true, fun _ => none, fun _ => none⟩
    ⟨exBsdsPics, refLib 1, id, fun _ _ => 0, 0⟩ exEvBsds rfl (by unfold DirArg; decide) (by unfold DirArg; decide)
    ["val/1".toList] rfl (by simp) (by unfold Relative; decide) ⟨rfl, rfl, rfl⟩
    ⟨1, false, false, 2 / 100, none, none, none⟩ rfl (by norm_num) (fun _ _ => ⟨rfl, rfl⟩) (.list [1 / 2]) [1 / 2]
    (by decide +kernel) (by simp) hp (fun _ => ⟨rfl, rfl⟩) (fun _ _ _ _ => 1 / 2) (fun _ _ _ _ => by norm_num)
    (fun _ => ⟨3, 2, fun i _ => 100 * i⟩)
    (fun _ => [⟨3, 2, fun i _ => if i = 1 then 1 else 0⟩, ⟨3, 2, fun i _ => if i = 2 then 1 else 0⟩])
    (by
      intro n _
      refine ⟨rfl, rfl, fun g hg => ?_⟩
      simp only [List.mem_cons, List.not_mem_nil, or_false] at hg
      rcases hg with rfl | rfl <;> refine ⟨rfl, rfl, fun i j _ _ => ?_⟩ <;> simp only <;> split <;> simp) true
  obtain ⟨k, hk⟩ := (h F le_rfl 2 [.complete 0]).2 (by
    intro j hj
    simp at hj
    simp [hj])
  refine ⟨out, F, _, hk, ?_⟩
  rw [g.2 rfl]
  rfl

/-- Without any prediction, the evaluation of `exEv` ends with an exception. -/
example (sched : List PoolEvent) (out : Except PyErr Outcome)
    (h : evaluateCategory exFs ⟨{ exE2EPics with gray := fun _ => none }, refLib 1, id, fun _ _ => 0, 9⟩ exEv 7 (.int 3) 2 true
      (fun _ _ _ _ => 1 / 2) sched = some out) : ∃ er, out = .error er := by
  have hdata := (C48_samples exFs exEv (by decide) (by decide) exEv_ok ["bonn/b".toList] rfl (by unfold Relative; decide) 7
    (["bonn/b".toList].map (expected exEv 7 true ⟨1, true, false, 2 / 100, some false, some false, none⟩))).2
    ⟨by simp, by unfold Roots; decide, by omega, by decide, true, _, rfl, rfl, by decide, rfl⟩
  exact C50_missing_prediction exFs _ exEv 7 _ _ hdata _ (List.mem_cons_self) rfl _ _ _ _ _ h

end EdgeEval.Props
