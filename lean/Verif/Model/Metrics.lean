import Verif.Model.Py

/-!
# Model of `pyEdgeEval/common/metrics.py`, `common/utils.py` and `common/*/calculate_metrics.py`
-/

namespace EdgeEval

/-- metrics.py:19  the denominator `sum_r + (sum_r == 0)` of `recall`. -/
def recallDenom (sumR : ℚ) : ℚ := sumR + if sumR = 0 then 1 else 0

/-- metrics.py:15-19  `recall`:  `count_r / (sum_r + (sum_r == 0))`. -/
def recall (countR sumR : ℚ) : ℚ := countR / recallDenom sumR

/-- metrics.py:26  the denominator `sum_p + (sum_p == 0)` of `precision`. -/
def precisionDenom (sumP : ℚ) : ℚ := sumP + if sumP = 0 then 1 else 0

/-- metrics.py:22-26  `precision`. -/
def precision (countP sumP : ℚ) : ℚ := countP / precisionDenom sumP

/-- metrics.py:33  `f1_denom`. -/
def f1Denom (prec rcl : ℚ) : ℚ := prec + rcl + if prec + rcl = 0 then 1 else 0

/-- metrics.py:29-34  `f1(prec, rec)`. -/
def f1 (prec rcl : ℚ) : ℚ := 2 * prec * rcl / f1Denom prec rcl

/-- A (recall, precision, F1) triple. -/
structure RPF where
  rcl : ℚ
  prc : ℚ
  f1 : ℚ
  deriving DecidableEq, Repr

/-- metrics.py:37-49  `compute_rec_prec_f1` on scalars (the array version is applied pointwise). -/
def computeRPF (countR sumR countP sumP : ℚ) : RPF :=
  let r := recall countR sumR
  let p := precision countP sumP
  ⟨r, p, f1 p r⟩

/-- State of the search in `interpolated_max_scores` (metrics.py:57-60). -/
structure Best where
  threshold : ℚ
  rcl : ℚ
  prc : ℚ
  f1 : ℚ
  deriving DecidableEq, Repr

/-- metrics.py:64-72  body of the inner loop: one interpolation weight `d`. -/
def odsStep (t1 t0 r1 r0 p1 p0 : ℚ) (b : Best) (d : ℚ) : Best :=
  let t := t1 * d + t0 * (1 - d)
  let r := r1 * d + r0 * (1 - d)
  let p := p1 * d + p0 * (1 - d)
  let f := f1 p r
  if b.f1 < f then ⟨t, r, p, f⟩ else b

/-- metrics.py:63-72  the inner loop over `np.linspace(0, 1, num=101)`.  (The six array reads are
hoisted out of the inner loop; they do not depend on `d`.) -/
def odsInner (t1 t0 r1 r0 p1 p0 : ℚ) (b : Best) : Best :=
  (linspace 0 1 101).foldl (odsStep t1 t0 r1 r0 p1 p0) b

/-- metrics.py:62-72  one iteration of the outer loop. -/
def odsOuter (th rcl prc : List ℚ) (b : Best) (i : Nat) : Except PyErr Best := do
  let t1 ← getItem th i
  let t0 ← getItem th (i - 1)
  let r1 ← getItem rcl i
  let r0 ← getItem rcl (i - 1)
  let p1 ← getItem prc i
  let p0 ← getItem prc (i - 1)
  pure (odsInner t1 t0 r1 r0 p1 p0 b)

/-- metrics.py:52-74  `interpolated_max_scores`. -/
def interpolatedMaxScores (th rcl prc : List ℚ) : Except PyErr Best := do
  let t ← getItem th 0
  let r ← getItem rcl 0
  let p ← getItem prc 0
  (List.range' 1 (th.length - 1)).foldlM (odsOuter th rcl prc) ⟨t, r, p, f1 p r⟩

/-- The argument of `check_thresholds` as a Python value.  `nested` is a list whose numpy array has
`ndim ≠ 1` (for instance a list of lists); `other` is any value that is not `int`, `float`, `list`
(for instance a numpy array or a string). -/
inductive ThresholdArg where
  | int (n : Int)
  | float (x : ℚ)
  | list (xs : List ℚ)
  | nested
  | other
  deriving DecidableEq, Repr

/-- common/utils.py:6-33  `check_thresholds`.  `linspace` with a negative count raises `ValueError`;
`1.0 / 0` raises `ZeroDivisionError`. -/
def checkThresholds : ThresholdArg → Except PyErr (List ℚ)
  | .int n =>
    if n + 1 = 0 then .error .zeroDivisionError
    else if n < 0 then .error .valueError
    else .ok (linspace (1 / ((n : ℚ) + 1)) (1 - 1 / ((n : ℚ) + 1)) n.toNat)
  | .float x => .ok [x]
  | .list xs => .ok xs
  | .nested => .error .valueError
  | .other => .error .valueError

/-- What `eval_single` returns for one sample: four arrays indexed by threshold
(calculate_metrics.py:68). -/
structure Counts where
  countR : List ℚ
  sumR : List ℚ
  countP : List ℚ
  sumP : List ℚ
  deriving DecidableEq, Repr

/-- calculate_metrics.py:88-96  one entry of `sample_results`. -/
structure SampleResult where
  name : String
  threshold : ℚ
  recall : ℚ
  precision : ℚ
  f1 : ℚ
  deriving DecidableEq, Repr

/-- calculate_metrics.py:113-120  one entry of `threshold_results`. -/
structure ThresholdResult where
  threshold : ℚ
  recall : ℚ
  precision : ℚ
  f1 : ℚ
  deriving DecidableEq, Repr

/-- calculate_metrics.py:153-163  `overall_result`. -/
structure OverallResult where
  odsThreshold : ℚ
  odsRecall : ℚ
  odsPrecision : ℚ
  odsF1 : ℚ
  oisRecall : ℚ
  oisPrecision : ℚ
  oisF1 : ℚ
  auc : ℚ
  ap : ℚ
  deriving DecidableEq, Repr

/-- Accumulators of the sample loop (calculate_metrics.py:54-66). -/
structure Acc where
  countR : List ℚ
  sumR : List ℚ
  countP : List ℚ
  sumP : List ℚ
  bestCountR : ℚ
  bestSumR : ℚ
  bestCountP : ℚ
  bestSumP : ℚ
  results : List SampleResult
  deriving DecidableEq, Repr

/-- calculate_metrics.py:54-66  initial accumulators. -/
def Acc.init (n : Nat) : Acc :=
  ⟨List.replicate n 0, List.replicate n 0, List.replicate n 0, List.replicate n 0, 0, 0, 0, 0, []⟩

/-- `compute_rec_prec_f1` on 1-D arrays (metrics.py:37-49): the scalar formulas pointwise.  The four
arrays have the same length when this is called. -/
def computeRPFArr (c : Counts) : List RPF :=
  List.zipWith (fun (x y : ℚ × ℚ) => computeRPF x.1 x.2 y.1 y.2)
    (List.zip c.countR c.sumR) (List.zip c.countP c.sumP)

/-- calculate_metrics.py:67-96  body of the sample loop. -/
def sampleStep (th : List ℚ) (a : Acc) (s : String × Counts) : Except PyErr Acc := do
  let c := s.2
  let cr ← addArr a.countR c.countR
  let sr ← addArr a.sumR c.sumR
  let cp ← addArr a.countP c.countP
  let sp ← addArr a.sumP c.sumP
  let rpf := computeRPFArr c
  let best ← argmax (rpf.map RPF.f1)
  let bcr ← getItem c.countR best
  let bsr ← getItem c.sumR best
  let bcp ← getItem c.countP best
  let bsp ← getItem c.sumP best
  let t ← getItem th best
  let b ← getItem rpf best
  pure ⟨cr, sr, cp, sp, a.bestCountR + bcr, a.bestSumR + bsr, a.bestCountP + bcp, a.bestSumP + bsp,
    a.results ++ [⟨s.1, t, b.rcl, b.prc, b.f1⟩]⟩

/-- calculate_metrics.py:122-136  area under the precision-recall curve. -/
def areaPR (rcl prc : List ℚ) : ℚ :=
  let pts := uniqueFirst rcl prc
  if pts.length > 1 then (arange01.map fun x => npInterp x 0 0 pts).sum * (1 / 100) else 0

/-- calculate_metrics.py:140-142  `np.max(prec_overall[rec_overall >= t], initial=0)`. -/
def precAtRecall (rcl prc : List ℚ) (t : ℚ) : ℚ :=
  maxInit0 (((List.zip rcl prc).filter fun x => decide (t ≤ x.1)).map Prod.snd)

/-- calculate_metrics.py:138-143  average precision. -/
def averagePrecision (rcl prc : List ℚ) : ℚ :=
  arange01.foldl (fun ap t => ap + precAtRecall rcl prc t / 101) 0

/-- calculate_metrics.py:98-165  everything after the sample loop. -/
def finishMetrics (th : List ℚ) (a : Acc) :
    Except PyErr (List SampleResult × List ThresholdResult × OverallResult) := do
  let rpf := computeRPFArr ⟨a.countR, a.sumR, a.countP, a.sumP⟩
  let rec' := rpf.map RPF.rcl
  let prec' := rpf.map RPF.prc
  let ods ← interpolatedMaxScores th rec' prec'
  let thRes := List.zipWith (fun t (x : RPF) => (⟨t, x.rcl, x.prc, x.f1⟩ : ThresholdResult)) th rpf
  let ois := computeRPF a.bestCountR a.bestSumR a.bestCountP a.bestSumP
  pure (a.results, thRes,
    ⟨ods.threshold, ods.rcl, ods.prc, ods.f1, ois.rcl, ois.prc, ois.f1,
      areaPR rec' prec', averagePrecision rec' prec'⟩)

/-- calculate_metrics.py:50-165  `calculate_metrics` after the per-sample evaluation: `samples` pairs
each sample name with the counts `eval_single` returned for it.  (binary_label and multi_label
versions are the same code.) -/
def calculateFromCounts (tharg : ThresholdArg) (samples : List (String × Counts)) :
    Except PyErr (List SampleResult × List ThresholdResult × OverallResult) := do
  let th ← checkThresholds tharg
  let acc ← samples.foldlM (sampleStep th) (Acc.init th.length)
  finishMetrics th acc

end EdgeEval
