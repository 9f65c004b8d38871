import Verif.Model.Metrics
import Mathlib.Algebra.Order.Floor.Defs
import Mathlib.Data.Rat.Floor

/-!
# `common/metrics.py`, `common/utils.py` and `common/*/calculate_metrics.py` in floating point

The same code as in `Model/Metrics.lean`, with every float operation followed by a rounding `fl`.  With `fl = id` the two
models coincide (`C55_exact`).  Python evaluates `a * b + c * d` and `2.0 * a * b / c` from left to right, so the order of
the roundings is determined.  Comparisons are exact.
-/

namespace EdgeEval.FloatM

/-- metrics.py:15-19  `count_r / (sum_r + (sum_r == 0))`. -/
def recall (fl : ℚ → ℚ) (countR sumR : ℚ) : ℚ := fl (countR / fl (sumR + if sumR = 0 then 1 else 0))

/-- metrics.py:22-26  `precision`. -/
def precision (fl : ℚ → ℚ) (countP sumP : ℚ) : ℚ := fl (countP / fl (sumP + if sumP = 0 then 1 else 0))

/-- metrics.py:33  `f1_denom = prec + rec + ((prec + rec) == 0)`. -/
def f1Denom (fl : ℚ → ℚ) (prec rcl : ℚ) : ℚ := fl (fl (prec + rcl) + if fl (prec + rcl) = 0 then 1 else 0)

/-- metrics.py:29-34  `2.0 * prec * rec / f1_denom`. -/
def f1 (fl : ℚ → ℚ) (prec rcl : ℚ) : ℚ := fl (fl (fl (2 * prec) * rcl) / f1Denom fl prec rcl)

/-- metrics.py:37-49  `compute_rec_prec_f1`. -/
def computeRPF (fl : ℚ → ℚ) (countR sumR countP sumP : ℚ) : RPF :=
  let r := recall fl countR sumR
  let p := precision fl countP sumP
  ⟨r, p, f1 fl p r⟩

/-- `np.linspace(a, b, n)` (library): the step is computed once, every point is a rounded multiple plus the start, the last
point is the stop.  (If the step is zero numpy scales differently; there `b = a`, which gives the same points.) -/
def linspace (fl : ℚ → ℚ) (a b : ℚ) (n : Nat) : List ℚ :=
  let step := fl (fl (b - a) / ((n : ℚ) - 1))
  (List.range n).map fun (k : Nat) =>
    if n = 1 then a else if k + 1 = n then b else fl (fl (k * step) + a)

/-- `np.arange(0, 1, 0.01)` (library): `⌈(1 - 0) / 0.01⌉` multiples of the literal `0.01`, which is itself rounded. -/
def arange01 (fl : ℚ → ℚ) : List ℚ :=
  (List.range ⌈fl (1 / fl (1 / 100))⌉.toNat).map fun (k : Nat) => fl (k * fl (1 / 100))

/-- `u * d + v * (1 - d)` (metrics.py:64-66). -/
def mix (fl : ℚ → ℚ) (u v d : ℚ) : ℚ := fl (fl (u * d) + fl (v * fl (1 - d)))

/-- metrics.py:64-72  body of the inner loop. -/
def odsStep (fl : ℚ → ℚ) (t1 t0 r1 r0 p1 p0 : ℚ) (b : Best) (d : ℚ) : Best :=
  let t := mix fl t1 t0 d
  let r := mix fl r1 r0 d
  let p := mix fl p1 p0 d
  let f := f1 fl p r
  if b.f1 < f then ⟨t, r, p, f⟩ else b

/-- metrics.py:63-72  the inner loop. -/
def odsInner (fl : ℚ → ℚ) (t1 t0 r1 r0 p1 p0 : ℚ) (b : Best) : Best :=
  (linspace fl 0 1 101).foldl (odsStep fl t1 t0 r1 r0 p1 p0) b

/-- metrics.py:62-72  one iteration of the outer loop. -/
def odsOuter (fl : ℚ → ℚ) (th rcl prc : List ℚ) (b : Best) (i : Nat) : Except PyErr Best := do
  let t1 ← getItem th i
  let t0 ← getItem th (i - 1)
  let r1 ← getItem rcl i
  let r0 ← getItem rcl (i - 1)
  let p1 ← getItem prc i
  let p0 ← getItem prc (i - 1)
  pure (odsInner fl t1 t0 r1 r0 p1 p0 b)

/-- metrics.py:52-74  `interpolated_max_scores`. -/
def interpolatedMaxScores (fl : ℚ → ℚ) (th rcl prc : List ℚ) : Except PyErr Best := do
  let t ← getItem th 0
  let r ← getItem rcl 0
  let p ← getItem prc 0
  (List.range' 1 (th.length - 1)).foldlM (odsOuter fl th rcl prc) ⟨t, r, p, f1 fl p r⟩

/-- common/utils.py:6-33  `check_thresholds`; the floats in the argument are binary64 already. -/
def checkThresholds (fl : ℚ → ℚ) : ThresholdArg → Except PyErr (List ℚ)
  | .int n =>
    if n + 1 = 0 then .error .zeroDivisionError
    else if n < 0 then .error .valueError
    else .ok (linspace fl (fl (1 / ((n : ℚ) + 1))) (fl (1 - fl (1 / ((n : ℚ) + 1)))) n.toNat)
  | .float x => .ok [x]
  | .list xs => .ok xs
  | .nested => .error .valueError
  | .other => .error .valueError

/-- `a += b` on float arrays. -/
def addArr (fl : ℚ → ℚ) (a b : List ℚ) : Except PyErr (List ℚ) :=
  if a.length = b.length then .ok (List.zipWith (fun x y => fl (x + y)) a b) else .error .valueError

/-- `compute_rec_prec_f1` on 1-D arrays. -/
def computeRPFArr (fl : ℚ → ℚ) (c : Counts) : List RPF :=
  List.zipWith (fun (x y : ℚ × ℚ) => computeRPF fl x.1 x.2 y.1 y.2)
    (List.zip c.countR c.sumR) (List.zip c.countP c.sumP)

/-- calculate_metrics.py:67-96  body of the sample loop. -/
def sampleStep (fl : ℚ → ℚ) (th : List ℚ) (a : Acc) (s : String × Counts) : Except PyErr Acc := do
  let c := s.2
  let cr ← addArr fl a.countR c.countR
  let sr ← addArr fl a.sumR c.sumR
  let cp ← addArr fl a.countP c.countP
  let sp ← addArr fl a.sumP c.sumP
  let rpf := computeRPFArr fl c
  let best ← argmax (rpf.map RPF.f1)
  let bcr ← getItem c.countR best
  let bsr ← getItem c.sumR best
  let bcp ← getItem c.countP best
  let bsp ← getItem c.sumP best
  let t ← getItem th best
  let b ← getItem rpf best
  pure ⟨cr, sr, cp, sp, fl (a.bestCountR + bcr), fl (a.bestSumR + bsr), fl (a.bestCountP + bcp),
    fl (a.bestSumP + bsp), a.results ++ [⟨s.1, t, b.rcl, b.prc, b.f1⟩]⟩

/-- The interior part of `np.interp` (library): a query at a point takes its value, otherwise
`slope * (x - xp[j]) + fp[j]`. -/
def interpSeg (fl : ℚ → ℚ) (x right : ℚ) : List (ℚ × ℚ) → ℚ
  | [] => right
  | [(k, v)] => if x = k then v else right
  | (k, v) :: (k', v') :: rest =>
    if x < k' then
      if x = k then v else fl (fl (fl (fl (v' - v) / fl (k' - k)) * fl (x - k)) + v)
    else interpSeg fl x right ((k', v') :: rest)

/-- `np.interp(x, xp, fp, left, right)` at one query point. -/
def npInterp (fl : ℚ → ℚ) (x left right : ℚ) (pts : List (ℚ × ℚ)) : ℚ :=
  match pts with
  | [] => right
  | (k, v) :: rest => if x < k then left else interpSeg fl x right ((k, v) :: rest)

/-- calculate_metrics.py:122-136  area under the precision-recall curve; `sum` is `ndarray.sum` (numpy adds in blocks and
pairs, in an order that depends on the build). -/
def areaPR (fl : ℚ → ℚ) (sum : List ℚ → ℚ) (rcl prc : List ℚ) : ℚ :=
  let pts := uniqueFirst rcl prc
  if pts.length > 1 then fl (sum ((arange01 fl).map fun x => npInterp fl x 0 0 pts) * fl (1 / 100)) else 0

/-- calculate_metrics.py:138-143  average precision. -/
def averagePrecision (fl : ℚ → ℚ) (rcl prc : List ℚ) : ℚ :=
  (arange01 fl).foldl (fun ap t => fl (ap + fl (precAtRecall rcl prc t / 101))) 0

/-- calculate_metrics.py:98-165  everything after the sample loop. -/
def finishMetrics (fl : ℚ → ℚ) (sum : List ℚ → ℚ) (th : List ℚ) (a : Acc) :
    Except PyErr (List SampleResult × List ThresholdResult × OverallResult) := do
  let rpf := computeRPFArr fl ⟨a.countR, a.sumR, a.countP, a.sumP⟩
  let rec' := rpf.map RPF.rcl
  let prec' := rpf.map RPF.prc
  let ods ← interpolatedMaxScores fl th rec' prec'
  let thRes := List.zipWith (fun t (x : RPF) => (⟨t, x.rcl, x.prc, x.f1⟩ : ThresholdResult)) th rpf
  let ois := computeRPF fl a.bestCountR a.bestSumR a.bestCountP a.bestSumP
  pure (a.results, thRes,
    ⟨ods.threshold, ods.rcl, ods.prc, ods.f1, ois.rcl, ois.prc, ois.f1,
      areaPR fl sum rec' prec', averagePrecision fl rec' prec'⟩)

/-- calculate_metrics.py:50-165  `calculate_metrics` after the per-sample evaluation. -/
def calculateFromCounts (fl : ℚ → ℚ) (sum : List ℚ → ℚ) (tharg : ThresholdArg) (samples : List (String × Counts)) :
    Except PyErr (List SampleResult × List ThresholdResult × OverallResult) := do
  let th ← checkThresholds fl tharg
  let acc ← samples.foldlM (sampleStep fl th) (Acc.init th.length)
  finishMetrics fl sum th acc

end EdgeEval.FloatM
