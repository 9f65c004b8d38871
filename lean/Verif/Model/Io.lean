import Mathlib.Algebra.Order.Archimedean.Real.Basic
import Verif.Model.Text
import Verif.Model.Metrics

/-!
# `common/*/io.py` and the loaders of `visualization/pr_curve.py`

A save function is modelled by the list of files it writes, in order, each with its whole contents (opening a
file with mode `"w"` truncates it).  The binary-label and multi-label versions are the same code.
-/

namespace EdgeEval.Io

open Text

/-- Fields separated by one blank, each printed with `{:<10.6f}`. -/
def row : List ℚ → Str
  | [] => []
  | [x] => fmt x
  | x :: y :: rest => fmt x ++ ' ' :: row (y :: rest)

/-- multi_label/io.py:11-24 and binary_label/io.py:11-24  one line of `eval_bdry_img.txt`. -/
def sampleLine (s : SampleResult) : Str :=
  s.name.toList ++ ' ' :: row [s.threshold, s.recall, s.precision, s.f1] ++ ['\n']

/-- io.py:8-24  `save_sample_metrics`. -/
def sampleFile (l : List SampleResult) : Str := (l.map sampleLine).flatten

/-- io.py:30-40  one line of `eval_bdry_thr.txt`. -/
def thresholdLine (t : ThresholdResult) : Str := row [t.threshold, t.recall, t.precision, t.f1] ++ ['\n']

/-- io.py:26-40  `save_threshold_metrics`. -/
def thresholdFile (l : List ThresholdResult) : Str := (l.map thresholdLine).flatten

/-- io.py:43-62  `save_overall_metric`: nine numbers, no newline. -/
def overallFile (o : OverallResult) : Str :=
  row [o.odsThreshold, o.odsRecall, o.odsPrecision, o.odsF1, o.oisRecall, o.oisPrecision, o.oisF1, o.auc, o.ap]

/-- A written file: directory (below the root, empty for the root itself), name, contents. -/
structure Write where
  dir : Str
  name : String
  contents : Str
  deriving DecidableEq

/-- The three conditional writes common to both savers (multi_label/io.py:95-100, binary_label/io.py:74-79).
An absent or empty overall dictionary is `none`. -/
def saveInto (dir : Str) (ss : List SampleResult) (ts : List ThresholdResult) (o : Option OverallResult) :
    List Write :=
  (if ss = [] then [] else [⟨dir, "eval_bdry_img.txt", sampleFile ss⟩])
    ++ (if ts = [] then [] else [⟨dir, "eval_bdry_thr.txt", thresholdFile ts⟩])
    ++ (match o with
      | none => []
      | some o => [⟨dir, "eval_bdry.txt", overallFile o⟩])

/-- multi_label/io.py:91-92  `"class_" + str(category).zfill(3)` for a non-negative category. -/
def classDir (category : Nat) : Str := "class_".toList ++ (zfill 3 (pyStr category)).map digitCh

/-- multi_label/io.py:83-100  `save_category_results`. -/
def saveCategory (category : Nat) (ss : List SampleResult) (ts : List ThresholdResult)
    (o : Option OverallResult) : List Write := saveInto (classDir category) ss ts o

/-- binary_label/io.py:65-79  `save_results`. -/
def saveResults (ss : List SampleResult) (ts : List ThresholdResult) (o : Option OverallResult) :
    List Write := saveInto [] ss ts o

/-! ## loading -/

/-- The result of `np.loadtxt`: arrays with unit axes squeezed out. -/
inductive Arr where
  | scalar (x : ℚ)
  | vec (xs : List ℚ)
  | mat (rows : List (List ℚ))
  deriving DecidableEq

/-- `np.loadtxt` (library): lines split at white space, blank lines skipped, every line the same number of
fields, unit axes squeezed.  Comments (`#`) are not modelled: no file written by this project contains one,
unless a sample name does. -/
def loadtxt (s : Str) : Except PyErr Arr :=
  match mapM' (mapM' floatLit) (((splitOnChar '\n' s).map words).filter (· ≠ [])) with
  | .error e => .error e
  | .ok [] => .ok (.vec [])
  | .ok [r] => match r with
    | [x] => .ok (.scalar x)
    | r => .ok (.vec r)
  | .ok (r :: rs) =>
    if rs.all fun q => q.length = r.length then
      if r.length = 1 then .ok (.vec ((r :: rs).flatten)) else .ok (.mat (r :: rs))
    else .error .valueError

/-- pr_curve.py:54-58  `_load_threshold_data` on an existing file: `pr[:, 1]` needs a two-dimensional array
with at least two columns. -/
def loadThresholdData (s : Str) : Except PyErr (List (List ℚ)) :=
  match loadtxt s with
  | .error e => .error e
  | .ok (.mat rows) =>
    if rows.all fun r => 1 < r.length then .ok (rows.filter fun r => 1 / 1000 ≤ r.getD 1 0)
    else .error .indexError
  | .ok _ => .error .indexError

/-- pr_curve.py:61-64  `_load_overall_results`. -/
def loadOverall (s : Str) : Except PyErr Arr := loadtxt s

/-- pr_curve.py:105,108  `res[i, :8] = ...`: a scalar or a one-element vector is broadcast, otherwise eight
values are required (a matrix needs one row of eight or of one). -/
def assignEight : Arr → Except PyErr (List ℚ)
  | .scalar x => .ok (List.replicate 8 x)
  | .vec xs =>
    if xs.length = 8 then .ok xs else
    match xs with
    | [x] => .ok (List.replicate 8 x)
    | _ => .error .valueError
  | .mat _ => .error .valueError

/-- pr_curve.py:106-109  the loading loop of `plot_pr_curve` for one algorithm, up to `_calc_r50`. -/
def loadAlgorithm (thr overall : Str) : Except PyErr (List (List ℚ) × List ℚ) :=
  match loadThresholdData thr with
  | .error e => .error e
  | .ok pr =>
    match loadOverall overall with
    | .error e => .error e
    | .ok a =>
      match assignEight a with
      | .error e => .error e
      | .ok r => .ok (pr, r)

/-! ## iso-F contours -/

/-- pr_curve.py:40  the precision drawn at recall `r` on the contour of `f`. -/
noncomputable def isoPrecision (f r : ℝ) : ℝ := f * r / (2 * r - f)

/-- `np.arange(start, stop, step)` (library): `ceil((stop - start) / step)` values. -/
noncomputable def arange (start stop step : ℝ) : List ℝ :=
  (List.range ⌈(stop - start) / step⌉.toNat).map fun (k : Nat) => start + k * step

/-- pr_curve.py:38-42  all the points plotted, as pairs (x, y), with their contour. -/
noncomputable def contourPoints : List (ℝ × ℝ × ℝ) :=
  (arange 0.1 1 0.1).flatMap fun f =>
    ((arange f 1.01 0.01).map fun r => (f, r, isoPrecision f r))
      ++ ((arange f 1.01 0.01).map fun r => (f, isoPrecision f r, r))

end EdgeEval.Io
