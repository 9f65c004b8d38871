import Mathlib.Algebra.Order.Group.Abs
import Verif.Model.Metrics

/-!
# Reading numbers back
-/

namespace EdgeEval.Spec

/-- `y` is `x` to within half a unit of the sixth decimal. -/
def Close6 (x y : ℚ) : Prop := |y - x| ≤ 5 / 10 ^ 7

/-- The columns of a threshold record, in file order. -/
def thresholdCols (t : ThresholdResult) : List ℚ := [t.threshold, t.recall, t.precision, t.f1]

/-- The numeric columns of a sample record, in file order. -/
def sampleCols (s : SampleResult) : List ℚ := [s.threshold, s.recall, s.precision, s.f1]

/-- The columns of an overall record, in file order. -/
def overallCols (o : OverallResult) : List ℚ :=
  [o.odsThreshold, o.odsRecall, o.odsPrecision, o.odsF1, o.oisRecall, o.oisPrecision, o.oisF1, o.auc, o.ap]

/-- The list `ys` reproduces `xs`, number by number. -/
def Reproduces (xs ys : List ℚ) : Prop := List.Forall₂ Close6 xs ys

end EdgeEval.Spec
