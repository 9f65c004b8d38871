import Verif.Spec.Metrics

/-!
# Specification of the scores of an evaluation
-/

namespace EdgeEval.Spec

/-- A score. -/
def Unit01 (x : ℚ) : Prop := 0 ≤ x ∧ x ≤ 1

/-- The three tables of an evaluation fit together: one row per sample, in order; one row per threshold, in order;
all scores are between 0 and 1; the ODS F-score is the harmonic mean of its recall and precision and no threshold
does better; a sample's F-score is the harmonic mean of its recall and precision. -/
structure GoodScores (names : List String) (ths : List ℚ) (ss : List SampleResult) (ts : List ThresholdResult)
    (o : OverallResult) : Prop where
  rows : ss.map SampleResult.name = names
  thresholds : ts.map ThresholdResult.threshold = ths
  sample : ∀ s ∈ ss, s.threshold ∈ ths ∧ Unit01 s.recall ∧ Unit01 s.precision ∧ Unit01 s.f1 ∧
    s.f1 = harmonic s.recall s.precision
  table : ∀ t ∈ ts, Unit01 t.recall ∧ Unit01 t.precision ∧ Unit01 t.f1 ∧ t.f1 = harmonic t.recall t.precision
  ods : Unit01 o.odsRecall ∧ Unit01 o.odsPrecision ∧ Unit01 o.odsF1 ∧ o.odsF1 = harmonic o.odsRecall o.odsPrecision
  best : ∀ t ∈ ts, t.f1 ≤ o.odsF1
  between : ∃ lo ∈ ths, ∃ hi ∈ ths, min lo hi ≤ o.odsThreshold ∧ o.odsThreshold ≤ max lo hi
  ois : Unit01 o.oisRecall ∧ Unit01 o.oisPrecision ∧ Unit01 o.oisF1 ∧ o.oisF1 = harmonic o.oisRecall o.oisPrecision
  auc : Unit01 o.auc
  ap : Unit01 o.ap

end EdgeEval.Spec
