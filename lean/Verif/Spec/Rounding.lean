import Verif.Spec.Float32
import Mathlib.Analysis.Real.Sqrt

/-!
# Rounding of real numbers (specification)
-/

namespace EdgeEval.Spec

/-- What the boundary computation needs of the rounding `fl` of an arithmetic with unit round-off `u` at radius `R`: it
is monotone, exact on the whole numbers up to `R + 1`, relatively accurate from 1 on, and `u` is small against `R`. -/
structure RoundsFine (fl : ℝ → ℝ) (u R : ℝ) : Prop where
  mono : ∀ x y, x ≤ y → fl x ≤ fl y
  whole : ∀ n : ℕ, (n : ℝ) ≤ R + 1 → fl n = n
  err : ∀ x, 1 ≤ x → |fl x - x| ≤ u * x
  nonneg : 0 ≤ u
  small : 2 * u * (R + 1) * (2 * R + 1) ^ 3 < 1

/-- `fl` rounds every real number to a nearest number of the format `F`. -/
structure NearestIn (F : ℚ → Prop) (fl : ℝ → ℝ) : Prop where
  rep : ∀ x, ∃ q, F q ∧ fl x = q
  near : ∀ x q, F q → |fl x - x| ≤ |(q : ℝ) - x|

end EdgeEval.Spec
