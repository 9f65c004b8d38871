import Verif.Spec.Float
import Mathlib.Analysis.SpecialFunctions.Pow.Real

/-!
# Floating point: the square root (specification)
-/

namespace EdgeEval

/-- `sq` is a correctly rounded square root: the result is a binary64 number, and no binary64 number is nearer to the exact
square root (any rule for ties). -/
structure SqrtNearest (sq : ℚ → ℚ) : Prop where
  rep : ∀ x, IsF64 (sq x)
  near : ∀ x y, 0 ≤ x → IsF64 y → |(sq x : ℝ) - √(x : ℝ)| ≤ |(y : ℝ) - √(x : ℝ)|

end EdgeEval
