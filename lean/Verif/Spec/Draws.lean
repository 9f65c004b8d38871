import Mathlib.Algebra.Order.Field.Rat
import Mathlib.Tactic.Linarith

/-!
# Random draws (specification)
-/

namespace EdgeEval

/-- Every value of the stream is one that `erand48` can return: between 0 and `1 - 2^-48`. -/
def DrawStream (xs : Nat → ℚ) : Prop := ∀ i, 0 ≤ xs i ∧ xs i ≤ 1 - 1 / 2 ^ 48

theorem DrawStream.unit {xs : Nat → ℚ} (h : DrawStream xs) (i : Nat) : 0 ≤ xs i ∧ xs i < 1 :=
  ⟨(h i).1, lt_of_le_of_lt (h i).2 (by norm_num)⟩

end EdgeEval
