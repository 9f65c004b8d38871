import Mathlib.Data.Int.Notation
import Mathlib.Algebra.Order.Ring.Int

/-!
# 32-bit integers (specification)
-/

namespace EdgeEval

/-- The value is in the range of a 32-bit `int`. -/
def FitsInt (z : ℤ) : Prop := -2 ^ 31 ≤ z ∧ z < 2 ^ 31

/-- The value is in the range of a 32-bit `unsigned`. -/
def FitsUnsigned (n : Nat) : Prop := n < 2 ^ 32

end EdgeEval
