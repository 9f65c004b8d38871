import Verif.Spec.Metrics
import Mathlib.Algebra.Order.Field.Rat
import Mathlib.Algebra.Order.Group.Unbundled.Abs
import Mathlib.Tactic.Linarith
import Mathlib.Tactic.NormNum

/-!
# Floating point: binary64 numbers and rounding to nearest (specification)

The statements about floating point quantify over *every* rounding function that returns a nearest binary64 number:
any rule for ties (to even, away from zero, …) is included.  Numbers above the largest finite double, infinities, NaN and
signed zeros are not part of the specification; the quantities it is used for lie between 0 and 2^53.
-/

namespace EdgeEval

/-- The finite binary64 numbers (without an upper limit of the exponent): an integer of at most 53 bits times a power of
two that is at least `2^-1074`. -/
def IsF64 (x : ℚ) : Prop := ∃ m e : ℤ, |m| ≤ 2 ^ 53 ∧ -1074 ≤ e ∧ x = m * (2 : ℚ) ^ e

/-- `fl` rounds every number to a nearest binary64 number. -/
structure RoundsNearest (fl : ℚ → ℚ) : Prop where
  rep : ∀ x, IsF64 (fl x)
  near : ∀ x y, IsF64 y → |fl x - x| ≤ |y - x|

/-- `s` is a floating-point sum of the numbers in the list, added up in some order and bracketing. -/
inductive SumsTo (fl : ℚ → ℚ) : List ℚ → ℚ → Prop
  | nil : SumsTo fl [] 0
  | one (x : ℚ) : SumsTo fl [x] x
  | add {l l₁ l₂ : List ℚ} {a b : ℚ} : SumsTo fl l₁ a → SumsTo fl l₂ b → l.Perm (l₁ ++ l₂) → SumsTo fl l (fl (a + b))

namespace Spec

/-- A sample whose four arrays have `n` entries, whole numbers of at most `M`, count ≤ sum. -/
structure Whole (n M : Nat) (c : Counts) : Prop where
  lenCR : c.countR.length = n
  lenSR : c.sumR.length = n
  lenCP : c.countP.length = n
  lenSP : c.sumP.length = n
  r : ∀ k, ∃ a b : Nat, c.countR.getD k 0 = a ∧ c.sumR.getD k 0 = b ∧ a ≤ b ∧ b ≤ M
  p : ∀ k, ∃ a b : Nat, c.countP.getD k 0 = a ∧ c.sumP.getD k 0 = b ∧ a ≤ b ∧ b ≤ M

end Spec

end EdgeEval
