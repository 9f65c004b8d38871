import Verif.Spec.Float
import Verif.Model.Img
import Mathlib.Data.Real.Basic
import Mathlib.Data.Rat.Cast.CharZero

/-!
# binary32 numbers, and images of floats read as images of real numbers (specification)
-/

namespace EdgeEval

/-- The finite binary32 numbers (without an upper limit of the exponent): an integer of at most 24 bits times a power of
two that is at least `2^-149`. -/
def IsF32 (x : ℚ) : Prop := ∃ m e : ℤ, |m| ≤ 2 ^ 24 ∧ -149 ≤ e ∧ x = m * (2 : ℚ) ^ e

/-- `fl` rounds every number to a nearest binary32 number. -/
structure RoundsNearest32 (fl : ℚ → ℚ) : Prop where
  rep : ∀ x, IsF32 (fl x)
  near : ∀ x y, IsF32 y → |fl x - x| ≤ |y - x|

namespace Spec

/-- The same image with real values. -/
noncomputable def realImg (I : Img ℚ) : Img ℝ := { rows := I.rows, cols := I.cols, at_ := fun i j => (I.at_ i j : ℝ) }

/-- All values of the image are doubles between 0 and `V`. -/
def Doubles (I : Img ℚ) (V : ℚ) : Prop :=
  ∀ i < I.rows, ∀ j < I.cols, IsF64 (I.at_ i j) ∧ 0 ≤ I.at_ i j ∧ I.at_ i j ≤ V

end Spec

end EdgeEval
