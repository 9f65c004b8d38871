import Verif.Model.Codec
import Mathlib.Algebra.Order.Field.Rat

/-!
# Specification of resampled pictures
-/

namespace EdgeEval.Spec

/-- `m` is `x` rounded to the nearest integer, halves up. -/
def RoundsTo (x : ℚ) (m : Nat) : Prop := (m : ℚ) - 1 / 2 ≤ x ∧ x < m + 1 / 2

/-- Scaling `n` pixels to `m` pixels: both rows of pixels are drawn on the unit interval, and the centre of the new
pixel `x` lies in the old pixel `p`. -/
def CellOf (n m x p : Nat) : Prop :=
  p < n ∧ (p : ℚ) / n ≤ ((x : ℚ) + 1 / 2) / m ∧ ((x : ℚ) + 1 / 2) / m < ((p : ℚ) + 1) / n

/-- Bit `k` of the 24-bit colour of a pixel: blue holds bits 0-7, green 8-15, red 16-23. -/
def colourBit (im : Rgb) (i j k : Nat) : Bool :=
  if k < 8 then (im.b i j).testBit k else if k < 16 then (im.g i j).testBit (k - 8) else (im.r i j).testBit (k - 16)

/-- The pixel is nearer than `b` to an image border. -/
def InBorder (b rows cols i j : Nat) : Prop := i < b ∨ rows ≤ i + b ∨ j < b ∨ cols ≤ j + b

instance (b rows cols i j : Nat) : Decidable (InBorder b rows cols i j) := by unfold InBorder; infer_instance

end EdgeEval.Spec
