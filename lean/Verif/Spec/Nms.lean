import Mathlib.Analysis.SpecialFunctions.Trigonometric.Basic
import Mathlib.Algebra.BigOperators.Group.Finset.Basic
import Mathlib.Order.Interval.Finset.Defs
import Mathlib.Data.Int.Interval
import Verif.Model.Img

/-!
# Specification vocabulary for non-maximum suppression

Written without reference to the loops of the implementation: bilinear interpolation is the sum over all
pixels weighted by a product of tent functions; suppression is an existential statement; the damping near
the border is a ramp of the distance to the border.
-/

namespace EdgeEval.Spec

/-- The tent function of width 1. -/
noncomputable def tent (t : ℝ) : ℝ := max 0 (1 - |t|)

/-- Bilinear interpolation of the image at column position `x` and row position `y`. -/
noncomputable def bilinear (I : Img ℝ) (x y : ℝ) : ℝ :=
  ∑ i ∈ Finset.range I.rows, ∑ j ∈ Finset.range I.cols, I.at_ i j * tent (x - j) * tent (y - i)

/-- A coordinate moved to the closest position of `[0, n - 1.001]`. -/
noncomputable def inRange (n : Nat) (x : ℝ) : ℝ := max 0 (min x ((n : ℝ) - 1.001))

/-- The response sampled at an arbitrary position: interpolation at the closest position of the image. -/
noncomputable def sample (I : Img ℝ) (x y : ℝ) : ℝ := bilinear I (inRange I.cols x) (inRange I.rows y)

/-- Pixel `(y, x)` is beaten: at some whole distance `0 < |d| ≤ r` in the direction `ori`, the response
exceeds `m` times its own. -/
def Beaten (I O : Img ℝ) (r : ℤ) (m : ℝ) (y x : Nat) : Prop :=
  ∃ d : ℤ, d ≠ 0 ∧ |d| ≤ r ∧
    m * I.at_ y x < sample I (x + d * Real.cos (O.at_ y x)) (y + d * Real.sin (O.at_ y x))

/-- Distance (in pixels) of index `k` to the closest end of an axis of length `n`. -/
def toEnd (n k : Nat) : Nat := min k (n - 1 - k)

/-- Damping near the ends of an axis: `0` at the end, growing linearly to `1` at distance `s`. -/
noncomputable def ramp (s n k : Nat) : ℝ := if s = 0 then 1 else min 1 ((toEnd n k : ℝ) / s)

/-- The margin in use: at most half of either side of the image. -/
def usedMargin (h w : Nat) (s : ℤ) : Nat := min s.toNat (min (h / 2) (w / 2))

/-- All the values of the image are in `[lo, hi]`. -/
def Within (I : Img ℝ) (lo hi : ℝ) : Prop :=
  ∀ i < I.rows, ∀ j < I.cols, lo ≤ I.at_ i j ∧ I.at_ i j ≤ hi

end EdgeEval.Spec

namespace EdgeEval.Spec

/-- Mirror reflection of an index into `0 .. n-1`, the end samples being repeated
(`… 1 0 | 0 1 … n-1 | n-1 n-2 …`). -/
def mirror (n : Nat) (k : ℤ) : Nat := min (k % (2 * n)).toNat (2 * n - 1 - (k % (2 * n)).toNat)

/-- The triangle weight at offset `a` of the filter of radius `r`. -/
noncomputable def triWeight (r : Nat) (a : ℤ) : ℝ := ((r : ℝ) + 1 - |(a : ℝ)|) / ((r : ℝ) + 1) ^ 2

/-- Weighted average with triangle weights in both directions, the image being mirrored at its border. -/
noncomputable def triMean (I : Img ℝ) (r : Nat) (i j : Nat) : ℝ :=
  ∑ a ∈ Finset.Icc (-(r : ℤ)) r, ∑ b ∈ Finset.Icc (-(r : ℤ)) r,
    triWeight r a * triWeight r b * I.at_ (mirror I.rows (i + a)) (mirror I.cols (j + b))

end EdgeEval.Spec

namespace EdgeEval.Spec

/-- Slope of a sequence of length `n` at index `i`: the difference of the values at the next and previous
index divided by their distance, indices outside `0 .. n-1` being replaced by `i`. -/
noncomputable def slope (n : Nat) (a : Nat → ℝ) (i : Nat) : ℝ :=
  (a (min (i + 1) (n - 1)) - a (i - 1)) / ((min (i + 1) (n - 1) : Nat) - (i - 1 : Nat) : ℝ)

/-- Slope of an image along its rows (the x direction). -/
noncomputable def slopeX (I : Img ℝ) : Img ℝ :=
  { rows := I.rows, cols := I.cols, at_ := fun (i j : Nat) => slope I.cols (fun (k : Nat) => I.at_ i k) j }

/-- Slope of an image along its columns (the y direction). -/
noncomputable def slopeY (I : Img ℝ) : Img ℝ :=
  { rows := I.rows, cols := I.cols, at_ := fun (i j : Nat) => slope I.rows (fun (k : Nat) => I.at_ k j) i }

/-- The tangent of the direction in which a response is compared with its neighbours: second slope in y over
second slope in x (replaced by `1e-5` if it vanishes), with the sign opposite to the mixed one — and 0 if the
mixed one vanishes. -/
noncomputable def dirTangent (I : Img ℝ) (i j : Nat) : ℝ :=
  let xx := (slopeX (slopeX I)).at_ i j
  let xy := (slopeX (slopeY I)).at_ i j
  let yy := (slopeY (slopeY I)).at_ i j
  (if 0 < xy then -yy else if xy < 0 then yy else 0) / (if xx = 0 then 1e-5 else xx)

/-- The image smoothed with the triangle filter of radius `r`. -/
noncomputable def smooth (I : Img ℝ) (r : Nat) : Img ℝ :=
  { rows := I.rows, cols := I.cols, at_ := fun (i j : Nat) => triMean I r i j }

end EdgeEval.Spec
