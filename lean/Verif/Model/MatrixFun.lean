import Mathlib.Analysis.SpecialFunctions.Trigonometric.Inverse
import Mathlib.Analysis.SpecialFunctions.Trigonometric.Arctan
import Mathlib.Analysis.SpecialFunctions.Arsinh
import Mathlib.Data.Rat.Floor

/-!
# `Matrix.cc`: the scalar functions it defines itself

Exact real (or rational) arithmetic; the C library's `sin`, `cos`, … are the exact functions.  `1.0/0` is an infinity in C; the theorems only
speak about arguments other than 0.
-/

namespace EdgeEval.MatrixFun

open Real

/-- Matrix.cc:57 `sec`. -/
noncomputable def sec (x : ℝ) : ℝ := cos (1 / x)
/-- Matrix.cc:58 `sech`. -/
noncomputable def sech (x : ℝ) : ℝ := cosh (1 / x)
/-- Matrix.cc:59 `asec`. -/
noncomputable def asec (x : ℝ) : ℝ := arccos (1 / x)
/-- Matrix.cc:61 `csc`. -/
noncomputable def csc (x : ℝ) : ℝ := sin (1 / x)
/-- Matrix.cc:62 `csch`. -/
noncomputable def csch (x : ℝ) : ℝ := sinh (1 / x)
/-- Matrix.cc:63 `acsc`. -/
noncomputable def acsc (x : ℝ) : ℝ := arcsin (1 / x)
/-- Matrix.cc:64 `acsch`. -/
noncomputable def acsch (x : ℝ) : ℝ := arsinh (1 / x)
/-- Matrix.cc:65 `cot`. -/
noncomputable def cot (x : ℝ) : ℝ := tan (1 / x)
/-- Matrix.cc:66 `coth`. -/
noncomputable def coth (x : ℝ) : ℝ := tanh (1 / x)
/-- Matrix.cc:67 `acot`. -/
noncomputable def acot (x : ℝ) : ℝ := arctan (1 / x)

/-- `trunc`. -/
def trunc (x : ℚ) : ℤ := if 0 ≤ x then ⌊x⌋ else ⌈x⌉

/-- Matrix.cc:75-77 `rem`; `none` is NaN. -/
def rem (x y : ℚ) : Option ℚ := if y = 0 then none else some (x - y * (trunc (x / y) : ℚ))
/-- Matrix.cc:78-80 `mod`. -/
def mod (x y : ℚ) : ℚ := if y = 0 then x else x - y * (⌊x / y⌋ : ℚ)

end EdgeEval.MatrixFun
