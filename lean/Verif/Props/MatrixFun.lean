import Verif.Model.MatrixFun
import Mathlib.Analysis.Real.Pi.Bounds
import Mathlib.Analysis.SpecialFunctions.Trigonometric.Bounds
import Mathlib.Tactic.FieldSimp
import Mathlib.Tactic.Linarith

/-!
# C71: the scalar functions of `Matrix.cc`
-/

namespace EdgeEval.Props

open EdgeEval.MatrixFun
open Real

/-- The inverse functions are right: the secant (cosecant, cotangent, hyperbolic cosecant) of the result is the argument, and the result lies in the usual range. -/
theorem C71_inverse {x : ℝ} (hx : 1 ≤ |x|) :
    1 / cos (asec x) = x ∧ 0 ≤ asec x ∧ asec x ≤ π ∧
    1 / sin (acsc x) = x ∧ -(π / 2) ≤ acsc x ∧ acsc x ≤ π / 2 ∧
    1 / sinh (acsch x) = x ∧ 1 / tan (acot x) = x := by
  have h0 : 0 < |x| := by linarith
  have hx0 : x ≠ 0 := abs_pos.mp h0
  have h1 : |1 / x| ≤ 1 := by
    rw [abs_div, abs_one, div_le_one h0]; exact hx
  obtain ⟨h2, h3⟩ := abs_le.mp h1
  refine ⟨?_, arccos_nonneg _, arccos_le_pi _, ?_, neg_pi_div_two_le_arcsin _, arcsin_le_pi_div_two _, ?_, ?_⟩
  · unfold asec; rw [cos_arccos h2 h3, one_div_one_div]
  · unfold acsc; rw [sin_arcsin h2 h3, one_div_one_div]
  · unfold acsch; rw [sinh_arsinh, one_div_one_div]
  · unfold acot; rw [tan_arctan, one_div_one_div]

example : 1 / cos (asec 2) = 2 := (C71_inverse (x := 2) (by norm_num)).1

/-- The functions themselves are wrong: `sec`, `csc`, `cot`, `sech`, `csch`, `coth` apply the function to the reciprocal instead of taking the reciprocal of
the function.  Each differs from the true one at a concrete argument; `sech` is even wrong everywhere it is defined, and `csc`, `cot` are wrong on an interval. -/
theorem C71_reciprocal_wrong :
    sec π ≠ 1 / cos π ∧ (∀ x, x ≠ 0 → sech x ≠ 1 / cosh x) ∧ (∀ x, 2 ≤ x → x < π → csc x ≠ 1 / sin x) ∧
    (∀ x, 2 ≤ x → x < π → MatrixFun.cot x ≠ 1 / tan x) ∧ (∀ x, 0 < x → csch x ≠ 1 / sinh x) ∧ (∀ x, 0 < x → coth x ≠ 1 / tanh x) := by
  refine ⟨?_, ?_, ?_, ?_, ?_, ?_⟩
  · unfold sec
    rw [cos_pi]
    have h1 : 0 < cos (1 / π) := by
      apply cos_pos_of_mem_Ioo
      have := pi_gt_three
      constructor
      · have : 0 < 1 / π := by positivity
        linarith
      · have : 1 / π < 1 := by rw [div_lt_one (by linarith)]; linarith
        linarith
    intro h
    rw [h] at h1
    norm_num at h1
  · intro x hx h
    unfold sech at h
    have h1 : 1 < cosh (1 / x) := one_lt_cosh.mpr (by simpa using hx)
    have h2 : 1 ≤ cosh x := one_le_cosh x
    have h3 : 1 / cosh x ≤ 1 := by rw [div_le_one (by linarith)]; exact h2
    rw [h] at h1
    linarith
  · intro x h2 hpi h
    unfold csc at h
    have h3 : 0 < sin x := sin_pos_of_pos_of_lt_pi (by linarith) hpi
    have h4 : sin x ≤ 1 := sin_le_one x
    have h5 : 1 ≤ 1 / sin x := by rw [le_div_iff₀ h3]; linarith
    have h6 : sin (1 / x) < 1 / x := sin_lt (by positivity)
    have h7 : 1 / x ≤ 1 := by rw [div_le_one (by linarith)]; linarith
    linarith
  · intro x h2 hpi h
    unfold MatrixFun.cot at h
    have hp := pi_gt_three
    have hx : 0 < 1 / x := by positivity
    have hx1 : 1 / x < 1 := by rw [div_lt_one (by linarith)]; linarith
    have h3 : 0 < tan (1 / x) := tan_pos_of_pos_of_lt_pi_div_two hx (by linarith)
    have h4 : tan x < 0 := by
      have := tan_neg_of_neg_of_pi_div_two_lt (x := x - π) (by linarith) (by linarith [pi_lt_four])
      rwa [tan_sub_pi] at this
    have h5 : 1 / tan x < 0 := by
      rw [one_div]; exact inv_lt_zero.mpr h4
    linarith
  · intro x hx h
    unfold csch at h
    have h1 : 1 / x < sinh (1 / x) := self_lt_sinh_iff.mpr (by positivity)
    have h2 : x < sinh x := self_lt_sinh_iff.mpr hx
    have h3 : 1 / sinh x < 1 / x := one_div_lt_one_div_of_lt hx h2
    linarith
  · have hlt : ∀ y : ℝ, tanh y < 1 := fun y => by
      rw [tanh_eq_sinh_div_cosh, div_lt_one (cosh_pos y)]; exact sinh_lt_cosh y
    intro x hx h
    unfold coth at h
    have h1 : 0 < tanh x := by
      rw [tanh_eq_sinh_div_cosh]; exact div_pos (sinh_pos_iff.mpr hx) (cosh_pos x)
    have h2 : 1 < 1 / tanh x := by rw [lt_div_iff₀ h1, one_mul]; exact hlt x
    have := hlt (1 / x)
    linarith

example : csc (5 / 2) ≠ 1 / sin (5 / 2) := C71_reciprocal_wrong.2.2.1 _ (by norm_num) (by linarith [pi_gt_three])

/-- `mod`: `x` minus a whole multiple of `y`, between 0 and `y` (with the sign of `y`); `mod (x, 0) = x`. -/
theorem C71_mod (x y : ℚ) :
    (y = 0 → mod x y = x) ∧ (y ≠ 0 → ∃ k : ℤ, mod x y = x - y * k) ∧ (0 < y → 0 ≤ mod x y ∧ mod x y < y) ∧
    (y < 0 → y < mod x y ∧ mod x y ≤ 0) := by
  have key : y ≠ 0 → mod x y = y * (x / y - (⌊x / y⌋ : ℚ)) := by
    intro h
    unfold mod
    rw [if_neg h, mul_sub, mul_div_cancel₀ _ h]
  have f1 : (⌊x / y⌋ : ℚ) ≤ x / y := Int.floor_le _
  have f2 : x / y < (⌊x / y⌋ : ℚ) + 1 := Int.lt_floor_add_one _
  refine ⟨fun h => by unfold mod; rw [if_pos h], fun h => ⟨⌊x / y⌋, by unfold mod; rw [if_neg h]⟩, fun h => ?_, fun h => ?_⟩
  · rw [key h.ne']
    constructor
    · exact mul_nonneg h.le (by linarith)
    · nlinarith
  · rw [key h.ne]
    constructor
    · nlinarith
    · exact mul_nonpos_of_nonpos_of_nonneg h.le (by linarith)

example : mod (-1) 3 = 2 := by decide +kernel

/-- `rem`: `x` minus a whole multiple of `y`, smaller than `y` in size and with the sign of `x`; NaN for `y = 0`. -/
theorem C71_rem (x y : ℚ) :
    (y = 0 → rem x y = none) ∧ (y ≠ 0 → ∃ z, rem x y = some z ∧ (∃ k : ℤ, z = x - y * k) ∧ |z| < |y| ∧ (0 ≤ x → 0 ≤ z) ∧ (x ≤ 0 → z ≤ 0)) := by
  refine ⟨fun h => by unfold rem; rw [if_pos h], fun h => ?_⟩
  unfold rem
  rw [if_neg h]
  refine ⟨_, rfl, ⟨_, rfl⟩, ?_⟩
  have key : x - y * (trunc (x / y) : ℚ) = y * (x / y - (trunc (x / y) : ℚ)) := by
    rw [mul_sub, mul_div_cancel₀ _ h]
  rw [key, abs_mul]
  unfold trunc
  have hy : 0 < |y| := abs_pos.mpr h
  by_cases hq : 0 ≤ x / y
  · rw [if_pos hq]
    have f1 : (⌊x / y⌋ : ℚ) ≤ x / y := Int.floor_le _
    have f2 : x / y < (⌊x / y⌋ : ℚ) + 1 := Int.lt_floor_add_one _
    refine ⟨?_, fun hx => ?_, fun hx => ?_⟩
    · have : |x / y - (⌊x / y⌋ : ℚ)| < 1 := by rw [abs_of_nonneg (by linarith)]; linarith
      nlinarith
    · rcases lt_or_gt_of_ne h with hy' | hy'
      · have hx0 : x = 0 := by
          by_contra hne
          have := div_neg_of_pos_of_neg (lt_of_le_of_ne hx (Ne.symm hne)) hy'
          linarith
        simp [hx0]
      · exact mul_nonneg hy'.le (by linarith)
    · rcases lt_or_gt_of_ne h with hy' | hy'
      · exact mul_nonpos_of_nonpos_of_nonneg hy'.le (by linarith)
      · have hx0 : x = 0 := by
          by_contra hne
          have := div_neg_of_neg_of_pos (lt_of_le_of_ne hx hne) hy'
          linarith
        simp [hx0]
  · rw [if_neg hq]
    push Not at hq
    have f1 : x / y ≤ (⌈x / y⌉ : ℚ) := Int.le_ceil _
    have f2 : (⌈x / y⌉ : ℚ) < x / y + 1 := Int.ceil_lt_add_one _
    refine ⟨?_, fun hx => ?_, fun hx => ?_⟩
    · have : |x / y - (⌈x / y⌉ : ℚ)| < 1 := by rw [abs_of_nonpos (by linarith)]; linarith
      nlinarith
    · rcases lt_or_gt_of_ne h with hy' | hy'
      · exact mul_nonneg_of_nonpos_of_nonpos hy'.le (by linarith)
      · have := div_nonneg hx hy'.le
        linarith
    · rcases lt_or_gt_of_ne h with hy' | hy'
      · have := div_nonneg_of_nonpos hx hy'.le
        linarith
      · exact mul_nonpos_of_nonneg_of_nonpos hy'.le (by linarith)

example : rem (-1) 3 = some (-1) := by decide +kernel

end EdgeEval.Props
