import Verif.Spec.Float
import Mathlib.Data.Int.Log
import Mathlib.Algebra.Order.Round
import Mathlib.Data.Rat.Floor
import Mathlib.Tactic.Positivity
import Mathlib.Tactic.Ring
import Mathlib.Tactic.FieldSimp
import Mathlib.Tactic.GCongr
import Mathlib.Algebra.Order.Field.Power

/-!
# Lemmas about rounding to nearest
-/

namespace EdgeEval

variable {fl : ℚ → ℚ}

theorem isF64_int (n : ℤ) (h : |n| ≤ 2 ^ 53) : IsF64 n := ⟨n, 0, h, by norm_num, by simp⟩

theorem isF64_nat (n : ℕ) (h : n ≤ 2 ^ 53) : IsF64 n := by
  have := isF64_int (n : ℤ) (by rw [abs_of_nonneg (by positivity)]; exact_mod_cast h)
  simpa using this

theorem isF64_zero : IsF64 0 := by simpa using isF64_nat 0 (by norm_num)
theorem isF64_one : IsF64 1 := by simpa using isF64_nat 1 (by norm_num)
theorem isF64_two : IsF64 2 := by simpa using isF64_nat 2 (by norm_num)

theorem isF64_neg {x : ℚ} (h : IsF64 x) : IsF64 (-x) := by
  obtain ⟨m, e, hm, he, rfl⟩ := h
  exact ⟨-m, e, by rwa [abs_neg], he, by push_cast; ring⟩

theorem isF64_double {x : ℚ} (h : IsF64 x) : IsF64 (2 * x) := by
  obtain ⟨m, e, hm, he, rfl⟩ := h
  exact ⟨m, e + 1, hm, by omega, by rw [zpow_add_one₀ (by norm_num)]; ring⟩

namespace RoundsNearest

theorem exact (H : RoundsNearest fl) {x : ℚ} (h : IsF64 x) : fl x = x := by
  have := H.near x x h
  simp only [sub_self, abs_zero] at this
  have := abs_nonpos_iff.mp this
  linarith

theorem mono (H : RoundsNearest fl) {x y : ℚ} (h : x ≤ y) : fl x ≤ fl y := by
  by_contra hc
  push Not at hc
  have h1 := H.near x (fl y) (H.rep y)
  have h2 := H.near y (fl x) (H.rep x)
  have e : x = y := by
    rcases abs_cases (fl x - x) with ⟨a, _⟩ | ⟨a, _⟩ <;> rcases abs_cases (fl y - x) with ⟨b, _⟩ | ⟨b, _⟩ <;>
      rcases abs_cases (fl y - y) with ⟨c, _⟩ | ⟨c, _⟩ <;> rcases abs_cases (fl x - y) with ⟨d, _⟩ | ⟨d, _⟩ <;>
      rw [a, b] at h1 <;> rw [c, d] at h2 <;> linarith
  subst e
  exact lt_irrefl _ hc

theorem zero (H : RoundsNearest fl) : fl 0 = 0 := H.exact isF64_zero
theorem one (H : RoundsNearest fl) : fl 1 = 1 := H.exact isF64_one
theorem nat (H : RoundsNearest fl) (n : ℕ) (h : n ≤ 2 ^ 53) : fl n = n := H.exact (isF64_nat n h)

theorem nonneg (H : RoundsNearest fl) {x : ℚ} (h : 0 ≤ x) : 0 ≤ fl x := H.zero ▸ H.mono h
theorem le_one (H : RoundsNearest fl) {x : ℚ} (h : x ≤ 1) : fl x ≤ 1 := H.one ▸ H.mono h
theorem one_le (H : RoundsNearest fl) {x : ℚ} (h : 1 ≤ x) : 1 ≤ fl x := H.one ▸ H.mono h

end RoundsNearest

/-- A binary64 number close to `x`. -/
theorem exists_near (x : ℚ) (k : ℤ) (hk : -1021 ≤ k) (h : |x| < 2 ^ k) :
    ∃ y, IsF64 y ∧ |y - x| ≤ 2 ^ (k - 54) := by
  have hp : (0 : ℚ) < 2 ^ (k - 53) := by positivity
  refine ⟨(round (x / 2 ^ (k - 53)) : ℤ) * 2 ^ (k - 53), ⟨_, k - 53, ?_, by omega, rfl⟩, ?_⟩
  · have h1 : |x / 2 ^ (k - 53)| < 2 ^ 53 := by
      rw [abs_div, abs_of_pos hp, div_lt_iff₀ hp]
      calc |x| < 2 ^ k := h
        _ = 2 ^ 53 * 2 ^ (k - 53) := by
          rw [← zpow_natCast, ← zpow_add₀ (by norm_num)]; congr 1; push_cast; ring
    have h2 := abs_sub_round (x / 2 ^ (k - 53))
    have h3 : |((round (x / 2 ^ (k - 53)) : ℤ) : ℚ)| < 2 ^ 53 + 1 := by
      have : ((round (x / 2 ^ (k - 53)) : ℤ) : ℚ)
          = x / 2 ^ (k - 53) - (x / 2 ^ (k - 53) - (round (x / 2 ^ (k - 53)) : ℤ)) := by ring
      rw [this]
      refine lt_of_le_of_lt (abs_sub _ _) ?_
      linarith
    have h4 : |round (x / 2 ^ (k - 53))| < 2 ^ 53 + 1 := by exact_mod_cast h3
    omega
  · have h2 := abs_sub_round (x / 2 ^ (k - 53))
    have : ((round (x / 2 ^ (k - 53)) : ℤ) : ℚ) * 2 ^ (k - 53) - x
        = -((x / 2 ^ (k - 53) - (round (x / 2 ^ (k - 53)) : ℤ)) * 2 ^ (k - 53)) := by
      field_simp; ring
    rw [this, abs_neg, abs_mul, abs_of_pos hp]
    calc _ ≤ 1 / 2 * (2 : ℚ) ^ (k - 53) := by gcongr
      _ = 2 ^ (k - 54) := by
        rw [show k - 53 = (k - 54) + 1 by ring, zpow_add_one₀ (by norm_num)]; ring

/-- A binary64 number within relative distance `2^-53`. -/
theorem exists_near_rel (x : ℚ) (h : 2 ^ (-1022 : ℤ) ≤ |x|) : ∃ y, IsF64 y ∧ |y - x| ≤ 1 / 2 ^ 53 * |x| := by
  have hx : 0 < |x| := lt_of_lt_of_le (by positivity) h
  have h1 : (2 : ℚ) ^ Int.log 2 |x| ≤ |x| := by simpa using Int.zpow_log_le_self (b := 2) (by norm_num) hx
  have h2 : |x| < (2 : ℚ) ^ (Int.log 2 |x| + 1) := by simpa using Int.lt_zpow_succ_log_self (b := 2) (by norm_num) |x|
  have h3 : -1022 ≤ Int.log 2 |x| := by
    have := lt_of_le_of_lt h h2
    rw [zpow_lt_zpow_iff_right₀ (by norm_num)] at this
    omega
  obtain ⟨y, hy, he⟩ := exists_near x (Int.log 2 |x| + 1) (by omega) h2
  refine ⟨y, hy, he.trans ?_⟩
  calc (2 : ℚ) ^ (Int.log 2 |x| + 1 - 54) = 1 / 2 ^ 53 * 2 ^ Int.log 2 |x| := by
        rw [show (1 : ℚ) / 2 ^ 53 = 2 ^ (-53 : ℤ) by norm_num, ← zpow_add₀ (by norm_num)]; congr 1; ring
    _ ≤ _ := by gcongr

namespace RoundsNearest

theorem abs_err (H : RoundsNearest fl) (x : ℚ) (k : ℤ) (hk : -1021 ≤ k) (h : |x| < 2 ^ k) :
    |fl x - x| ≤ 2 ^ (k - 54) := by
  obtain ⟨y, hy, he⟩ := exists_near x k hk h
  exact (H.near x y hy).trans he

theorem rel_err (H : RoundsNearest fl) (x : ℚ) (h : 2 ^ (-1022 : ℤ) ≤ |x|) : |fl x - x| ≤ 1 / 2 ^ 53 * |x| := by
  obtain ⟨y, hy, he⟩ := exists_near_rel x h
  exact (H.near x y hy).trans he

/-- Below 1 the error is at most `2^-54`. -/
theorem err_unit (H : RoundsNearest fl) {x : ℚ} (h0 : 0 ≤ x) (h1 : x ≤ 1) : |fl x - x| ≤ 1 / 2 ^ 54 := by
  rcases eq_or_lt_of_le h1 with rfl | h
  · rw [H.one]; simp
  · have := H.abs_err x 0 (by norm_num) (by rw [abs_of_nonneg h0]; simpa using h)
    refine this.trans (le_of_eq ?_)
    norm_num

end RoundsNearest

/-- No binary64 number lies strictly between 1 and `1 + 2^-52`. -/
theorem gap_above {y : ℚ} (h : IsF64 y) (h1 : 1 < y) : 1 + 1 / 2 ^ 52 ≤ y := by
  obtain ⟨m, e, hm, he, rfl⟩ := h
  have hm' : (m : ℚ) ≤ 2 ^ 53 := by exact_mod_cast (le_abs_self m).trans hm
  by_cases hc : e ≤ -53
  · exfalso
    have : (m : ℚ) * 2 ^ e ≤ 1 := by
      rcases le_or_gt m 0 with hm0 | hm0
      · have h0 : (m : ℚ) ≤ 0 := by exact_mod_cast hm0
        have h2 : (0 : ℚ) < 2 ^ e := by positivity
        nlinarith
      · calc (m : ℚ) * 2 ^ e ≤ 2 ^ 53 * 2 ^ (-53 : ℤ) := by
              have : (0 : ℚ) < m := by exact_mod_cast hm0
              gcongr
              norm_num
          _ = 1 := by norm_num
    linarith
  · obtain ⟨k, rfl⟩ : ∃ k : ℕ, e = -52 + k := ⟨(e + 52).toNat, by omega⟩
    have hz : (m : ℚ) * 2 ^ (-52 + (k : ℤ)) = ((m * 2 ^ k : ℤ) : ℚ) * 2 ^ (-52 : ℤ) := by
      rw [zpow_add₀ (by norm_num)]; push_cast; rw [zpow_natCast]; ring
    rw [hz] at h1 ⊢
    generalize (m * 2 ^ k : ℤ) = z at h1 ⊢
    have hz1 : (2 ^ 52 : ℤ) < z := by
      by_contra hcc
      push Not at hcc
      have : (z : ℚ) ≤ 2 ^ 52 := by exact_mod_cast hcc
      have h2 : (z : ℚ) * 2 ^ (-52 : ℤ) ≤ 2 ^ 52 * 2 ^ (-52 : ℤ) := by gcongr
      have h3 : (2 : ℚ) ^ 52 * 2 ^ (-52 : ℤ) = 1 := by norm_num
      linarith
    have hz2 : ((2 ^ 52 + 1 : ℤ) : ℚ) ≤ z := by exact_mod_cast hz1
    calc (1 : ℚ) + 1 / 2 ^ 52 = ((2 ^ 52 + 1 : ℤ) : ℚ) * 2 ^ (-52 : ℤ) := by norm_num
      _ ≤ _ := by gcongr

/-- No binary64 number lies strictly between `1 - 2^-53` and 1. -/
theorem gap_below {y : ℚ} (h : IsF64 y) (h1 : y < 1) : y ≤ 1 - 1 / 2 ^ 53 := by
  obtain ⟨m, e, hm, he, rfl⟩ := h
  have hm' : (m : ℚ) ≤ 2 ^ 53 := by exact_mod_cast (le_abs_self m).trans hm
  by_cases hc : e ≤ -54
  · have : (m : ℚ) * 2 ^ e ≤ 1 / 2 := by
      rcases le_or_gt m 0 with hm0 | hm0
      · have h0 : (m : ℚ) ≤ 0 := by exact_mod_cast hm0
        have h2 : (0 : ℚ) < 2 ^ e := by positivity
        nlinarith
      · calc (m : ℚ) * 2 ^ e ≤ 2 ^ 53 * 2 ^ (-54 : ℤ) := by
              have : (0 : ℚ) < m := by exact_mod_cast hm0
              gcongr
              norm_num
          _ = 1 / 2 := by norm_num
    refine this.trans ?_
    norm_num
  · obtain ⟨k, rfl⟩ : ∃ k : ℕ, e = -53 + k := ⟨(e + 53).toNat, by omega⟩
    have hz : (m : ℚ) * 2 ^ (-53 + (k : ℤ)) = ((m * 2 ^ k : ℤ) : ℚ) * 2 ^ (-53 : ℤ) := by
      rw [zpow_add₀ (by norm_num)]; push_cast; rw [zpow_natCast]; ring
    rw [hz] at h1 ⊢
    generalize (m * 2 ^ k : ℤ) = z at h1 ⊢
    have hz1 : z < (2 ^ 53 : ℤ) := by
      by_contra hcc
      push Not at hcc
      have : (2 ^ 53 : ℚ) ≤ z := by exact_mod_cast hcc
      have h2 : (2 : ℚ) ^ 53 * 2 ^ (-53 : ℤ) ≤ (z : ℚ) * 2 ^ (-53 : ℤ) := by gcongr
      have h3 : (2 : ℚ) ^ 53 * 2 ^ (-53 : ℤ) = 1 := by norm_num
      linarith
    have hz2 : (z : ℚ) ≤ ((2 ^ 53 - 1 : ℤ) : ℚ) := by
      have : z ≤ 2 ^ 53 - 1 := by omega
      exact_mod_cast this
    calc (z : ℚ) * 2 ^ (-53 : ℤ) ≤ ((2 ^ 53 - 1 : ℤ) : ℚ) * 2 ^ (-53 : ℤ) := by gcongr
      _ = _ := by norm_num

/-- Slightly above 1 is rounded to 1 (or below). -/
theorem RoundsNearest.le_one' (H : RoundsNearest fl) {x : ℚ} (h : x < 1 + 1 / 2 ^ 53) : fl x ≤ 1 := by
  by_contra hc
  push Not at hc
  have h1 := gap_above (H.rep x) hc
  rcases le_or_gt x 1 with hx | hx
  · exact absurd (H.le_one hx) (by linarith)
  · have h2 := H.near x 1 isF64_one
    have h3 : (1 : ℚ) / 2 ^ 52 = 2 * (1 / 2 ^ 53) := by norm_num
    rw [abs_of_neg (by linarith : (1 : ℚ) - x < 0), abs_of_pos (by linarith : 0 < fl x - x)] at h2
    linarith

/-! ## Existence -/

/-- The exponent of the last bit of `x`. -/
noncomputable def lastExp (x : ℚ) : ℤ := max (Int.log 2 |x| - 52) (-1074)

/-- One way of rounding to nearest. -/
noncomputable def nearestF64 (x : ℚ) : ℚ := (round (x / 2 ^ lastExp x) : ℤ) * 2 ^ lastExp x

theorem nearestF64_rounds : RoundsNearest nearestF64 := by
  have key : ∀ x : ℚ, |x| < 2 ^ (lastExp x + 53) := by
    intro x
    have h2 : |x| < (2 : ℚ) ^ (Int.log 2 |x| + 1) := by
      simpa using Int.lt_zpow_succ_log_self (b := 2) (by norm_num) |x|
    refine lt_of_lt_of_le h2 (zpow_le_zpow_right₀ (by norm_num) ?_)
    unfold lastExp
    have := le_max_left (Int.log 2 |x| - 52) (-1074)
    omega
  constructor
  · intro x
    have hp : (0 : ℚ) < 2 ^ lastExp x := by positivity
    refine ⟨_, lastExp x, ?_, le_max_right _ _, rfl⟩
    have h1 : |x / 2 ^ lastExp x| < 2 ^ 53 := by
      rw [abs_div, abs_of_pos hp, div_lt_iff₀ hp]
      refine lt_of_lt_of_le (key x) (le_of_eq ?_)
      rw [← zpow_natCast, ← zpow_add₀ (by norm_num)]; congr 1; push_cast; ring
    have h2 := abs_sub_round (x / 2 ^ lastExp x)
    have h3 : |((round (x / 2 ^ lastExp x) : ℤ) : ℚ)| < 2 ^ 53 + 1 := by
      have : ((round (x / 2 ^ lastExp x) : ℤ) : ℚ)
          = x / 2 ^ lastExp x - (x / 2 ^ lastExp x - (round (x / 2 ^ lastExp x) : ℤ)) := by ring
      rw [this]
      refine lt_of_le_of_lt (abs_sub _ _) ?_
      linarith
    have h4 : |round (x / 2 ^ lastExp x)| < 2 ^ 53 + 1 := by exact_mod_cast h3
    omega
  · intro x y hy
    have hp : (0 : ℚ) < 2 ^ lastExp x := by positivity
    have mult : ∀ z : ℤ, |nearestF64 x - x| ≤ |(z : ℚ) * 2 ^ lastExp x - x| := by
      intro z
      have h := round_le (x / 2 ^ lastExp x) z
      have e1 : nearestF64 x - x = -((x / 2 ^ lastExp x - (round (x / 2 ^ lastExp x) : ℤ)) * 2 ^ lastExp x) := by
        unfold nearestF64; field_simp; ring
      have e2 : (z : ℚ) * 2 ^ lastExp x - x = -((x / 2 ^ lastExp x - z) * 2 ^ lastExp x) := by
        field_simp; ring
      rw [e1, e2, abs_neg, abs_neg, abs_mul, abs_mul]
      gcongr
    obtain ⟨m, e, hm, he, rfl⟩ := hy
    by_cases hc : lastExp x ≤ e
    · obtain ⟨k, rfl⟩ : ∃ k : ℕ, e = lastExp x + k := ⟨(e - lastExp x).toNat, by omega⟩
      have := mult (m * 2 ^ k)
      rw [zpow_add₀ (by norm_num), zpow_natCast]
      push_cast at this
      rwa [show (m : ℚ) * (2 ^ lastExp x * 2 ^ k) = m * 2 ^ k * 2 ^ lastExp x by ring]
    · have hl : lastExp x = Int.log 2 |x| - 52 := by
        unfold lastExp at hc ⊢
        rcases le_total (Int.log 2 |x| - 52) (-1074) with h | h
        · rw [max_eq_right h] at hc; omega
        · exact max_eq_left h
      by_cases hx : x = 0
      · subst hx
        simp [nearestF64]
        positivity
      have hx' : 0 < |x| := abs_pos.mpr hx
      have h1 : (2 : ℚ) ^ Int.log 2 |x| ≤ |x| := by simpa using Int.zpow_log_le_self (b := 2) (by norm_num) hx'
      have hy : |(m : ℚ) * 2 ^ e| ≤ 2 ^ Int.log 2 |x| := by
        have hpe : (0 : ℚ) < 2 ^ e := by positivity
        rw [abs_mul, abs_of_pos hpe]
        have hm' : |(m : ℚ)| ≤ 2 ^ 53 := by exact_mod_cast hm
        calc |(m : ℚ)| * 2 ^ e ≤ 2 ^ 53 * 2 ^ (lastExp x - 1) := by
              gcongr
              · norm_num
              · omega
          _ = 2 ^ Int.log 2 |x| := by
              rw [← zpow_natCast, ← zpow_add₀ (by norm_num), hl]; congr 1; push_cast; ring
      have hpow : ((2 ^ 52 : ℤ) : ℚ) * 2 ^ lastExp x = 2 ^ Int.log 2 |x| := by
        rw [show ((2 ^ 52 : ℤ) : ℚ) = (2 : ℚ) ^ (52 : ℤ) by norm_num, ← zpow_add₀ (by norm_num), hl]
        congr 1; ring
      have hb := abs_le.mp hy
      rcases lt_or_gt_of_ne hx with hneg | hpos
      · have := mult (-(2 ^ 52))
        rw [show ((-(2 ^ 52) : ℤ) : ℚ) * 2 ^ lastExp x = -(2 ^ Int.log 2 |x|) by rw [← hpow]; push_cast; ring] at this
        refine this.trans ?_
        rw [abs_of_neg hneg] at h1 hb ⊢
        rw [abs_of_nonneg (by linarith), abs_of_nonneg (by linarith [hb.1])]
        linarith [hb.1]
      · have := mult (2 ^ 52)
        rw [hpow] at this
        refine this.trans ?_
        rw [abs_of_pos hpos] at h1 hb ⊢
        rw [abs_of_nonpos (by linarith), abs_of_nonpos (by linarith [hb.2])]
        linarith [hb.2]

end EdgeEval
