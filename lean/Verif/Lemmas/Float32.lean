import Verif.Spec.Float32
import Verif.Lemmas.Float

/-!
# Lemmas about rounding to nearest, binary32
-/

namespace EdgeEval

variable {fl : ℚ → ℚ}

theorem isF32_quarter (k : ℤ) (h : |k| ≤ 2 ^ 24) : IsF32 ((k : ℚ) / 4) := ⟨k, -2, h, by norm_num, by norm_num; ring⟩

theorem IsF32.f64 {x : ℚ} (h : IsF32 x) : IsF64 x := by
  obtain ⟨m, e, hm, he, rfl⟩ := h
  exact ⟨m, e, hm.trans (by norm_num), by omega, rfl⟩

/-- A binary32 number close to `x`. -/
theorem exists_near32 (x : ℚ) (k : ℤ) (hk : -125 ≤ k) (h : |x| < 2 ^ k) :
    ∃ y, IsF32 y ∧ |y - x| ≤ 2 ^ (k - 25) := by
  have hp : (0 : ℚ) < 2 ^ (k - 24) := by positivity
  refine ⟨(round (x / 2 ^ (k - 24)) : ℤ) * 2 ^ (k - 24), ⟨_, k - 24, ?_, by omega, rfl⟩, ?_⟩
  · have h1 : |x / 2 ^ (k - 24)| < 2 ^ 24 := by
      rw [abs_div, abs_of_pos hp, div_lt_iff₀ hp]
      calc |x| < 2 ^ k := h
        _ = 2 ^ 24 * 2 ^ (k - 24) := by
          rw [← zpow_natCast, ← zpow_add₀ (by norm_num)]; congr 1; push_cast; ring
    have h2 := abs_sub_round (x / 2 ^ (k - 24))
    have h3 : |((round (x / 2 ^ (k - 24)) : ℤ) : ℚ)| < 2 ^ 24 + 1 := by
      have : ((round (x / 2 ^ (k - 24)) : ℤ) : ℚ)
          = x / 2 ^ (k - 24) - (x / 2 ^ (k - 24) - (round (x / 2 ^ (k - 24)) : ℤ)) := by ring
      rw [this]
      refine lt_of_le_of_lt (abs_sub _ _) ?_
      linarith
    have h4 : |round (x / 2 ^ (k - 24))| < 2 ^ 24 + 1 := by exact_mod_cast h3
    omega
  · have h2 := abs_sub_round (x / 2 ^ (k - 24))
    have : ((round (x / 2 ^ (k - 24)) : ℤ) : ℚ) * 2 ^ (k - 24) - x
        = -((x / 2 ^ (k - 24) - (round (x / 2 ^ (k - 24)) : ℤ)) * 2 ^ (k - 24)) := by
      field_simp; ring
    rw [this, abs_neg, abs_mul, abs_of_pos hp]
    calc _ ≤ 1 / 2 * (2 : ℚ) ^ (k - 24) := by gcongr
      _ = 2 ^ (k - 25) := by
        rw [show k - 24 = (k - 25) + 1 by ring, zpow_add_one₀ (by norm_num)]; ring


namespace RoundsNearest32

theorem exact (H : RoundsNearest32 fl) {x : ℚ} (h : IsF32 x) : fl x = x := by
  have := H.near x x h
  simp only [sub_self, abs_zero] at this
  have := abs_nonpos_iff.mp this
  linarith

theorem mono (H : RoundsNearest32 fl) {x y : ℚ} (h : x ≤ y) : fl x ≤ fl y := by
  by_contra hc
  push Not at hc
  have h1 := H.near x (fl y) (H.rep y)
  have h2 := H.near y (fl x) (H.rep x)
  have e : x = y := by
    rcases abs_cases (fl x - x) with ⟨a, _⟩ | ⟨a, _⟩ <;> rcases abs_cases (fl y - x) with ⟨b, _⟩ | ⟨b, _⟩ <;>
      rcases abs_cases (fl y - y) with ⟨c, _⟩ | ⟨c, _⟩ <;> rcases abs_cases (fl x - y) with ⟨d, _⟩ | ⟨d, _⟩ <;>
      rw [a, b] at h1 <;> rw [c, d] at h2 <;> linarith
  subst e
  exact lt_irrefl _ hc

theorem abs_err (H : RoundsNearest32 fl) (x : ℚ) (k : ℤ) (hk : -125 ≤ k) (h : |x| < 2 ^ k) :
    |fl x - x| ≤ 2 ^ (k - 25) := by
  obtain ⟨y, hy, he⟩ := exists_near32 x k hk h
  exact (H.near x y hy).trans he


/-- Below 1 the error is at most `2^-25`. -/
theorem err_unit (H : RoundsNearest32 fl) {x : ℚ} (h0 : 0 ≤ x) (h1 : x ≤ 1) : |fl x - x| ≤ 1 / 2 ^ 25 := by
  rcases eq_or_lt_of_le h1 with rfl | h
  · rw [H.exact (by simpa using isF32_quarter 4 (by norm_num))]; simp
  · have := H.abs_err x 0 (by norm_num) (by rw [abs_of_nonneg h0]; simpa using h)
    refine this.trans (le_of_eq ?_)
    norm_num

end RoundsNearest32

/-- The float after 1. -/
theorem gap_above32 {y : ℚ} (h : IsF32 y) (h1 : 1 < y) : 1 + 1 / 2 ^ 23 ≤ y := by
  obtain ⟨m, e, hm, he, rfl⟩ := h
  have hm' : (m : ℚ) ≤ 2 ^ 24 := by exact_mod_cast (le_abs_self m).trans hm
  by_cases hc : e ≤ -24
  · exfalso
    have : (m : ℚ) * 2 ^ e ≤ 1 := by
      rcases le_or_gt m 0 with hm0 | hm0
      · have h0 : (m : ℚ) ≤ 0 := by exact_mod_cast hm0
        have h2 : (0 : ℚ) < 2 ^ e := by positivity
        nlinarith
      · calc (m : ℚ) * 2 ^ e ≤ 2 ^ 24 * 2 ^ (-24 : ℤ) := by
              have : (0 : ℚ) < m := by exact_mod_cast hm0
              gcongr
              norm_num
          _ = 1 := by norm_num
    linarith
  · obtain ⟨k, rfl⟩ : ∃ k : ℕ, e = -23 + k := ⟨(e + 23).toNat, by omega⟩
    have hz : (m : ℚ) * 2 ^ (-23 + (k : ℤ)) = ((m * 2 ^ k : ℤ) : ℚ) * 2 ^ (-23 : ℤ) := by
      rw [zpow_add₀ (by norm_num)]; push_cast; rw [zpow_natCast]; ring
    rw [hz] at h1 ⊢
    generalize (m * 2 ^ k : ℤ) = z at h1 ⊢
    have hz1 : (2 ^ 23 : ℤ) < z := by
      by_contra hcc
      push Not at hcc
      have : (z : ℚ) ≤ 2 ^ 23 := by exact_mod_cast hcc
      have h2 : (z : ℚ) * 2 ^ (-23 : ℤ) ≤ 2 ^ 23 * 2 ^ (-23 : ℤ) := by gcongr
      have h3 : (2 : ℚ) ^ 23 * 2 ^ (-23 : ℤ) = 1 := by norm_num
      linarith
    have hz2 : ((2 ^ 23 + 1 : ℤ) : ℚ) ≤ z := by exact_mod_cast hz1
    calc (1 : ℚ) + 1 / 2 ^ 23 = ((2 ^ 23 + 1 : ℤ) : ℚ) * 2 ^ (-23 : ℤ) := by norm_num
      _ ≤ _ := by gcongr

/-- The exponent of the last bit of `x`. -/
noncomputable def lastExp32 (x : ℚ) : ℤ := max (Int.log 2 |x| - 23) (-149)

/-- One way of rounding to nearest. -/
noncomputable def nearestF32 (x : ℚ) : ℚ := (round (x / 2 ^ lastExp32 x) : ℤ) * 2 ^ lastExp32 x

theorem nearestF32_rounds : RoundsNearest32 nearestF32 := by
  have key : ∀ x : ℚ, |x| < 2 ^ (lastExp32 x + 24) := by
    intro x
    have h2 : |x| < (2 : ℚ) ^ (Int.log 2 |x| + 1) := by
      simpa using Int.lt_zpow_succ_log_self (b := 2) (by norm_num) |x|
    refine lt_of_lt_of_le h2 (zpow_le_zpow_right₀ (by norm_num) ?_)
    unfold lastExp32
    have := le_max_left (Int.log 2 |x| - 23) (-149)
    omega
  constructor
  · intro x
    have hp : (0 : ℚ) < 2 ^ lastExp32 x := by positivity
    refine ⟨_, lastExp32 x, ?_, le_max_right _ _, rfl⟩
    have h1 : |x / 2 ^ lastExp32 x| < 2 ^ 24 := by
      rw [abs_div, abs_of_pos hp, div_lt_iff₀ hp]
      refine lt_of_lt_of_le (key x) (le_of_eq ?_)
      rw [← zpow_natCast, ← zpow_add₀ (by norm_num)]; congr 1; push_cast; ring
    have h2 := abs_sub_round (x / 2 ^ lastExp32 x)
    have h3 : |((round (x / 2 ^ lastExp32 x) : ℤ) : ℚ)| < 2 ^ 24 + 1 := by
      have : ((round (x / 2 ^ lastExp32 x) : ℤ) : ℚ)
          = x / 2 ^ lastExp32 x - (x / 2 ^ lastExp32 x - (round (x / 2 ^ lastExp32 x) : ℤ)) := by ring
      rw [this]
      refine lt_of_le_of_lt (abs_sub _ _) ?_
      linarith
    have h4 : |round (x / 2 ^ lastExp32 x)| < 2 ^ 24 + 1 := by exact_mod_cast h3
    omega
  · intro x y hy
    have hp : (0 : ℚ) < 2 ^ lastExp32 x := by positivity
    have mult : ∀ z : ℤ, |nearestF32 x - x| ≤ |(z : ℚ) * 2 ^ lastExp32 x - x| := by
      intro z
      have h := round_le (x / 2 ^ lastExp32 x) z
      have e1 : nearestF32 x - x = -((x / 2 ^ lastExp32 x - (round (x / 2 ^ lastExp32 x) : ℤ)) * 2 ^ lastExp32 x) := by
        unfold nearestF32; field_simp; ring
      have e2 : (z : ℚ) * 2 ^ lastExp32 x - x = -((x / 2 ^ lastExp32 x - z) * 2 ^ lastExp32 x) := by
        field_simp; ring
      rw [e1, e2, abs_neg, abs_neg, abs_mul, abs_mul]
      gcongr
    obtain ⟨m, e, hm, he, rfl⟩ := hy
    by_cases hc : lastExp32 x ≤ e
    · obtain ⟨k, rfl⟩ : ∃ k : ℕ, e = lastExp32 x + k := ⟨(e - lastExp32 x).toNat, by omega⟩
      have := mult (m * 2 ^ k)
      rw [zpow_add₀ (by norm_num), zpow_natCast]
      push_cast at this
      rwa [show (m : ℚ) * (2 ^ lastExp32 x * 2 ^ k) = m * 2 ^ k * 2 ^ lastExp32 x by ring]
    · have hl : lastExp32 x = Int.log 2 |x| - 23 := by
        unfold lastExp32 at hc ⊢
        rcases le_total (Int.log 2 |x| - 23) (-149) with h | h
        · rw [max_eq_right h] at hc; omega
        · exact max_eq_left h
      by_cases hx : x = 0
      · subst hx
        simp [nearestF32]
        positivity
      have hx' : 0 < |x| := abs_pos.mpr hx
      have h1 : (2 : ℚ) ^ Int.log 2 |x| ≤ |x| := by simpa using Int.zpow_log_le_self (b := 2) (by norm_num) hx'
      have hy : |(m : ℚ) * 2 ^ e| ≤ 2 ^ Int.log 2 |x| := by
        have hpe : (0 : ℚ) < 2 ^ e := by positivity
        rw [abs_mul, abs_of_pos hpe]
        have hm' : |(m : ℚ)| ≤ 2 ^ 24 := by exact_mod_cast hm
        calc |(m : ℚ)| * 2 ^ e ≤ 2 ^ 24 * 2 ^ (lastExp32 x - 1) := by
              gcongr
              · norm_num
              · omega
          _ = 2 ^ Int.log 2 |x| := by
              rw [← zpow_natCast, ← zpow_add₀ (by norm_num), hl]; congr 1; push_cast; ring
      have hpow : ((2 ^ 23 : ℤ) : ℚ) * 2 ^ lastExp32 x = 2 ^ Int.log 2 |x| := by
        rw [show ((2 ^ 23 : ℤ) : ℚ) = (2 : ℚ) ^ (23 : ℤ) by norm_num, ← zpow_add₀ (by norm_num), hl]
        congr 1; ring
      have hb := abs_le.mp hy
      rcases lt_or_gt_of_ne hx with hneg | hpos
      · have := mult (-(2 ^ 23))
        rw [show ((-(2 ^ 23) : ℤ) : ℚ) * 2 ^ lastExp32 x = -(2 ^ Int.log 2 |x|) by rw [← hpow]; push_cast; ring] at this
        refine this.trans ?_
        rw [abs_of_neg hneg] at h1 hb ⊢
        rw [abs_of_nonneg (by linarith), abs_of_nonneg (by linarith [hb.1])]
        linarith [hb.1]
      · have := mult (2 ^ 23)
        rw [hpow] at this
        refine this.trans ?_
        rw [abs_of_pos hpos] at h1 hb ⊢
        rw [abs_of_nonpos (by linarith), abs_of_nonpos (by linarith [hb.2])]
        linarith [hb.2]

end EdgeEval
