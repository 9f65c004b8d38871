import Verif.Spec.FloatSqrt
import Verif.Lemmas.Float
import Mathlib.Order.Interval.Finset.Nat
import Mathlib.Data.Int.Interval

/-! # Square roots in floating point -/

namespace EdgeEval

/-- A binary64 number near to a real number. -/
theorem exists_near_real (z : ℝ) (hz : (2 : ℝ) ^ (-1022 : ℤ) ≤ z) (ε : ℝ) (hε : 0 < ε) :
    ∃ y, IsF64 y ∧ |(y : ℝ) - z| ≤ 1 / 2 ^ 53 * z + ε := by
  obtain ⟨q, hq1, hq2⟩ := exists_rat_btwn (show z < z + ε / 2 by linarith)
  have hz0 : (0 : ℝ) < z := lt_of_lt_of_le (by positivity) hz
  have hq0 : (0 : ℝ) < q := hz0.trans hq1
  have hq0' : (0 : ℚ) < q := by exact_mod_cast hq0
  obtain ⟨y, hy, he⟩ := exists_near_rel q (by
    rw [abs_of_pos hq0']
    have : ((2 : ℚ) ^ (-1022 : ℤ) : ℚ) ≤ q := by
      have h : (((2 : ℚ) ^ (-1022 : ℤ) : ℚ) : ℝ) ≤ (q : ℝ) := by
        rw [Rat.cast_zpow, Rat.cast_ofNat]
        exact hz.trans hq1.le
      exact_mod_cast h
    exact this)
  refine ⟨y, hy, ?_⟩
  rw [abs_of_pos hq0'] at he
  have he' : |(y : ℝ) - q| ≤ 1 / 2 ^ 53 * q := by
    have : ((|y - q| : ℚ) : ℝ) ≤ ((1 / 2 ^ 53 * q : ℚ) : ℝ) := by exact_mod_cast he
    push_cast at this
    exact this
  have h3 : |(q : ℝ) - z| ≤ ε / 2 := by rw [abs_of_pos (by linarith)]; linarith
  have h4 : |(y : ℝ) - z| ≤ |(y : ℝ) - q| + |(q : ℝ) - z| := abs_sub_le _ _ _
  have h5 : (1 : ℝ) / 2 ^ 53 * q ≤ 1 / 2 ^ 53 * z + ε / 2 := by
    have h6 : (1 : ℝ) / 2 ^ 53 * q ≤ 1 / 2 ^ 53 * (z + ε / 2) := by gcongr
    have h7 : (1 : ℝ) / 2 ^ 53 * (ε / 2) ≤ 1 * (ε / 2) := by gcongr; norm_num
    linarith
  linarith

namespace SqrtNearest

variable {sq : ℚ → ℚ}

theorem exact (H : SqrtNearest sq) {x y : ℚ} (hy : IsF64 y) (h0 : 0 ≤ y) (h : x = y * y) : sq x = y := by
  have hx : √(x : ℝ) = y := by
    rw [h]; push_cast
    exact Real.sqrt_mul_self (by exact_mod_cast h0)
  have := H.near x y (h ▸ mul_self_nonneg y) hy
  rw [hx, sub_self, abs_zero] at this
  have h2 : (sq x : ℝ) = y := by
    have := abs_nonpos_iff.mp this
    linarith
  exact_mod_cast h2

theorem zero (H : SqrtNearest sq) : sq 0 = 0 := H.exact isF64_zero (le_refl _) (by simp)

/-- The relative error of the square root is at most `2^-53`. -/
theorem rel_err (H : SqrtNearest sq) {x : ℚ} (hx : (2 : ℝ) ^ (-1022 : ℤ) ≤ √(x : ℝ)) :
    |(sq x : ℝ) - √(x : ℝ)| ≤ 1 / 2 ^ 53 * √(x : ℝ) := by
  have h0 : 0 ≤ x := by
    by_contra hc
    push Not at hc
    have : √(x : ℝ) = 0 := Real.sqrt_eq_zero_of_nonpos (by exact_mod_cast hc.le)
    rw [this] at hx
    exact absurd hx (not_le.mpr (by positivity))
  apply le_of_forall_pos_le_add
  intro ε hε
  obtain ⟨y, hy, he⟩ := exists_near_real _ hx ε hε
  exact (H.near x y h0 hy).trans he

/-- For whole numbers the bound holds without a lower limit. -/
theorem rel_err_nat (H : SqrtNearest sq) (n : Nat) : |(sq (n : ℚ) : ℝ) - √(n : ℝ)| ≤ 1 / 2 ^ 53 * √(n : ℝ) := by
  rcases Nat.eq_zero_or_pos n with rfl | hn
  · simp [H.zero]
  · have h1 : (1 : ℝ) ≤ √(n : ℝ) := by rw [Real.one_le_sqrt]; exact_mod_cast hn
    have := H.rel_err (x := (n : ℚ)) (by
      rw [Rat.cast_natCast]
      refine le_trans ?_ h1
      exact zpow_le_one_of_nonpos₀ (by norm_num) (by norm_num))
    simpa using this

end SqrtNearest

/-- A binary64 number nearest to a given real number exists. -/
theorem exists_nearest_real (z : ℝ) : ∃ x, IsF64 x ∧ ∀ y, IsF64 y → |(x : ℝ) - z| ≤ |(y : ℝ) - z| := by
  obtain ⟨K, hK⟩ : ∃ K : ℕ, 2 * |z| < (2 : ℝ) ^ K := pow_unbounded_of_one_lt _ (by norm_num)
  obtain ⟨B, hB⟩ : ∃ B : ℤ, B = 2 ^ 53 := ⟨_, rfl⟩
  obtain ⟨L, hL⟩ : ∃ L : ℤ, L = -1074 := ⟨_, rfl⟩
  let S : Finset (ℤ × ℤ) := Finset.Icc (-B) B ×ˢ Finset.Icc L (K : ℤ)
  have hS : (0, 0) ∈ S := by
    simp only [S, Finset.mem_product, Finset.mem_Icc]
    refine ⟨⟨by rw [hB]; norm_num, by rw [hB]; norm_num⟩, by rw [hL]; norm_num, by positivity⟩
  obtain ⟨me, hme, hmin⟩ := S.exists_min_image (fun me => |(((me.1 : ℚ) * (2 : ℚ) ^ me.2 : ℚ) : ℝ) - z|) ⟨_, hS⟩
  simp only [S, Finset.mem_product, Finset.mem_Icc] at hme
  refine ⟨(me.1 : ℚ) * (2 : ℚ) ^ me.2, ⟨me.1, me.2, hB ▸ abs_le.mpr hme.1, hL ▸ hme.2.1, rfl⟩, ?_⟩
  rintro y ⟨m, e, hm, he, rfl⟩
  by_cases hle : e ≤ K
  · exact hmin (m, e) (by
      simp only [S, Finset.mem_product, Finset.mem_Icc]
      rw [← hB] at hm
      rw [← hL] at he
      exact ⟨abs_le.mp hm, he, hle⟩)
  · refine (hmin (0, 0) hS).trans ?_
    simp only [Int.cast_zero, zero_mul, Rat.cast_zero, zero_sub, abs_neg]
    by_cases hm0 : m = 0
    · simp [hm0]
    · have h1 : (1 : ℝ) ≤ |(m : ℝ)| := by exact_mod_cast Int.one_le_abs hm0
      have h2 : (2 : ℝ) ^ K ≤ (2 : ℝ) ^ e := by
        rw [← zpow_natCast]
        exact zpow_le_zpow_right₀ (by norm_num) (by omega)
      have h3 : (2 : ℝ) ^ K ≤ |(((m : ℚ) * (2 : ℚ) ^ e : ℚ) : ℝ)| := by
        push_cast
        rw [abs_mul, abs_of_pos (show (0 : ℝ) < 2 ^ e by positivity)]
        calc (2 : ℝ) ^ K ≤ 2 ^ e := h2
          _ = 1 * 2 ^ e := by ring
          _ ≤ _ := by gcongr
      have h4 := abs_sub_abs_le_abs_sub ((((m : ℚ) * (2 : ℚ) ^ e : ℚ) : ℝ)) z
      linarith

/-- A correctly rounded square root. -/
noncomputable def sqrtF64 (x : ℚ) : ℚ := (exists_nearest_real √(x : ℝ)).choose

theorem sqrtF64_nearest : SqrtNearest sqrtF64 :=
  ⟨fun x => (exists_nearest_real √(x : ℝ)).choose_spec.1, fun x y _ hy => (exists_nearest_real √(x : ℝ)).choose_spec.2 y hy⟩

end EdgeEval
