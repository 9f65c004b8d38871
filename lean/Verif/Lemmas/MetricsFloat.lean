import Verif.Model.MetricsFloat
import Verif.Lemmas.Float
import Verif.Lemmas.Calc

/-!
# Lemmas about the scores in floating point
-/

namespace EdgeEval.FloatM

open EdgeEval

variable {fl : ℚ → ℚ}

/-! ### Scores -/

theorem recall_zero (H : RoundsNearest fl) (c : ℚ) : recall fl c 0 = fl c := by
  simp [recall, H.one]

theorem recall_pos (H : RoundsNearest fl) {c s : ℚ} (hs : IsF64 s) (h : s ≠ 0) : recall fl c s = fl (c / s) := by
  simp [recall, h, H.exact hs]

theorem recall_unit (H : RoundsNearest fl) {c s : ℚ} (h0 : 0 ≤ c) (h : c ≤ s) (hs : IsF64 s) :
    0 ≤ recall fl c s ∧ recall fl c s ≤ 1 := by
  by_cases hz : s = 0
  · subst hz
    have : c = 0 := le_antisymm h h0
    rw [recall_zero H, this, H.zero]; norm_num
  · rw [recall_pos H hs hz]
    have hp : 0 < s := lt_of_le_of_ne (h0.trans h) (Ne.symm hz)
    exact ⟨H.nonneg (by positivity), H.le_one ((div_le_one hp).mpr h)⟩

theorem recall_rep (H : RoundsNearest fl) (c s : ℚ) : IsF64 (recall fl c s) := H.rep _

theorem f1_nonneg (H : RoundsNearest fl) {p r : ℚ} (hp : 0 ≤ p) (hr : 0 ≤ r) : 0 ≤ f1 fl p r := by
  apply H.nonneg
  apply div_nonneg
  · exact H.nonneg (mul_nonneg (H.nonneg (by linarith)) hr)
  · apply H.nonneg
    have := H.nonneg (add_nonneg hp hr)
    split <;> linarith

theorem f1_le_one (H : RoundsNearest fl) {p r : ℚ} (hp : 0 ≤ p) (hr : 0 ≤ r) (hp1 : p ≤ 1) (hr1 : r ≤ 1)
    (hf : IsF64 p) : f1 fl p r ≤ 1 := by
  unfold f1 f1Denom
  rw [H.exact (isF64_double hf)]
  have hm : fl (2 * p * r) ≤ fl (p + r) := H.mono (by nlinarith [sq_nonneg (p - r), mul_nonneg hp hr])
  have h0 : 0 ≤ fl (p + r) := H.nonneg (add_nonneg hp hr)
  by_cases hz : fl (p + r) = 0
  · rw [hz] at hm ⊢
    have : fl (2 * p * r) = 0 := le_antisymm hm (H.nonneg (by positivity))
    rw [this]; simp [H.zero]
  · rw [if_neg hz, add_zero, H.exact (H.rep _)]
    exact H.le_one ((div_le_one (lt_of_le_of_ne h0 (Ne.symm hz))).mpr hm)

/-! ### The literal `0.01` -/

/-- A binary64 number that is at least `2^j` is a multiple of `2^(j-53)`. -/
theorem isF64_multiple {y : ℚ} (h : IsF64 y) (j : ℤ) (hj : (2 : ℚ) ^ j ≤ y) : ∃ z : ℤ, y = z * 2 ^ (j - 53) := by
  obtain ⟨m, e, hm, he, rfl⟩ := h
  have hm' : (m : ℚ) ≤ 2 ^ 53 := by exact_mod_cast (le_abs_self m).trans hm
  have hpe : (0 : ℚ) < 2 ^ e := by positivity
  have h1 : (2 : ℚ) ^ j ≤ 2 ^ (53 + e) := by
    refine hj.trans ?_
    rw [zpow_add₀ (by norm_num)]
    exact mul_le_mul_of_nonneg_right (by exact_mod_cast hm') hpe.le
  rw [zpow_le_zpow_iff_right₀ (by norm_num)] at h1
  obtain ⟨k, rfl⟩ : ∃ k : ℕ, e = (j - 53) + k := ⟨(e - (j - 53)).toNat, by omega⟩
  refine ⟨m * 2 ^ k, ?_⟩
  rw [zpow_add₀ (by norm_num), zpow_natCast]; push_cast; ring

theorem hundredth (H : RoundsNearest fl) : fl (1 / 100) = 5764607523034235 / 2 ^ 59 := by
  have hy : IsF64 (5764607523034235 / 2 ^ 59) := ⟨5764607523034235, -59, by norm_num, by norm_num, by norm_num⟩
  have h1 := H.near (1 / 100) _ hy
  have h2 : |(5764607523034235 / 2 ^ 59 : ℚ) - 1 / 100| ≤ 13 / 100 / 2 ^ 59 := by
    rw [abs_le]; constructor <;> norm_num
  have h3 := abs_le.mp (h1.trans h2)
  have h4 : (2 : ℚ) ^ (-7 : ℤ) ≤ fl (1 / 100) := by
    have : (2 : ℚ) ^ (-7 : ℤ) ≤ 1 / 100 - 13 / 100 / 2 ^ 59 := by norm_num
    linarith [h3.1]
  obtain ⟨z, hz⟩ := isF64_multiple (H.rep _) (-7) h4
  rw [hz] at h3 ⊢
  have e60 : (2 : ℚ) ^ ((-7 : ℤ) - 53) = 1 / 2 ^ 60 := by norm_num
  rw [e60] at h3 ⊢
  have hz1 : (11529215046068469 : ℚ) < z := by
    have := h3.1
    norm_num at this ⊢
    linarith
  have hz2 : (z : ℚ) < 11529215046068471 := by
    have := h3.2
    norm_num at this ⊢
    linarith
  have : z = 11529215046068470 := by
    have a : (11529215046068469 : ℤ) < z := by exact_mod_cast hz1
    have b : z < (11529215046068471 : ℤ) := by exact_mod_cast hz2
    omega
  rw [this]; norm_num

theorem arange_length (H : RoundsNearest fl) : ⌈fl (1 / fl (1 / 100))⌉.toNat = 100 := by
  rw [hundredth H]
  have h1 : fl (1 / (5764607523034235 / 2 ^ 59)) ≤ 100 := by
    have := H.mono (show (1 / (5764607523034235 / 2 ^ 59) : ℚ) ≤ 100 by norm_num)
    have h100 : fl 100 = 100 := by simpa using H.nat 100 (by norm_num)
    rwa [h100] at this
  have h2 : 99 < fl (1 / (5764607523034235 / 2 ^ 59)) := by
    have hr := H.rel_err (1 / (5764607523034235 / 2 ^ 59)) (by
      rw [abs_of_pos (by norm_num)]
      refine le_trans (zpow_le_zpow_right₀ (by norm_num) (show (-1022 : ℤ) ≤ 0 by norm_num)) ?_
      norm_num)
    rw [abs_of_pos (show (0 : ℚ) < 1 / (5764607523034235 / 2 ^ 59) by norm_num)] at hr
    have := (abs_le.mp hr).1
    have h3 : (99 : ℚ) < 1 / (5764607523034235 / 2 ^ 59) - 1 / 2 ^ 53 * (1 / (5764607523034235 / 2 ^ 59)) := by norm_num
    linarith
  have : ⌈fl (1 / (5764607523034235 / 2 ^ 59))⌉ = 100 := by
    rw [Int.ceil_eq_iff]
    constructor
    · push_cast; linarith
    · exact_mod_cast h1
  rw [this]; rfl

theorem arange01_eq (H : RoundsNearest fl) :
    arange01 fl = (List.range 100).map fun (k : Nat) => fl (k * fl (1 / 100)) := by
  unfold arange01; rw [arange_length H]

theorem mult_unit (H : RoundsNearest fl) {k : ℕ} (hk : k < 100) :
    0 ≤ (k : ℚ) * fl (1 / 100) ∧ (k : ℚ) * fl (1 / 100) ≤ 1 := by
  rw [hundredth H]
  have : (k : ℚ) ≤ 99 := by exact_mod_cast Nat.le_of_lt_succ hk
  constructor
  · positivity
  · calc (k : ℚ) * (5764607523034235 / 2 ^ 59) ≤ 99 * (5764607523034235 / 2 ^ 59) := by gcongr
      _ ≤ 1 := by norm_num

/-- The weights of the interpolation are binary64 numbers in [0,1]. -/
theorem grid_mem (H : RoundsNearest fl) {d : ℚ} (h : d ∈ linspace fl 0 1 101) : IsF64 d ∧ 0 ≤ d ∧ d ≤ 1 := by
  simp only [linspace, List.mem_map, List.mem_range] at h
  obtain ⟨k, hk, rfl⟩ := h
  rw [if_neg (by norm_num)]
  split
  · exact ⟨isF64_one, by norm_num, le_refl _⟩
  · have h1 : fl (fl (1 - 0) / (((101 : ℕ) : ℚ) - 1)) = fl (1 / 100) := by
      rw [sub_zero, H.one]; norm_num
    rw [h1, add_zero]
    have h2 := mult_unit H (k := k) (by omega)
    rw [H.exact (H.rep _)]
    exact ⟨H.rep _, H.nonneg h2.1, H.le_one h2.2⟩

theorem one_mem_grid (fl : ℚ → ℚ) : (1 : ℚ) ∈ linspace fl 0 1 101 := by
  simp only [linspace, List.mem_map, List.mem_range]
  exact ⟨100, by norm_num, by simp⟩

/-! ### Interpolation -/

theorem mix_one (H : RoundsNearest fl) {u v : ℚ} (hu : IsF64 u) : mix fl u v 1 = u := by
  simp [mix, H.zero, H.exact hu]

theorem mix_rep (H : RoundsNearest fl) (u v d : ℚ) : IsF64 (mix fl u v d) := H.rep _

theorem mix_unit (H : RoundsNearest fl) {u v d : ℚ} (hu : 0 ≤ u ∧ u ≤ 1) (hv : 0 ≤ v ∧ v ≤ 1)
    (hd : IsF64 d ∧ 0 ≤ d ∧ d ≤ 1) : 0 ≤ mix fl u v d ∧ mix fl u v d ≤ 1 := by
  obtain ⟨hf, h0, h1⟩ := hd
  have hn : 0 ≤ fl (1 - d) := H.nonneg (by linarith)
  constructor
  · exact H.nonneg (add_nonneg (H.nonneg (mul_nonneg hu.1 h0)) (H.nonneg (mul_nonneg hv.1 hn)))
  · have a : fl (u * d) ≤ d := by
      have := H.mono (show u * d ≤ d by nlinarith)
      rwa [H.exact hf] at this
    have b : fl (v * fl (1 - d)) ≤ fl (1 - d) := by
      have := H.mono (show v * fl (1 - d) ≤ fl (1 - d) by nlinarith)
      rwa [H.exact (H.rep _)] at this
    have c := (abs_le.mp (H.err_unit (x := 1 - d) (by linarith) (by linarith))).2
    apply H.le_one'
    have : (1 : ℚ) / 2 ^ 54 < 1 / 2 ^ 53 := by norm_num
    linarith

end EdgeEval.FloatM
