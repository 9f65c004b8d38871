import Verif.Lemmas.FloatError
import Verif.Lemmas.CalcFloat

/-!
# Area under the curve and thresholds in floating point
-/

namespace EdgeEval.FloatM

open EdgeEval

variable {fl : ℚ → ℚ}

theorem interpSeg_unit (H : RoundsNearest fl) {x : ℚ} :
    ∀ (pts : List (ℚ × ℚ)) (k v : ℚ), KeySorted ((k, v) :: pts) → k ≤ x →
      (∀ y ∈ (k, v) :: pts, IsF64 y.1 ∧ 0 ≤ y.1 ∧ y.1 ≤ 1 ∧ IsF64 y.2 ∧ 0 ≤ y.2 ∧ y.2 ≤ 1) →
      IsF64 (interpSeg fl x 0 ((k, v) :: pts)) ∧ -(1 / 2 ^ 50) ≤ interpSeg fl x 0 ((k, v) :: pts) ∧
        interpSeg fl x 0 ((k, v) :: pts) ≤ 1 + 1 / 2 ^ 50 := by
  intro pts
  have hp : (0 : ℚ) < 1 / 2 ^ 50 := by norm_num
  induction pts with
  | nil =>
    intro k v _ _ hb
    obtain ⟨_, _, _, h1, h2, h3⟩ := hb (k, v) (by simp)
    simp only [interpSeg]
    split
    · exact ⟨h1, by linarith, by linarith⟩
    · exact ⟨isF64_zero, by linarith, by linarith⟩
  | cons a rest ih =>
    intro k v hs hk hb
    obtain ⟨k', v'⟩ := a
    obtain ⟨a1, a2, a3, a4, a5, a6⟩ := hb (k, v) (by simp)
    obtain ⟨b1, b2, b3, b4, b5, b6⟩ := hb (k', v') (by simp)
    simp only [interpSeg]
    simp only at a1 a2 a3 a4 a5 a6 b1 b2 b3 b4 b5 b6
    split
    · rename_i hx
      split
      · exact ⟨a4, by linarith, by linarith⟩
      · exact ⟨H.rep _, interp_term H a1 b1 hs.1 (by linarith) ⟨a5, a6⟩ ⟨b5, b6⟩ hk hx.le⟩
    · rename_i hx
      exact ih k' v' hs.2 (not_lt.mp hx) fun y hy => hb y (List.mem_cons_of_mem _ hy)

theorem npInterp_unit (H : RoundsNearest fl) {x : ℚ} {pts : List (ℚ × ℚ)} (hs : KeySorted pts)
    (hb : ∀ y ∈ pts, IsF64 y.1 ∧ 0 ≤ y.1 ∧ y.1 ≤ 1 ∧ IsF64 y.2 ∧ 0 ≤ y.2 ∧ y.2 ≤ 1) :
    IsF64 (npInterp fl x 0 0 pts) ∧ -(1 / 2 ^ 50) ≤ npInterp fl x 0 0 pts ∧ npInterp fl x 0 0 pts ≤ 1 + 1 / 2 ^ 50 := by
  have h0 : IsF64 0 ∧ -(1 / 2 ^ 50) ≤ (0 : ℚ) ∧ (0 : ℚ) ≤ 1 + 1 / 2 ^ 50 := ⟨isF64_zero, by norm_num, by norm_num⟩
  cases pts with
  | nil => exact h0
  | cons a rest =>
    obtain ⟨k, v⟩ := a
    simp only [npInterp]
    split
    · exact h0
    · rename_i h; exact interpSeg_unit H rest k v hs (not_lt.mp h) hb

/-- A floating-point sum of at most 100 numbers between 0 and 1 (up to `2^-50`). -/
theorem sums_unit (H : RoundsNearest fl) {l : List ℚ} {s : ℚ} (h : SumsTo fl l s) (hl : l.length ≤ 100)
    (hb : ∀ x ∈ l, IsF64 x ∧ -(1 / 2 ^ 50) ≤ x ∧ x ≤ 1 + 1 / 2 ^ 50) :
    IsF64 s ∧ (l.length = 0 → s = 0) ∧ (0 < l.length →
      -((l.length : ℚ) * (1 / 2 ^ 46) - 1 / 2 ^ 47) ≤ s ∧
        s ≤ l.length + ((l.length : ℚ) * (1 / 2 ^ 46) - 1 / 2 ^ 47)) := by
  induction h with
  | nil => exact ⟨isF64_zero, fun _ => rfl, fun h => absurd h (by simp)⟩
  | one x =>
    obtain ⟨h1, h2, h3⟩ := hb x (by simp)
    have e1 : (1 : ℚ) / 2 ^ 46 = 16 * (1 / 2 ^ 50) := by norm_num
    have e2 : (1 : ℚ) / 2 ^ 47 = 8 * (1 / 2 ^ 50) := by norm_num
    have hp : (0 : ℚ) < 1 / 2 ^ 50 := by norm_num
    refine ⟨h1, fun h => absurd h (by simp), fun _ => ?_⟩
    rw [e1, e2]
    simp only [List.length_cons, List.length_nil]
    push_cast
    constructor <;> linarith
  | @add l l₁ l₂ a b ha hb' hperm ih1 ih2 =>
    have hlen : l.length = l₁.length + l₂.length := by rw [hperm.length_eq, List.length_append]
    obtain ⟨i1, i2, i3⟩ := ih1 (by omega) fun x hx => hb x (hperm.mem_iff.mpr (by simp [hx]))
    obtain ⟨j1, j2, j3⟩ := ih2 (by omega) fun x hx => hb x (hperm.mem_iff.mpr (by simp [hx]))
    refine ⟨H.rep _, ?_, ?_⟩
    · intro h0
      rw [i2 (by omega), j2 (by omega), add_zero, H.zero]
    · intro hpos
      rcases Nat.eq_zero_or_pos l₁.length with z1 | z1
      · rw [i2 z1, zero_add, H.exact j1, show l.length = l₂.length by omega]
        exact j3 (by omega)
      rcases Nat.eq_zero_or_pos l₂.length with z2 | z2
      · rw [j2 z2, add_zero, H.exact i1, show l.length = l₁.length by omega]
        exact i3 (by omega)
      · obtain ⟨c1, c2⟩ := i3 z1
        obtain ⟨d1, d2⟩ := j3 z2
        have hm : (l.length : ℚ) = l₁.length + l₂.length := by exact_mod_cast hlen
        have hm100 : (l₁.length : ℚ) + l₂.length ≤ 100 := by rw [← hm]; exact_mod_cast hl
        have hm0 : (0 : ℚ) ≤ l₁.length := by positivity
        have hm0' : (0 : ℚ) ≤ l₂.length := by positivity
        have hsm : (100 : ℚ) * (1 / 2 ^ 46) ≤ 1 := by norm_num
        have e1 : (1 : ℚ) / 2 ^ 46 = 2 * (1 / 2 ^ 47) := by norm_num
        have hp : (0 : ℚ) < 1 / 2 ^ 47 := by norm_num
        have hprod : ((l₁.length : ℚ) + l₂.length) * (1 / 2 ^ 46) ≤ 100 * (1 / 2 ^ 46) :=
          mul_le_mul_of_nonneg_right hm100 (by norm_num)
        have herr := H.abs_err (a + b) 7 (by norm_num) (by
          rw [abs_lt]
          norm_num only
          constructor <;> linarith)
        have e3 : (2 : ℚ) ^ ((7 : ℤ) - 54) = 1 / 2 ^ 47 := by norm_num
        rw [e3] at herr
        obtain ⟨f1, f2⟩ := abs_le.mp herr
        rw [hm]
        constructor <;> linarith

theorem area_unit (H : RoundsNearest fl) {sum : List ℚ → ℚ} (hS : ∀ l, SumsTo fl l (sum l)) {rcl prc : List ℚ}
    (hr : ∀ x ∈ rcl, IsF64 x ∧ 0 ≤ x ∧ x ≤ 1) (hp : ∀ x ∈ prc, IsF64 x ∧ 0 ≤ x ∧ x ≤ 1) :
    -(1 / 2 ^ 44) ≤ areaPR fl sum rcl prc ∧ areaPR fl sum rcl prc ≤ 1 + 1 / 2 ^ 44 := by
  unfold areaPR
  simp only
  split
  · have hb : ∀ y ∈ uniqueFirst rcl prc, IsF64 y.1 ∧ 0 ≤ y.1 ∧ y.1 ≤ 1 ∧ IsF64 y.2 ∧ 0 ≤ y.2 ∧ y.2 ≤ 1 := by
      intro y hy
      have := List.of_mem_zip (uniqueFirst_mem hy)
      obtain ⟨a, b, c⟩ := hr _ this.1
      obtain ⟨d, e, f⟩ := hp _ this.2
      exact ⟨a, b, c, d, e, f⟩
    have hs := uniqueFirst_sorted rcl prc
    have hl : ((arange01 fl).map fun x => npInterp fl x 0 0 (uniqueFirst rcl prc)).length = 100 := by
      rw [arange01_eq H]; simp
    have := sums_unit H (hS ((arange01 fl).map fun x => npInterp fl x 0 0 (uniqueFirst rcl prc))) (by omega) (by
      intro y hy
      obtain ⟨x, _, rfl⟩ := List.mem_map.mp hy
      exact npInterp_unit H hs hb)
    obtain ⟨_, _, h⟩ := this
    rw [hl] at h
    obtain ⟨h1, h2⟩ := h (by norm_num)
    set s := sum ((arange01 fl).map fun x => npInterp fl x 0 0 (uniqueFirst rcl prc)) with hs
    have hc := hundredth H
    have h3 : s * fl (1 / 100) ≤ 1 + 1 / 2 ^ 45 := by
      rw [hc]
      calc s * (5764607523034235 / 2 ^ 59) ≤ ((100 : ℕ) + ((100 : ℕ) * (1 / 2 ^ 46) - 1 / 2 ^ 47)) *
            (5764607523034235 / 2 ^ 59) := mul_le_mul_of_nonneg_right h2 (by norm_num)
        _ ≤ _ := by norm_num
    have h4 : -(1 / 2 ^ 45) ≤ s * fl (1 / 100) := by
      rw [hc]
      calc (-(1 / 2 ^ 45) : ℚ) ≤ -((100 : ℕ) * (1 / 2 ^ 46) - 1 / 2 ^ 47) * (5764607523034235 / 2 ^ 59) := by norm_num
        _ ≤ _ := mul_le_mul_of_nonneg_right h1 (by norm_num)
    have herr := H.abs_err (s * fl (1 / 100)) 1 (by norm_num) (by
      rw [abs_lt]
      constructor
      · refine lt_of_lt_of_le ?_ h4; norm_num
      · refine lt_of_le_of_lt h3 ?_; norm_num)
    have e3 : (2 : ℚ) ^ ((1 : ℤ) - 54) = 1 / 2 ^ 53 := by norm_num
    rw [e3] at herr
    obtain ⟨f1, f2⟩ := abs_le.mp herr
    have e4 : (1 : ℚ) / 2 ^ 44 = 2 * (1 / 2 ^ 45) := by norm_num
    have e5 : (1 : ℚ) / 2 ^ 45 = 256 * (1 / 2 ^ 53) := by norm_num
    have hp : (0 : ℚ) < 1 / 2 ^ 53 := by norm_num
    constructor <;> linarith
  · constructor <;> norm_num

/-- The default grid of thresholds. -/
theorem thresholds_close (H : RoundsNearest fl) {n : ℕ} (h1 : 1 ≤ n) (hn : n + 1 ≤ 2 ^ 48) :
    ∃ th, checkThresholds fl (.int n) = .ok th ∧ th.length = n ∧ (∀ t ∈ th, IsF64 t) ∧
      ∀ k, k < n → |th.getD k 0 - ((k : ℚ) + 1) / ((n : ℚ) + 1)| ≤ 1 / 2 ^ 50 := by
  have e : checkThresholds fl (.int n) = .ok (linspace fl (fl (1 / ((n : ℚ) + 1))) (fl (1 - fl (1 / ((n : ℚ) + 1)))) n) := by
    simp only [checkThresholds, Int.toNat_natCast, Int.cast_natCast]
    rw [if_neg (by omega), if_neg (by omega)]
  refine ⟨_, e, by simp [linspace], ?_, ?_⟩
  · intro t ht
    simp only [linspace, List.mem_map, List.mem_range] at ht
    obtain ⟨k, _, rfl⟩ := ht
    split_ifs <;> exact H.rep _
  · intro k hk
    have hg : (linspace fl (fl (1 / ((n : ℚ) + 1))) (fl (1 - fl (1 / ((n : ℚ) + 1)))) n).getD k 0 =
        (if n = 1 then fl (1 / ((n : ℚ) + 1)) else if k + 1 = n then fl (1 - fl (1 / ((n : ℚ) + 1)))
      else fl (fl (k * fl (fl (fl (1 - fl (1 / ((n : ℚ) + 1))) - fl (1 / ((n : ℚ) + 1))) / ((n : ℚ) - 1)))
        + fl (1 / ((n : ℚ) + 1)))) := by
      simp [linspace, hk]
    rw [hg]
    by_cases h : n = 1
    · rw [if_pos h]
      subst h
      have : k = 0 := by omega
      subst this
      have := H.err_unit (x := 1 / (((1 : ℕ) : ℚ) + 1)) (by norm_num) (by norm_num)
      refine le_trans ?_ (this.trans (by norm_num))
      apply le_of_eq
      norm_num
    · rw [if_neg h]
      exact grid_close H (by omega) hn hk

end EdgeEval.FloatM
