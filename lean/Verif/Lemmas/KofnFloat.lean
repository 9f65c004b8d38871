import Verif.Model.Random
import Verif.Spec.Draws
import Verif.Lemmas.Float
import Verif.Props.Kofn

/-! # The sampler in floating point -/

namespace EdgeEval

open Props

variable {fl : ℚ → ℚ}

theorem randI32F_range (H : RoundsNearest fl) (x : ℚ) (m : Nat) (h0 : 0 ≤ x) (h1 : x ≤ 1 - 1 / 2 ^ 48) (hm : 0 < m)
    (hm2 : m ≤ 2 ^ 53) : 0 ≤ randI32F fl x 0 ((m : Int) - 1) ∧ randI32F fl x 0 ((m : Int) - 1) < m := by
  unfold randI32F
  obtain ⟨m, rfl⟩ : ∃ k, m = k + 1 := ⟨m - 1, by omega⟩
  have e1 : ((((m + 1 : Nat) : Int) - 1 : Int) : ℚ) - ((0 : Int) : ℚ) = ((m : Nat) : ℚ) := by push_cast; ring
  have e2 : fl ((m : Nat) : ℚ) = m := H.nat _ (by omega)
  have e3 : fl ((m : ℚ) + 1) = ((m + 1 : Nat) : ℚ) := by
    rw [← H.nat (m + 1) hm2]; push_cast; rfl
  rw [e1, e2, e3]
  have hmq : (1 : ℚ) ≤ ((m + 1 : Nat) : ℚ) := by exact_mod_cast hm
  have hlt : fl (x * ((m + 1 : Nat) : ℚ)) < ((m + 1 : Nat) : ℚ) := by
    generalize ((m + 1 : Nat) : ℚ) = M at *
    have hy : x * M ≤ (1 - 1 / 2 ^ 48) * M := mul_le_mul_of_nonneg_right h1 (by linarith)
    refine lt_of_le_of_lt (H.mono hy) ?_
    have hpos : (1 : ℚ) / 2 ≤ (1 - 1 / 2 ^ 48) * M := by
      have : (1 / 2 : ℚ) ≤ 1 - 1 / 2 ^ 48 := by norm_num
      nlinarith
    have hr := H.rel_err ((1 - 1 / 2 ^ 48) * M) (by
      rw [abs_of_nonneg (by linarith)]
      refine le_trans ?_ hpos
      rw [show (1 / 2 : ℚ) = 2 ^ (-1 : ℤ) by norm_num]
      exact zpow_le_zpow_right₀ (by norm_num) (by norm_num))
    rw [abs_of_nonneg (show 0 ≤ (1 - 1 / 2 ^ 48) * M by linarith)] at hr
    have hr2 := (abs_le.mp hr).2
    have : (1 - 1 / 2 ^ 48) * M + 1 / 2 ^ 53 * ((1 - 1 / 2 ^ 48) * M) < M := by
      have : (1 - 1 / 2 ^ 48) * M + 1 / 2 ^ 53 * ((1 - 1 / 2 ^ 48) * M) =
          ((1 - 1 / 2 ^ 48) * (1 + 1 / 2 ^ 53)) * M := by ring
      rw [this]
      have h3 : ((1 - 1 / 2 ^ 48) * (1 + 1 / 2 ^ 53) : ℚ) < 1 := by norm_num
      nlinarith
    linarith
  have e4 : fl (fl (x * ((m + 1 : Nat) : ℚ)) + ((0 : Int) : ℚ)) = fl (x * ((m + 1 : Nat) : ℚ)) := by
    rw [Int.cast_zero, add_zero]; exact H.exact (H.rep _)
  rw [e4]
  refine ⟨Int.floor_nonneg.mpr (H.nonneg (mul_nonneg h0 (by linarith))), ?_⟩
  rw [Int.floor_lt]
  exact_mod_cast hlt

theorem largeKLoopF_ok (H : RoundsNearest fl) (k n : Nat) (xs : Nat → ℚ) (hx : DrawStream xs) (rem pos j : Nat)
    (h1 : rem ≤ n) (h2 : j ≤ k) (h3 : k - j ≤ rem) :
    (largeKLoopF fl k n xs rem pos j).length = k - j ∧ (largeKLoopF fl k n xs rem pos j).Pairwise (· < ·) ∧
    ∀ x ∈ largeKLoopF fl k n xs rem pos j, n - rem ≤ x ∧ x < n := by
  induction rem generalizing pos j with
  | zero => simp only [largeKLoopF]; refine ⟨by simp; omega, List.Pairwise.nil, by simp⟩
  | succ rem ih =>
    unfold largeKLoopF
    have hpos : (0 : ℚ) < ((rem + 1 : Nat) : ℚ) := by positivity
    split
    · rename_i hlt
      have hjk : j < k := by
        by_contra hge
        have : j = k := by omega
        subst this
        rw [sub_self, zero_div, H.zero] at hlt
        linarith [(hx pos).1]
      obtain ⟨a, b, c⟩ := ih (pos + 1) (j + 1) (by omega) (by omega) (by omega)
      refine ⟨by simp only [List.length_cons, a]; omega, ?_, ?_⟩
      · rw [List.pairwise_cons]
        refine ⟨fun x hx => ?_, b⟩
        have := (c x hx).1
        omega
      · intro x hx
        rcases List.mem_cons.mp hx with rfl | hx
        · omega
        · have := c x hx; omega
    · rename_i hlt
      have hne : k - j ≤ rem := by
        by_contra hgt
        have e : k - j = rem + 1 := by omega
        apply hlt
        have : ((k : ℚ) - j) = ((rem + 1 : Nat) : ℚ) := by
          rw [← e, Nat.cast_sub h2]
        rw [this, div_self hpos.ne', H.one]
        exact (hx.unit pos).2
      obtain ⟨a, b, c⟩ := ih (pos + 1) j (by omega) h2 hne
      refine ⟨a, b, ?_⟩
      intro x hx
      have := c x hx; omega

theorem smallKSplitF_ok (H : RoundsNearest fl) (n leftN : Nat) (xs : Nat → ℚ) (hx : DrawStream xs) (hn : n ≤ 2 ^ 53)
    (hl : leftN ≤ n) (cnt pos i lk rk : Nat) (h1 : i = lk + rk) (h2 : lk ≤ leftN) (h3 : rk ≤ n - leftN)
    (h4 : i + cnt ≤ n) :
    let r := smallKSplitF fl n leftN xs cnt pos i lk rk
    r.1 + r.2 = i + cnt ∧ r.1 ≤ leftN ∧ r.2 ≤ n - leftN := by
  induction cnt generalizing pos i lk rk with
  | zero => simp only [smallKSplitF]; omega
  | succ cnt ih =>
    simp only [smallKSplitF]
    have hr := randI32F_range H (xs pos) (n - i) (hx pos).1 (hx pos).2 (by omega) ((Nat.sub_le _ _).trans hn)
    have e : ((n : Int) - i - 1) = (((n - i : Nat) : Int) - 1) := by omega
    rw [e]
    split
    · rename_i hlt
      have := ih (pos + 1) (i + 1) (lk + 1) rk (by omega) (by omega) h3 (by omega)
      simp only at this
      omega
    · rename_i hlt
      have := ih (pos + 1) (i + 1) lk (rk + 1) (by omega) h2 (by omega) (by omega)
      simp only at this
      omega

theorem smallKF_ok (H : RoundsNearest fl) (xs : Nat → ℚ) (hx : DrawStream xs) (fuel k n pos : Nat) (hn : n ≤ 2 ^ 53)
    (hk : 0 < k) (hkn : k ≤ n) (hf : n ≤ fuel) : IsKSubset k n (smallKF fl xs fuel k n pos).1 := by
  induction fuel generalizing k n pos with
  | zero => omega
  | succ fuel ih =>
    unfold smallKF
    split
    · rename_i h1
      subst h1
      have hr := randI32F_range H (xs pos) n (hx pos).1 (hx pos).2 (by omega) hn
      refine ⟨rfl, List.pairwise_singleton _ _, ?_⟩
      intro x hx
      simp only [List.mem_singleton] at hx
      subst hx
      omega
    · rename_i h1
      have hs := smallKSplitF_ok H n (n / 2) xs hx hn (by omega) k pos 0 0 0 rfl (by omega) (by omega) (by omega)
      rcases hsp : smallKSplitF fl n (n / 2) xs k pos 0 0 0 with ⟨lk, rk⟩
      rw [hsp] at hs
      simp only [hsp] at hs ⊢
      have hn2 : n / 2 ≤ 2 ^ 53 := (Nat.div_le_self _ _).trans hn
      have hn3 : n - n / 2 ≤ 2 ^ 53 := (Nat.sub_le _ _).trans hn
      have hL : ∀ p, IsKSubset lk (n / 2) (if lk > 0 then smallKF fl xs fuel lk (n / 2) p else ([], p)).1 := by
        intro p
        split
        · rename_i h; exact ih lk (n / 2) p hn2 h hs.2.1 (by omega)
        · rename_i h; exact ⟨by simp; omega, List.Pairwise.nil, by simp⟩
      have hR : ∀ p, IsKSubset rk (n - n / 2) (if rk > 0 then smallKF fl xs fuel rk (n - n / 2) p else ([], p)).1 := by
        intro p
        split
        · rename_i h; exact ih rk (n - n / 2) p hn3 h hs.2.2 (by omega)
        · rename_i h; exact ⟨by simp; omega, List.Pairwise.nil, by simp⟩
      obtain ⟨a1, a2, a3⟩ := hL (pos + k)
      obtain ⟨b1, b2, b3⟩ := hR (if lk > 0 then smallKF fl xs fuel lk (n / 2) (pos + k) else ([], pos + k)).2
      refine ⟨by simp only [List.length_append, List.length_map, a1, b1]; omega, ?_, ?_⟩
      · rw [List.pairwise_append]
        refine ⟨a2, ?_, ?_⟩
        · rw [List.pairwise_map]
          exact b2.imp (fun h => by omega)
        · intro x hx y hy
          obtain ⟨z, hz, rfl⟩ := List.mem_map.mp hy
          have := a3 x hx
          omega
      · intro x hx
        rcases List.mem_append.mp hx with hx | hx
        · have := a3 x hx; omega
        · obtain ⟨z, hz, rfl⟩ := List.mem_map.mp hx
          have := b3 z hz
          omega

theorem kOfNF_ok (H : RoundsNearest fl) (small : Nat → Nat → Bool) (k n : Nat) (xs : Nat → ℚ) (pos : Nat)
    (hx : DrawStream xs) (hk : k ≤ n) (hn : n ≤ 2 ^ 53) : IsKSubset k n (kOfNF fl small k n xs pos).1 := by
  unfold kOfNF
  split
  · rename_i h; subst h; exact ⟨rfl, List.Pairwise.nil, by simp⟩
  · rename_i h
    split
    · exact smallKF_ok H xs hx n k n pos hn (by omega) hk (le_refl _)
    · obtain ⟨a, b, c⟩ := largeKLoopF_ok H k n xs hx n pos 0 (le_refl _) (by omega) (by omega)
      exact ⟨by simpa [largeKF] using a, b, fun x hx => (c x hx).2⟩

theorem kRowsF_ok (H : RoundsNearest fl) (small : Nat → Nat → Bool) (k n : Nat) (xs : Nat → ℚ) (hx : DrawStream xs)
    (hk : k ≤ n) (hn : n ≤ 2 ^ 53) (cnt pos : Nat) :
    (kRowsF fl small k n xs cnt pos).1.length = cnt ∧ ∀ r ∈ (kRowsF fl small k n xs cnt pos).1, IsKSubset k n r := by
  induction cnt generalizing pos with
  | zero => simp [kRowsF]
  | succ cnt ih =>
    simp only [kRowsF, List.length_cons, List.mem_cons, forall_eq_or_imp]
    obtain ⟨a, b⟩ := ih (kOfNF fl small k n xs pos).2
    exact ⟨by omega, kOfNF_ok H small k n xs pos hx hk hn, b⟩

end EdgeEval
