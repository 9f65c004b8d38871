import Verif.Model.KofnInts
import Verif.Lemmas.KofnFloat
import Verif.Props.Random
import Verif.Props.MatchInts

/-!
# Property theorems C58: 32-bit integers in the sampler
-/

namespace EdgeEval.Props

open EdgeEval

theorem largeKInts_range {fl : ℚ → ℚ} (H : RoundsNearest fl) (k n : Nat) (xs : Nat → ℚ) (hx : DrawStream xs) (hk : k ≤ n) (rem pos j : Nat)
    (h1 : rem ≤ n) (h2 : j ≤ k) : ∀ z ∈ largeKInts fl k n xs rem pos j, 0 ≤ z ∧ z ≤ n := by
  induction rem generalizing pos j with
  | zero => simp [largeKInts]
  | succ rem ih =>
    intro z hz
    simp only [largeKInts, List.cons_append, List.nil_append, List.mem_cons] at hz
    split at hz
    · rename_i hlt
      have hjk : j < k := by
        by_contra hge
        have : j = k := by omega
        subst this
        rw [sub_self, zero_div, H.zero] at hlt
        linarith [(hx pos).1]
      simp only [List.mem_cons] at hz
      rcases hz with rfl | rfl | rfl | rfl | rfl | hz
      · omega
      · omega
      · omega
      · omega
      · omega
      · exact ih (pos + 1) (j + 1) (by omega) (by omega) z hz
    · simp only [List.mem_cons] at hz
      rcases hz with rfl | rfl | rfl | rfl | hz
      · omega
      · omega
      · omega
      · omega
      · exact ih (pos + 1) j (by omega) h2 z hz

theorem splitInts_range {fl : ℚ → ℚ} (H : RoundsNearest fl) (n leftN : Nat) (xs : Nat → ℚ) (hx : DrawStream xs) (hn : n ≤ 2 ^ 53)
    (hl : leftN ≤ n) (cnt pos i lk rk : Nat) (h1 : i = lk + rk) (h2 : lk ≤ leftN) (h3 : rk ≤ n - leftN)
    (h4 : i + cnt ≤ n) : ∀ z ∈ splitInts fl n leftN xs cnt pos i lk rk, 0 ≤ z ∧ z ≤ n := by
  induction cnt generalizing pos i lk rk with
  | zero => simp [splitInts]
  | succ cnt ih =>
    intro z hz
    have hr := randI32F_range H (xs pos) (n - i) (hx pos).1 (hx pos).2 (by omega) ((Nat.sub_le _ _).trans hn)
    have e : ((n : Int) - i - 1) = (((n - i : Nat) : Int) - 1) := by omega
    simp only [splitInts, List.cons_append, List.nil_append, List.mem_cons, e] at hz
    split at hz
    · rename_i hlt
      simp only [List.mem_cons] at hz
      rcases hz with rfl | rfl | rfl | rfl | rfl | rfl | rfl | hz <;> try omega
      exact ih (pos + 1) (i + 1) (lk + 1) rk (by omega) (by omega) h3 (by omega) z hz
    · rename_i hlt
      simp only [List.mem_cons] at hz
      rcases hz with rfl | rfl | rfl | rfl | rfl | rfl | rfl | hz <;> try omega
      exact ih (pos + 1) (i + 1) lk (rk + 1) (by omega) h2 (by omega) (by omega) z hz

theorem smallKInts_range {fl : ℚ → ℚ} (H : RoundsNearest fl) (xs : Nat → ℚ) (hx : DrawStream xs) (fuel k n pos : Nat) (hn : n ≤ 2 ^ 53)
    (hk : 0 < k) (hkn : k ≤ n) (hf : n ≤ fuel) : ∀ z ∈ smallKInts fl xs fuel k n pos, 0 ≤ z ∧ z ≤ n := by
  induction fuel generalizing k n pos with
  | zero => omega
  | succ fuel ih =>
    intro z hz
    rw [smallKInts] at hz
    split at hz
    · have hr := randI32F_range H (xs pos) n (hx pos).1 (hx pos).2 (by omega) hn
      simp only [List.mem_cons, List.not_mem_nil, or_false] at hz
      rcases hz with rfl | rfl | rfl <;> omega
    · rename_i h1
      have hs := smallKSplitF_ok H n (n / 2) xs hx hn (by omega) k pos 0 0 0 rfl (by omega) (by omega) (by omega)
      have hsi := splitInts_range H n (n / 2) xs hx hn (by omega) k pos 0 0 0 rfl (by omega) (by omega) (by omega)
      rcases hsp : smallKSplitF fl n (n / 2) xs k pos 0 0 0 with ⟨lk, rk⟩
      rw [hsp] at hs
      simp only [hsp] at hs hz
      have hn2 : n / 2 ≤ 2 ^ 53 := (Nat.div_le_self _ _).trans hn
      have hn3 : n - n / 2 ≤ 2 ^ 53 := (Nat.sub_le _ _).trans hn
      simp only [List.mem_append] at hz
      rcases hz with ((((hz | hz) | hz) | hz) | hz) | hz
      · simp only [List.mem_cons, List.not_mem_nil, or_false] at hz
        rcases hz with rfl | rfl | rfl | rfl | rfl | rfl <;> omega
      · exact hsi z hz
      · split at hz
        · have := ih lk (n / 2) _ hn2 (by assumption) hs.2.1 (by omega) z hz
          omega
        · simp at hz
      · split at hz
        · have := ih rk (n - n / 2) _ hn3 (by assumption) hs.2.2 (by omega) z hz
          omega
        · simp at hz
      · obtain ⟨v, hv, rfl⟩ := List.mem_map.1 hz
        split at hv
        · have := (smallKF_ok H xs hx fuel rk (n - n / 2) _ hn3 (by assumption) hs.2.2 (by omega)).2.2 v hv
          omega
        · simp at hv
      · obtain ⟨v, hv, rfl⟩ := List.mem_map.1 hz
        have := List.mem_range.1 hv
        omega

/-- C58: no `int` overflows in the sampler: every value it computes, in either algorithm and at every depth of its recursion, is between
0 and `n`, so that any `n` that is itself an `int` is fine. -/
theorem C58_kofn (fl : ℚ → ℚ) (H : RoundsNearest fl) (small : Nat → Nat → Bool) (xs : Nat → ℚ) (hx : ∀ i, 0 ≤ xs i ∧ xs i ≤ 1 - 1 / 2 ^ 48)
    (k n pos : Nat) (hk : k ≤ n) (hn : n < 2 ^ 31) :
    ∀ z ∈ kOfNInts fl small k n xs pos, (0 ≤ z ∧ z ≤ n) ∧ FitsInt z := by
  have key : ∀ z ∈ kOfNInts fl small k n xs pos, 0 ≤ z ∧ z ≤ n := by
    intro z hz
    unfold kOfNInts at hz
    split at hz
    · simp only [List.mem_cons, List.not_mem_nil, or_false] at hz
      rcases hz with rfl | rfl <;> omega
    · rename_i h0
      simp only [List.cons_append, List.nil_append, List.mem_cons] at hz
      rcases hz with rfl | rfl | rfl | hz
      · omega
      · omega
      · omega
      · split at hz
        · exact smallKInts_range H xs hx n k n pos (by omega) (by omega) hk le_rfl z hz
        · exact largeKInts_range H k n xs hx hk n pos 0 le_rfl (by omega) z hz
  exact fun z hz => ⟨key z hz, by unfold FitsInt; have := key z hz; omega⟩

example : ∀ z ∈ kOfNInts nearestF64 (fun _ _ => true) 6 1000000 (Rng.reseed 7 0 0).stream 0, (0 ≤ z ∧ z ≤ (1000000 : Nat)) ∧ FitsInt z :=
  C58_kofn _ nearestF64_rounds _ _ (fun i => ⟨(C59_fp_range _ i).1, (C59_fp_range _ i).2.1⟩) _ _ _ (by norm_num) (by norm_num)

/-- C58: the list is complete at the outermost level: the two halves, the counters of the split and everything the result is made of are in it,
and so is everything the recursive calls compute. -/
theorem C58_kofn_covers (fl : ℚ → ℚ) (H : RoundsNearest fl) (xs : Nat → ℚ) (hx : ∀ i, 0 ≤ xs i ∧ xs i ≤ 1 - 1 / 2 ^ 48)
    (fuel k n pos : Nat) (hk : 1 < k) (hkn : k ≤ n) (hf : n ≤ fuel) (hn : n ≤ 2 ^ 53) :
    (n / 2 : ℤ) ∈ smallKInts fl xs (fuel + 1) k n pos ∧ ((n : ℤ) - n / 2) ∈ smallKInts fl xs (fuel + 1) k n pos ∧
    ((smallKSplitF fl n (n / 2) xs k pos 0 0 0).1 : ℤ) ∈ smallKInts fl xs (fuel + 1) k n pos ∧
    ((smallKSplitF fl n (n / 2) xs k pos 0 0 0).2 : ℤ) ∈ smallKInts fl xs (fuel + 1) k n pos ∧
    ∀ v ∈ (smallKF fl xs (fuel + 1) k n pos).1, (v : ℤ) ∈ smallKInts fl xs (fuel + 1) k n pos := by
  have cov : ∀ fuel k n pos, 0 < k → k ≤ n → n ≤ fuel → n ≤ 2 ^ 53 →
      ∀ v ∈ (smallKF fl xs fuel k n pos).1, (v : ℤ) ∈ smallKInts fl xs fuel k n pos := by
    intro fuel
    induction fuel with
    | zero => intro k n pos h1 h2 h3; omega
    | succ fuel ih =>
      intro k n pos h1 h2 h3 h4 v hv
      rw [smallKF] at hv
      rw [smallKInts]
      split at hv
      · rename_i hk1
        have hr := randI32F_range H (xs pos) n (hx pos).1 (hx pos).2 (by omega) h4
        simp only [List.mem_singleton] at hv
        subst hv
        rw [if_pos hk1, Int.toNat_of_nonneg hr.1]
        simp
      · rename_i hk1
        rw [if_neg hk1]
        have hs := smallKSplitF_ok H n (n / 2) xs hx h4 (by omega) k pos 0 0 0 rfl (by omega) (by omega) (by omega)
        rcases hsp : smallKSplitF fl n (n / 2) xs k pos 0 0 0 with ⟨lk, rk⟩
        rw [hsp] at hs
        simp only [hsp] at hs hv ⊢
        rcases List.mem_append.1 hv with hv | hv
        · split at hv
          · rename_i hl
            have := ih lk (n / 2) _ hl hs.2.1 (by omega) ((Nat.div_le_self _ _).trans h4) v hv
            simp only [List.mem_append]
            left; left; left; right
            rw [if_pos hl]; exact this
          · simp at hv
        · obtain ⟨w, hw, rfl⟩ := List.mem_map.1 hv
          simp only [List.mem_append]
          left; right
          exact List.mem_map.2 ⟨w, hw, by push_cast; rfl⟩
  refine ⟨?_, ?_, ?_, ?_, cov (fuel + 1) k n pos (by omega) hkn (by omega) hn⟩
  all_goals
    rw [smallKInts, if_neg (by omega)]
    rcases hsp : smallKSplitF fl n (n / 2) xs k pos 0 0 0 with ⟨lk, rk⟩
    simp only [hsp, List.mem_append]
    left; left; left; left; left
    simp

example : ((10 : Nat) / 2 : ℤ) ∈ smallKInts nearestF64 (Rng.reseed 7 0 0).stream 11 2 10 0 :=
  (C58_kofn_covers _ nearestF64_rounds _ (fun i => ⟨(C59_fp_range _ i).1, (C59_fp_range _ i).2.1⟩) 10 2 10 0 (by norm_num) (by norm_num) le_rfl (by norm_num)).1

end EdgeEval.Props
