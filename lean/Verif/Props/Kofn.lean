import Verif.Model.Kofn

/-! # Property theorem C14: the k-of-n sampler -/

namespace EdgeEval.Props

open EdgeEval

/-- `k` strictly increasing numbers below `n`. -/
def IsKSubset (k n : Nat) (l : List Nat) : Prop :=
  l.length = k ∧ l.Pairwise (· < ·) ∧ ∀ x ∈ l, x < n

/-- Values of a random stream: all in `[0, 1)`. -/
def UnitStream (xs : Nat → ℚ) : Prop := ∀ i, 0 ≤ xs i ∧ xs i < 1

theorem largeKLoop_ok (k n : Nat) (xs : Nat → ℚ) (hx : UnitStream xs) (rem pos j : Nat)
    (h1 : rem ≤ n) (h2 : j ≤ k) (h3 : k - j ≤ rem) :
    (largeKLoop k n xs rem pos j).length = k - j ∧ (largeKLoop k n xs rem pos j).Pairwise (· < ·) ∧
    ∀ x ∈ largeKLoop k n xs rem pos j, n - rem ≤ x ∧ x < n := by
  induction rem generalizing pos j with
  | zero => simp only [largeKLoop]; refine ⟨by simp; omega, List.Pairwise.nil, by simp⟩
  | succ rem ih =>
    unfold largeKLoop
    have hpos : (0 : ℚ) < ((rem + 1 : Nat) : ℚ) := by positivity
    split
    · rename_i hlt
      have hjk : j < k := by
        by_contra hge
        have : j = k := by omega
        subst this
        rw [sub_self, zero_div] at hlt
        linarith [(hx pos).1]
      obtain ⟨a, b, c⟩ := ih (pos + 1) (j + 1) (by omega) (by omega) (by omega)
      refine ⟨by simp only [List.length_cons, a]; omega, ?_, ?_⟩
      · rw [List.pairwise_cons]
        refine ⟨fun x hx => ?_, b⟩
        have := (c x hx).1
        omega
      · intro x hx
        rcases List.mem_cons.mp hx with rfl | hx
        · omega
        · have := c x hx; omega
    · rename_i hlt
      have hne : k - j ≤ rem := by
        by_contra hgt
        have e : k - j = rem + 1 := by omega
        apply hlt
        have : ((k : ℚ) - j) = ((rem + 1 : Nat) : ℚ) := by
          rw [← e, Nat.cast_sub h2]
        rw [this, div_self hpos.ne']
        exact (hx pos).2
      obtain ⟨a, b, c⟩ := ih (pos + 1) j (by omega) h2 hne
      refine ⟨a, b, ?_⟩
      intro x hx
      have := c x hx; omega

theorem randI32_range (x : ℚ) (m : Nat) (h0 : 0 ≤ x) (h1 : x < 1) (hm : 0 < m) :
    0 ≤ randI32 x 0 ((m : Int) - 1) ∧ randI32 x 0 ((m : Int) - 1) < m := by
  unfold randI32
  have e : x * ((((m : Int) - 1 : Int) : ℚ) - ((0 : Int) : ℚ) + 1) + ((0 : Int) : ℚ) = x * m := by
    push_cast; ring
  rw [e]
  have hm' : (0 : ℚ) < m := by exact_mod_cast hm
  refine ⟨Int.floor_nonneg.mpr (mul_nonneg h0 hm'.le), ?_⟩
  rw [Int.floor_lt]
  push_cast
  nlinarith

theorem smallKSplit_ok (n leftN : Nat) (xs : Nat → ℚ) (hx : UnitStream xs) (hl : leftN ≤ n)
    (cnt pos i lk rk : Nat) (h1 : i = lk + rk) (h2 : lk ≤ leftN) (h3 : rk ≤ n - leftN)
    (h4 : i + cnt ≤ n) :
    let r := smallKSplit n leftN xs cnt pos i lk rk
    r.1 + r.2 = i + cnt ∧ r.1 ≤ leftN ∧ r.2 ≤ n - leftN := by
  induction cnt generalizing pos i lk rk with
  | zero => simp only [smallKSplit]; omega
  | succ cnt ih =>
    simp only [smallKSplit]
    have hr := randI32_range (xs pos) (n - i) (hx pos).1 (hx pos).2 (by omega)
    have e : ((n : Int) - i - 1) = (((n - i : Nat) : Int) - 1) := by omega
    rw [e]
    split
    · rename_i hlt
      have := ih (pos + 1) (i + 1) (lk + 1) rk (by omega) (by omega) h3 (by omega)
      simp only at this
      omega
    · rename_i hlt
      have := ih (pos + 1) (i + 1) lk (rk + 1) (by omega) h2 (by omega) (by omega)
      simp only at this
      omega

theorem smallK_ok (xs : Nat → ℚ) (hx : UnitStream xs) (fuel k n pos : Nat) (hk : 0 < k) (hkn : k ≤ n)
    (hf : n ≤ fuel) : IsKSubset k n (smallK xs fuel k n pos).1 := by
  induction fuel generalizing k n pos with
  | zero => omega
  | succ fuel ih =>
    unfold smallK
    split
    · rename_i h1
      subst h1
      have hr := randI32_range (xs pos) n (hx pos).1 (hx pos).2 (by omega)
      refine ⟨rfl, List.pairwise_singleton _ _, ?_⟩
      intro x hx
      simp only [List.mem_singleton] at hx
      subst hx
      omega
    · rename_i h1
      have hs := smallKSplit_ok n (n / 2) xs hx (by omega) k pos 0 0 0 rfl (by omega) (by omega) (by omega)
      rcases hsp : smallKSplit n (n / 2) xs k pos 0 0 0 with ⟨lk, rk⟩
      rw [hsp] at hs
      simp only [hsp] at hs ⊢
      have hL : ∀ p, IsKSubset lk (n / 2) (if lk > 0 then smallK xs fuel lk (n / 2) p else ([], p)).1 := by
        intro p
        split
        · rename_i h; exact ih lk (n / 2) p h hs.2.1 (by omega)
        · rename_i h; exact ⟨by simp; omega, List.Pairwise.nil, by simp⟩
      have hR : ∀ p, IsKSubset rk (n - n / 2) (if rk > 0 then smallK xs fuel rk (n - n / 2) p else ([], p)).1 := by
        intro p
        split
        · rename_i h; exact ih rk (n - n / 2) p h hs.2.2 (by omega)
        · rename_i h; exact ⟨by simp; omega, List.Pairwise.nil, by simp⟩
      obtain ⟨a1, a2, a3⟩ := hL (pos + k)
      obtain ⟨b1, b2, b3⟩ := hR (if lk > 0 then smallK xs fuel lk (n / 2) (pos + k) else ([], pos + k)).2
      refine ⟨by simp only [List.length_append, List.length_map, a1, b1]; omega, ?_, ?_⟩
      · rw [List.pairwise_append]
        refine ⟨a2, ?_, ?_⟩
        · rw [List.pairwise_map]
          exact b2.imp (fun h => by omega)
        · intro x hx y hy
          obtain ⟨z, hz, rfl⟩ := List.mem_map.mp hy
          have := a3 x hx
          omega
      · intro x hx
        rcases List.mem_append.mp hx with hx | hx
        · have := a3 x hx; omega
        · obtain ⟨z, hz, rfl⟩ := List.mem_map.mp hx
          have := b3 z hz
          omega

/-- C14: for every `k ≤ n` and every stream of random numbers in `[0, 1)`, the sampler returns exactly
`k` strictly increasing integers of `[0, n)`. -/
theorem C14_kofn (k n : Nat) (xs : Nat → ℚ) (pos : Nat) (hx : ∀ i, 0 ≤ xs i ∧ xs i < 1) (hk : k ≤ n) :
    IsKSubset k n (kOfN k n xs pos).1 := by
  unfold kOfN
  split
  · rename_i h; subst h; exact ⟨rfl, List.Pairwise.nil, by simp⟩
  · rename_i h
    split
    · exact smallK_ok xs hx n k n pos (by omega) hk (le_refl _)
    · obtain ⟨a, b, c⟩ := largeKLoop_ok k n xs hx n pos 0 (le_refl _) (by omega) (by omega)
      exact ⟨by simpa [largeK] using a, b, fun x hx => (c x hx).2⟩

/-- C14: hence the values are distinct and any `n`-of-`n` sample is everything. -/
theorem C14_all_of_n (n : Nat) (xs : Nat → ℚ) (pos : Nat) (hx : ∀ i, 0 ≤ xs i ∧ xs i < 1) :
    (kOfN n n xs pos).1 = List.range n := by
  obtain ⟨a, b, c⟩ := C14_kofn n n xs pos hx (le_refl _)
  have hnd : ((kOfN n n xs pos).1).Nodup := b.imp (fun h => Nat.ne_of_lt h)
  have hp : ((kOfN n n xs pos).1).Perm (List.range n) := by
    apply (List.subperm_of_subset hnd ?_).perm_of_length_le
    · simp [a]
    · intro x hx; exact List.mem_range.mpr (c x hx)
  exact hp.eq_of_pairwise (fun a b _ _ h1 h2 => (lt_asymm h1 h2).elim) b List.pairwise_lt_range

/-- Both algorithms are reached: 2 of 10 by splitting, 3 of 4 by scanning. -/
example : (kOfN 2 10 (fun i => if i % 2 = 0 then 1 / 3 else 3 / 4) 0).1 = [1, 8] ∧
    2 ^ 2 < 2 ^ (10 / 2) := by
  refine ⟨by decide +kernel, by norm_num⟩

example : (kOfN 3 4 (fun _ => 1 / 2) 0).1 = [0, 1, 3] ∧ ¬ 3 ^ 3 < 2 ^ (4 / 2) := by
  refine ⟨by decide +kernel, by norm_num⟩

end EdgeEval.Props
