import Mathlib.Algebra.Order.Field.Rat
import Mathlib.Algebra.Order.Field.Basic
import Mathlib.Tactic.Positivity
import Mathlib.Data.List.Nodup
import Mathlib.Tactic.NormNum
import Verif.Model.ColorMap

namespace EdgeEval.Props

open ColorMap

set_option linter.unusedSimpArgs false

theorem bitget_eq (v idx : Nat) : bitget v idx = v.testBit idx := by
  unfold bitget
  rw [Nat.one_shiftLeft, Nat.and_two_pow]
  cases v.testBit idx <;> simp

theorem testBit_toNat_shiftLeft (b : Bool) (m k : Nat) : (b.toNat <<< m).testBit k = (decide (k = m) && b) := by
  rw [Nat.testBit_shiftLeft]
  cases b with
  | false => simp
  | true =>
    rcases Nat.lt_trichotomy k m with h | h | h
    · simp [h, Nat.ne_of_lt h]
    · simp [h]
    · have : k - m ≠ 0 := by omega
      have h2 : k ≠ m := by omega
      have h3 : Nat.testBit 1 (k - m) = false := by
        rw [Bool.eq_false_iff]
        intro h4
        exact this (Nat.testBit_one_eq_true_iff_self_eq_zero.1 h4)
      simp [h2, h3]

/-- Invariant of the inner loop. -/
theorem loop_inv (i n : Nat) (hn : n ≤ 8) :
    let s := (List.range n).foldl step ⟨0, 0, 0, i⟩
    s.c = i >>> (3 * n) ∧
      ∀ k, s.r.testBit k = (decide (k ≤ 7 ∧ 7 - k < n) && i.testBit (3 * (7 - k))) ∧
           s.g.testBit k = (decide (k ≤ 7 ∧ 7 - k < n) && i.testBit (3 * (7 - k) + 1)) ∧
           s.b.testBit k = (decide (k ≤ 7 ∧ 7 - k < n) && i.testBit (3 * (7 - k) + 2)) := by
  induction n with
  | zero => simp
  | succ n ih =>
    obtain ⟨hc, hb⟩ := ih (by omega)
    rw [List.range_succ, List.foldl_append]
    generalize (List.range n).foldl step ⟨0, 0, 0, i⟩ = s at hc hb
    simp only [List.foldl_cons, List.foldl_nil]
    refine ⟨?_, fun k => ?_⟩
    · show s.c >>> 3 = _
      rw [hc, ← Nat.shiftRight_add]; congr 1
    · obtain ⟨h1, h2, h3⟩ := hb k
      have hbit : ∀ t, bitget s.c t = i.testBit (3 * n + t) := by
        intro t; rw [bitget_eq, hc, Nat.testBit_shiftRight]
      simp only [step, Nat.testBit_or, testBit_toNat_shiftLeft, hbit, h1, h2, h3]
      by_cases hk : k = 7 - n
      · have e1 : ¬ (k ≤ 7 ∧ 7 - k < n) := by omega
        have e2 : k ≤ 7 ∧ 7 - k < n + 1 := by omega
        have e3 : 7 - k = n := by omega
        simp [e1, e2, hk, e3]
        have : 7 - (7 - n) = n := by omega
        simp [this]
      · have e : (k ≤ 7 ∧ 7 - k < n) ↔ (k ≤ 7 ∧ 7 - k < n + 1) := by omega
        simp [e, hk]

theorem color_testBit (i k : Nat) :
    (color i).1.testBit k = (decide (k ≤ 7) && i.testBit (3 * (7 - k))) ∧
    (color i).2.1.testBit k = (decide (k ≤ 7) && i.testBit (3 * (7 - k) + 1)) ∧
    (color i).2.2.testBit k = (decide (k ≤ 7) && i.testBit (3 * (7 - k) + 2)) := by
  obtain ⟨-, h⟩ := loop_inv i 8 (by omega)
  obtain ⟨h1, h2, h3⟩ := h k
  have e : (256 : Nat) = 2 ^ 8 := by norm_num
  simp only [color, loop, e, Nat.testBit_mod_two_pow, h1, h2, h3]
  by_cases hk : k ≤ 7
  · have a : k < 8 := by omega
    have b : 7 - k < 8 := by omega
    simp [hk, a, b]
  · have a : ¬ k < 8 := by omega
    simp [hk, a]

/-- Each colour bit is a bit of the label: bit `7 - j` of channel `t` (red 0, green 1, blue 2) is bit `3 j + t`
of the label, and channels are bytes. -/
theorem C39_bits (i j : Nat) (hj : j < 8) :
    (color i).1.testBit (7 - j) = i.testBit (3 * j) ∧
    (color i).2.1.testBit (7 - j) = i.testBit (3 * j + 1) ∧
    (color i).2.2.testBit (7 - j) = i.testBit (3 * j + 2) ∧
    (color i).1 ≤ 255 ∧ (color i).2.1 ≤ 255 ∧ (color i).2.2 ≤ 255 := by
  obtain ⟨h1, h2, h3⟩ := color_testBit i (7 - j)
  have e : 7 - (7 - j) = j := by omega
  rw [e] at h1 h2 h3
  refine ⟨by simpa using h1, by simpa using h2, by simpa using h3, ?_, ?_, ?_⟩ <;>
    · simp only [color]; omega

/-- Two labels get the same colour exactly when they agree modulo `2 ^ 24`. -/
theorem C39_same_color_iff (i i' : Nat) : color i = color i' ↔ i % 2 ^ 24 = i' % 2 ^ 24 := by
  constructor
  · intro h
    apply Nat.eq_of_testBit_eq
    intro m
    rw [Nat.testBit_mod_two_pow, Nat.testBit_mod_two_pow]
    by_cases hm : m < 24
    · have hj : m / 3 < 8 := by omega
      obtain ⟨a1, a2, a3, -⟩ := C39_bits i (m / 3) hj
      obtain ⟨b1, b2, b3, -⟩ := C39_bits i' (m / 3) hj
      have hmod : m = 3 * (m / 3) + m % 3 := by omega
      have h3 : m % 3 = 0 ∨ m % 3 = 1 ∨ m % 3 = 2 := by omega
      have key : i.testBit m = i'.testBit m := by
        rcases h3 with h3 | h3 | h3 <;> rw [hmod, h3]
        · rw [Nat.add_zero, ← a1, ← b1, h]
        · rw [← a2, ← b2, h]
        · rw [← a3, ← b3, h]
      rw [key]
    · simp [hm]
  · intro h
    have hb : ∀ m, m < 24 → i.testBit m = i'.testBit m := by
      intro m hm
      have := congrArg (fun x => Nat.testBit x m) h
      simp only [Nat.testBit_mod_two_pow, hm] at this
      simpa using this
    have ext : ∀ (x y : Nat), (∀ k, x.testBit k = y.testBit k) → x = y := fun x y h => Nat.eq_of_testBit_eq h
    refine Prod.ext (ext _ _ fun k => ?_) (Prod.ext (ext _ _ fun k => ?_) (ext _ _ fun k => ?_))
    · rw [(color_testBit i k).1, (color_testBit i' k).1, hb _ (by omega)]
    · rw [(color_testBit i k).2.1, (color_testBit i' k).2.1, hb _ (by omega)]
    · rw [(color_testBit i k).2.2, (color_testBit i' k).2.2, hb _ (by omega)]

/-- The table of any size up to `2 ^ 24` has one entry per label, pairwise distinct, the first one black. -/
theorem C39_table (n : Nat) (hn : n ≤ 2 ^ 24) :
    (colorMap n).length = n ∧ (colorMap n).Nodup ∧ (0 < n → (colorMap n)[0]? = some (0, 0, 0)) ∧
    ∀ i, i < n → (colorMap n)[i]? = some (color i) := by
  have hget : ∀ i, i < n → (colorMap n)[i]? = some (color i) := by
    intro i hi
    simp [colorMap, List.getElem?_map, List.getElem?_range hi]
  refine ⟨by simp [colorMap], ?_, fun h0 => ?_, hget⟩
  · unfold colorMap
    refine List.Nodup.map_on ?_ List.nodup_range
    intro x hx y hy e
    rw [List.mem_range] at hx hy
    have := (C39_same_color_iff x y).1 e
    rwa [Nat.mod_eq_of_lt (by omega), Nat.mod_eq_of_lt (by omega)] at this
  · rw [hget 0 h0]; decide

example : (colorMap 256).Nodup := (C39_table 256 (by norm_num)).2.1
example : color 1 = (128, 0, 0) ∧ color 15 = (192, 128, 128) ∧ color 255 = (224, 224, 192) := by decide

/-- A larger table repeats colours. -/
theorem C39_repeats (n : Nat) (hn : 2 ^ 24 < n) : ¬ (colorMap n).Nodup := by
  intro h
  have h0 : (colorMap n)[0]? = some (color 0) := by
    simp [colorMap, List.getElem?_map, List.getElem?_range (show 0 < n by omega)]
  have h1 : (colorMap n)[2 ^ 24]? = some (color (2 ^ 24)) := by
    unfold colorMap
    rw [List.getElem?_map, List.getElem?_range hn]; rfl
  have e : color 0 = color (2 ^ 24) := (C39_same_color_iff _ _).2 (by norm_num)
  rw [← e, ← h0] at h1
  have hlen : (colorMap n).length = n := by simp [colorMap]
  have := (List.getElem?_inj (by omega) h).1 h1.symm
  omega

/-- The normalised table has the same colours divided by 255: components between 0 and 1, still distinct. -/
theorem C39_normalized (n : Nat) (hn : n ≤ 2 ^ 24) :
    (colorMapNorm n).Nodup ∧
    ∀ t ∈ colorMapNorm n, (0 ≤ t.1 ∧ t.1 ≤ 1) ∧ (0 ≤ t.2.1 ∧ t.2.1 ≤ 1) ∧ (0 ≤ t.2.2 ∧ t.2.2 ≤ 1) := by
  constructor
  · refine List.Nodup.map_on ?_ (C39_table n hn).2.1
    intro x _ y _ e
    have inj : ∀ a b : Nat, (a : ℚ) / 255 = (b : ℚ) / 255 → a = b := by
      intro a b h
      rw [div_left_inj' (by norm_num)] at h
      exact_mod_cast h
    obtain ⟨e1, e2⟩ := Prod.ext_iff.1 e
    obtain ⟨e2, e3⟩ := Prod.ext_iff.1 e2
    exact Prod.ext (inj _ _ e1) (Prod.ext (inj _ _ e2) (inj _ _ e3))
  · intro t ht
    obtain ⟨q, hq, rfl⟩ := List.mem_map.1 ht
    obtain ⟨i, _, rfl⟩ := List.mem_map.1 hq
    obtain ⟨-, -, -, h1, h2, h3⟩ := C39_bits i 0 (by norm_num)
    have key : ∀ a : Nat, a ≤ 255 → (0 : ℚ) ≤ (a : ℚ) / 255 ∧ (a : ℚ) / 255 ≤ 1 := by
      intro a ha
      constructor
      · positivity
      · rw [div_le_one (by norm_num)]; exact_mod_cast ha
    exact ⟨key _ h1, key _ h2, key _ h3⟩

end EdgeEval.Props
