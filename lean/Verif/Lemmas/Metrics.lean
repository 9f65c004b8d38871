import Verif.Spec.Metrics
import Mathlib.Algebra.BigOperators.Group.List.Basic
import Mathlib.Algebra.Order.BigOperators.Group.List

namespace EdgeEval

theorem recallDenom_ne (s : ℚ) : recallDenom s ≠ 0 := by
  unfold recallDenom; split <;> simp_all
theorem precisionDenom_ne (s : ℚ) : precisionDenom s ≠ 0 := by
  unfold precisionDenom; split <;> simp_all
theorem f1Denom_ne (p r : ℚ) : f1Denom p r ≠ 0 := by
  unfold f1Denom; split <;> simp_all

theorem recall_eq {c s : ℚ} (h : s ≠ 0) : recall c s = c / s := by simp [recall, recallDenom, h]
theorem recall_zero {c : ℚ} : recall c 0 = c := by simp [recall, recallDenom]
theorem precision_eq_recall (c s : ℚ) : precision c s = recall c s := rfl

theorem recall_nonneg {c s : ℚ} (h0 : 0 ≤ c) (h : c ≤ s) : 0 ≤ recall c s := by
  by_cases hs : s = 0
  · subst hs; rw [recall_zero]; exact h0
  · rw [recall_eq hs]; exact div_nonneg h0 (h0.trans h)

theorem recall_le_one {c s : ℚ} (h0 : 0 ≤ c) (h : c ≤ s) : recall c s ≤ 1 := by
  by_cases hs : s = 0
  · subst hs; rw [recall_zero]; linarith
  · rw [recall_eq hs]
    have : 0 < s := lt_of_le_of_ne (h0.trans h) (Ne.symm hs)
    rw [div_le_one this]; exact h

theorem f1_comm (p r : ℚ) : f1 p r = f1 r p := by
  simp only [f1, f1Denom, add_comm p r]; ring

theorem f1_eq {p r : ℚ} (h : p + r ≠ 0) : f1 p r = 2 * p * r / (p + r) := by
  simp [f1, f1Denom, h]

theorem f1_zero_left (r : ℚ) : f1 0 r = 0 := by simp [f1]
theorem f1_zero_right (p : ℚ) : f1 p 0 = 0 := by simp [f1]

theorem f1_nonneg {p r : ℚ} (hp : 0 ≤ p) (hr : 0 ≤ r) : 0 ≤ f1 p r := by
  by_cases h : p + r = 0
  · have : p = 0 := by linarith
    rw [this, f1_zero_left]
  · rw [f1_eq h]; positivity

theorem f1_harmonic {p r : ℚ} (hp : 0 ≤ p) (hr : 0 ≤ r) : f1 p r = Spec.harmonic r p := by
  unfold Spec.harmonic
  by_cases h1 : r = 0
  · simp [h1, f1_zero_right]
  by_cases h2 : p = 0
  · simp [h2, f1_zero_left]
  have hp' : 0 < p := lt_of_le_of_ne hp (Ne.symm h2)
  have hr' : 0 < r := lt_of_le_of_ne hr (Ne.symm h1)
  rw [if_neg (by simp [h1, h2]), f1_eq (by positivity)]
  field_simp

theorem f1_mono_left {p p' r : ℚ} (hp : 0 ≤ p) (hr : 0 ≤ r) (h : p ≤ p') : f1 p r ≤ f1 p' r := by
  rcases eq_or_lt_of_le hr with hr0 | hr0
  · rw [← hr0]; simp [f1_zero_right]
  rw [f1_eq (by linarith : p + r ≠ 0), f1_eq (by linarith : p' + r ≠ 0)]
  rw [div_le_div_iff₀ (by linarith) (by linarith)]
  nlinarith [mul_nonneg hr hr, mul_le_mul_of_nonneg_right h (mul_nonneg hr hr)]

theorem f1_le_max {p r : ℚ} (hp : 0 ≤ p) (hr : 0 ≤ r) : f1 p r ≤ max p r := by
  by_cases h : p + r = 0
  · have : p = 0 := by linarith
    subst this; rw [f1_zero_left]; exact le_max_of_le_right hr
  · have hpos : 0 < p + r := lt_of_le_of_ne (by linarith) (Ne.symm h)
    rw [f1_eq h, div_le_iff₀ hpos]
    rcases le_total p r with hh | hh
    · rw [max_eq_right hh]; nlinarith
    · rw [max_eq_left hh]; nlinarith

theorem min_le_f1 {p r : ℚ} (hp : 0 ≤ p) (hr : 0 ≤ r) : min p r ≤ f1 p r := by
  by_cases h : p + r = 0
  · have : p = 0 := by linarith
    subst this; rw [f1_zero_left]; exact min_le_left _ _
  · have hpos : 0 < p + r := lt_of_le_of_ne (by linarith) (Ne.symm h)
    rw [f1_eq h, le_div_iff₀ hpos]
    rcases le_total p r with hh | hh
    · rw [min_eq_left hh]; nlinarith
    · rw [min_eq_right hh]; nlinarith

/-! ### getItem -/

theorem getItem_ok {α : Type} {l : List α} {i : Nat} {x : α} :
    getItem l i = .ok x ↔ l[i]? = some x := by
  unfold getItem; split <;> simp_all

theorem getItem_lt {l : List ℚ} {i : Nat} (h : i < l.length) : getItem l i = .ok (l.getD i 0) := by
  rw [getItem_ok]; simp [h]

/-! ### ODS -/

/-- The point sampled between consecutive thresholds. -/
def odsPoint (t1 t0 r1 r0 p1 p0 d : ℚ) : Best :=
  ⟨t1 * d + t0 * (1 - d), r1 * d + r0 * (1 - d), p1 * d + p0 * (1 - d),
    f1 (p1 * d + p0 * (1 - d)) (r1 * d + r0 * (1 - d))⟩

theorem odsFold (t1 t0 r1 r0 p1 p0 : ℚ) (ds : List ℚ) (b : Best) :
    let b' := ds.foldl (odsStep t1 t0 r1 r0 p1 p0) b
    b.f1 ≤ b'.f1 ∧ (∀ d ∈ ds, (odsPoint t1 t0 r1 r0 p1 p0 d).f1 ≤ b'.f1) ∧
      (b' = b ∨ ∃ d ∈ ds, b' = odsPoint t1 t0 r1 r0 p1 p0 d) := by
  induction ds generalizing b with
  | nil => simp
  | cons d ds ih =>
    simp only [List.foldl_cons]
    obtain ⟨h1, h2, h3⟩ := ih (odsStep t1 t0 r1 r0 p1 p0 b d)
    have hs : b.f1 ≤ (odsStep t1 t0 r1 r0 p1 p0 b d).f1 ∧
        (odsPoint t1 t0 r1 r0 p1 p0 d).f1 ≤ (odsStep t1 t0 r1 r0 p1 p0 b d).f1 ∧
        (odsStep t1 t0 r1 r0 p1 p0 b d = b ∨
          odsStep t1 t0 r1 r0 p1 p0 b d = odsPoint t1 t0 r1 r0 p1 p0 d) := by
      simp only [odsStep, odsPoint]
      split
      · rename_i h; exact ⟨h.le, le_refl _, .inr rfl⟩
      · rename_i h; exact ⟨le_refl _, not_lt.mp h, .inl rfl⟩
    refine ⟨hs.1.trans h1, ?_, ?_⟩
    · intro e he
      rcases List.mem_cons.mp he with rfl | he
      · exact hs.2.1.trans h1
      · exact h2 e he
    · rcases h3 with h3 | ⟨e, he, h3⟩
      · rcases hs.2.2 with h | h
        · left; rw [h3, h]
        · right; exact ⟨d, by simp, by rw [h3, h]⟩
      · right; exact ⟨e, by simp [he], h3⟩

theorem mem_linspace101 {d : ℚ} : d ∈ linspace 0 1 101 ↔ ∃ k : Nat, k ≤ 100 ∧ d = (k : ℚ) / 100 := by
  simp only [linspace, List.mem_map, List.mem_range]
  constructor
  · rintro ⟨k, hk, rfl⟩
    refine ⟨k, by omega, ?_⟩
    norm_num; ring
  · rintro ⟨k, hk, rfl⟩
    refine ⟨k, by omega, ?_⟩
    norm_num; ring

/-- Loop invariant of `interpolated_max_scores` after the outer indices `1..m`. -/
structure OdsInv (th rcl prc : List ℚ) (m : Nat) (b : Best) : Prop where
  ge : ∀ i, 1 ≤ i → i ≤ m → ∀ k : Nat, k ≤ 100 →
    (odsPoint (th.getD i 0) (th.getD (i-1) 0) (rcl.getD i 0) (rcl.getD (i-1) 0) (prc.getD i 0)
      (prc.getD (i-1) 0) ((k : ℚ) / 100)).f1 ≤ b.f1
  ge0 : f1 (prc.getD 0 0) (rcl.getD 0 0) ≤ b.f1
  att : b = ⟨th.getD 0 0, rcl.getD 0 0, prc.getD 0 0, f1 (prc.getD 0 0) (rcl.getD 0 0)⟩ ∨
    ∃ i k : Nat, 1 ≤ i ∧ i ≤ m ∧ k ≤ 100 ∧
    b = odsPoint (th.getD i 0) (th.getD (i-1) 0) (rcl.getD i 0) (rcl.getD (i-1) 0) (prc.getD i 0)
      (prc.getD (i-1) 0) ((k : ℚ) / 100)

theorem odsLoop (th rcl prc : List ℚ) (hr : rcl.length = th.length) (hp : prc.length = th.length)
    (n m : Nat) (b : Best) (hm : m + n < th.length) (hb : OdsInv th rcl prc m b) :
    ∃ b', (List.range' (m+1) n).foldlM (odsOuter th rcl prc) b = .ok b' ∧
      OdsInv th rcl prc (m+n) b' := by
  induction n generalizing m b with
  | zero => exact ⟨b, rfl, hb⟩
  | succ n ih =>
    have e : odsOuter th rcl prc b (m+1) = .ok (odsInner (th.getD (m+1) 0) (th.getD m 0)
        (rcl.getD (m+1) 0) (rcl.getD m 0) (prc.getD (m+1) 0) (prc.getD m 0) b) := by
      simp only [odsOuter, Nat.add_sub_cancel]
      rw [getItem_lt (by omega), getItem_lt (by omega), getItem_lt (by omega),
        getItem_lt (by omega), getItem_lt (by omega), getItem_lt (by omega)]
      rfl
    rw [List.range'_succ, List.foldlM_cons, e]
    have := odsFold (th.getD (m+1) 0) (th.getD m 0)
        (rcl.getD (m+1) 0) (rcl.getD m 0) (prc.getD (m+1) 0) (prc.getD m 0) (linspace 0 1 101) b
    obtain ⟨h1, h2, h3⟩ := this
    have hinv : OdsInv th rcl prc (m+1) (odsInner (th.getD (m+1) 0) (th.getD m 0)
        (rcl.getD (m+1) 0) (rcl.getD m 0) (prc.getD (m+1) 0) (prc.getD m 0) b) := by
      refine ⟨?_, hb.ge0.trans h1, ?_⟩
      · intro i hi him k hk
        rcases Nat.lt_or_ge m i with h | h
        · have : i = m + 1 := by omega
          subst this
          exact h2 _ (mem_linspace101.mpr ⟨k, hk, rfl⟩)
        · exact (hb.ge i hi h k hk).trans h1
      · rcases h3 with h3 | ⟨d, hd, h3⟩
        · unfold odsInner; rw [h3]
          rcases hb.att with h | ⟨i, k, a, b, c, d⟩
          · exact .inl h
          · exact .inr ⟨i, k, a, by omega, c, d⟩
        · obtain ⟨k, hk, rfl⟩ := mem_linspace101.mp hd
          exact .inr ⟨m+1, k, by omega, le_refl _, hk, h3⟩
    obtain ⟨b', h4, h5⟩ := ih (m+1) _ (by omega) hinv
    refine ⟨b', h4, ?_⟩
    rw [show m + (n+1) = m + 1 + n by omega]; exact h5

theorem ods_main (th rcl prc : List ℚ) (hr : rcl.length = th.length) (hp : prc.length = th.length)
    (hn : 0 < th.length) :
    ∃ b, interpolatedMaxScores th rcl prc = .ok b ∧ OdsInv th rcl prc (th.length - 1) b := by
  have h0 : OdsInv th rcl prc 0 ⟨th.getD 0 0, rcl.getD 0 0, prc.getD 0 0,
      f1 (prc.getD 0 0) (rcl.getD 0 0)⟩ :=
    ⟨fun i h1 h2 => by omega, le_refl _, .inl rfl⟩
  obtain ⟨b, h1, h2⟩ := odsLoop th rcl prc hr hp (th.length - 1) 0 _ (by omega) h0
  refine ⟨b, ?_, by simpa using h2⟩
  unfold interpolatedMaxScores
  rw [getItem_lt (by omega), getItem_lt (by omega), getItem_lt (by omega)]
  exact h1

theorem odsPoint_one (t1 t0 r1 r0 p1 p0 : ℚ) :
    odsPoint t1 t0 r1 r0 p1 p0 1 = ⟨t1, r1, p1, f1 p1 r1⟩ := by
  simp [odsPoint]

end EdgeEval
