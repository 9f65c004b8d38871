import Verif.Lemmas.MatchFloatTol

/-! # The returned cost of the matcher in floating point -/

namespace EdgeEval

open Props

theorem Nr.mono {j k : Nat} {x y : ℝ} (h : Nr j x y) (hjk : j ≤ k) (hx : 0 ≤ x) : Nr k x y := by
  constructor
  · refine le_trans (mul_le_mul_of_nonneg_left ?_ hx) h.1
    exact pow_le_pow_of_le_one (by norm_num) (by norm_num) hjk
  · refine h.2.trans (mul_le_mul_of_nonneg_left ?_ hx)
    exact pow_le_pow_right₀ (by norm_num) hjk

theorem Nr.add {k : Nat} {x y x' y' : ℝ} (h : Nr k x y) (h' : Nr k x' y') : Nr k (x + x') (y + y') := by
  constructor
  · have := add_le_add h.1 h'.1
    rw [add_mul]; exact this
  · have := add_le_add h.2 h'.2
    rw [add_mul]; exact this

theorem isF64_half_pow {k : Nat} (hk : k ≤ 1074) : IsF64 ((1 / 2 : ℚ) ^ k) :=
  ⟨1, -k, by norm_num, by omega, by rw [one_div, inv_pow, zpow_neg, zpow_natCast]; simp⟩

section
variable {fl sq : ℚ → ℚ}

/-- Zero or not tiny. -/
def ZN (x : ℚ) : Prop := x = 0 ∨ (1 / 2 : ℚ) ^ 402 ≤ x

theorem ZN.nonneg {x : ℚ} (h : ZN x) : 0 ≤ x := by
  rcases h with rfl | h
  · exact le_refl _
  · exact le_trans (by positivity) h

theorem ZN.add {x y : ℚ} (hx : ZN x) (hy : ZN y) : ZN (x + y) := by
  have := hx.nonneg
  have h2 := hy.nonneg
  rcases hx with rfl | hx
  · rw [zero_add]; exact hy
  · right; linarith

theorem ZN.round (H : RoundsNearest fl) {x : ℚ} (hx : ZN x) : ZN (fl x) ∧ Nr 1 (x : ℝ) (fl x : ℝ) := by
  rcases hx with rfl | hx
  · rw [H.zero]
    exact ⟨.inl rfl, by simp [Nr]⟩
  · refine ⟨.inr ?_, H.nr (tiny_le_of_half (k := 402) (by norm_num) hx)⟩
    rw [← H.exact (isF64_half_pow (k := 402) (by norm_num))]
    exact H.mono hx

/-- The cost of one pixel. -/
noncomputable def costTerm (c : ℝ) (b : Bool) (p : Pix) (m : Option Pix) : ℝ :=
  if b = true then (match m with | none => c | some q => 0.5 * √(pixDist2 p q : ℝ)) else 0

theorem half_sqrt_nr (H : RoundsNearest fl) (S : SqrtNearest sq) (d : Nat) :
    ZN (fl (1 / 2 * sq (d : ℚ))) ∧ Nr 2 (0.5 * √(d : ℝ)) (fl (1 / 2 * sq (d : ℚ)) : ℝ) := by
  have h1 : Nr 1 (√(d : ℝ)) (sq (d : ℚ) : ℝ) := .of_err (S.rel_err_nat d)
  have h2 : Nr 1 (0.5 * √(d : ℝ)) ((1 / 2 * sq (d : ℚ) : ℚ) : ℝ) := by
    have := (Nr.refl (0.5 : ℝ)).mul h1 (by norm_num) (Real.sqrt_nonneg _)
    rw [zero_add] at this
    push_cast
    have e : (1 / 2 : ℝ) = 0.5 := by norm_num
    rw [e]
    exact this
  have hz : ZN (1 / 2 * sq (d : ℚ)) := by
    rcases Nat.eq_zero_or_pos d with rfl | hd
    · left
      rw [Nat.cast_zero, S.zero, mul_zero]
    · right
      have h3 : (1 : ℝ) ≤ √(d : ℝ) := by rw [Real.one_le_sqrt]; exact_mod_cast hd
      have h4 : (1 / 4 : ℝ) ≤ ((1 / 2 * sq (d : ℚ) : ℚ) : ℝ) := by
        refine le_trans ?_ h2.1
        have : (0.5 * √(d : ℝ)) * (1 - 1 / 2 ^ 53) ^ 1 ≥ (0.5 * 1) * (1 - 1 / 2 ^ 53) ^ 1 := by
          apply mul_le_mul_of_nonneg_right _ (by norm_num)
          linarith
        refine le_trans ?_ this
        norm_num
      have h5 : (1 / 4 : ℚ) ≤ 1 / 2 * sq (d : ℚ) := by
        have : ((1 / 4 : ℚ) : ℝ) ≤ ((1 / 2 * sq (d : ℚ) : ℚ) : ℝ) := by
          rw [Rat.cast_div, Rat.cast_one, Rat.cast_ofNat]; exact h4
        exact_mod_cast this
      refine le_trans ?_ h5
      have : (1 / 4 : ℚ) = (1 / 2) ^ 2 := by norm_num
      rw [this]
      exact pow_le_pow_of_le_one (by norm_num) (by norm_num) (by norm_num)
  exact ⟨(hz.round H).1, h2.trans (hz.round H).2⟩

theorem costStep_nr (H : RoundsNearest fl) (S : SqrtNearest sq) {oc : ℚ} (hoc : (1 / 2 : ℚ) ^ 402 ≤ oc) (b : Bool) (p : Pix)
    (m : Option Pix) {cost : ℚ} {s : ℝ} {k : Nat} (hs : 0 ≤ s) (h : Nr (k + 2) s (cost : ℝ)) (hz : ZN cost) :
    0 ≤ s + costTerm oc b p m ∧
    Nr (k + (if b then 1 else 0) + 2) (s + costTerm oc b p m) (costStep fl sq oc b p m cost : ℝ) ∧
    ZN (costStep fl sq oc b p m cost) := by
  have hocR : (0 : ℝ) ≤ oc := by
    have : (0 : ℚ) ≤ oc := le_trans (by positivity) hoc
    exact_mod_cast this
  unfold costTerm costStep
  cases b with
  | false => simpa using ⟨hs, h, hz⟩
  | true =>
    simp only [if_true]
    have key : ∀ (t : ℝ) (tf : ℚ), 0 ≤ t → ZN tf → Nr 2 t (tf : ℝ) →
        0 ≤ s + t ∧ Nr (k + 1 + 2) (s + t) (fl (cost + tf) : ℝ) ∧ ZN (fl (cost + tf)) := by
      intro t tf ht hzt hn
      have h1 : Nr (k + 2) (s + t) ((cost + tf : ℚ) : ℝ) := by
        push_cast
        exact h.add (hn.mono (by omega) ht)
      have h2 := (hz.add hzt).round H
      exact ⟨add_nonneg hs ht, h1.trans h2.2, h2.1⟩
    cases m with
    | none => exact key _ oc hocR (.inr hoc) ((Nr.refl _).mono (by omega) hocR)
    | some q =>
      have := half_sqrt_nr H S (pixDist2 p q)
      exact key _ _ (mul_nonneg (by norm_num) (Real.sqrt_nonneg _)) this.1 this.2

theorem costFold_nr (H : RoundsNearest fl) (S : SqrtNearest sq) {oc : ℚ} (hoc : (1 / 2 : ℚ) ^ 402 ≤ oc) (b1 b2 : BMap)
    (mt : Matches) (l : List Pix) : ∀ {cost : ℚ} {s : ℝ} {k : Nat}, 0 ≤ s → Nr (k + 2) s (cost : ℝ) → ZN cost →
    Nr (k + (l.filter fun p => b1 p.2 p.1).length + (l.filter fun p => b2 p.2 p.1).length + 2)
      (s + (l.map fun p => costTerm oc (b1 p.2 p.1) p (mt.m1 p) + costTerm oc (b2 p.2 p.1) p (mt.m2 p)).sum)
      ((l.foldl (fun cost p => costStep fl sq oc (b2 p.2 p.1) p (mt.m2 p)
        (costStep fl sq oc (b1 p.2 p.1) p (mt.m1 p) cost)) cost : ℚ) : ℝ) := by
  induction l with
  | nil => intro cost s k hs h hz; simpa using h
  | cons p l ih =>
    intro cost s k hs h hz
    obtain ⟨a1, a2, a3⟩ := costStep_nr H S hoc (b1 p.2 p.1) p (mt.m1 p) hs h hz
    obtain ⟨c1, c2, c3⟩ := costStep_nr H S hoc (b2 p.2 p.1) p (mt.m2 p) a1 a2 a3
    have := ih c1 c2 c3
    rw [List.foldl_cons, List.map_cons, List.sum_cons]
    have e1 : k + (if b1 p.2 p.1 = true then 1 else 0) + (if b2 p.2 p.1 = true then 1 else 0) +
        (l.filter fun p => b1 p.2 p.1).length + (l.filter fun p => b2 p.2 p.1).length + 2 =
        k + ((p :: l).filter fun p => b1 p.2 p.1).length + ((p :: l).filter fun p => b2 p.2 p.1).length + 2 := by
      simp only [List.filter_cons]
      cases b1 p.2 p.1 <;> cases b2 p.2 p.1 <;> simp <;> omega
    rw [e1] at this
    have e2 : s + (costTerm oc (b1 p.2 p.1) p (mt.m1 p) + costTerm oc (b2 p.2 p.1) p (mt.m2 p) +
        (l.map fun p => costTerm oc (b1 p.2 p.1) p (mt.m1 p) + costTerm oc (b2 p.2 p.1) p (mt.m2 p)).sum) =
        s + costTerm oc (b1 p.2 p.1) p (mt.m1 p) + costTerm oc (b2 p.2 p.1) p (mt.m2 p) +
        (l.map fun p => costTerm oc (b1 p.2 p.1) p (mt.m1 p) + costTerm oc (b2 p.2 p.1) p (mt.m2 p)).sum := by ring
    rw [e2]
    exact this

end

end EdgeEval
