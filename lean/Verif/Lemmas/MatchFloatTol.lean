import Verif.Lemmas.MatchFloat

/-! # The rounded tolerance and outlier cost -/

namespace EdgeEval

open Props (diagonal euclid)

variable {fl sq : ℚ → ℚ}

/-- `y` comes from `x` by `k` relative errors of at most `2^-53`. -/
def Nr (k : Nat) (x y : ℝ) : Prop := x * (1 - 1 / 2 ^ 53) ^ k ≤ y ∧ y ≤ x * (1 + 1 / 2 ^ 53) ^ k

theorem Nr.of_err {x y : ℝ} (h : |y - x| ≤ 1 / 2 ^ 53 * x) : Nr 1 x y := by
  obtain ⟨h1, h2⟩ := abs_le.mp h
  constructor <;> rw [pow_one] <;> linarith

theorem Nr.refl (x : ℝ) : Nr 0 x x := by simp [Nr]

theorem Nr.trans {j k : Nat} {x y z : ℝ} (h1 : Nr j x y) (h2 : Nr k y z) : Nr (j + k) x z := by
  have a : (0 : ℝ) ≤ (1 - 1 / 2 ^ 53) ^ k := by apply pow_nonneg; norm_num
  have b : (0 : ℝ) ≤ (1 + 1 / 2 ^ 53) ^ k := by positivity
  constructor
  · calc x * (1 - 1 / 2 ^ 53) ^ (j + k) = (x * (1 - 1 / 2 ^ 53) ^ j) * (1 - 1 / 2 ^ 53) ^ k := by rw [pow_add]; ring
      _ ≤ y * (1 - 1 / 2 ^ 53) ^ k := mul_le_mul_of_nonneg_right h1.1 a
      _ ≤ z := h2.1
  · calc z ≤ y * (1 + 1 / 2 ^ 53) ^ k := h2.2
      _ ≤ (x * (1 + 1 / 2 ^ 53) ^ j) * (1 + 1 / 2 ^ 53) ^ k := mul_le_mul_of_nonneg_right h1.2 b
      _ = x * (1 + 1 / 2 ^ 53) ^ (j + k) := by rw [pow_add]; ring

theorem Nr.mul {j k : Nat} {x y x' y' : ℝ} (h : Nr j x y) (h' : Nr k x' y') (hx : 0 ≤ x) (hx' : 0 ≤ x') :
    Nr (j + k) (x * x') (y * y') := by
  have a : (0 : ℝ) ≤ 1 - 1 / 2 ^ 53 := by norm_num
  have b : (0 : ℝ) ≤ 1 + 1 / 2 ^ 53 := by norm_num
  have y0 : 0 ≤ y := le_trans (mul_nonneg hx (pow_nonneg a j)) h.1
  constructor
  · calc x * x' * (1 - 1 / 2 ^ 53) ^ (j + k) = (x * (1 - 1 / 2 ^ 53) ^ j) * (x' * (1 - 1 / 2 ^ 53) ^ k) := by rw [pow_add]; ring
      _ ≤ y * y' := mul_le_mul h.1 h'.1 (mul_nonneg hx' (pow_nonneg a k)) y0
  · calc y * y' ≤ (x * (1 + 1 / 2 ^ 53) ^ j) * (x' * (1 + 1 / 2 ^ 53) ^ k) :=
        mul_le_mul h.2 h'.2 (le_trans (mul_nonneg hx' (pow_nonneg a k)) h'.1) (mul_nonneg hx (pow_nonneg b j))
      _ = _ := by rw [pow_add]; ring

theorem Nr.pos {k : Nat} {x y : ℝ} (h : Nr k x y) (hx : 0 < x) : 0 < y :=
  lt_of_lt_of_le (mul_pos hx (pow_pos (by norm_num) k)) h.1

/-- Rounding a number that is not tiny. -/
theorem RoundsNearest.nr (H : RoundsNearest fl) {x : ℚ} (hx : (2 : ℚ) ^ (-1022 : ℤ) ≤ x) : Nr 1 (x : ℝ) (fl x : ℝ) := by
  have h0 : 0 ≤ x := le_trans (by positivity) hx
  have := H.real_err (x := x) (by rwa [abs_of_nonneg h0])
  rw [abs_of_nonneg (show (0 : ℝ) ≤ (x : ℝ) by exact_mod_cast h0)] at this
  exact .of_err this

/-- The tolerance `max_dist * diagonal` in pixels, exactly. -/
noncomputable def exactTol (rows cols : Nat) (maxDist : ℚ) : ℝ := maxDist * diagonal rows cols

section
variable {rows cols : Nat} {a o : ℚ}

theorem diagonal_ge_one (hne : 0 < rows ∨ 0 < cols) : 1 ≤ diagonal rows cols := by
  unfold diagonal
  rw [Real.one_le_sqrt]
  have : 1 ≤ rows ^ 2 + cols ^ 2 := by
    rcases hne with h | h
    · have := Nat.one_le_pow 2 _ h; omega
    · have := Nat.one_le_pow 2 _ h; omega
  exact_mod_cast this

theorem idiag_nr (S : SqrtNearest sq) : Nr 1 (diagonal rows cols) (idiagF sq rows cols : ℝ) := by
  have := S.rel_err_nat (rows * rows + cols * cols)
  have e : √((rows * rows + cols * cols : Nat) : ℝ) = diagonal rows cols := by
    unfold diagonal; push_cast; congr 1; ring
  rw [e] at this
  exact .of_err this

theorem tiny_le_of_half {x : ℚ} {k : Nat} (hk : k ≤ 1022) (h : (1 / 2 : ℚ) ^ k ≤ x) : (2 : ℚ) ^ (-1022 : ℤ) ≤ x := by
  refine le_trans ?_ h
  rw [one_div, inv_pow, ← zpow_natCast, ← zpow_neg]
  exact zpow_le_zpow_right₀ (by norm_num) (by omega)

theorem tolF_nr (H : RoundsNearest fl) (S : SqrtNearest sq) (hne : 0 < rows ∨ 0 < cols) (ha : (1 / 2 : ℚ) ^ 400 ≤ a) :
    Nr 2 (exactTol rows cols a) (tolF fl sq rows cols a : ℝ) ∧ (1 / 2 : ℚ) ^ 402 ≤ tolF fl sq rows cols a := by
  have hD := diagonal_ge_one hne
  have hi := idiag_nr (rows := rows) (cols := cols) S
  have ha0 : (0 : ℝ) < a := by
    have : (0 : ℚ) < a := lt_of_lt_of_le (by positivity) ha
    exact_mod_cast this
  have hi2 : (1 / 2 : ℝ) ≤ idiagF sq rows cols := by
    refine le_trans ?_ hi.1
    rw [pow_one]
    have : (1 : ℝ) * (1 - 1 / 2 ^ 53) ≤ diagonal rows cols * (1 - 1 / 2 ^ 53) := by
      apply mul_le_mul_of_nonneg_right hD; norm_num
    refine le_trans ?_ this
    norm_num
  have hi2' : (1 / 2 : ℚ) ≤ idiagF sq rows cols := by
    have : ((1 / 2 : ℚ) : ℝ) ≤ (idiagF sq rows cols : ℝ) := by push_cast; exact hi2
    exact_mod_cast this
  have hprod : (1 / 2 : ℚ) ^ 401 ≤ a * idiagF sq rows cols := by
    rw [pow_succ]
    exact mul_le_mul ha hi2' (by norm_num) (le_trans (by positivity) ha)
  have h1 := H.nr (tiny_le_of_half (k := 401) (by norm_num) hprod)
  have h2 : Nr 1 ((a : ℝ) * diagonal rows cols) ((a : ℝ) * idiagF sq rows cols) := by
    have := (Nr.refl (a : ℝ)).mul hi ha0.le (by linarith)
    simpa using this
  push_cast at h1
  refine ⟨h2.trans h1, ?_⟩
  have h3 : (1 / 2 : ℝ) ^ 402 ≤ (tolF fl sq rows cols a : ℝ) := by
    have h4 : (1 / 2 : ℝ) ^ 401 ≤ (a : ℝ) * idiagF sq rows cols := by
      have : (((1 / 2 : ℚ) ^ 401 : ℚ) : ℝ) ≤ ((a * idiagF sq rows cols : ℚ) : ℝ) := by exact_mod_cast hprod
      push_cast at this
      exact this
    refine le_trans ?_ h1.1
    rw [pow_succ, pow_one]
    exact mul_le_mul h4 (by norm_num) (by norm_num) (le_trans (by positivity) h4)
  have : (((1 / 2 : ℚ) ^ 402 : ℚ) : ℝ) ≤ (tolF fl sq rows cols a : ℝ) := by push_cast; exact h3
  exact_mod_cast this

theorem limF_nr (H : RoundsNearest fl) (S : SqrtNearest sq) (hne : 0 < rows ∨ 0 < cols) (ha : (1 / 2 : ℚ) ^ 400 ≤ a) :
    Nr 5 (exactTol rows cols a ^ 2) (fl (tolF fl sq rows cols a * tolF fl sq rows cols a) : ℝ) := by
  obtain ⟨h1, h2⟩ := tolF_nr (fl := fl) (sq := sq) H S hne ha
  have hD := diagonal_ge_one hne
  have ha0 : (0 : ℝ) < a := by
    have : (0 : ℚ) < a := lt_of_lt_of_le (by positivity) ha
    exact_mod_cast this
  have ht : 0 ≤ exactTol rows cols a := mul_nonneg ha0.le (by linarith)
  have h3 := H.nr (x := tolF fl sq rows cols a * tolF fl sq rows cols a) (tiny_le_of_half (k := 804) (by norm_num) (by
    have : (1 / 2 : ℚ) ^ 804 = (1 / 2) ^ 402 * (1 / 2) ^ 402 := by rw [← pow_add]
    rw [this]
    exact mul_le_mul h2 h2 (by positivity) (le_trans (by positivity) h2)))
  push_cast at h3
  have h4 := (h1.mul h1 ht ht).trans h3
  rw [pow_two (exactTol rows cols a)]
  exact h4

theorem ocF_nr (H : RoundsNearest fl) (S : SqrtNearest sq) (hne : 0 < rows ∨ 0 < cols) (ha : (1 / 2 : ℚ) ^ 400 ≤ a)
    (ho : 1 ≤ o) : Nr 3 (o * exactTol rows cols a) (ocF fl sq rows cols a o : ℝ) ∧
      Nr 4 (o * exactTol rows cols a * 100) (fl (ocF fl sq rows cols a o * (multiplier : Nat)) : ℝ) := by
  have hD := diagonal_ge_one hne
  have hi := idiag_nr (rows := rows) (cols := cols) S
  have haq : (0 : ℚ) < a := lt_of_lt_of_le (by positivity) ha
  have ha0 : (0 : ℝ) < a := by exact_mod_cast haq
  have ho1 : (1 : ℝ) ≤ o := by exact_mod_cast ho
  have hoa : (1 / 2 : ℚ) ^ 400 ≤ o * a := ha.trans (le_mul_of_one_le_left haq.le ho)
  have h1 := H.nr (tiny_le_of_half (k := 400) (by norm_num) hoa)
  push_cast at h1
  have hlow : ∀ {x : ℚ} {k j : Nat} {t : ℝ}, Nr j t (x : ℝ) → j ≤ 4 → (1 / 2 : ℝ) ^ k ≤ t → (1 / 2 : ℚ) ^ (k + 1) ≤ x := by
    intro x k j t hn hj ht
    have h5 : (1 / 2 : ℝ) ^ (k + 1) ≤ x := by
      refine le_trans ?_ hn.1
      rw [pow_succ]
      refine mul_le_mul ht ?_ (by norm_num) (le_trans (by positivity) ht)
      have : (1 - 1 / 2 ^ 53 : ℝ) ^ 4 ≤ (1 - 1 / 2 ^ 53) ^ j := pow_le_pow_of_le_one (by norm_num) (by norm_num) hj
      refine le_trans (by norm_num) this
    have : (((1 / 2 : ℚ) ^ (k + 1) : ℚ) : ℝ) ≤ (x : ℝ) := by push_cast; exact h5
    exact_mod_cast this
  have hoaR : (1 / 2 : ℝ) ^ 400 ≤ (o : ℝ) * a := by
    have : (((1 / 2 : ℚ) ^ 400 : ℚ) : ℝ) ≤ ((o * a : ℚ) : ℝ) := by exact_mod_cast hoa
    push_cast at this
    exact this
  have hoa0 : (0 : ℝ) < o * a := lt_of_lt_of_le (by positivity) hoaR
  have hoaD : (1 / 2 : ℝ) ^ 400 ≤ (o : ℝ) * a * diagonal rows cols := hoaR.trans (le_mul_of_one_le_right hoa0.le hD)
  have h2 := h1.mul hi hoa0.le (by linarith)
  have h2' : Nr 2 ((o : ℝ) * a * diagonal rows cols) ((fl (o * a) * idiagF sq rows cols : ℚ) : ℝ) := by
    push_cast; exact h2
  have h3 := H.nr (x := fl (o * a) * idiagF sq rows cols)
    (tiny_le_of_half (k := 401) (by norm_num) (hlow h2' (by norm_num) hoaD))
  have h4 := h2'.trans h3
  have e : (o : ℝ) * exactTol rows cols a = o * a * diagonal rows cols := by unfold exactTol; ring
  rw [e]
  refine ⟨h4, ?_⟩
  have h5 : Nr 3 ((o : ℝ) * a * diagonal rows cols * 100) ((ocF fl sq rows cols a o * (multiplier : Nat) : ℚ) : ℝ) := by
    have := h4.mul (Nr.refl (100 : ℝ)) (by positivity) (by norm_num)
    simp only [multiplier]
    push_cast
    exact this
  have h6 := H.nr (x := ocF fl sq rows cols a o * (multiplier : Nat)) (tiny_le_of_half (k := 401) (by norm_num)
    (hlow h5 (by norm_num) (by linarith [mul_nonneg hoa0.le (show 0 ≤ diagonal rows cols by linarith)])))
  exact h5.trans h6

/-- The outlier weight in hundredths of a pixel, and the tolerance it exceeds. -/
theorem goodTol (H : RoundsNearest fl) (S : SqrtNearest sq) (hne : 0 < rows ∨ 0 < cols) (ha : (1 / 2 : ℚ) ^ 400 ≤ a)
    (ho : 1 + 1 / 2 ^ 49 ≤ o) : GoodTol fl sq (tolF fl sq rows cols a) (ocF fl sq rows cols a o) := by
  have hD := diagonal_ge_one hne
  have haq : (0 : ℚ) < a := lt_of_lt_of_le (by positivity) ha
  have ha0 : (0 : ℝ) < a := by exact_mod_cast haq
  have ho1 : 1 ≤ o := le_trans (by norm_num) ho
  have ht : 0 < exactTol rows cols a := mul_pos ha0 (by linarith)
  have hoR : (1 : ℝ) + 1 / 2 ^ 49 ≤ o := by
    have : ((1 + 1 / 2 ^ 49 : ℚ) : ℝ) ≤ (o : ℝ) := by exact_mod_cast ho
    push_cast at this
    exact this
  obtain ⟨m1, m2⟩ := tolF_nr (fl := fl) (sq := sq) H S hne ha
  have hl := limF_nr (fl := fl) (sq := sq) H S hne ha
  obtain ⟨o1, o2⟩ := ocF_nr (fl := fl) (sq := sq) H S hne ha ho1
  have m0 : 0 ≤ tolF fl sq rows cols a := le_trans (by positivity) m2
  generalize exactTol rows cols a = t at *
  generalize hmd : tolF fl sq rows cols a = md at *
  generalize hoc : ocF fl sq rows cols a o = oc at *
  have hot : t * (1 + 1 / 2 ^ 49) ≤ o * t := by rw [mul_comm]; exact mul_le_mul_of_nonneg_right hoR ht.le
  -- the outlier cost from below
  have hocl : t * ((1 + 1 / 2 ^ 49) * (1 - 1 / 2 ^ 53) ^ 3) ≤ (oc : ℝ) := by
    refine le_trans ?_ o1.1
    rw [← mul_assoc]
    exact mul_le_mul_of_nonneg_right hot (pow_nonneg (by norm_num) _)
  have howl : t * ((1 + 1 / 2 ^ 49) * (1 - 1 / 2 ^ 53) ^ 4) ≤ (outlierWeightF fl oc : ℝ) / 100 := by
    have h1 : (fl (oc * (multiplier : Nat)) : ℝ) ≤ (outlierWeightF fl oc : ℝ) := by
      have h2 : fl (oc * (multiplier : Nat)) ≤ (outlierWeightF fl oc : ℚ) := by
        unfold outlierWeightF
        refine (Int.le_ceil _).trans ?_
        have := Int.self_le_toNat ⌈fl (oc * (multiplier : Nat))⌉
        exact_mod_cast this
      exact_mod_cast h2
    have h3 := o2.1.trans h1
    have h4 : t * ((1 + 1 / 2 ^ 49) * (1 - 1 / 2 ^ 53) ^ 4) ≤ (o : ℝ) * t * (1 - 1 / 2 ^ 53) ^ 4 := by
      rw [← mul_assoc]
      exact mul_le_mul_of_nonneg_right hot (pow_nonneg (by norm_num) _)
    rw [le_div_iff₀ (by norm_num)]
    linarith
  refine ⟨m0, ?_, ?_, ?_⟩
  · have : (md : ℝ) < oc := by
      refine lt_of_le_of_lt m1.2 (lt_of_lt_of_le ?_ hocl)
      apply mul_lt_mul_of_pos_left _ ht
      norm_num
    exact_mod_cast this
  · have h1 : (fl (md * md) : ℝ) < ((outlierWeightF fl oc : ℝ) / 100) ^ 2 := by
      refine lt_of_le_of_lt hl.2 ?_
      have h2 : (t * ((1 + 1 / 2 ^ 49) * (1 - 1 / 2 ^ 53) ^ 4)) ^ 2 ≤ ((outlierWeightF fl oc : ℝ) / 100) ^ 2 := by
        apply pow_le_pow_left₀ _ howl
        exact mul_nonneg ht.le (by norm_num)
      refine lt_of_lt_of_le ?_ h2
      rw [mul_pow]
      apply mul_lt_mul_of_pos_left _ (by positivity)
      norm_num
    have : (fl (md * md) : ℝ) < ((((outlierWeightF fl oc : ℚ) / 100) ^ 2 : ℚ) : ℝ) := by push_cast; exact h1
    exact_mod_cast this
  · intro d2 hd
    have h1 := (Nr.of_err (S.rel_err_nat d2)).2
    have h2 : (d2 : ℝ) ≤ t ^ 2 * (1 + 1 / 2 ^ 53) ^ 5 := by
      have : (((d2 : ℚ)) : ℝ) ≤ (fl (md * md) : ℝ) := by exact_mod_cast hd
      rw [Rat.cast_natCast] at this
      exact this.trans hl.2
    have h3 : √(d2 : ℝ) ≤ t * (1 + 1 / 2 ^ 53) ^ 3 := by
      apply Real.sqrt_le_iff.mpr
      refine ⟨by positivity, h2.trans ?_⟩
      rw [mul_pow]
      apply mul_le_mul_of_nonneg_left _ (by positivity)
      norm_num
    have h4 : (sq (d2 : ℚ) : ℝ) < oc := by
      refine lt_of_le_of_lt h1 (lt_of_le_of_lt (mul_le_mul_of_nonneg_right h3 (by norm_num)) (lt_of_lt_of_le ?_ hocl))
      rw [mul_assoc]
      apply mul_lt_mul_of_pos_left _ ht
      norm_num
    exact_mod_cast h4

end

end EdgeEval
