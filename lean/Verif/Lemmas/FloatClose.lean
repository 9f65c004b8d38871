import Verif.Lemmas.AucFloat

/-!
# How far the floating-point scores are from the exact ones
-/

namespace EdgeEval.FloatM

open EdgeEval

variable {fl : ℚ → ℚ}

/-- Zero, or not so small that the products in `f1` could underflow. -/
def Ok (x : ℚ) : Prop := x = 0 ∨ 1 / 2 ^ 200 ≤ x

theorem two_pow_small : (2 : ℚ) ^ (-1022 : ℤ) ≤ 1 / 2 ^ 500 := by
  rw [show (1 : ℚ) / 2 ^ 500 = 2 ^ (-500 : ℤ) by rw [zpow_neg, one_div]; rfl]
  exact zpow_le_zpow_right₀ (by norm_num) (by norm_num)

theorem RoundsNearest.rel (H : RoundsNearest fl) {x : ℚ} (h : 1 / 2 ^ 500 ≤ x) :
    x - 1 / 2 ^ 53 * x ≤ fl x ∧ fl x ≤ x + 1 / 2 ^ 53 * x := by
  have hx : 0 < x := lt_of_lt_of_le (by positivity) h
  have := H.rel_err x (by rw [abs_of_pos hx]; exact two_pow_small.trans h)
  rw [abs_of_pos hx] at this
  obtain ⟨a, b⟩ := abs_le.mp this
  constructor <;> linarith

theorem recall_val (s c : ℚ) (h0 : 0 ≤ c) (h : c ≤ s) : EdgeEval.recall c s = if s = 0 then 0 else c / s := by
  unfold EdgeEval.recall recallDenom
  split
  · rename_i hs; subst hs
    have : c = 0 := le_antisymm h h0
    simp [this]
  · simp

theorem recall_round (H : RoundsNearest fl) {c s : ℚ} (h0 : 0 ≤ c) (h : c ≤ s) (hs : IsF64 s) :
    recall fl c s = fl (EdgeEval.recall c s) := by
  rw [recall_val s c h0 h]
  by_cases hz : s = 0
  · subst hz
    have : c = 0 := le_antisymm h h0
    rw [recall_zero H, if_pos rfl, this]
  · rw [recall_pos H hs hz, if_neg hz]

/-- F of two scores that are zero or not tiny. -/
theorem f1_err (H : RoundsNearest fl) {p r : ℚ} (hp : Ok p) (hr : Ok r) (hpf : IsF64 p) :
    |f1 fl p r - EdgeEval.f1 p r| ≤ 5 / 2 ^ 53 * EdgeEval.f1 p r := by
  have p0 : 0 ≤ p := by rcases hp with h | h; exact h.symm.le; exact le_trans (by positivity) h
  have r0 : 0 ≤ r := by rcases hr with h | h; exact h.symm.le; exact le_trans (by positivity) h
  have key : p = 0 ∨ r = 0 → |f1 fl p r - EdgeEval.f1 p r| ≤ 5 / 2 ^ 53 * EdgeEval.f1 p r := by
    intro h
    have e1 : EdgeEval.f1 p r = 0 := by
      unfold EdgeEval.f1; rcases h with h | h <;> simp [h]
    have e2 : f1 fl p r = 0 := by
      unfold f1
      have : fl (2 * p) * r = 0 := by rcases h with h | h <;> simp [h, H.zero]
      rw [this, H.zero, zero_div, H.zero]
    rw [e1, e2]; simp
  rcases hp with hp | hp
  · exact key (.inl hp)
  rcases hr with hr | hr
  · exact key (.inr hr)
  clear key
  have h200 : (0 : ℚ) < 1 / 2 ^ 200 := by positivity
  have pp : 0 < p := lt_of_lt_of_le h200 hp
  have rp : 0 < r := lt_of_lt_of_le h200 hr
  have hs5 : (1 : ℚ) / 2 ^ 500 ≤ 1 / 2 ^ 200 := by
    apply one_div_le_one_div_of_le (by positivity)
    exact pow_le_pow_right₀ (by norm_num) (by norm_num)
  have hpr : (1 : ℚ) / 2 ^ 400 ≤ p * r := by
    calc (1 : ℚ) / 2 ^ 400 = 1 / 2 ^ 200 * (1 / 2 ^ 200) := by rw [div_mul_div_comm, one_mul, ← pow_add]
      _ ≤ p * r := mul_le_mul hp hr h200.le pp.le
  have h400 : (1 : ℚ) / 2 ^ 500 ≤ 1 / 2 ^ 400 := by
    apply one_div_le_one_div_of_le (by positivity)
    exact pow_le_pow_right₀ (by norm_num) (by norm_num)
  obtain ⟨n1, n2⟩ := RoundsNearest.rel H (x := 2 * p * r) (h400.trans (hpr.trans (by nlinarith [mul_pos pp rp])))
  obtain ⟨d1, d2⟩ := RoundsNearest.rel H (x := p + r) (hs5.trans (hp.trans (by linarith)))
  have hF : EdgeEval.f1 p r = 2 * p * r / (p + r) := by
    unfold EdgeEval.f1 EdgeEval.f1Denom; rw [if_neg (by positivity)]; simp
  have hff : f1 fl p r = fl (fl (2 * p * r) / fl (p + r)) := by
    have hne : fl (p + r) ≠ 0 := by
      have hu : (1 : ℚ) / 2 ^ 53 < 1 := by norm_num
      have : 0 < p + r - 1 / 2 ^ 53 * (p + r) := by
        have : 1 / 2 ^ 53 * (p + r) < 1 * (p + r) := mul_lt_mul_of_pos_right hu (by positivity)
        linarith
      linarith
    unfold f1 f1Denom
    rw [H.exact (isF64_double hpf), if_neg hne, add_zero, H.exact (H.rep _)]
  set N := fl (2 * p * r) with hN
  set D := fl (p + r) with hD
  rw [hF, hff]
  set F := 2 * p * r / (p + r) with hFd
  have hFs : 2 * p * r = F * (p + r) := by rw [hFd]; field_simp
  have hFp : 0 < F := by rw [hFd]; positivity
  have hspos : 0 < p + r := by positivity
  rw [hFs] at n1 n2
  set S := p + r with hS
  -- F is at least half of the smaller score
  have hFge : 1 / 2 ^ 200 ≤ F := by
    rw [hFd, le_div_iff₀ hspos]
    nlinarith [mul_le_mul hp hr h200.le pp.le, mul_le_mul_of_nonneg_right hp rp.le, mul_le_mul_of_nonneg_right hr pp.le]
  generalize hu : (1 : ℚ) / 2 ^ 53 = u at *
  have hup : 0 < u := by rw [← hu]; norm_num
  have hu1 : u ≤ 1 / 1000 := by rw [← hu]; norm_num
  have h5 : (5 : ℚ) / 2 ^ 53 = 5 * u := by rw [← hu]; norm_num
  rw [h5]
  have hFS : 0 < F * S := by positivity
  have hDpos : 0 < D := by nlinarith
  have q1 : F * (1 - 3 * u) ≤ N / D := by
    rw [le_div_iff₀ hDpos]
    have : F * (1 - 3 * u) * D ≤ F * (1 - 3 * u) * (S + u * S) :=
      mul_le_mul_of_nonneg_left d2 (by apply mul_nonneg hFp.le; linarith)
    nlinarith [mul_pos hFS hup, mul_pos (mul_pos hFS hup) hup]
  have q2 : N / D ≤ F * (1 + 3 * u) := by
    rw [div_le_iff₀ hDpos]
    have : F * (1 + 3 * u) * (S - u * S) ≤ F * (1 + 3 * u) * D :=
      mul_le_mul_of_nonneg_left d1 (by positivity)
    have hsm : F * S * u * u ≤ F * S * u * (1 / 1000) := mul_le_mul_of_nonneg_left hu1 (by positivity)
    nlinarith [mul_pos hFS hup]
  have hQ : (1 : ℚ) / 2 ^ 500 ≤ N / D := by
    refine le_trans ?_ q1
    have : F * (1 / 2) ≤ F * (1 - 3 * u) := mul_le_mul_of_nonneg_left (by linarith) hFp.le
    have h201 : (1 : ℚ) / 2 ^ 500 ≤ 1 / 2 ^ 200 * (1 / 2) := by
      rw [show (1 : ℚ) / 2 ^ 200 * (1 / 2) = 1 / 2 ^ 201 by rw [pow_succ]; ring]
      apply one_div_le_one_div_of_le (by positivity)
      exact pow_le_pow_right₀ (by norm_num) (by norm_num)
    linarith
  obtain ⟨g1, g2⟩ := RoundsNearest.rel H hQ
  rw [hu] at g1 g2
  have hm : u * (N / D) ≤ u * (F * (1 + 3 * u)) := mul_le_mul_of_nonneg_left q2 hup.le
  have hsm : F * u * u ≤ F * u * (1 / 1000) := mul_le_mul_of_nonneg_left hu1 (by positivity)
  have hFu : 0 < F * u := mul_pos hFp hup
  rw [abs_le]
  constructor <;> nlinarith

theorem f1_half {p r p' : ℚ} (hp : 0 ≤ p) (hp' : 0 ≤ p') (hr : 0 ≤ r) :
    |EdgeEval.f1 p r - EdgeEval.f1 p' r| ≤ 2 * |p - p'| := by
  rcases eq_or_lt_of_le hr with h | h
  · subst h; simp [EdgeEval.f1]
  · have e : ∀ x, 0 ≤ x → EdgeEval.f1 x r = 2 * x * r / (x + r) := by
      intro x hx; unfold EdgeEval.f1 EdgeEval.f1Denom; rw [if_neg (by positivity)]; simp
    rw [e p hp, e p' hp']
    have h1 : 0 < p + r := by positivity
    have h2 : 0 < p' + r := by positivity
    have : 2 * p * r / (p + r) - 2 * p' * r / (p' + r) = 2 * (p - p') * (r * r / ((p + r) * (p' + r))) := by
      field_simp; ring
    rw [this, abs_mul, abs_mul]
    have hq : |r * r / ((p + r) * (p' + r))| ≤ 1 := by
      rw [abs_of_nonneg (by positivity), div_le_one (by positivity)]
      nlinarith [mul_nonneg hp hp', mul_nonneg hp hr, mul_nonneg hp' hr]
    calc |(2 : ℚ)| * |p - p'| * |r * r / ((p + r) * (p' + r))| ≤ |(2 : ℚ)| * |p - p'| * 1 :=
          mul_le_mul_of_nonneg_left hq (by positivity)
      _ = 2 * |p - p'| := by norm_num

theorem f1_lip {p r p' r' : ℚ} (hp : 0 ≤ p) (hp' : 0 ≤ p') (hr : 0 ≤ r) (hr' : 0 ≤ r') :
    |EdgeEval.f1 p r - EdgeEval.f1 p' r'| ≤ 2 * |p - p'| + 2 * |r - r'| := by
  have h1 := f1_half hp hp' hr
  have h2 := f1_half hr hr' hp'
  rw [EdgeEval.f1_comm r p', EdgeEval.f1_comm r' p'] at h2
  calc |EdgeEval.f1 p r - EdgeEval.f1 p' r'| =
        |(EdgeEval.f1 p r - EdgeEval.f1 p' r) + (EdgeEval.f1 p' r - EdgeEval.f1 p' r')| := by ring_nf
    _ ≤ _ := abs_add_le _ _
    _ ≤ _ := by linarith

/-- F computed from scores that are close to exact scores. -/
theorem f1_close (H : RoundsNearest fl) {p r p' r' e : ℚ} (hp : Ok p) (hr : Ok r) (hpf : IsF64 p) (hp1 : p ≤ 1)
    (hr1 : r ≤ 1) (hp' : 0 ≤ p') (hr' : 0 ≤ r') (h1 : |p - p'| ≤ e) (h2 : |r - r'| ≤ e) :
    |f1 fl p r - EdgeEval.f1 p' r'| ≤ 5 / 2 ^ 53 + 4 * e := by
  have p0 : 0 ≤ p := by rcases hp with h | h; exact h.symm.le; exact le_trans (by positivity) h
  have r0 : 0 ≤ r := by rcases hr with h | h; exact h.symm.le; exact le_trans (by positivity) h
  have a := f1_err H hp hr hpf
  have b := f1_lip p0 hp' r0 hr'
  have c := EdgeEval.f1_le_one ⟨p0, hp1⟩ ⟨r0, hr1⟩
  have d : (5 : ℚ) / 2 ^ 53 * EdgeEval.f1 p r ≤ 5 / 2 ^ 53 * 1 := mul_le_mul_of_nonneg_left c (by norm_num)
  calc |f1 fl p r - EdgeEval.f1 p' r'| =
        |(f1 fl p r - EdgeEval.f1 p r) + (EdgeEval.f1 p r - EdgeEval.f1 p' r')| := by ring_nf
    _ ≤ _ := abs_add_le _ _
    _ ≤ _ := by linarith

/-! ### Scores of whole numbers -/

theorem small_ok {x : ℚ} (h : 1 / 2 ^ 70 ≤ x) : Ok x := by
  refine .inr (le_trans ?_ h)
  apply one_div_le_one_div_of_le (by positivity)
  exact pow_le_pow_right₀ (by norm_num) (by norm_num)

/-- Zero or at least `2^-53`. -/
theorem recall_big (H : RoundsNearest fl) {a b : ℕ} (hab : a ≤ b) (hb : b ≤ 2 ^ 53) :
    recall fl a b = 0 ∧ a = 0 ∨ 1 / 2 ^ 53 ≤ recall fl a b ∧ 0 < a := by
  rcases Nat.eq_zero_or_pos a with h | h
  · left
    refine ⟨?_, h⟩
    subst h
    simp [recall, H.zero]
  · right
    have hb0 : (b : ℚ) ≠ 0 := by
      have : 0 < b := lt_of_lt_of_le h hab
      positivity
    refine ⟨?_, h⟩
    rw [recall_pos H (isF64_nat b hb) hb0]
    have hy : IsF64 (1 / 2 ^ 53) := ⟨1, -53, by norm_num, by norm_num, by norm_num⟩
    rw [← H.exact hy]
    apply H.mono
    rw [le_div_iff₀ (by have : 0 < b := lt_of_lt_of_le h hab; positivity)]
    have h1 : (1 : ℚ) ≤ a := by exact_mod_cast h
    have h2 : (b : ℚ) ≤ 2 ^ 53 := by exact_mod_cast hb
    have h3 : (1 : ℚ) / 2 ^ 53 * b ≤ 1 / 2 ^ 53 * 2 ^ 53 := mul_le_mul_of_nonneg_left h2 (by norm_num)
    have h4 : (1 : ℚ) / 2 ^ 53 * 2 ^ 53 = 1 := by norm_num
    linarith

theorem recall_ok (H : RoundsNearest fl) {a b : ℕ} (hab : a ≤ b) (hb : b ≤ 2 ^ 53) : Ok (recall fl a b) := by
  rcases recall_big H hab hb with h | h
  · exact .inl h.1
  · refine small_ok (le_trans ?_ h.1)
    apply one_div_le_one_div_of_le (by positivity)
    exact pow_le_pow_right₀ (by norm_num) (by norm_num)

theorem recall_close (H : RoundsNearest fl) {a b : ℕ} (hab : a ≤ b) (hb : b ≤ 2 ^ 53) :
    |recall fl a b - EdgeEval.recall a b| ≤ 1 / 2 ^ 54 := by
  have h0 : (0 : ℚ) ≤ a := by positivity
  have h1 : (a : ℚ) ≤ b := by exact_mod_cast hab
  rw [recall_round H h0 h1 (isF64_nat b hb)]
  exact H.err_unit (EdgeEval.recall_nonneg h0 h1) (EdgeEval.recall_le_one h0 h1)

/-! ### Interpolated points -/

/-- The grid point number `k`. -/
def gridPt (fl : ℚ → ℚ) (k : ℕ) : ℚ := if k = 100 then 1 else fl (k * fl (1 / 100))

theorem linspace_grid (H : RoundsNearest fl) : linspace fl 0 1 101 = (List.range 101).map (gridPt fl) := by
  unfold linspace
  apply List.map_congr_left
  intro k _
  have h1 : fl (fl (1 - 0) / (((101 : ℕ) : ℚ) - 1)) = fl (1 / 100) := by
    rw [sub_zero, H.one]; norm_num
  rw [if_neg (by norm_num), h1, add_zero, H.exact (H.rep _)]
  unfold gridPt
  by_cases h : k = 100
  · rw [if_pos (by omega), if_pos h]
  · rw [if_neg (by omega), if_neg h]

theorem gridPt_mem (H : RoundsNearest fl) {k : ℕ} (hk : k ≤ 100) : gridPt fl k ∈ linspace fl 0 1 101 := by
  rw [linspace_grid H]
  exact List.mem_map.mpr ⟨k, by simp; omega, rfl⟩

theorem mem_gridPt (H : RoundsNearest fl) {d : ℚ} (h : d ∈ linspace fl 0 1 101) : ∃ k, k ≤ 100 ∧ d = gridPt fl k := by
  rw [linspace_grid H] at h
  obtain ⟨k, hk, rfl⟩ := List.mem_map.mp h
  exact ⟨k, by simp at hk; omega, rfl⟩

theorem gridPt_err (H : RoundsNearest fl) {k : ℕ} (hk : k ≤ 100) :
    |gridPt fl k - (k : ℚ) / 100| ≤ 1 / 2 ^ 52 ∧ (gridPt fl k = 0 ∨ 1 / 2 ^ 8 ≤ gridPt fl k) := by
  unfold gridPt
  split
  · rename_i hk'
    have : (k : ℚ) = 100 := by exact_mod_cast hk'
    rw [this]
    exact ⟨by norm_num, .inr (by norm_num)⟩
  · rename_i hk'
    rw [hundredth H]
    have hk1 : (k : ℚ) ≤ 99 := by exact_mod_cast (show k ≤ 99 by omega)
    have hk0 : (0 : ℚ) ≤ k := by positivity
    have hle : (k : ℚ) * (5764607523034235 / 2 ^ 59) ≤ 99 * (5764607523034235 / 2 ^ 59) :=
      mul_le_mul_of_nonneg_right hk1 (by norm_num)
    have e := abs_le.mp (H.err_unit (x := (k : ℚ) * (5764607523034235 / 2 ^ 59)) (by positivity)
      (hle.trans (by norm_num)))
    refine ⟨?_, ?_⟩
    · have hc : (5764607523034235 / 2 ^ 59 : ℚ) = 1 / 100 + 3 / 25 / 2 ^ 59 := by norm_num
      have hk2 : (k : ℚ) * (3 / 25 / 2 ^ 59) ≤ 99 * (3 / 25 / 2 ^ 59) := mul_le_mul_of_nonneg_right hk1 (by norm_num)
      have hk3 : (0 : ℚ) ≤ k * (3 / 25 / 2 ^ 59) := by positivity
      have hnum : (99 : ℚ) * (3 / 25 / 2 ^ 59) ≤ 1 / 2 ^ 54 := by norm_num
      have h54 : (1 : ℚ) / 2 ^ 52 = 4 * (1 / 2 ^ 54) := by norm_num
      have hp : (0 : ℚ) < 1 / 2 ^ 54 := by norm_num
      rw [hc, mul_add] at e ⊢
      rw [h54, abs_le]
      constructor <;> linarith
    · rcases Nat.eq_zero_or_pos k with h | h
      · left; subst h; simp [H.zero]
      · right
        have hk4 : (1 : ℚ) ≤ k := by exact_mod_cast h
        have : (1 : ℚ) * (5764607523034235 / 2 ^ 59) ≤ k * (5764607523034235 / 2 ^ 59) :=
          mul_le_mul_of_nonneg_right hk4 (by norm_num)
        have hnum : (1 : ℚ) / 2 ^ 8 + 1 / 2 ^ 54 ≤ 1 * (5764607523034235 / 2 ^ 59) := by norm_num
        linarith

theorem mix_ok (H : RoundsNearest fl) {u v d : ℚ} (hu : u = 0 ∨ 1 / 2 ^ 53 ≤ u) (hv : v = 0 ∨ 1 / 2 ^ 53 ≤ v)
    (hd : d = 0 ∨ 1 / 2 ^ 8 ≤ d) (hd' : fl (1 - d) = 0 ∨ 1 / 2 ^ 8 ≤ fl (1 - d)) : Ok (mix fl u v d) := by
  have hprod : ∀ {x y : ℚ}, (x = 0 ∨ 1 / 2 ^ 53 ≤ x) → (y = 0 ∨ 1 / 2 ^ 8 ≤ y) → fl (x * y) = 0 ∨ 1 / 2 ^ 61 ≤ fl (x * y) := by
    intro x y hx hy
    rcases hx with hx | hx
    · left; rw [hx, zero_mul, H.zero]
    rcases hy with hy | hy
    · left; rw [hy, mul_zero, H.zero]
    right
    have hyy : IsF64 (1 / 2 ^ 61) := ⟨1, -61, by norm_num, by norm_num, by norm_num⟩
    rw [← H.exact hyy]
    apply H.mono
    calc (1 : ℚ) / 2 ^ 61 = 1 / 2 ^ 53 * (1 / 2 ^ 8) := by norm_num
      _ ≤ x * y := mul_le_mul hx hy (by norm_num) (le_trans (by norm_num) hx)
  have a := hprod hu hd
  have b := hprod hv hd'
  have hp : (0 : ℚ) < 1 / 2 ^ 61 := by norm_num
  have hsum : fl (u * d) + fl (v * fl (1 - d)) = 0 ∨ 1 / 2 ^ 61 ≤ fl (u * d) + fl (v * fl (1 - d)) := by
    rcases a with a | a <;> rcases b with b | b
    · left; rw [a, b, add_zero]
    · right; linarith
    · right; linarith
    · right; linarith
  unfold mix
  rcases hsum with h | h
  · left; rw [h, H.zero]
  · apply small_ok
    have hyy : IsF64 (1 / 2 ^ 61) := ⟨1, -61, by norm_num, by norm_num, by norm_num⟩
    have := H.mono h
    rw [H.exact hyy] at this
    exact le_trans (by norm_num) this

theorem one_minus_big (H : RoundsNearest fl) {d : ℚ} {k : ℕ} (hk : k ≤ 100) (h : |d - (k : ℚ) / 100| ≤ 1 / 2 ^ 52)
    (hd : k = 100 → d = 1) : fl (1 - d) = 0 ∨ 1 / 2 ^ 8 ≤ fl (1 - d) := by
  by_cases hk' : k = 100
  · left; rw [hd hk', sub_self, H.zero]
  · right
    have hk1 : (k : ℚ) ≤ 99 := by exact_mod_cast (show k ≤ 99 by omega)
    obtain ⟨a, b⟩ := abs_le.mp h
    have hyy : IsF64 (1 / 2 ^ 8) := ⟨1, -8, by norm_num, by norm_num, by norm_num⟩
    rw [← H.exact hyy]
    apply H.mono
    have : (1 : ℚ) / 2 ^ 8 + 1 / 2 ^ 52 ≤ 1 / 100 := by norm_num
    linarith

theorem mix_close (H : RoundsNearest fl) {u v d u' v' : ℚ} {k : ℕ} (hk : k ≤ 100) (hu : 0 ≤ u ∧ u ≤ 1)
    (hv : 0 ≤ v ∧ v ≤ 1) (hd : 0 ≤ d ∧ d ≤ 1) (hdk : |d - (k : ℚ) / 100| ≤ 1 / 2 ^ 52) (h1 : |u - u'| ≤ 1 / 2 ^ 54)
    (h2 : |v - v'| ≤ 1 / 2 ^ 54) :
    |mix fl u v d - (u' * ((k : ℚ) / 100) + v' * (1 - (k : ℚ) / 100))| ≤ 1 / 2 ^ 50 := by
  obtain ⟨u0, u1⟩ := hu
  obtain ⟨v0, v1⟩ := hv
  obtain ⟨d0, d1⟩ := hd
  have hk1 : (k : ℚ) ≤ 100 := by exact_mod_cast hk
  have hk0 : (0 : ℚ) ≤ (k : ℚ) / 100 := by positivity
  have hk2 : (k : ℚ) / 100 ≤ 1 := by rw [div_le_one (by norm_num)]; exact hk1
  set q := (k : ℚ) / 100 with hq
  have ud1 : u * d ≤ 1 := mul_le_one₀ u1 d0 d1
  have e1 := abs_le.mp (H.err_unit (x := u * d) (mul_nonneg u0 d0) ud1)
  have e2 := abs_le.mp (H.err_unit (x := 1 - d) (by linarith) (by linarith))
  have hn0 : 0 ≤ fl (1 - d) := H.nonneg (by linarith)
  have hn1 : fl (1 - d) ≤ 1 := H.le_one (by linarith)
  have e3 := abs_le.mp (H.err_unit (x := v * fl (1 - d)) (mul_nonneg v0 hn0) (mul_le_one₀ v1 hn0 hn1))
  have hA0 : 0 ≤ fl (u * d) := H.nonneg (mul_nonneg u0 d0)
  have hB0 : 0 ≤ fl (v * fl (1 - d)) := H.nonneg (mul_nonneg v0 hn0)
  have hA1 : fl (u * d) ≤ 1 := H.le_one ud1
  have hB1 : fl (v * fl (1 - d)) ≤ 1 := H.le_one (mul_le_one₀ v1 hn0 hn1)
  have e4 := H.abs_err (fl (u * d) + fl (v * fl (1 - d))) 2 (by norm_num) (by
    rw [abs_of_nonneg (by linarith)]
    have : (2 : ℚ) ^ (2 : ℤ) = 4 := by norm_num
    rw [this]; linarith)
  have e5 : (2 : ℚ) ^ ((2 : ℤ) - 54) = 4 * (1 / 2 ^ 54) := by norm_num
  rw [e5] at e4
  have e4 := abs_le.mp e4
  unfold mix
  have e52 : (1 : ℚ) / 2 ^ 52 = 4 * (1 / 2 ^ 54) := by norm_num
  have e50 : (1 : ℚ) / 2 ^ 50 = 16 * (1 / 2 ^ 54) := by norm_num
  rw [e52] at hdk
  rw [e50]
  generalize (1 : ℚ) / 2 ^ 54 = s at *
  obtain ⟨a1, a2⟩ := e1
  obtain ⟨b1, b2⟩ := e2
  obtain ⟨c1, c2⟩ := e3
  obtain ⟨g1, g2⟩ := e4
  obtain ⟨i1, i2⟩ := abs_le.mp hdk
  obtain ⟨j1, j2⟩ := abs_le.mp h1
  obtain ⟨l1, l2⟩ := abs_le.mp h2
  have hs : 0 ≤ s := by linarith
  -- v * fl (1-d) against v * (1-d)
  have m1 : v * fl (1 - d) ≤ v * (1 - d) + s := by
    have : v * (fl (1 - d) - (1 - d)) ≤ v * s := mul_le_mul_of_nonneg_left b2 v0
    have : v * s ≤ 1 * s := mul_le_mul_of_nonneg_right v1 hs
    linarith
  have m2 : v * (1 - d) - s ≤ v * fl (1 - d) := by
    have : v * (-s) ≤ v * (fl (1 - d) - (1 - d)) := mul_le_mul_of_nonneg_left b1 v0
    have : v * s ≤ 1 * s := mul_le_mul_of_nonneg_right v1 hs
    linarith
  -- d against q
  have w : |(u - v) * (d - q)| ≤ 4 * s := by
    rw [abs_mul]
    have : |u - v| ≤ 1 := by rw [abs_le]; constructor <;> linarith
    calc |u - v| * |d - q| ≤ 1 * (4 * s) := mul_le_mul this hdk (abs_nonneg _) (by norm_num)
      _ = 4 * s := one_mul _
  obtain ⟨w1, w2⟩ := abs_le.mp w
  -- u, v against u', v'
  have x1 : (u - u') * q ≤ s * q := mul_le_mul_of_nonneg_right j2 hk0
  have x2 : -s * q ≤ (u - u') * q := mul_le_mul_of_nonneg_right j1 hk0
  have y1 : (v - v') * (1 - q) ≤ s * (1 - q) := mul_le_mul_of_nonneg_right l2 (by linarith)
  have y2 : -s * (1 - q) ≤ (v - v') * (1 - q) := mul_le_mul_of_nonneg_right l1 (by linarith)
  rw [abs_le]
  constructor <;> linarith

/-- A score: zero or not tiny, representable, at most 1. -/
structure Score (x x' : ℚ) : Prop where
  big : x = 0 ∨ 1 / 2 ^ 53 ≤ x
  rep : IsF64 x
  le : x ≤ 1
  close : |x - x'| ≤ 1 / 2 ^ 54
  nonneg' : 0 ≤ x'

theorem Score.nonneg {x x' : ℚ} (h : Score x x') : 0 ≤ x := by
  rcases h.big with h | h
  · exact h.symm.le
  · exact le_trans (by norm_num) h

theorem Score.ok {x x' : ℚ} (h : Score x x') : Ok x := by
  rcases h.big with h | h
  · exact .inl h
  · exact small_ok (le_trans (by norm_num) h)

theorem score_nat (H : RoundsNearest fl) {a b : ℕ} (hab : a ≤ b) (hb : b ≤ 2 ^ 53) :
    Score (recall fl a b) (EdgeEval.recall a b) := by
  have h0 : (0 : ℚ) ≤ a := by positivity
  have h1 : (a : ℚ) ≤ b := by exact_mod_cast hab
  refine ⟨?_, H.rep _, (recall_unit H h0 h1 (isF64_nat b hb)).2, recall_close H hab hb, EdgeEval.recall_nonneg h0 h1⟩
  rcases recall_big H hab hb with h | h
  · exact .inl h.1
  · exact .inr h.1

theorem score_f1 (H : RoundsNearest fl) {p p' r r' : ℚ} (hp : Score p p') (hr : Score r r') :
    |f1 fl p r - EdgeEval.f1 p' r'| ≤ 1 / 2 ^ 50 := by
  have := f1_close H hp.ok hr.ok hp.rep hp.le hr.le hp.nonneg' hr.nonneg' hp.close hr.close
  refine this.trans (by norm_num)

theorem score_point (H : RoundsNearest fl) {p1 p1' r1 r1' p0 p0' r0 r0' : ℚ} (hp1 : Score p1 p1') (hr1 : Score r1 r1')
    (hp0 : Score p0 p0') (hr0 : Score r0 r0') {k : ℕ} (hk : k ≤ 100) (t1 t0 t1' t0' : ℚ) :
    |(odsPoint fl t1 t0 r1 r0 p1 p0 (gridPt fl k)).f1 - (EdgeEval.odsPoint t1' t0' r1' r0' p1' p0' ((k : ℚ) / 100)).f1|
      ≤ 1 / 2 ^ 47 := by
  obtain ⟨g1, g2⟩ := gridPt_err H hk
  obtain ⟨g3, g4, g5⟩ := grid_mem H (gridPt_mem H hk)
  have g6 := one_minus_big H hk g1 (by intro h; unfold gridPt; rw [if_pos h])
  have k0 : (0 : ℚ) ≤ (k : ℚ) / 100 := by positivity
  have k1 : (k : ℚ) / 100 ≤ 1 := by
    rw [div_le_one (by norm_num)]; exact_mod_cast hk
  have a := mix_close H hk ⟨hp1.nonneg, hp1.le⟩ ⟨hp0.nonneg, hp0.le⟩ ⟨g4, g5⟩ g1 hp1.close hp0.close
  have b := mix_close H hk ⟨hr1.nonneg, hr1.le⟩ ⟨hr0.nonneg, hr0.le⟩ ⟨g4, g5⟩ g1 hr1.close hr0.close
  have c := f1_close H (mix_ok H hp1.big hp0.big g2 g6) (mix_ok H hr1.big hr0.big g2 g6) (mix_rep H _ _ _)
    (mix_unit H ⟨hp1.nonneg, hp1.le⟩ ⟨hp0.nonneg, hp0.le⟩ ⟨g3, g4, g5⟩).2
    (mix_unit H ⟨hr1.nonneg, hr1.le⟩ ⟨hr0.nonneg, hr0.le⟩ ⟨g3, g4, g5⟩).2
    (add_nonneg (mul_nonneg hp1.nonneg' k0) (mul_nonneg hp0.nonneg' (by linarith)))
    (add_nonneg (mul_nonneg hr1.nonneg' k0) (mul_nonneg hr0.nonneg' (by linarith))) a b
  refine c.trans (by norm_num)

/-- The two maxima are close. -/
theorem ods_close (H : RoundsNearest fl) {n : ℕ} {th th' rcl prc rcl' prc' : List ℚ} {b b' : Best}
    (hp : ∀ k, k ≤ n → Score (prc.getD k 0) (prc'.getD k 0)) (hr : ∀ k, k ≤ n → Score (rcl.getD k 0) (rcl'.getD k 0))
    (hb : OdsInv fl th rcl prc n b) (hb' : EdgeEval.OdsInv th' rcl' prc' n b') : |b.f1 - b'.f1| ≤ 1 / 2 ^ 47 := by
  have h0 := abs_le.mp (score_f1 H (hp 0 (by omega)) (hr 0 (by omega)))
  have h5 : (1 : ℚ) / 2 ^ 50 ≤ 1 / 2 ^ 47 := by norm_num
  have hpt := fun i k (_ : 1 ≤ i) (hi : i ≤ n) (hk : k ≤ 100) =>
    abs_le.mp (score_point H (hp i hi) (hr i hi) (hp (i - 1) (by omega)) (hr (i - 1) (by omega)) hk
      (th.getD i 0) (th.getD (i - 1) 0) (th'.getD i 0) (th'.getD (i - 1) 0))
  rw [abs_le]
  constructor
  · rcases hb'.att with h | ⟨i, k, h1, h2, h3, h⟩
    · have := hb.ge0
      rw [h]; simp only; linarith [h0.1]
    · have := hb.ge i h1 h2 _ (gridPt_mem H h3)
      have := (hpt i k h1 h2 h3).1
      rw [h]; linarith
  · rcases hb.att with h | ⟨i, h1, h2, d, hd, h⟩
    · have := hb'.ge0
      rw [h]; simp only; linarith [h0.2]
    · obtain ⟨k, hk, rfl⟩ := mem_gridPt H hd
      have := hb'.ge i h1 h2 k hk
      have := (hpt i k h1 h2 hk).2
      rw [h]; linarith

end EdgeEval.FloatM
