import Verif.Lemmas.CalcFloat

/-!
# Rounding errors of grids, sums and interpolations
-/

namespace EdgeEval

variable {fl : ℚ → ℚ}

/-- A number small enough to be negligible: the error of subnormal results. -/
def tiny : ℚ := 1 / 2 ^ 1000

theorem tiny_pos : 0 < tiny := by unfold tiny; positivity

theorem tiny_le : tiny ≤ 1 / 2 ^ 60 := by
  unfold tiny
  gcongr <;> norm_num

/-- The error of one rounding, whatever the argument. -/
theorem RoundsNearest.gen_err (H : RoundsNearest fl) (x : ℚ) : |fl x - x| ≤ 1 / 2 ^ 53 * |x| + tiny := by
  by_cases h : (2 : ℚ) ^ (-1022 : ℤ) ≤ |x|
  · have := H.rel_err x h
    linarith [tiny_pos]
  · push Not at h
    have h1 := H.abs_err x (-1021) (by norm_num) (h.trans (zpow_lt_zpow_right₀ (by norm_num) (by norm_num)))
    have h2 : (2 : ℚ) ^ ((-1021 : ℤ) - 54) ≤ tiny := by
      unfold tiny
      rw [show (1 : ℚ) / 2 ^ 1000 = 2 ^ (-1000 : ℤ) by rw [zpow_neg, one_div]; rfl]
      exact zpow_le_zpow_right₀ (by norm_num) (by norm_num)
    have : 0 ≤ 1 / 2 ^ 53 * |x| := by positivity
    linarith

/-- A binary64 number above `2^j` is a multiple of `2^(j-52)`. -/
theorem isF64_multiple' {y : ℚ} (h : IsF64 y) (j : ℤ) (hj : (2 : ℚ) ^ j < y) : ∃ z : ℤ, y = z * 2 ^ (j - 52) := by
  obtain ⟨m, e, hm, he, rfl⟩ := h
  have hm' : (m : ℚ) ≤ 2 ^ 53 := by exact_mod_cast (le_abs_self m).trans hm
  have hpe : (0 : ℚ) < 2 ^ e := by positivity
  have h1 : (2 : ℚ) ^ j < 2 ^ (53 + e) := by
    refine lt_of_lt_of_le hj ?_
    rw [zpow_add₀ (by norm_num)]
    exact mul_le_mul_of_nonneg_right (by exact_mod_cast hm') hpe.le
  rw [zpow_lt_zpow_iff_right₀ (by norm_num)] at h1
  obtain ⟨k, rfl⟩ : ∃ k : ℕ, e = (j - 52) + k := ⟨(e - (j - 52)).toNat, by omega⟩
  refine ⟨m * 2 ^ k, ?_⟩
  rw [zpow_add₀ (by norm_num), zpow_natCast]; push_cast; ring

namespace FloatM

/-! ### The threshold grid -/

theorem inv_le {m : ℕ} (hm : m ≤ 2 ^ 48) (h0 : 0 < m) : (1 : ℚ) / 2 ^ 48 ≤ 1 / m := by
  have : (m : ℚ) ≤ 2 ^ 48 := by exact_mod_cast hm
  have h0' : (0 : ℚ) < m := by exact_mod_cast h0
  exact one_div_le_one_div_of_le h0' this

/-- Every grid point is close to the exact one. -/
theorem grid_close (H : RoundsNearest fl) {n : ℕ} (h2 : 2 ≤ n) (hn : n + 1 ≤ 2 ^ 48) {k : ℕ} (hk : k < n) :
    |(if k + 1 = n then fl (1 - fl (1 / ((n : ℚ) + 1)))
      else fl (fl (k * fl (fl (fl (1 - fl (1 / ((n : ℚ) + 1))) - fl (1 / ((n : ℚ) + 1))) / ((n : ℚ) - 1)))
        + fl (1 / ((n : ℚ) + 1)))) - ((k : ℚ) + 1) / ((n : ℚ) + 1)| ≤ 1 / 2 ^ 50 := by
  have hn2 : (2 : ℚ) ≤ n := by exact_mod_cast h2
  have hN : (1 : ℚ) / 2 ^ 48 ≤ 1 / ((n : ℚ) + 1) := by
    have := inv_le hn (by omega)
    push_cast at this; exact this
  have hN3 : 1 / ((n : ℚ) + 1) ≤ 1 / 3 := one_div_le_one_div_of_le (by norm_num) (by linarith)
  set q : ℚ := 1 / ((n : ℚ) + 1) with hq
  have hqn : ((n : ℚ) + 1) * q = 1 := by rw [hq]; field_simp
  have ea := abs_le.mp (H.err_unit (x := q) (by positivity) (by linarith))
  set a := fl q with ha
  have hsm : (1 : ℚ) / 2 ^ 48 = 64 * (1 / 2 ^ 54) := by norm_num
  have hs54 : (0 : ℚ) < 1 / 2 ^ 54 := by norm_num
  have hs54' : (1 : ℚ) / 2 ^ 54 ≤ 1 / 1000 := by norm_num
  have h51 : (1 : ℚ) / 2 ^ 50 = 16 * (1 / 2 ^ 54) := by norm_num
  have h53 : (1 : ℚ) / 2 ^ 53 = 2 * (1 / 2 ^ 54) := by norm_num
  rw [h51]
  rw [hsm] at hN
  have EU : ∀ x : ℚ, 0 ≤ x → x ≤ 1 → |fl x - x| ≤ 1 / 2 ^ 54 := fun x h0 h1 => H.err_unit h0 h1
  set s : ℚ := 1 / 2 ^ 54 with hs
  have eb := abs_le.mp (EU (1 - a) (by linarith) (by linarith))
  set b := fl (1 - a) with hb
  split
  · -- the last point
    rename_i hlast
    have hkn : (k : ℚ) + 1 = n := by exact_mod_cast hlast
    have : (n : ℚ) / ((n : ℚ) + 1) = 1 - q := by rw [hq]; field_simp; ring
    rw [hkn, this, abs_le]
    constructor <;> linarith
  · rename_i hlast
    have hk' : (k : ℚ) ≤ n - 2 := by
      have : k + 2 ≤ n := by omega
      have : ((k + 2 : ℕ) : ℚ) ≤ n := by exact_mod_cast this
      push_cast at this; linarith
    have hk0 : (0 : ℚ) ≤ k := by positivity
    have eD := abs_le.mp (EU (b - a) (by linarith) (by linarith))
    set D := fl (b - a) with hD
    have hD1 : D ≤ 1 := by linarith
    have hD0 : 0 ≤ D := H.nonneg (by linarith)
    have hn1 : (0 : ℚ) < (n : ℚ) - 1 := by linarith
    have hbig : (2 : ℚ) ^ (-1022 : ℤ) ≤ |D / ((n : ℚ) - 1)| := by
      have hD4 : (1 : ℚ) / 4 ≤ D := by linarith
      have hn48 : (n : ℚ) - 1 ≤ 2 ^ 48 := by
        have : ((n + 1 : ℕ) : ℚ) ≤ 2 ^ 48 := by exact_mod_cast hn
        push_cast at this; linarith
      rw [abs_of_nonneg (by positivity)]
      calc (2 : ℚ) ^ (-1022 : ℤ) ≤ 2 ^ (-50 : ℤ) := zpow_le_zpow_right₀ (by norm_num) (by norm_num)
        _ = 1 / 4 / 2 ^ 48 := by norm_num
        _ ≤ D / ((n : ℚ) - 1) := by gcongr
    have eS := H.rel_err (D / ((n : ℚ) - 1)) hbig
    rw [abs_of_nonneg (show 0 ≤ D / ((n : ℚ) - 1) by positivity), h53] at eS
    have eS' := abs_le.mp eS
    set S := fl (D / ((n : ℚ) - 1)) with hS
    -- the fraction
    have hfr : (k : ℚ) / ((n : ℚ) - 1) ≤ 1 := by rw [div_le_one hn1]; linarith
    have hfr0 : 0 ≤ (k : ℚ) / ((n : ℚ) - 1) := by positivity
    set θ := (k : ℚ) / ((n : ℚ) - 1) with hθ
    have hkD : (k : ℚ) * (D / ((n : ℚ) - 1)) = θ * D := by rw [hθ]; field_simp
    have hθD : θ * D ≤ 1 := by nlinarith
    have hθD0 : 0 ≤ θ * D := by positivity
    have u1 : (k : ℚ) * S ≤ θ * D + 2 * s := by
      have : (k : ℚ) * S ≤ k * (D / ((n : ℚ) - 1) + 2 * s * (D / ((n : ℚ) - 1))) := by
        apply mul_le_mul_of_nonneg_left _ hk0; linarith [eS'.2]
      have e : (k : ℚ) * (D / ((n : ℚ) - 1) + 2 * s * (D / ((n : ℚ) - 1))) = θ * D + 2 * s * (θ * D) := by
        rw [← hkD]; ring
      rw [e] at this
      linarith [mul_le_of_le_one_right hs54.le hθD]
    have u2 : θ * D - 2 * s ≤ (k : ℚ) * S := by
      have : k * (D / ((n : ℚ) - 1) - 2 * s * (D / ((n : ℚ) - 1))) ≤ (k : ℚ) * S := by
        apply mul_le_mul_of_nonneg_left _ hk0; linarith [eS'.1]
      have e : (k : ℚ) * (D / ((n : ℚ) - 1) - 2 * s * (D / ((n : ℚ) - 1))) = θ * D - 2 * s * (θ * D) := by
        rw [← hkD]; ring
      rw [e] at this
      linarith [mul_le_of_le_one_right hs54.le hθD]
    -- exact position: θ (1 - 2 q) = k q
    have hex : θ * (1 - 2 * q) = k * q := by
      have h1 : 1 - 2 * q = ((n : ℚ) - 1) * q := by linarith
      rw [h1, hθ]; field_simp
    have hDl : 1 - 2 * q - 4 * s ≤ D := by linarith
    have hDu : D ≤ 1 - 2 * q + 4 * s := by linarith
    have hθs : θ * s ≤ s := mul_le_of_le_one_left hs54.le hfr
    have v1 : θ * D ≤ k * q + 4 * s := by
      have := mul_le_mul_of_nonneg_left hDu hfr0
      rw [← hex]; linarith
    have v2 : k * q - 4 * s ≤ θ * D := by
      have := mul_le_mul_of_nonneg_left hDl hfr0
      rw [← hex]; linarith
    have hkq : (k : ℚ) * q ≤ 1 - 3 * q := by
      have : (k : ℚ) * q ≤ (n - 2) * q := by
        apply mul_le_mul_of_nonneg_right hk' (by positivity)
      linarith
    have hkS0 : 0 ≤ (k : ℚ) * S := mul_nonneg hk0 (H.nonneg (by positivity))
    have eP := abs_le.mp (EU ((k : ℚ) * S) hkS0 (by linarith))
    have hP0 := H.nonneg hkS0
    set P := fl ((k : ℚ) * S) with hP
    have eY := abs_le.mp (EU (P + a) (by linarith) (by linarith))
    set Y := fl (P + a) with hY
    have hexact : ((k : ℚ) + 1) / ((n : ℚ) + 1) = k * q + q := by rw [hq]; field_simp
    rw [hexact, abs_le]
    constructor <;> linarith

/-! ### Average precision -/

theorem ap_fold (H : RoundsNearest fl) (g : ℚ → ℚ) (hg : ∀ t, 0 ≤ g t ∧ g t ≤ 1) (l : List ℚ) (m : ℕ) (ap : ℚ)
    (hm : m + l.length ≤ 100) (h0 : 0 ≤ ap) (h1 : ap ≤ m * (1 / 101 + 1 / 2 ^ 53)) :
    0 ≤ l.foldl (fun ap t => fl (ap + fl (g t / 101))) ap ∧
      l.foldl (fun ap t => fl (ap + fl (g t / 101))) ap ≤ (m + l.length : ℕ) * (1 / 101 + 1 / 2 ^ 53) := by
  induction l generalizing m ap with
  | nil => exact ⟨h0, by simpa using h1⟩
  | cons t l ih =>
    simp only [List.foldl_cons, List.length_cons] at hm ⊢
    have hq0 : 0 ≤ g t / 101 := div_nonneg (hg t).1 (by norm_num)
    have hq1 : g t / 101 ≤ 1 / 101 := by
      have := (hg t).2
      gcongr
    have eq := abs_le.mp (H.err_unit (x := g t / 101) hq0 (by linarith))
    have hfq := H.nonneg hq0
    have hmc : (m : ℚ) ≤ 99 := by
      have : m ≤ 99 := by omega
      exact_mod_cast this
    have hb : ap + fl (g t / 101) ≤ 1 := by
      have : (m : ℚ) * (1 / 101 + 1 / 2 ^ 53) ≤ 99 * (1 / 101 + 1 / 2 ^ 53) := by gcongr
      have h2 : (99 : ℚ) * (1 / 101 + 1 / 2 ^ 53) + (1 / 101 + 1 / 2 ^ 54) ≤ 1 := by norm_num
      linarith
    have es := abs_le.mp (H.err_unit (x := ap + fl (g t / 101)) (by linarith) hb)
    have := ih (m + 1) (fl (ap + fl (g t / 101))) (by omega) (H.nonneg (by linarith)) (by
      push_cast
      have : (1 : ℚ) / 2 ^ 53 = 1 / 2 ^ 54 + 1 / 2 ^ 54 := by norm_num
      linarith)
    rwa [show m + 1 + l.length = m + (l.length + 1) by omega] at this

theorem precAtRecall_unit {rcl prc : List ℚ} (h : ∀ p ∈ prc, p ≤ 1) (t : ℚ) :
    0 ≤ precAtRecall rcl prc t ∧ precAtRecall rcl prc t ≤ 1 := by
  unfold precAtRecall maxInit0
  refine ⟨le_foldl_max_init _ _, foldl_max_le (by norm_num) ?_⟩
  intro x hx
  obtain ⟨y, hy, rfl⟩ := List.mem_map.mp hx
  exact h _ (List.of_mem_zip (List.mem_filter.mp hy).1).2

theorem ap_unit (H : RoundsNearest fl) {rcl prc : List ℚ} (h : ∀ p ∈ prc, p ≤ 1) :
    0 ≤ averagePrecision fl rcl prc ∧ averagePrecision fl rcl prc ≤ 100 / 101 + 1 / 2 ^ 46 := by
  unfold averagePrecision
  have hl : (arange01 fl).length = 100 := by rw [arange01_eq H]; simp
  have := ap_fold H (precAtRecall rcl prc) (precAtRecall_unit h) (arange01 fl) 0 0 (by omega) (le_refl _) (by simp)
  rw [hl] at this
  refine ⟨this.1, this.2.trans ?_⟩
  norm_num

/-! ### Area under the curve -/

theorem pos_of_f64_lt (H : RoundsNearest fl) {x y : ℚ} (hx : IsF64 x) (hy : IsF64 y) (h : x < y) : 0 < fl (y - x) := by
  obtain ⟨m, e, hm, he, rfl⟩ := hx
  obtain ⟨m', e', hm', he', rfl⟩ := hy
  obtain ⟨a, rfl⟩ : ∃ a : ℕ, e = -1074 + a := ⟨(e + 1074).toNat, by omega⟩
  obtain ⟨b, rfl⟩ : ∃ b : ℕ, e' = -1074 + b := ⟨(e' + 1074).toNat, by omega⟩
  have hp : (0 : ℚ) < 2 ^ (-1074 : ℤ) := by positivity
  have e1 : (m' : ℚ) * 2 ^ (-1074 + (b : ℤ)) - m * 2 ^ (-1074 + (a : ℤ)) =
      ((m' * 2 ^ b - m * 2 ^ a : ℤ) : ℚ) * 2 ^ (-1074 : ℤ) := by
    rw [zpow_add₀ (by norm_num), zpow_add₀ (by norm_num), zpow_natCast, zpow_natCast]; push_cast; ring
  have hpos : 0 < (m' : ℚ) * 2 ^ (-1074 + (b : ℤ)) - m * 2 ^ (-1074 + (a : ℤ)) := by linarith
  rw [e1] at hpos ⊢
  have hz : (0 : ℚ) < ((m' * 2 ^ b - m * 2 ^ a : ℤ) : ℚ) := (pos_iff_pos_of_mul_pos hpos).mpr hp
  have hz1 : (1 : ℚ) ≤ ((m' * 2 ^ b - m * 2 ^ a : ℤ) : ℚ) := by
    have : (0 : ℤ) < m' * 2 ^ b - m * 2 ^ a := by exact_mod_cast hz
    exact_mod_cast this
  have hr : IsF64 (2 ^ (-1074 : ℤ)) := ⟨1, -1074, by norm_num, le_refl _, by simp⟩
  have := H.mono (show (2 : ℚ) ^ (-1074 : ℤ) ≤ ((m' * 2 ^ b - m * 2 ^ a : ℤ) : ℚ) * 2 ^ (-1074 : ℤ) by
    have := mul_le_mul_of_nonneg_right hz1 hp.le
    linarith)
  rw [H.exact hr] at this
  exact lt_of_lt_of_le hp this

/-- One interpolated value. -/
theorem interp_term (H : RoundsNearest fl) {k k' v v' x : ℚ} (hk : IsF64 k) (hk' : IsF64 k')
    (hkk : k < k') (hu : k' - k ≤ 1) (hv : 0 ≤ v ∧ v ≤ 1) (hv' : 0 ≤ v' ∧ v' ≤ 1) (hx : k ≤ x) (hx' : x ≤ k') :
    -(1 / 2 ^ 50) ≤ fl (fl (fl (fl (v' - v) / fl (k' - k)) * fl (x - k)) + v) ∧
      fl (fl (fl (fl (v' - v) / fl (k' - k)) * fl (x - k)) + v) ≤ 1 + 1 / 2 ^ 50 := by
  have hD := pos_of_f64_lt H hk hk' hkk
  have hD1 : fl (k' - k) ≤ 1 := H.le_one hu
  have hE0 : 0 ≤ fl (x - k) := H.nonneg (by linarith)
  have hED : fl (x - k) ≤ fl (k' - k) := H.mono (by linarith)
  have hN := H.gen_err (v' - v)
  have htiny := tiny_pos
  have htiny' := tiny_le
  have hvv : |v' - v| ≤ 1 := by rw [abs_le]; constructor <;> linarith [hv.1, hv.2, hv'.1, hv'.2]
  generalize fl (v' - v) = N at hN ⊢
  generalize fl (k' - k) = D at hD hD1 hED ⊢
  generalize fl (x - k) = E at hE0 hED ⊢
  have h60 : (1 : ℚ) / 2 ^ 53 = 128 * (1 / 2 ^ 60) := by norm_num
  have h50 : (1 : ℚ) / 2 ^ 50 = 1024 * (1 / 2 ^ 60) := by norm_num
  have hs0 : (0 : ℚ) < 1 / 2 ^ 60 := by norm_num
  have hs1 : (1 : ℚ) / 2 ^ 60 ≤ 1 / 100000 := by norm_num
  have G : ∀ y : ℚ, |fl y - y| ≤ 1 / 2 ^ 53 * |y| + tiny := H.gen_err
  rw [h60] at hN G
  rw [h50]
  generalize (1 : ℚ) / 2 ^ 60 = s at *
  -- N
  have hN' : |N - (v' - v)| ≤ 129 * s := by nlinarith
  have hN1 : |N| ≤ 1 + 129 * s := by
    have : N = (N - (v' - v)) + (v' - v) := by ring
    rw [this]
    exact (abs_add_le _ _).trans (by linarith)
  -- the quotient times the step
  have hS := G (N / D)
  generalize fl (N / D) = S at hS ⊢
  set θ := E / D with hθ
  have hθ0 : 0 ≤ θ := by positivity
  have hθ1 : θ ≤ 1 := by rw [hθ, div_le_one hD]; exact hED
  have hSE : |S * E - θ * N| ≤ 130 * s := by
    have e : S * E - θ * N = (S - N / D) * E := by rw [hθ]; field_simp
    rw [e, abs_mul, abs_of_nonneg hE0]
    have h1 : |S - N / D| * E ≤ (128 * s * |N / D| + tiny) * E := mul_le_mul_of_nonneg_right hS hE0
    have h2 : |N / D| * E = |N| * θ := by rw [abs_div, abs_of_pos hD, hθ]; field_simp
    have h3 : (128 * s * |N / D| + tiny) * E = 128 * s * (|N| * θ) + tiny * E := by rw [← h2]; ring
    have h4 : |N| * θ ≤ 1 + 129 * s := by
      have := mul_le_mul_of_nonneg_left hθ1 (abs_nonneg N)
      linarith
    have h5 : tiny * E ≤ s := by
      have : tiny * E ≤ tiny * 1 := mul_le_mul_of_nonneg_left (by linarith) htiny.le
      linarith
    rw [h3] at h1
    have h6 : 128 * s * (|N| * θ) ≤ 128 * s * (1 + 129 * s) := mul_le_mul_of_nonneg_left h4 (by linarith)
    nlinarith
  have hSE1 : |S * E| ≤ 2 := by
    have : S * E = (S * E - θ * N) + θ * N := by ring
    rw [this]
    refine (abs_add_le _ _).trans ?_
    rw [abs_mul, abs_of_nonneg hθ0]
    have := mul_le_mul_of_nonneg_right hθ1 (abs_nonneg N)
    linarith
  have hP := G (S * E)
  generalize fl (S * E) = P at hP ⊢
  have hP' : |P - S * E| ≤ 257 * s := by
    have : 128 * s * |S * E| ≤ 128 * s * 2 := mul_le_mul_of_nonneg_left hSE1 (by linarith)
    linarith
  -- the exact interpolated value
  have hθN : |θ * N - θ * (v' - v)| ≤ 129 * s := by
    rw [← mul_sub, abs_mul, abs_of_nonneg hθ0]
    have := mul_le_mul_of_nonneg_right hθ1 (abs_nonneg (N - (v' - v)))
    linarith
  have a1 := abs_le.mp hP'
  have a2 := abs_le.mp hSE
  have a3 := abs_le.mp hθN
  have lo : 0 ≤ v + θ * (v' - v) := by nlinarith [hv.1, hv'.1]
  have hi : v + θ * (v' - v) ≤ 1 := by nlinarith [hv.2, hv'.2]
  have b1 : -(516 * s) ≤ P + v := by linarith [a1.1, a2.1, a3.1]
  have b2 : P + v ≤ 1 + 516 * s := by linarith [a1.2, a2.2, a3.2]
  have hR := abs_le.mp (G (P + v))
  have hb : |P + v| ≤ 2 := by rw [abs_le]; constructor <;> linarith
  have hb' : 128 * s * |P + v| ≤ 128 * s * 2 := mul_le_mul_of_nonneg_left hb (by linarith)
  constructor <;> linarith [hR.1, hR.2]

end FloatM

end EdgeEval
