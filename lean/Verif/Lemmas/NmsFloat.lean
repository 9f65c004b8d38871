import Verif.Model.NmsFloat
import Verif.Spec.Float32
import Verif.Spec.Nms
import Verif.Lemmas.Nms
import Verif.Lemmas.FloatError
import Mathlib.Tactic.Positivity
import Mathlib.Tactic.FieldSimp
import Mathlib.Tactic.GCongr

/-!
# Rounding errors of bilinear interpolation and of the border ramps
-/

namespace EdgeEval.NmsFloat

open EdgeEval EdgeEval.Spec

variable {fl : ℚ → ℚ}

/-! ### Positions -/

theorem lastPos_bounds (H : RoundsNearest fl) {n : ℕ} (h2 : 2 ≤ n) (hn : n ≤ 2 ^ 31) :
    0 ≤ lastPos fl n ∧ lastPos fl n ≤ n - 1.0009 ∧ |lastPos fl n - (n - 1.001)| ≤ 1 / 2 ^ 22 := by
  have h2' : (2 : ℚ) ≤ n := by exact_mod_cast h2
  have hn' : (n : ℚ) ≤ 2 ^ 31 := by exact_mod_cast hn
  have e1 := H.abs_err 1.001 1 (by norm_num) (by norm_num [abs_of_pos])
  rw [abs_le] at e1
  norm_num at e1
  have e2 := H.abs_err ((n : ℚ) - fl 1.001) 31 (by norm_num) (by
    rw [abs_of_nonneg (by norm_num; linarith)]
    norm_num
    linarith)
  rw [abs_le] at e2
  norm_num at e2
  unfold lastPos
  simp only [Int.cast_natCast]
  norm_num
  refine ⟨by linarith, by linarith, ?_⟩
  rw [abs_le]
  constructor <;> linarith

theorem lastPos_f64 (H : RoundsNearest fl) (n : ℤ) : IsF64 (lastPos fl n) := H.rep _

theorem clampCoord_bounds (H : RoundsNearest fl) {n : ℕ} (h2 : 2 ≤ n) (hn : n ≤ 2 ^ 31) (x : ℚ) :
    0 ≤ clampCoord fl n x ∧ clampCoord fl n x ≤ n - 1.0009 := by
  obtain ⟨h0, h1, -⟩ := lastPos_bounds H h2 hn
  have h2' : (2 : ℚ) ≤ n := by exact_mod_cast h2
  unfold clampCoord
  split
  · refine ⟨le_refl _, ?_⟩
    norm_num
    linarith
  · split
    · exact ⟨h0, h1⟩
    · constructor <;> linarith

theorem clampCoord_f64 (H : RoundsNearest fl) (n : ℤ) {x : ℚ} (hx : IsF64 x) : IsF64 (clampCoord fl n x) := by
  unfold clampCoord
  split
  · exact isF64_zero
  · split
    · exact lastPos_f64 H n
    · exact hx

/-- The fractional part of a non-negative binary64 number is one. -/
theorem isF64_fract {x : ℚ} (h : IsF64 x) (h0 : 0 ≤ x) : IsF64 (x - ⌊x⌋) := by
  obtain ⟨m, e, hm, he, rfl⟩ := h
  have hpe : (0 : ℚ) < 2 ^ e := by positivity
  have hm0 : 0 ≤ m := by
    by_contra hc
    push Not at hc
    have : (m : ℚ) < 0 := by exact_mod_cast hc
    nlinarith
  rcases le_or_gt 0 e with h1 | h1
  · obtain ⟨k, rfl⟩ := Int.eq_ofNat_of_zero_le h1
    have : (m : ℚ) * 2 ^ (k : ℤ) = ((m * 2 ^ k : ℤ) : ℚ) := by push_cast; rw [zpow_natCast]
    rw [this, Int.floor_intCast, sub_self]
    exact isF64_zero
  · obtain ⟨k, hk⟩ := Int.eq_ofNat_of_zero_le (show 0 ≤ -e by omega)
    have hpk : (2 : ℚ) ^ e = 1 / 2 ^ k := by
      rw [show e = -(k : ℤ) by omega, zpow_neg, zpow_natCast, one_div]
    have hfl : ⌊(m : ℚ) * 2 ^ e⌋ = m / 2 ^ k := by
      rw [hpk, mul_one_div]
      have := Rat.floor_intCast_div_natCast m (2 ^ k)
      push_cast at this
      exact this
    refine ⟨m % 2 ^ k, e, ?_, he, ?_⟩
    · rw [abs_of_nonneg (Int.emod_nonneg _ (by positivity))]
      have h5 := Int.mul_ediv_add_emod m (2 ^ k)
      have h6 : 0 ≤ 2 ^ k * (m / 2 ^ k) := mul_nonneg (by positivity) (Int.ediv_nonneg hm0 (by positivity))
      rw [abs_of_nonneg hm0] at hm
      omega
    · rw [hfl]
      have := Int.mul_ediv_add_emod m (2 ^ k)
      have h3 : ((m % 2 ^ k : ℤ) : ℚ) = m - 2 ^ k * ((m / 2 ^ k : ℤ) : ℚ) := by
        have : m % 2 ^ k = m - 2 ^ k * (m / 2 ^ k) := by omega
        rw [this]; push_cast; ring
      rw [h3, hpk]
      field_simp

/-! ### Approximation calculus -/

/-- Growth of a bound per rounding. -/
def q : ℚ := 1 + 1 / 2 ^ 52

theorem q_pos : 0 < q := by unfold q; norm_num
theorem one_le_q : 1 ≤ q := by unfold q; norm_num
theorem q_le_two : q ≤ 2 := by unfold q; norm_num

/-- `x'` approximates `x ≥ 0` up to `k` roundings and an absolute error `b`. -/
structure Ap (k : ℕ) (b x' x : ℚ) : Prop where
  lo : x / q ^ k - b ≤ x'
  hi : x' ≤ q ^ k * x + b

theorem Ap.refl (x : ℚ) : Ap 0 0 x x := ⟨by simp, by simp⟩

theorem Ap.weaken {k k' : ℕ} {b b' x' x : ℚ} (h : Ap k b x' x) (hx : 0 ≤ x) (hk : k ≤ k') (hb : b ≤ b') : Ap k' b' x' x := by
  have h1 : q ^ k ≤ q ^ k' := pow_le_pow_right₀ one_le_q hk
  have h0 : 0 < q ^ k := pow_pos q_pos _
  constructor
  · have : x / q ^ k' ≤ x / q ^ k := div_le_div_of_nonneg_left hx h0 h1
    linarith [h.lo]
  · have : q ^ k * x ≤ q ^ k' * x := mul_le_mul_of_nonneg_right h1 hx
    linarith [h.hi]

theorem Ap.add {k : ℕ} {b c x' x y' y : ℚ} (h : Ap k b x' x) (g : Ap k c y' y) : Ap k (b + c) (x' + y') (x + y) :=
  ⟨by rw [add_div]; linarith [h.lo, g.lo], by rw [mul_add]; linarith [h.hi, g.hi]⟩

theorem Ap.mul {k j : ℕ} {b x' x w' w : ℚ} (h : Ap k b x' x) (g : Ap j 0 w' w) (hx : 0 ≤ x) (hw' : 0 ≤ w')
    (hw1 : w' ≤ 1) (hb : 0 ≤ b) : Ap (k + j) b (x' * w') (x * w) := by
  have hk : 0 < q ^ k := pow_pos q_pos _
  constructor
  · have h1 : (x / q ^ k - b) * w' ≤ x' * w' := mul_le_mul_of_nonneg_right h.lo hw'
    have h2 : x / q ^ k * (w / q ^ j) ≤ x / q ^ k * w' :=
      mul_le_mul_of_nonneg_left (by linarith [g.lo]) (by positivity)
    have h3 : b * w' ≤ b := by nlinarith
    have h4 : x * w / q ^ (k + j) = x / q ^ k * (w / q ^ j) := by rw [pow_add]; field_simp
    rw [h4]
    nlinarith
  · have h1 : x' * w' ≤ (q ^ k * x + b) * w' := mul_le_mul_of_nonneg_right h.hi hw'
    have h2 : q ^ k * x * w' ≤ q ^ k * x * (q ^ j * w) :=
      mul_le_mul_of_nonneg_left (by linarith [g.hi]) (by positivity)
    have h3 : b * w' ≤ b := by nlinarith
    have h4 : q ^ (k + j) * (x * w) = q ^ k * x * (q ^ j * w) := by rw [pow_add]; ring
    rw [h4]
    nlinarith

theorem Ap.round (H : RoundsNearest fl) {k : ℕ} {b x' x : ℚ} (h : Ap k b x' x) (hx' : 0 ≤ x') (hb : 0 ≤ b) :
    Ap (k + 1) (2 * b + tiny) (fl x') x := by
  have e := H.gen_err x'
  rw [abs_of_nonneg hx', abs_le] at e
  have hk : 0 < q ^ k := pow_pos q_pos _
  have hq := q_pos
  constructor
  · have h1 : x' / q ≤ x' - 1 / 2 ^ 53 * x' := by
      rw [div_le_iff₀ hq]
      have : (1 : ℚ) ≤ (1 - 1 / 2 ^ 53) * q := by unfold q; norm_num
      nlinarith
    have h2 : x / q ^ (k + 1) - b ≤ x' / q := by
      rw [pow_succ, ← div_div]
      have : (x / q ^ k - b) / q ≤ x' / q := div_le_div_of_nonneg_right h.lo hq.le
      have h3 : b / q ≤ b := div_le_self hb one_le_q
      rw [sub_div] at this
      linarith
    linarith
  · have h1 : fl x' ≤ q * x' + tiny := by
      have : x' + 1 / 2 ^ 53 * x' ≤ q * x' := by
        have : (1 : ℚ) + 1 / 2 ^ 53 ≤ q := by unfold q; norm_num
        nlinarith
      linarith
    have h2 : q * x' ≤ q * (q ^ k * x + b) := mul_le_mul_of_nonneg_left h.hi hq.le
    have h3 : q * b ≤ 2 * b := mul_le_mul_of_nonneg_right q_le_two hb
    rw [pow_succ]
    nlinarith

theorem Ap.close {b x' x : ℚ} (h : Ap 7 b x' x) (hx : 0 ≤ x) : |x' - x| ≤ 1 / 2 ^ 49 * x + b := by
  have h1 : q ^ 7 ≤ 1 + 1 / 2 ^ 49 := by unfold q; norm_num
  have h2 : (1 - 1 / 2 ^ 49) * q ^ 7 ≤ 1 := by unfold q; norm_num
  have h3 : (1 - 1 / 2 ^ 49) * x ≤ x / q ^ 7 := by
    rw [le_div_iff₀ (pow_pos q_pos _)]
    nlinarith
  have := h.lo
  have := h.hi
  rw [abs_le]
  constructor <;> nlinarith

/-- The complement of a binary64 number of `[0, 1)` is rounded with a relative error only. -/
theorem ap_complement (H : RoundsNearest fl) {t : ℚ} (ht : IsF64 t) (h0 : 0 ≤ t) (h1 : t < 1) :
    Ap 1 0 (fl (1 - t)) (1 - t) ∧ 0 ≤ fl (1 - t) ∧ fl (1 - t) ≤ 1 := by
  have hg := gap_below ht h1
  refine ⟨?_, H.nonneg (by linarith), H.le_one (by linarith)⟩
  have e := H.rel_err (1 - t) (by
    rw [abs_of_pos (by linarith)]
    refine le_trans ?_ (show (1 : ℚ) / 2 ^ 53 ≤ 1 - t by linarith)
    rw [show (1 : ℚ) / 2 ^ 53 = 2 ^ (-53 : ℤ) by norm_num]
    exact zpow_le_zpow_right₀ (by norm_num) (by norm_num))
  rw [abs_of_pos (by linarith : (0 : ℚ) < 1 - t), abs_le] at e
  have hq := q_pos
  constructor
  · rw [pow_one, sub_zero, div_le_iff₀ hq]
    have : (1 : ℚ) ≤ (1 - 1 / 2 ^ 53) * q := by unfold q; norm_num
    nlinarith
  · have : (1 : ℚ) + 1 / 2 ^ 53 ≤ q := by unfold q; norm_num
    rw [pow_one]
    nlinarith

/-- One term of the interpolation. -/
theorem ap_term (H : RoundsNearest fl) {a u' u v' v : ℚ} {i j : ℕ} (ha : 0 ≤ a) (hi : i ≤ 1) (hj : j ≤ 1)
    (gu : Ap i 0 u' u) (gv : Ap j 0 v' v) (u0 : 0 ≤ u') (u1 : u' ≤ 1) (v0 : 0 ≤ v') (v1 : v' ≤ 1) (hu : 0 ≤ u) (hv : 0 ≤ v) :
    Ap 4 (3 * tiny) (fl (fl (a * u') * v')) (a * u * v) ∧ 0 ≤ fl (fl (a * u') * v') := by
  have ht := tiny_pos
  have s1 := (Ap.refl a).mul gu ha u0 u1 (le_refl _)
  have s2 := s1.round H (mul_nonneg ha u0) (le_refl _)
  have p1 : 0 ≤ fl (a * u') := H.nonneg (mul_nonneg ha u0)
  have s3 := s2.mul gv (mul_nonneg ha hu) v0 v1 (by linarith)
  have s4 := s3.round H (mul_nonneg p1 v0) (by linarith)
  exact ⟨s4.weaken (mul_nonneg (mul_nonneg ha hu) hv) (by omega) (by linarith), H.nonneg (mul_nonneg p1 v0)⟩

theorem cInt_nonneg {c : ℚ} (h : 0 ≤ c) : cInt c = ((⌊c⌋.toNat : ℕ) : ℤ) := by
  rw [cInt, if_pos h, Int.toNat_of_nonneg (Int.floor_nonneg.2 h)]

theorem floor_cell {n : ℕ} {c : ℚ} (h0 : 0 ≤ c) (h1 : c ≤ n - 1.0009) :
    cInt c = ((⌊c⌋.toNat : ℕ) : ℤ) ∧ ⌊c⌋.toNat + 1 < n ∧ ((⌊c⌋.toNat : ℕ) : ℚ) ≤ c ∧ c < (⌊c⌋.toNat : ℕ) + 1 ∧
      c - (⌊c⌋.toNat : ℕ) = c - ⌊c⌋ := by
  have hf : 0 ≤ ⌊c⌋ := Int.floor_nonneg.2 h0
  have hc : ((⌊c⌋.toNat : ℕ) : ℤ) = ⌊c⌋ := Int.toNat_of_nonneg hf
  have hr : ((⌊c⌋.toNat : ℕ) : ℚ) = (⌊c⌋ : ℚ) := by
    rw [← hc]; norm_cast
  refine ⟨cInt_nonneg h0, ?_, by rw [hr]; exact Int.floor_le c, by rw [hr]; exact Int.lt_floor_add_one c, by rw [hr]⟩
  have h2 : ((⌊c⌋.toNat : ℕ) : ℚ) + 1 < n := by
    rw [hr]
    have := Int.floor_le c
    norm_num at h1
    linarith
  exact_mod_cast h2

theorem readAt_ok (I : Img ℚ) {a b : ℕ} (ha : a < I.rows) (hb : b < I.cols) : readAt I a b = .ok (I.at_ a b) := by
  unfold readAt
  rw [if_pos (by omega)]
  simp

/-- The interpolation always reads inside the image. -/
theorem interp_defined (H : RoundsNearest fl) (I : Img ℚ) (hr : 2 ≤ I.rows) (hc : 2 ≤ I.cols) (hr' : I.rows ≤ 2 ^ 31)
    (hc' : I.cols ≤ 2 ^ 31) (x y : ℚ) : ∃ v, interp fl I I.rows I.cols x y = .ok v := by
  obtain ⟨hx0, hx1⟩ := clampCoord_bounds H hc hc' x
  obtain ⟨hy0, hy1⟩ := clampCoord_bounds H hr hr' y
  obtain ⟨ex, kx, -⟩ := floor_cell hx0 hx1
  obtain ⟨ey, ky, -⟩ := floor_cell hy0 hy1
  unfold interp
  simp only [ex, ey]
  generalize ⌊clampCoord fl I.cols x⌋.toNat = k at *
  generalize ⌊clampCoord fl I.rows y⌋.toNat = l at *
  rw [readAt_ok I (by omega) (by omega)]
  rw [show ((k : ℤ) + 1) = ((k + 1 : ℕ) : ℤ) by push_cast; ring,
    show ((l : ℤ) + 1) = ((l + 1 : ℕ) : ℤ) by push_cast; ring]
  rw [readAt_ok I (by omega) (by omega), readAt_ok I (by omega) (by omega), readAt_ok I (by omega) (by omega)]
  exact ⟨_, rfl⟩

/-- The response at the clamped position, exactly interpolated. -/
noncomputable def exactAt (fl : ℚ → ℚ) (I : Img ℚ) (x y : ℚ) : ℝ :=
  Spec.bilinear (realImg I) ((clampCoord fl I.cols x : ℚ) : ℝ) ((clampCoord fl I.rows y : ℚ) : ℝ)

/-- Interpolation in floating point: relative error `2^-49`. -/
theorem interp_close (H : RoundsNearest fl) (I : Img ℚ) (hr : 2 ≤ I.rows) (hc : 2 ≤ I.cols) (hr' : I.rows ≤ 2 ^ 31)
    (hc' : I.cols ≤ 2 ^ 31) (hI : ∀ i < I.rows, ∀ j < I.cols, 0 ≤ I.at_ i j) {x y : ℚ} (hx : IsF64 x) (hy : IsF64 y)
    {v : ℚ} (hv : interp fl I I.rows I.cols x y = .ok v) :
    0 ≤ v ∧ 0 ≤ exactAt fl I x y ∧ |(v : ℝ) - exactAt fl I x y| ≤ 1 / 2 ^ 49 * exactAt fl I x y + 1 / 2 ^ 990 := by
  obtain ⟨hx0, hx1⟩ := clampCoord_bounds H hc hc' x
  obtain ⟨hy0, hy1⟩ := clampCoord_bounds H hr hr' y
  obtain ⟨ex, kx, lx, ux, fx⟩ := floor_cell hx0 hx1
  obtain ⟨ey, ky, ly, uy, fy⟩ := floor_cell hy0 hy1
  have hfx := isF64_fract (clampCoord_f64 H I.cols hx) hx0
  have hfy := isF64_fract (clampCoord_f64 H I.rows hy) hy0
  rw [← fx] at hfx
  rw [← fy] at hfy
  unfold interp at hv
  unfold exactAt
  simp only [ex, ey] at hv
  generalize clampCoord fl I.cols x = cx at *
  generalize clampCoord fl I.rows y = cy at *
  generalize ⌊cx⌋.toNat = k at *
  generalize ⌊cy⌋.toNat = l at *
  rw [readAt_ok I (by omega) (by omega)] at hv
  rw [show ((k : ℤ) + 1) = ((k + 1 : ℕ) : ℤ) by push_cast; ring,
    show ((l : ℤ) + 1) = ((l + 1 : ℕ) : ℤ) by push_cast; ring] at hv
  rw [readAt_ok I (by omega) (by omega), readAt_ok I (by omega) (by omega), readAt_ok I (by omega) (by omega)] at hv
  simp only [Except.ok.injEq, Int.cast_natCast] at hv
  rw [H.exact hfx, H.exact hfy] at hv
  rw [Nms.bilinear_cell (realImg I) (k := k) (l := l) kx ky (by exact_mod_cast lx) (by exact_mod_cast ux)
    (by exact_mod_cast ly) (by exact_mod_cast uy)]
  obtain ⟨cX, cX0, cX1⟩ := ap_complement H hfx (by linarith) (by linarith)
  obtain ⟨cY, cY0, cY1⟩ := ap_complement H hfy (by linarith) (by linarith)
  have hX := Ap.refl (cx - k)
  have hY := Ap.refl (cy - l)
  have bX0 : 0 ≤ cx - k := by linarith
  have bX1 : cx - k ≤ 1 := by linarith
  have bY0 : 0 ≤ cy - l := by linarith
  have bY1 : cy - l ≤ 1 := by linarith
  have iX0 : 0 ≤ 1 - (cx - k) := by linarith
  have iY0 : 0 ≤ 1 - (cy - l) := by linarith
  have ha := hI l (by omega) k (by omega)
  have hb := hI l (by omega) (k + 1) (by omega)
  have hcc := hI (l + 1) (by omega) k (by omega)
  have hd := hI (l + 1) (by omega) (k + 1) (by omega)
  obtain ⟨tA, nA⟩ := ap_term H ha (by omega) (by omega) cX cY cX0 cX1 cY0 cY1 iX0 iY0
  obtain ⟨tB, nB⟩ := ap_term H hb (by omega) (by omega) hX cY bX0 bX1 cY0 cY1 bX0 iY0
  obtain ⟨tC, nC⟩ := ap_term H hcc (by omega) (by omega) cX hY cX0 cX1 bY0 bY1 iX0 bY0
  obtain ⟨tD, nD⟩ := ap_term H hd (by omega) (by omega) hX hY bX0 bX1 bY0 bY1 bX0 bY0
  have ht := tiny_pos
  have pA := mul_nonneg (mul_nonneg ha iX0) iY0
  have pB := mul_nonneg (mul_nonneg hb bX0) iY0
  have pC := mul_nonneg (mul_nonneg hcc iX0) bY0
  have pD := mul_nonneg (mul_nonneg hd bX0) bY0
  have s1 := (tA.add tB).round H (add_nonneg nA nB) (by linarith)
  have n1 := H.nonneg (add_nonneg nA nB)
  have s2 := (s1.add (tC.weaken pC (by omega : 4 ≤ 5) (le_refl _))).round H (add_nonneg n1 nC) (by linarith)
  have n2 := H.nonneg (add_nonneg n1 nC)
  have s3 := (s2.add (tD.weaken pD (by omega : 4 ≤ 6) (le_refl _))).round H (add_nonneg n2 nD) (by linarith)
  have n3 := H.nonneg (add_nonneg n2 nD)
  have pS := add_nonneg (add_nonneg (add_nonneg pA pB) pC) pD
  have s4 := s3.close pS
  rw [hv] at s4 n3
  have hcast : ((realImg I).at_ l k * (1 - ((cx : ℝ) - k)) * (1 - ((cy : ℝ) - l)) +
      (realImg I).at_ l (k + 1) * ((cx : ℝ) - k) * (1 - ((cy : ℝ) - l)) +
      (realImg I).at_ (l + 1) k * (1 - ((cx : ℝ) - k)) * ((cy : ℝ) - l) +
      (realImg I).at_ (l + 1) (k + 1) * ((cx : ℝ) - k) * ((cy : ℝ) - l)) =
      ((I.at_ l k * (1 - (cx - k)) * (1 - (cy - l)) + I.at_ l (k + 1) * (cx - k) * (1 - (cy - l)) +
        I.at_ (l + 1) k * (1 - (cx - k)) * (cy - l) + I.at_ (l + 1) (k + 1) * (cx - k) * (cy - l) : ℚ) : ℝ) := by
    unfold realImg; push_cast; ring
  rw [hcast]
  generalize I.at_ l k * (1 - (cx - k)) * (1 - (cy - l)) + I.at_ l (k + 1) * (cx - k) * (1 - (cy - l)) +
        I.at_ (l + 1) k * (1 - (cx - k)) * (cy - l) + I.at_ (l + 1) (k + 1) * (cx - k) * (cy - l) = B at *
  refine ⟨n3, by exact_mod_cast pS, ?_⟩
  have hfin : |v - B| ≤ 1 / 2 ^ 49 * B + 1 / 2 ^ 990 := by
    refine s4.trans ?_
    have : (2 * (2 * (2 * (3 * tiny + 3 * tiny) + tiny + 3 * tiny) + tiny + 3 * tiny) + tiny) ≤ 1 / 2 ^ 990 := by
      unfold tiny
      have : (1 : ℚ) / 2 ^ 990 = 1024 * (1 / 2 ^ 1000) := by
        rw [show (1000 : ℕ) = 990 + 10 from rfl, pow_add]
        have h : (2 : ℚ) ^ 990 ≠ 0 := by positivity
        generalize (2 : ℚ) ^ 990 = z at h ⊢
        field_simp
        norm_num
      rw [this]
      have : (0 : ℚ) < 1 / 2 ^ 1000 := by positivity
      linarith
    linarith
  have hR := (Rat.cast_le (K := ℝ)).2 hfin
  rw [Rat.cast_abs] at hR
  simp only [Rat.cast_sub, Rat.cast_add, Rat.cast_mul, Rat.cast_div, Rat.cast_one, Rat.cast_pow, Rat.cast_ofNat] at hR
  exact hR

end EdgeEval.NmsFloat
