import Verif.Spec.Rounding
import Mathlib.NumberTheory.Real.Irrational
import Mathlib.Data.Int.Log
import Mathlib.Tactic.Ring
import Mathlib.Tactic.LinearCombination
import Mathlib.Tactic.Positivity

/-!
# Sums of two rounded square roots against a whole number
-/

namespace EdgeEval

open Spec

/-- A sum of two square roots of whole numbers that is not the whole number `r` is not close to it. -/
theorem sqrt_gap (a b r : ℕ) (h : Real.sqrt a + Real.sqrt b ≠ r) :
    1 ≤ |Real.sqrt a + Real.sqrt b - r| * (2 * r + 1) ^ 3 := by
  set s := Real.sqrt a with hs
  set t := Real.sqrt b with ht
  have s0 : 0 ≤ s := Real.sqrt_nonneg _
  have t0 : 0 ≤ t := Real.sqrt_nonneg _
  have s2 : s ^ 2 = a := Real.sq_sqrt (by positivity)
  have t2 : t ^ 2 = b := Real.sq_sqrt (by positivity)
  have r0 : (0 : ℝ) ≤ r := by positivity
  have hR : (1 : ℝ) ≤ (2 * (r : ℝ) + 1) ^ 3 := one_le_pow₀ (by linarith)
  by_cases hbig : (r : ℝ) + 1 < s + t
  · have : 1 ≤ |s + t - r| := by rw [abs_of_pos (by linarith)]; linarith
    calc (1 : ℝ) = 1 * 1 := by ring
      _ ≤ _ := mul_le_mul this hR (by norm_num) (abs_nonneg _)
  push Not at hbig
  have hP : (s + t - r) * (r + s + t) * (r - s + t) * (r + s - t) =
      ((-((r : ℤ) ^ 4 + (a : ℤ) ^ 2 + (b : ℤ) ^ 2 - 2 * (r : ℤ) ^ 2 * a - 2 * (r : ℤ) ^ 2 * b - 2 * a * b) : ℤ) : ℝ) := by
    push_cast
    rw [← s2, ← t2]
    ring
  set P : ℤ := -((r : ℤ) ^ 4 + (a : ℤ) ^ 2 + (b : ℤ) ^ 2 - 2 * (r : ℤ) ^ 2 * a - 2 * (r : ℤ) ^ 2 * b - 2 * a * b) with hPd
  have one_le : ∀ n : ℕ, Real.sqrt n ≠ 0 → 1 ≤ Real.sqrt n := by
    intro n hn
    have : n ≠ 0 := by rintro rfl; simp at hn
    rw [Real.one_le_sqrt]
    exact_mod_cast Nat.one_le_iff_ne_zero.mpr this
  have big : ∀ x : ℝ, 1 ≤ x → |s + t - r| = 2 * x → 1 ≤ |s + t - r| * (2 * (r : ℝ) + 1) ^ 3 := by
    intro x hx e
    rw [e]
    nlinarith
  by_cases hP0 : P = 0
  · rw [hP0, Int.cast_zero] at hP
    rcases mul_eq_zero.mp hP with h1 | h1
    · rcases mul_eq_zero.mp h1 with h2 | h2
      · rcases mul_eq_zero.mp h2 with h3 | h3
        · exact absurd (by linarith) h
        · exact absurd (by linarith) h
      · have e : s + t - r = 2 * t := by linarith
        have : t ≠ 0 := by intro h0; apply h; linarith
        exact big t (one_le b this) (by rw [e, abs_of_nonneg (by linarith)])
    · have e : s + t - r = 2 * s := by linarith
      have : s ≠ 0 := by intro h0; apply h; linarith
      exact big s (one_le a this) (by rw [e, abs_of_nonneg (by linarith)])
  · have h1 : (1 : ℝ) ≤ |(P : ℝ)| := by exact_mod_cast Int.one_le_abs hP0
    rw [← hP, abs_mul, abs_mul, abs_mul, mul_assoc, mul_assoc] at h1
    refine h1.trans (mul_le_mul_of_nonneg_left ?_ (abs_nonneg _))
    have b1 : |r + s + t| ≤ 2 * (r : ℝ) + 1 := by rw [abs_le]; constructor <;> linarith
    have b2 : |r - s + t| ≤ 2 * (r : ℝ) + 1 := by rw [abs_le]; constructor <;> linarith
    have b3 : |r + s - t| ≤ 2 * (r : ℝ) + 1 := by rw [abs_le]; constructor <;> linarith
    have b4 : |r - s + t| * |r + s - t| ≤ (2 * (r : ℝ) + 1) * (2 * (r : ℝ) + 1) :=
      mul_le_mul b2 b3 (abs_nonneg _) (by linarith)
    calc _ ≤ (2 * (r : ℝ) + 1) * ((2 * (r : ℝ) + 1) * (2 * (r : ℝ) + 1)) :=
          mul_le_mul b1 b4 (by positivity) (by linarith)
      _ = _ := by ring

/-- If two square roots of whole numbers add up to a whole number, they are whole themselves. -/
theorem sqrt_whole (a b r : ℕ) (h : Real.sqrt a + Real.sqrt b = r) : ∃ n : ℕ, Real.sqrt a = n ∧ n ≤ r := by
  have s0 : 0 ≤ Real.sqrt a := Real.sqrt_nonneg _
  have t0 : 0 ≤ Real.sqrt b := Real.sqrt_nonneg _
  have s2 : Real.sqrt a ^ 2 = a := Real.sq_sqrt (by positivity)
  have t2 : Real.sqrt b ^ 2 = b := Real.sq_sqrt (by positivity)
  rcases Nat.eq_zero_or_pos r with rfl | hr
  · exact ⟨0, by push_cast at h ⊢; linarith, le_rfl⟩
  · have hsq : IsSquare a := by
      by_contra hn
      have hirr := irrational_sqrt_natCast_iff.mpr hn
      apply hirr
      refine ⟨((r : ℚ) ^ 2 + a - b) / (2 * r), ?_⟩
      have hr' : (0 : ℝ) < r := by exact_mod_cast hr
      push_cast
      rw [div_eq_iff (by positivity)]
      linear_combination (-((r : ℝ) - Real.sqrt a + Real.sqrt b)) * h - s2 + t2
    obtain ⟨n, rfl⟩ := hsq
    have e : Real.sqrt ((n * n : ℕ) : ℝ) = n := by
      push_cast
      exact Real.sqrt_mul_self (by positivity)
    refine ⟨n, e, ?_⟩
    rw [e] at h
    exact_mod_cast (by linarith : (n : ℝ) ≤ r)

namespace Spec.RoundsFine

variable {fl : ℝ → ℝ} {u : ℝ} {r : ℕ}

theorem u_small {R : ℝ} (H : RoundsFine fl u R) (hR : 0 ≤ R) : 2 * u * (R + 1) < 1 := by
  have h1 : (1 : ℝ) ≤ (2 * R + 1) ^ 3 := one_le_pow₀ (by linarith)
  have h2 : 0 ≤ 2 * u * (R + 1) := by have := H.nonneg; positivity
  nlinarith [H.small]

theorem zero {R : ℝ} (H : RoundsFine fl u R) (hR : 0 ≤ R) : fl 0 = 0 := by simpa using H.whole 0 (by push_cast; linarith)

/-- Numbers of at least `R + 1` stay above `R`. -/
theorem far {R : ℝ} (H : RoundsFine fl u R) (hR : 0 ≤ R) {x : ℝ} (hx : R + 1 ≤ x) : R < fl x := by
  have h1 := H.mono _ _ hx
  have h2 := (abs_le.mp (H.err (R + 1) (by linarith))).1
  have := H.u_small hR
  nlinarith

theorem sqrt_le (H : RoundsFine fl u r) (a : ℕ) : fl (Real.sqrt a) ≤ r ↔ Real.sqrt a ≤ r := by
  have hr0 : (0 : ℝ) ≤ r := by positivity
  constructor
  · intro h
    by_contra hc
    push Not at hc
    have hg := sqrt_gap a 0 r (by simpa using hc.ne')
    rw [Nat.cast_zero, Real.sqrt_zero, add_zero, abs_of_pos (by linarith)] at hg
    by_cases hbig : (r : ℝ) + 1 ≤ Real.sqrt a
    · exact absurd h (not_le.mpr (H.far hr0 hbig))
    push Not at hbig
    have s1 : 1 ≤ Real.sqrt a := by
      rw [Real.one_le_sqrt]
      have : a ≠ 0 := by rintro rfl; simp at hc; linarith
      exact_mod_cast Nat.one_le_iff_ne_zero.mpr this
    have h2 := (abs_le.mp (H.err _ s1)).1
    have hs := H.small
    have hu := H.nonneg
    set D := (2 * (r : ℝ) + 1) ^ 3 with hD
    have hD1 : 1 ≤ D := one_le_pow₀ (by linarith)
    -- √a - r ≤ u √a < u (r+1)
    have h3 : Real.sqrt a - r ≤ u * (r + 1) := by nlinarith
    have h4 : (Real.sqrt a - r) * D ≤ u * (r + 1) * D := mul_le_mul_of_nonneg_right h3 (by linarith)
    have h5 : 0 ≤ u * (r + 1) * D := by positivity
    nlinarith
  · intro h
    rw [← H.whole r (by linarith)]
    exact H.mono _ _ h

theorem add_sqrt_le (H : RoundsFine fl u r) (a b : ℕ) :
    fl (fl (Real.sqrt a) + fl (Real.sqrt b)) ≤ r ↔ Real.sqrt a + Real.sqrt b ≤ r := by
  have hr0 : (0 : ℝ) ≤ r := by positivity
  have hs := H.small
  have hu := H.nonneg
  have hus := H.u_small hr0
  set s := Real.sqrt a with hsd
  set t := Real.sqrt b with htd
  have s0 : 0 ≤ s := Real.sqrt_nonneg _
  have t0 : 0 ≤ t := Real.sqrt_nonneg _
  have err : ∀ n : ℕ, |fl (Real.sqrt n) - Real.sqrt n| ≤ u * Real.sqrt n := by
    intro n
    rcases Nat.eq_zero_or_pos n with rfl | hn
    · simp [H.zero hr0]
    · exact H.err _ (by rw [Real.one_le_sqrt]; exact_mod_cast hn)
  have es := abs_le.mp (err a)
  have et := abs_le.mp (err b)
  rw [← hsd] at es
  rw [← htd] at et
  set D := (2 * (r : ℝ) + 1) ^ 3 with hD
  have hD1 : 1 ≤ D := one_le_pow₀ (by linarith)
  have hDu : 2 * u * (r + 1) * D < 1 := hs
  rcases lt_trichotomy (s + t) r with hlt | heq | hgt
  · refine iff_of_true ?_ hlt.le
    rw [← H.whole r (by linarith)]
    apply H.mono
    have hg := sqrt_gap a b r hlt.ne
    rw [← hsd, ← htd, abs_of_neg (by linarith)] at hg
    have h1 : u * (r + 1) < -(s + t - r) := by
      by_contra hc
      push Not at hc
      have h4 := mul_le_mul_of_nonneg_right hc (by linarith : (0 : ℝ) ≤ D)
      have h5 : 0 ≤ u * (r + 1) * D := by positivity
      nlinarith
    nlinarith
  · obtain ⟨n, en, hn⟩ := sqrt_whole a b r heq
    obtain ⟨m, em, hm⟩ := sqrt_whole b a r (by rw [add_comm]; exact heq)
    rw [← hsd] at en
    rw [← htd] at em
    have hn' : (n : ℝ) ≤ r + 1 := by exact_mod_cast hn.trans (Nat.le_succ r)
    have hm' : (m : ℝ) ≤ r + 1 := by exact_mod_cast hm.trans (Nat.le_succ r)
    refine iff_of_true ?_ heq.le
    rw [en, em, H.whole n hn', H.whole m hm', ← en, ← em, heq,
      H.whole r (by linarith)]
  · refine iff_of_false (not_le.mpr ?_) (not_le.mpr hgt)
    have hg := sqrt_gap a b r hgt.ne'
    rw [← hsd, ← htd, abs_of_pos (by linarith)] at hg
    have h1 : 2 * u * (r + 1) < s + t - r := by
      by_contra hc
      push Not at hc
      have h4 := mul_le_mul_of_nonneg_right hc (by linarith : (0 : ℝ) ≤ D)
      nlinarith
    have hu2 : 2 * u < 1 := by nlinarith
    -- fl s + fl t ≥ (1 - u)(s + t)
    have h2 : (1 - u) * (s + t) ≤ fl s + fl t := by nlinarith [es.1, et.1]
    have one : fl 1 = 1 := by simpa using H.whole 1 (by push_cast; linarith)
    have fls : 0 ≤ fl s := by rw [← H.zero hr0]; exact H.mono _ _ s0
    have flt : 0 ≤ fl t := by rw [← H.zero hr0]; exact H.mono _ _ t0
    have y1 : 1 ≤ fl s + fl t := by
      have : a ≠ 0 ∨ b ≠ 0 := by
        by_contra hc
        push Not at hc
        have : s + t = 0 := by simp [hsd, htd, hc.1, hc.2]
        linarith
      rcases this with h | h
      · have : 1 ≤ s := by rw [hsd, Real.one_le_sqrt]; exact_mod_cast Nat.one_le_iff_ne_zero.mpr h
        have := H.mono _ _ this
        linarith
      · have : 1 ≤ t := by rw [htd, Real.one_le_sqrt]; exact_mod_cast Nat.one_le_iff_ne_zero.mpr h
        have := H.mono _ _ this
        linarith
    have h3 := (abs_le.mp (H.err _ y1)).1
    have h4 : (1 - u) * ((1 - u) * (s + t)) ≤ fl (fl s + fl t) := by nlinarith
    have h5 : (1 - 2 * u) * (s + t) ≤ (1 - u) * ((1 - u) * (s + t)) := by nlinarith [mul_nonneg hu hu, sq_nonneg u]
    refine lt_of_lt_of_le ?_ (h5.trans h4)
    by_cases hb : s + t ≤ r + 1
    · nlinarith
    · push Not at hb
      nlinarith

end Spec.RoundsFine

/-! ## Round to nearest -/

theorem Spec.NearestIn.mono {F : ℚ → Prop} {fl : ℝ → ℝ} (H : NearestIn F fl) (x y : ℝ) (h : x ≤ y) : fl x ≤ fl y := by
  by_contra hc
  push Not at hc
  obtain ⟨p, hp, ep⟩ := H.rep x
  obtain ⟨q, hq, eq⟩ := H.rep y
  have h1 := H.near x q hq
  have h2 := H.near y p hp
  rw [← eq] at h1
  rw [← ep] at h2
  have e : x = y := by
    rcases abs_cases (fl x - x) with ⟨a, _⟩ | ⟨a, _⟩ <;> rcases abs_cases (fl y - x) with ⟨b, _⟩ | ⟨b, _⟩ <;>
      rcases abs_cases (fl y - y) with ⟨c, _⟩ | ⟨c, _⟩ <;> rcases abs_cases (fl x - y) with ⟨d, _⟩ | ⟨d, _⟩ <;>
      rw [a, b] at h1 <;> rw [c, d] at h2 <;> linarith
  subst e
  exact lt_irrefl _ hc

theorem Spec.NearestIn.exact {F : ℚ → Prop} {fl : ℝ → ℝ} (H : NearestIn F fl) (q : ℚ) (h : F q) : fl q = q := by
  have := H.near q q h
  simp only [sub_self, abs_zero] at this
  have := abs_nonpos_iff.mp this
  linarith

/-- A number with `p` significant bits close to `x ≥ 1`. -/
theorem exists_near_bits (p : ℕ) (x : ℝ) (hx : 1 ≤ x) :
    ∃ m k : ℤ, |m| ≤ 2 ^ p ∧ -(p : ℤ) ≤ k ∧ |(m : ℝ) * 2 ^ k - x| ≤ 1 / 2 ^ p * x := by
  have hx0 : 0 < x := by linarith
  set e := Int.log 2 x with he
  have h1 : (2 : ℝ) ^ e ≤ x := by simpa using Int.zpow_log_le_self (b := 2) (by norm_num) hx0
  have h2 : x < (2 : ℝ) ^ (e + 1) := by simpa using Int.lt_zpow_succ_log_self (b := 2) (by norm_num) x
  have e0 : 0 ≤ e := by
    by_contra hc
    push Not at hc
    have : (2 : ℝ) ^ (e + 1) ≤ 2 ^ (0 : ℤ) := zpow_le_zpow_right₀ (by norm_num) (by omega)
    rw [zpow_zero] at this
    linarith
  have hp : (0 : ℝ) < 2 ^ (e + 1 - p) := zpow_pos (by norm_num) _
  have hE : (2 : ℝ) ^ p * 2 ^ (e + 1 - p) = 2 ^ (e + 1) := by
    rw [← zpow_natCast, ← zpow_add₀ (by norm_num)]; congr 1; ring
  have hr := abs_sub_round (x / 2 ^ (e + 1 - p))
  refine ⟨round (x / 2 ^ (e + 1 - p)), e + 1 - p, ?_, by omega, ?_⟩
  · have hq : x / 2 ^ (e + 1 - p) < 2 ^ p := by rw [div_lt_iff₀ hp, hE]; exact h2
    have hq0 : 0 ≤ x / 2 ^ (e + 1 - p) := by positivity
    have h3 := abs_le.mp hr
    have h4 : ((round (x / 2 ^ (e + 1 - p)) : ℤ) : ℝ) < 2 ^ p + 1 := by linarith
    have h5 : (-1 : ℝ) < ((round (x / 2 ^ (e + 1 - p)) : ℤ) : ℝ) := by linarith
    have h6 : round (x / 2 ^ (e + 1 - p)) < 2 ^ p + 1 := by exact_mod_cast h4
    have h7 : (-1 : ℤ) < round (x / 2 ^ (e + 1 - p)) := by exact_mod_cast h5
    rw [abs_of_nonneg (by omega)]
    omega
  · have : ((round (x / 2 ^ (e + 1 - p)) : ℤ) : ℝ) * 2 ^ (e + 1 - p) - x
        = -((x / 2 ^ (e + 1 - p) - (round (x / 2 ^ (e + 1 - p)) : ℤ)) * 2 ^ (e + 1 - p)) := by
      field_simp; ring
    rw [this, abs_neg, abs_mul, abs_of_pos hp]
    calc _ ≤ 1 / 2 * (2 : ℝ) ^ (e + 1 - p) := by gcongr
      _ = 1 / 2 ^ p * 2 ^ e := by
        have : (2 : ℝ) ^ e = 2 ^ (e + 1) / 2 := by rw [zpow_add_one₀ (by norm_num)]; ring
        rw [this, ← hE]; field_simp
      _ ≤ 1 / 2 ^ p * x := by gcongr

/-- Round to nearest in binary32, up to radius 31. -/
theorem Spec.NearestIn.f32 {fl : ℝ → ℝ} (H : NearestIn IsF32 fl) {R : ℝ} (h0 : 0 ≤ R) (hR : R ≤ 31) :
    RoundsFine fl (1 / 2 ^ 24) R where
  mono := H.mono
  whole n hn := by
    have hn' : n ≤ 32 := by exact_mod_cast (by linarith : (n : ℝ) ≤ 32)
    have : IsF32 n := ⟨n, 0, by rw [abs_of_nonneg (by positivity)]; omega, by norm_num, by simp⟩
    simpa using H.exact n this
  err x hx := by
    obtain ⟨m, k, h1, h2, h3⟩ := exists_near_bits 24 x hx
    have hF : IsF32 (m * 2 ^ k) := ⟨m, k, h1, by omega, rfl⟩
    have := H.near x _ hF
    push_cast at this
    exact this.trans h3
  nonneg := by positivity
  small := by
    have h1 : (2 * R + 1) ^ 3 ≤ 63 ^ 3 := pow_le_pow_left₀ (by linarith) (by linarith) 3
    have h2 : (R + 1) * (2 * R + 1) ^ 3 ≤ 32 * 63 ^ 3 :=
      mul_le_mul (by linarith) h1 (by positivity) (by norm_num)
    calc 2 * (1 / 2 ^ 24) * (R + 1) * (2 * R + 1) ^ 3 = 2 * (1 / 2 ^ 24) * ((R + 1) * (2 * R + 1) ^ 3) := by ring
      _ ≤ 2 * (1 / 2 ^ 24) * (32 * 63 ^ 3) := by gcongr
      _ < 1 := by norm_num

/-- Round to nearest in binary64, up to radius 4800. -/
theorem Spec.NearestIn.f64 {fl : ℝ → ℝ} (H : NearestIn IsF64 fl) {R : ℝ} (h0 : 0 ≤ R) (hR : R ≤ 4800) :
    RoundsFine fl (1 / 2 ^ 53) R where
  mono := H.mono
  whole n hn := by
    have hn' : n ≤ 4801 := by exact_mod_cast (by linarith : (n : ℝ) ≤ 4801)
    have : IsF64 n := ⟨n, 0, by rw [abs_of_nonneg (by positivity)]; omega, by norm_num, by simp⟩
    simpa using H.exact n this
  err x hx := by
    obtain ⟨m, k, h1, h2, h3⟩ := exists_near_bits 53 x hx
    have hF : IsF64 (m * 2 ^ k) := ⟨m, k, h1, by omega, rfl⟩
    have := H.near x _ hF
    push_cast at this
    exact this.trans h3
  nonneg := by positivity
  small := by
    have h1 : (2 * R + 1) ^ 3 ≤ 9601 ^ 3 := pow_le_pow_left₀ (by linarith) (by linarith) 3
    have h2 : (R + 1) * (2 * R + 1) ^ 3 ≤ 4801 * 9601 ^ 3 :=
      mul_le_mul (by linarith) h1 (by positivity) (by norm_num)
    calc 2 * (1 / 2 ^ 53) * (R + 1) * (2 * R + 1) ^ 3 = 2 * (1 / 2 ^ 53) * ((R + 1) * (2 * R + 1) ^ 3) := by ring
      _ ≤ 2 * (1 / 2 ^ 53) * (4801 * 9601 ^ 3) := by gcongr
      _ < 1 := by norm_num

/-- No rounding at all. -/
theorem RoundsFine.id (R : ℝ) : RoundsFine (fun x => x) 0 R where
  mono _ _ h := h
  whole _ _ := rfl
  err x _ := by simp
  nonneg := le_rfl
  small := by norm_num

/-! ## Rounding to nearest exists -/

/-- The exponent of the last bit of `x`. -/
noncomputable def lastExpR (x : ℝ) : ℤ := max (Int.log 2 |x| - 23) (-149)

/-- One way of rounding to nearest. -/
noncomputable def nearestR (x : ℝ) : ℝ := (round (x / 2 ^ lastExpR x) : ℤ) * 2 ^ lastExpR x

theorem nearestR_rounds : NearestIn IsF32 nearestR := by
  have key : ∀ x : ℝ, |x| < 2 ^ (lastExpR x + 24) := by
    intro x
    have h2 : |x| < (2 : ℝ) ^ (Int.log 2 |x| + 1) := by
      simpa using Int.lt_zpow_succ_log_self (b := 2) (by norm_num) |x|
    refine lt_of_lt_of_le h2 (zpow_le_zpow_right₀ (by norm_num) ?_)
    unfold lastExpR
    have := le_max_left (Int.log 2 |x| - 23) (-149)
    omega
  constructor
  · intro x
    have hp : (0 : ℝ) < 2 ^ lastExpR x := zpow_pos (by norm_num) _
    refine ⟨(round (x / 2 ^ lastExpR x) : ℤ) * 2 ^ lastExpR x, ⟨_, lastExpR x, ?_, le_max_right _ _, rfl⟩,
      by unfold nearestR; push_cast; rfl⟩
    have h1 : |x / 2 ^ lastExpR x| < 2 ^ 24 := by
      rw [abs_div, abs_of_pos hp, div_lt_iff₀ hp]
      refine lt_of_lt_of_le (key x) (le_of_eq ?_)
      rw [← zpow_natCast, ← zpow_add₀ (by norm_num)]; congr 1; push_cast; ring
    have h2 := abs_sub_round (x / 2 ^ lastExpR x)
    have h3 : |((round (x / 2 ^ lastExpR x) : ℤ) : ℝ)| < 2 ^ 24 + 1 := by
      have : ((round (x / 2 ^ lastExpR x) : ℤ) : ℝ)
          = x / 2 ^ lastExpR x - (x / 2 ^ lastExpR x - (round (x / 2 ^ lastExpR x) : ℤ)) := by ring
      rw [this]
      refine lt_of_le_of_lt (abs_sub _ _) ?_
      linarith
    have h4 : |round (x / 2 ^ lastExpR x)| < 2 ^ 24 + 1 := by exact_mod_cast h3
    omega
  · intro x y hy
    have hp : (0 : ℝ) < 2 ^ lastExpR x := zpow_pos (by norm_num) _
    have mult : ∀ z : ℤ, |nearestR x - x| ≤ |(z : ℝ) * 2 ^ lastExpR x - x| := by
      intro z
      have h := round_le (x / 2 ^ lastExpR x) z
      have e1 : nearestR x - x = -((x / 2 ^ lastExpR x - (round (x / 2 ^ lastExpR x) : ℤ)) * 2 ^ lastExpR x) := by
        unfold nearestR; field_simp; ring
      have e2 : (z : ℝ) * 2 ^ lastExpR x - x = -((x / 2 ^ lastExpR x - z) * 2 ^ lastExpR x) := by
        field_simp; ring
      rw [e1, e2, abs_neg, abs_neg, abs_mul, abs_mul]
      gcongr
    obtain ⟨m, e, hm, he, rfl⟩ := hy
    rw [show (((m : ℚ) * 2 ^ e : ℚ) : ℝ) = (m : ℝ) * 2 ^ e by push_cast; rfl]
    by_cases hc : lastExpR x ≤ e
    · obtain ⟨k, rfl⟩ : ∃ k : ℕ, e = lastExpR x + k := ⟨(e - lastExpR x).toNat, by omega⟩
      have := mult (m * 2 ^ k)
      rw [zpow_add₀ (by norm_num), zpow_natCast]
      push_cast at this
      rwa [show (m : ℝ) * (2 ^ lastExpR x * 2 ^ k) = m * 2 ^ k * 2 ^ lastExpR x by ring]
    · have hl : lastExpR x = Int.log 2 |x| - 23 := by
        unfold lastExpR at hc ⊢
        rcases le_total (Int.log 2 |x| - 23) (-149) with h | h
        · rw [max_eq_right h] at hc; omega
        · exact max_eq_left h
      by_cases hx : x = 0
      · subst hx
        simp [nearestR]
        positivity
      have hx' : 0 < |x| := abs_pos.mpr hx
      have h1 : (2 : ℝ) ^ Int.log 2 |x| ≤ |x| := by simpa using Int.zpow_log_le_self (b := 2) (by norm_num) hx'
      have hy : |(m : ℝ) * 2 ^ e| ≤ 2 ^ Int.log 2 |x| := by
        have hpe : (0 : ℝ) < 2 ^ e := zpow_pos (by norm_num) _
        rw [abs_mul, abs_of_pos hpe]
        have hm' : |(m : ℝ)| ≤ 2 ^ 24 := by exact_mod_cast hm
        calc |(m : ℝ)| * 2 ^ e ≤ 2 ^ 24 * 2 ^ (lastExpR x - 1) := by
              gcongr
              · norm_num
              · omega
          _ = 2 ^ Int.log 2 |x| := by
              rw [← zpow_natCast, ← zpow_add₀ (by norm_num), hl]; congr 1; push_cast; ring
      have hpow : ((2 ^ 23 : ℤ) : ℝ) * 2 ^ lastExpR x = 2 ^ Int.log 2 |x| := by
        rw [show ((2 ^ 23 : ℤ) : ℝ) = (2 : ℝ) ^ (23 : ℤ) by norm_num, ← zpow_add₀ (by norm_num), hl]
        congr 1; ring
      have hb := abs_le.mp hy
      rcases lt_or_gt_of_ne hx with hneg | hpos
      · have := mult (-(2 ^ 23))
        rw [show ((-(2 ^ 23) : ℤ) : ℝ) * 2 ^ lastExpR x = -(2 ^ Int.log 2 |x|) by rw [← hpow]; push_cast; ring] at this
        refine this.trans ?_
        rw [abs_of_neg hneg] at h1 hb ⊢
        rw [abs_of_nonneg (by linarith), abs_of_nonneg (by linarith [hb.1])]
        linarith [hb.1]
      · have := mult (2 ^ 23)
        rw [hpow] at this
        refine this.trans ?_
        rw [abs_of_pos hpos] at h1 hb ⊢
        rw [abs_of_nonpos (by linarith), abs_of_nonpos (by linarith [hb.2])]
        linarith [hb.2]


end EdgeEval
