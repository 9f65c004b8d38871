import Verif.Lemmas.NmsFloatReal
import Verif.Lemmas.Float32
import Verif.Lemmas.ConvTri
import Mathlib.Data.List.Forall2

/-!
# The triangle filter of radius 1 in floating point
-/

namespace EdgeEval.NmsFloat

open EdgeEval EdgeEval.Spec

/-- What the smoothing uses of a float type: `P` are its numbers, `u` bounds the error of a rounding in `[0, 1]`. -/
structure Rd (rd : ℚ → ℚ) (P : ℚ → Prop) (u : ℚ) : Prop where
  mono : ∀ {x y}, x ≤ y → rd x ≤ rd y
  rep : ∀ x, P (rd x)
  exact : ∀ {x}, P x → rd x = x
  quarter : ∀ k : ℕ, k ≤ 4 → P ((k : ℚ) / 4)
  err : ∀ {x}, 0 ≤ x → x ≤ 1 → |rd x - x| ≤ u

theorem isF64_quarter (k : ℤ) (h : |k| ≤ 2 ^ 53) : IsF64 ((k : ℚ) / 4) := ⟨k, -2, h, by norm_num, by norm_num; ring⟩

theorem rd64 {fl : ℚ → ℚ} (H : RoundsNearest fl) : Rd fl IsF64 (1 / 2 ^ 54) :=
  ⟨H.mono, H.rep, H.exact, fun k hk => by
    have := isF64_quarter (k : ℤ) (by rw [abs_of_nonneg (by positivity)]; norm_num; omega)
    simpa using this, H.err_unit⟩

theorem rd32 {fl : ℚ → ℚ} (H : RoundsNearest32 fl) : Rd fl IsF32 (1 / 2 ^ 25) :=
  ⟨H.mono, H.rep, H.exact, fun k hk => by
    have := isF32_quarter (k : ℤ) (by rw [abs_of_nonneg (by positivity)]; norm_num; omega)
    simpa using this, H.err_unit⟩

variable {rd : ℚ → ℚ} {P : ℚ → Prop} {u : ℚ}

theorem Rd.u0 (R : Rd rd P u) : 0 ≤ u := (abs_nonneg _).trans (R.err (le_refl 0) (by norm_num))

theorem Rd.zero (R : Rd rd P u) : rd 0 = 0 := R.exact (by simpa using R.quarter 0 (by norm_num))

theorem Rd.nonneg (R : Rd rd P u) {x : ℚ} (h : 0 ≤ x) : 0 ≤ rd x := R.zero ▸ R.mono h

theorem Rd.le_quarter (R : Rd rd P u) {x : ℚ} {k : ℕ} (hk : k ≤ 4) (h : x ≤ k / 4) : rd x ≤ k / 4 := by
  have := R.mono h
  rwa [R.exact (R.quarter k hk)] at this

/-- Sums of numbers bounded by quarters. -/
theorem sums_quarter (R : Rd rd P u) {l : List ℚ} {s : ℚ} (h : SumsTo rd l s) (ks : List ℕ)
    (hb : List.Forall₂ (fun x k => P x ∧ 0 ≤ x ∧ x ≤ ((k : ℕ) : ℚ) / 4) l ks) (hk : ks.sum ≤ 4) :
    P s ∧ 0 ≤ s ∧ s ≤ (ks.sum : ℚ) / 4 ∧ (l.length = 0 → s = 0) ∧
      |s - l.sum| ≤ ((l.length - 1 : ℕ) : ℚ) * u := by
  induction h generalizing ks with
  | nil =>
    cases hb
    refine ⟨by simpa using R.quarter 0 (by norm_num), le_refl _, by simp, fun _ => rfl, by simp⟩
  | one x =>
    obtain ⟨k, ks', ⟨h1, h2, h3⟩, h4, rfl⟩ := List.forall₂_cons_left_iff.1 hb
    cases h4
    refine ⟨h1, h2, by simpa using h3, by simp, by simp⟩
  | @add l l₁ l₂ a b ha hb' hperm ih1 ih2 =>
    obtain ⟨ks', hf, hp⟩ := List.perm_comp_forall₂ hperm.symm hb
    have hf' := hf
    obtain ⟨k1, k2, f1, f2, rfl⟩ : ∃ k1 k2, List.Forall₂ (fun x k => P x ∧ 0 ≤ x ∧ x ≤ ((k : ℕ) : ℚ) / 4) l₁ k1 ∧
        List.Forall₂ (fun x k => P x ∧ 0 ≤ x ∧ x ≤ ((k : ℕ) : ℚ) / 4) l₂ k2 ∧ ks' = k1 ++ k2 := by
      refine ⟨ks'.take l₁.length, ks'.drop l₁.length, (List.forall₂_take_append _ _ _ hf.flip).flip,
        (List.forall₂_drop_append _ _ _ hf.flip).flip, (List.take_append_drop _ _).symm⟩
    have hsum : ks.sum = k1.sum + k2.sum := by rw [← hp.sum_eq, List.sum_append]
    obtain ⟨a1, a2, a3, a4, a5⟩ := ih1 k1 f1 (by omega)
    obtain ⟨b1, b2, b3, b4, b5⟩ := ih2 k2 f2 (by omega)
    have hle : a + b ≤ ((ks.sum : ℕ) : ℚ) / 4 := by rw [hsum, Nat.cast_add]; linarith
    have hlen : l.length = l₁.length + l₂.length := by rw [hperm.length_eq, List.length_append]
    have hls : l.sum = l₁.sum + l₂.sum := by rw [hperm.sum_eq, List.sum_append]
    have h1 : a + b ≤ 1 := by
      refine hle.trans ?_
      rw [div_le_one (by norm_num)]; exact_mod_cast hk
    refine ⟨R.rep _, R.nonneg (by linarith), R.le_quarter hk hle, ?_, ?_⟩
    · intro h0
      rw [a4 (by omega), b4 (by omega), add_zero, R.zero]
    · rw [hls, hlen]
      rcases Nat.eq_zero_or_pos l₁.length with z1 | z1
      · have : l₁ = [] := List.length_eq_zero_iff.1 z1
        subst this
        rw [a4 rfl, zero_add, R.exact b1]
        simpa using b5
      rcases Nat.eq_zero_or_pos l₂.length with z2 | z2
      · have : l₂ = [] := List.length_eq_zero_iff.1 z2
        subst this
        rw [b4 rfl, add_zero, R.exact a1]
        simpa using a5
      · have e := R.err (by linarith : 0 ≤ a + b) h1
        have c1 : ((l₁.length + l₂.length - 1 : ℕ) : ℚ) = ((l₁.length - 1 : ℕ) : ℚ) + ((l₂.length - 1 : ℕ) : ℚ) + 1 := by
          have : l₁.length + l₂.length - 1 = (l₁.length - 1) + (l₂.length - 1) + 1 := by omega
          rw [this]; push_cast; ring
        rw [c1]
        rw [abs_le] at *
        constructor <;> linarith [e.1, e.2, a5.1, a5.2, b5.1, b5.2]

theorem taps1_eq {fl : ℚ → ℚ} (H : RoundsNearest fl) (R : Rd rd P u) : taps1 fl rd = [1 / 4, 1 / 2, 1 / 4] := by
  have f : ∀ k : ℕ, k ≤ 2 ^ 53 → fl (k : ℚ) = k := fun k hk => H.nat k hk
  have h12 : fl (12 / 1) = 12 := by have := f 12 (by norm_num); norm_num at this ⊢; exact this
  have h4 : fl ((12 : ℚ) / (1 + 2)) = 4 := by have := f 4 (by norm_num); norm_num at this ⊢; exact this
  have h2 : fl ((4 : ℚ) - 2) = 2 := by have := f 2 (by norm_num); norm_num at this ⊢; exact this
  have h4' : fl ((2 : ℚ) + 2) = 4 := by have := f 4 (by norm_num); norm_num at this ⊢; exact this
  have q1 : fl ((1 : ℚ) / 4) = 1 / 4 := H.exact (by simpa using isF64_quarter 1 (by norm_num))
  have q2 : fl ((2 : ℚ) / 4) = 1 / 2 := by
    rw [H.exact (by simpa using isF64_quarter 2 (by norm_num))]; norm_num
  have r1 : rd ((1 : ℚ) / 4) = 1 / 4 := R.exact (by simpa using R.quarter 1 (by norm_num))
  have r2 : rd ((1 : ℚ) / 2) = 1 / 2 := R.exact (by have := R.quarter 2 (by norm_num); norm_num at this ⊢; exact this)
  unfold taps1
  simp only [h12, h4, h2, h4', q1, q2, r1, r2]

/-- One output of the convolution. -/
theorem conv1_close (R : Rd rd P u) {sum : List ℚ → ℚ} (hS : ∀ l, SumsTo rd l (sum l)) {a : ℕ → ℚ} {i : ℕ}
    (h : ∀ k < 3, 0 ≤ a (i + k) ∧ a (i + k) ≤ 1) :
    P (conv1 rd sum [1 / 4, 1 / 2, 1 / 4] a i) ∧ 0 ≤ conv1 rd sum [1 / 4, 1 / 2, 1 / 4] a i ∧
      conv1 rd sum [1 / 4, 1 / 2, 1 / 4] a i ≤ 1 ∧
      |conv1 rd sum [1 / 4, 1 / 2, 1 / 4] a i - (a i / 4 + a (i + 1) / 2 + a (i + 2) / 4)| ≤ 5 * u := by
  have hl : conv1 rd sum [1 / 4, 1 / 2, 1 / 4] a i =
      sum [rd (1 / 4 * a i), rd (1 / 2 * a (i + 1)), rd (1 / 4 * a (i + 2))] := rfl
  rw [hl]
  obtain ⟨a0, a1⟩ := h 0 (by norm_num)
  obtain ⟨b0, b1⟩ := h 1 (by norm_num)
  obtain ⟨c0, c1⟩ := h 2 (by norm_num)
  rw [Nat.add_zero] at a0 a1
  have ea := R.err (x := 1 / 4 * a i) (by linarith) (by linarith)
  have eb := R.err (x := 1 / 2 * a (i + 1)) (by linarith) (by linarith)
  have ec := R.err (x := 1 / 4 * a (i + 2)) (by linarith) (by linarith)
  have bound : ∀ {x : ℚ} (k : ℕ), k ≤ 4 → 0 ≤ x → x ≤ (k : ℚ) / 4 → P (rd x) ∧ 0 ≤ rd x ∧ rd x ≤ (k : ℚ) / 4 :=
    fun {x} k hk h0 h1 => ⟨R.rep _, R.nonneg h0, R.le_quarter hk h1⟩
  obtain ⟨s1, s2, s3, -, s5⟩ := sums_quarter R (hS [rd (1 / 4 * a i), rd (1 / 2 * a (i + 1)), rd (1 / 4 * a (i + 2))])
    [1, 2, 1] (by
      refine .cons (bound 1 (by norm_num) (by linarith) (by push_cast; linarith)) (.cons (bound 2 (by norm_num) (by linarith)
        (by push_cast; linarith)) (.cons (bound 1 (by norm_num) (by linarith) (by push_cast; linarith)) .nil))) (by norm_num)
  refine ⟨s1, s2, by simpa using s3, ?_⟩
  simp only [List.length_cons, List.length_nil, List.sum_cons, List.sum_nil] at s5
  norm_num at s5
  rw [abs_le] at *
  norm_num at *
  constructor <;> linarith [ea.1, ea.2, eb.1, eb.2, ec.1, ec.2, s5.1, s5.2]

theorem triMean_one (I : Img ℝ) (i j : ℕ) : triMean I 1 i j =
    (∑ a ∈ ({-1, 0, 1} : Finset ℤ), triWeight 1 a *
      (I.at_ (mirror I.rows (i + a)) (mirror I.cols ((j : ℤ) - 1)) / 4 +
        I.at_ (mirror I.rows (i + a)) (mirror I.cols j) / 2 + I.at_ (mirror I.rows (i + a)) (mirror I.cols ((j : ℤ) + 1)) / 4)) := by
  unfold triMean
  have e : Finset.Icc (-((1 : ℕ) : ℤ)) ((1 : ℕ) : ℤ) = {-1, 0, 1} := by decide
  rw [e]
  refine Finset.sum_congr rfl fun a _ => ?_
  rw [Finset.sum_insert (by decide), Finset.sum_insert (by decide), Finset.sum_singleton]
  have w1 : triWeight 1 (-1) = 1 / 4 := by unfold triWeight; norm_num
  have w0 : triWeight 1 0 = 1 / 2 := by unfold triWeight; norm_num
  have w2 : triWeight 1 1 = 1 / 4 := by unfold triWeight; norm_num
  rw [w1, w0, w2, show (j : ℤ) + -1 = (j : ℤ) - 1 by ring, add_zero]
  ring

theorem mirror_lt {n : ℕ} (hn : 0 < n) (k : ℤ) : mirror n k < n := by
  unfold mirror
  have h0 := Int.emod_nonneg k (show (2 * n : ℤ) ≠ 0 by omega)
  have h1 := Int.emod_lt_of_pos k (show (0 : ℤ) < 2 * n by omega)
  omega

/-- The smoothed image: exactly inside `[0, 1]`, and close to the exact one. -/
theorem convTri1_close {fl : ℚ → ℚ} (H : RoundsNearest fl) (R : Rd rd P u) {sum : List ℚ → ℚ}
    (hS : ∀ l, SumsTo rd l (sum l)) {im : Img ℚ} (hr : 0 < im.rows) (hc : 0 < im.cols)
    (h : ∀ i < im.rows, ∀ j < im.cols, 0 ≤ im.at_ i j ∧ im.at_ i j ≤ 1) :
    (convTri1 fl rd sum im).rows = im.rows ∧ (convTri1 fl rd sum im).cols = im.cols ∧ ∀ i j,
      P ((convTri1 fl rd sum im).at_ i j) ∧ 0 ≤ (convTri1 fl rd sum im).at_ i j ∧ (convTri1 fl rd sum im).at_ i j ≤ 1 ∧
      |(((convTri1 fl rd sum im).at_ i j : ℚ) : ℝ) - triMean (realImg im) 1 i j| ≤ 10 * (u : ℝ) := by
  have hne : im.rows * im.cols ≠ 0 := (Nat.mul_pos hr hc).ne'
  unfold convTri1
  rw [if_neg hne, taps1_eq H R]
  refine ⟨rfl, rfl, fun i j => ?_⟩
  simp only [Nms.symIdx_eq hr, Nms.symIdx_eq hc]
  have hpix : ∀ k l : ℤ, 0 ≤ im.at_ (mirror im.rows k) (mirror im.cols l) ∧ im.at_ (mirror im.rows k) (mirror im.cols l) ≤ 1 :=
    fun k l => h _ (mirror_lt hr k) _ (mirror_lt hc l)
  have H1 := fun k : ℕ => conv1_close R hS
    (a := fun (l : ℕ) => im.at_ (mirror im.rows ((k : ℤ) - 1)) (mirror im.cols ((l : ℤ) - 1))) (i := j)
    fun l _ => hpix _ _
  have H2 := conv1_close R hS (a := fun (k : ℕ) => conv1 rd sum [1 / 4, 1 / 2, 1 / 4]
    (fun (l : ℕ) => im.at_ (mirror im.rows ((k : ℤ) - 1)) (mirror im.cols ((l : ℤ) - 1))) j) (i := i)
    fun k _ => ⟨(H1 _).2.1, (H1 _).2.2.1⟩
  refine ⟨H2.1, H2.2.1, H2.2.2.1, ?_⟩
  have E := H2.2.2.2
  have E0 := (H1 i).2.2.2
  have E1 := (H1 (i + 1)).2.2.2
  have E2 := (H1 (i + 2)).2.2.2
  simp only [Nat.cast_add, Nat.cast_one, Nat.cast_ofNat, add_sub_cancel_right] at E0 E1 E2 E
  have hz : ∀ z : ℤ, z + 2 - 1 = z + 1 := fun z => by ring
  simp only [hz] at E E0 E1 E2
  rw [triMean_one]
  rw [Finset.sum_insert (by decide), Finset.sum_insert (by decide), Finset.sum_singleton]
  have w1 : triWeight 1 (-1) = 1 / 4 := by unfold triWeight; norm_num
  have w0 : triWeight 1 0 = 1 / 2 := by unfold triWeight; norm_num
  have w2 : triWeight 1 1 = 1 / 4 := by unfold triWeight; norm_num
  rw [w1, w0, w2, show (i : ℤ) + -1 = (i : ℤ) - 1 by ring, add_zero]
  simp only [realImg]
  generalize conv1 rd sum [1 / 4, 1 / 2, 1 / 4] (fun k => conv1 rd sum [1 / 4, 1 / 2, 1 / 4]
    (fun (l : ℕ) => im.at_ (mirror im.rows ((k : ℤ) - 1)) (mirror im.cols ((l : ℤ) - 1))) j) i = Z at *
  have fin : |Z - (1 / 4 * (im.at_ (mirror im.rows ((i : ℤ) - 1)) (mirror im.cols ((j : ℤ) - 1)) / 4 +
      im.at_ (mirror im.rows ((i : ℤ) - 1)) (mirror im.cols j) / 2 +
      im.at_ (mirror im.rows ((i : ℤ) - 1)) (mirror im.cols ((j : ℤ) + 1)) / 4) +
      (1 / 2 * (im.at_ (mirror im.rows i) (mirror im.cols ((j : ℤ) - 1)) / 4 +
      im.at_ (mirror im.rows i) (mirror im.cols j) / 2 + im.at_ (mirror im.rows i) (mirror im.cols ((j : ℤ) + 1)) / 4) +
      1 / 4 * (im.at_ (mirror im.rows ((i : ℤ) + 1)) (mirror im.cols ((j : ℤ) - 1)) / 4 +
      im.at_ (mirror im.rows ((i : ℤ) + 1)) (mirror im.cols j) / 2 +
      im.at_ (mirror im.rows ((i : ℤ) + 1)) (mirror im.cols ((j : ℤ) + 1)) / 4)))| ≤ 10 * u := by
    rw [abs_le] at *
    constructor <;> linarith [E.1, E.2, E0.1, E0.2, E1.1, E1.2, E2.1, E2.2]
  have := (Rat.cast_le (K := ℝ)).2 fin
  rw [Rat.cast_abs] at this
  push_cast at this
  exact this

end EdgeEval.NmsFloat
