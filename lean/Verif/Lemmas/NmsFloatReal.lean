import Verif.Lemmas.NmsFloatMain

/-!
# Floating-point suppression against the exact one
-/

namespace EdgeEval.NmsFloat

open EdgeEval EdgeEval.Spec

variable {fl : ℚ → ℚ}

/-! ### Bilinear interpolation is Lipschitz -/

theorem tent_lip (a b : ℝ) : |tent a - tent b| ≤ |a - b| := by
  unfold tent
  refine (abs_max_sub_max_le_max _ _ _ _).trans ?_
  rw [sub_self, abs_zero, max_eq_right (abs_nonneg _)]
  have : (1 - |a|) - (1 - |b|) = |b| - |a| := by ring
  rw [this, abs_sub_comm a b]
  exact abs_abs_sub_abs_le_abs_sub _ _

theorem tent_far {t : ℝ} (h : 1 ≤ |t|) : tent t = 0 := by
  unfold tent
  exact max_eq_left (by linarith)

/-- A tent around `j` only sees the two integers next to a position. -/
theorem tent_support {x : ℝ} (h0 : 0 ≤ x) {j : ℕ} (h : tent (x - j) ≠ 0) : j = ⌊x⌋₊ ∨ j = ⌊x⌋₊ + 1 := by
  by_contra hc
  push Not at hc
  exact h (Nms.tent_other (Nat.floor_le h0) (Nat.lt_floor_add_one x) hc.1 hc.2)

theorem sum_tent_diff (n : ℕ) {x x' : ℝ} (h0 : 0 ≤ x) (h0' : 0 ≤ x') :
    ∑ j ∈ Finset.range n, |tent (x - j) - tent (x' - j)| ≤ 4 * |x - x'| := by
  classical
  set S : Finset ℕ := {⌊x⌋₊, ⌊x⌋₊ + 1, ⌊x'⌋₊, ⌊x'⌋₊ + 1} with hS
  have hcard : S.card ≤ 4 := Finset.card_le_four
  have hzero : ∀ j, j ∉ S → |tent (x - j) - tent (x' - j)| = 0 := by
    intro j hj
    simp only [hS, Finset.mem_insert, Finset.mem_singleton, not_or] at hj
    have e1 : tent (x - j) = 0 := by
      by_contra hc
      rcases tent_support h0 hc with h | h
      · exact hj.1 h
      · exact hj.2.1 h
    have e2 : tent (x' - j) = 0 := by
      by_contra hc
      rcases tent_support h0' hc with h | h
      · exact hj.2.2.1 h
      · exact hj.2.2.2 h
    rw [e1, e2, sub_zero, abs_zero]
  calc ∑ j ∈ Finset.range n, |tent (x - j) - tent (x' - j)|
      ≤ ∑ j ∈ Finset.range n ∪ S, |tent (x - j) - tent (x' - j)| :=
        Finset.sum_le_sum_of_subset_of_nonneg Finset.subset_union_left fun _ _ _ => abs_nonneg _
    _ = ∑ j ∈ S, |tent (x - j) - tent (x' - j)| := by
        symm
        exact Finset.sum_subset Finset.subset_union_right fun j _ hj => hzero j hj
    _ ≤ ∑ _j ∈ S, |x - x'| := by
        refine Finset.sum_le_sum fun j _ => ?_
        refine (tent_lip _ _).trans (le_of_eq ?_)
        congr 1; ring
    _ ≤ 4 * |x - x'| := by
        rw [Finset.sum_const, nsmul_eq_mul]
        have : (S.card : ℝ) ≤ 4 := by exact_mod_cast hcard
        exact mul_le_mul_of_nonneg_right this (abs_nonneg _)

theorem sum_tent_one {n : ℕ} {x : ℝ} (h0 : 0 ≤ x) (h1 : x ≤ (n : ℝ) - 1.0009) :
    ∑ j ∈ Finset.range n, tent (x - j) = 1 := by
  have hk : ⌊x⌋₊ + 1 < n := by
    have := Nat.floor_le h0
    have h : ((⌊x⌋₊ + 1 : ℕ) : ℝ) < n := by push_cast; norm_num at h1; linarith
    exact_mod_cast h
  have := Nms.sum_tent (fun _ => 1) hk (Nat.floor_le h0) (Nat.lt_floor_add_one x)
  simp only [one_mul] at this
  rw [this]; ring

theorem bilinear_lip {I : Img ℝ} {V : ℝ} (hV : Within I 0 V) (hV0 : 0 ≤ V) {x y x' y' : ℝ} (hx : 0 ≤ x) (hy : 0 ≤ y)
    (hy1 : y ≤ (I.rows : ℝ) - 1.0009) (hx' : 0 ≤ x') (hx1' : x' ≤ (I.cols : ℝ) - 1.0009) (hy' : 0 ≤ y') :
    |bilinear I x y - bilinear I x' y'| ≤ 4 * V * (|x - x'| + |y - y'|) := by
  have h1 : bilinear I x y - bilinear I x' y' = ∑ i ∈ Finset.range I.rows, ∑ j ∈ Finset.range I.cols,
      I.at_ i j * ((tent (x - j) - tent (x' - j)) * tent (y - i) + tent (x' - j) * (tent (y - i) - tent (y' - i))) := by
    unfold bilinear
    rw [← Finset.sum_sub_distrib]
    refine Finset.sum_congr rfl fun i _ => ?_
    rw [← Finset.sum_sub_distrib]
    refine Finset.sum_congr rfl fun j _ => ?_
    ring
  have h2 : |bilinear I x y - bilinear I x' y'| ≤ ∑ i ∈ Finset.range I.rows, ∑ j ∈ Finset.range I.cols,
      V * (|tent (x - j) - tent (x' - j)| * tent (y - i) + tent (x' - j) * |tent (y - i) - tent (y' - i)|) := by
    rw [h1]
    refine (Finset.abs_sum_le_sum_abs _ _).trans (Finset.sum_le_sum fun i hi => ?_)
    refine (Finset.abs_sum_le_sum_abs _ _).trans (Finset.sum_le_sum fun j hj => ?_)
    obtain ⟨b0, b1⟩ := hV i (Finset.mem_range.1 hi) j (Finset.mem_range.1 hj)
    rw [abs_mul, abs_of_nonneg b0]
    have t1 := Nms.tent_nonneg (y - i)
    have t2 := Nms.tent_nonneg (x' - j)
    refine mul_le_mul b1 ?_ (abs_nonneg _) hV0
    refine (abs_add_le _ _).trans ?_
    rw [abs_mul, abs_mul, abs_of_nonneg t1, abs_of_nonneg t2]
  have h3 : (∑ i ∈ Finset.range I.rows, ∑ j ∈ Finset.range I.cols,
      V * (|tent (x - j) - tent (x' - j)| * tent (y - i) + tent (x' - j) * |tent (y - i) - tent (y' - i)|))
      = V * ((∑ j ∈ Finset.range I.cols, |tent (x - j) - tent (x' - j)|) * (∑ i ∈ Finset.range I.rows, tent (y - i)) +
        (∑ j ∈ Finset.range I.cols, tent (x' - j)) * (∑ i ∈ Finset.range I.rows, |tent (y - i) - tent (y' - i)|)) := by
    rw [mul_comm (∑ j ∈ Finset.range I.cols, |tent (x - j) - tent (x' - j)|),
      mul_comm (∑ j ∈ Finset.range I.cols, tent (x' - j)), Finset.sum_mul_sum, Finset.sum_mul_sum, mul_add,
      Finset.mul_sum, Finset.mul_sum, ← Finset.sum_add_distrib]
    refine Finset.sum_congr rfl fun i _ => ?_
    rw [Finset.mul_sum, Finset.mul_sum, ← Finset.sum_add_distrib]
    refine Finset.sum_congr rfl fun j _ => ?_
    ring
  rw [h3, sum_tent_one hy hy1, sum_tent_one hx' hx1', mul_one, one_mul] at h2
  have d1 := sum_tent_diff I.cols hx hx'
  have d2 := sum_tent_diff I.rows hy hy'
  refine h2.trans ?_
  nlinarith

theorem bilinear_le {I : Img ℝ} {V : ℝ} (hV : Within I 0 V) {x y : ℝ} (hx : 0 ≤ x)
    (hx1 : x ≤ (I.cols : ℝ) - 1.0009) (hy : 0 ≤ y) (hy1 : y ≤ (I.rows : ℝ) - 1.0009) : bilinear I x y ≤ V := by
  have : bilinear I x y ≤ ∑ i ∈ Finset.range I.rows, ∑ j ∈ Finset.range I.cols, V * (tent (x - j) * tent (y - i)) := by
    unfold bilinear
    refine Finset.sum_le_sum fun i hi => Finset.sum_le_sum fun j hj => ?_
    obtain ⟨-, b1⟩ := hV i (Finset.mem_range.1 hi) j (Finset.mem_range.1 hj)
    rw [mul_assoc]
    exact mul_le_mul_of_nonneg_right b1 (mul_nonneg (Nms.tent_nonneg _) (Nms.tent_nonneg _))
  refine this.trans (le_of_eq ?_)
  have h : (∑ i ∈ Finset.range I.rows, ∑ j ∈ Finset.range I.cols, V * (tent (x - j) * tent (y - i)))
      = V * ((∑ i ∈ Finset.range I.rows, tent (y - i)) * ∑ j ∈ Finset.range I.cols, tent (x - j)) := by
    rw [Finset.sum_mul_sum, Finset.mul_sum]
    refine Finset.sum_congr rfl fun i _ => ?_
    rw [Finset.mul_sum]
    refine Finset.sum_congr rfl fun j _ => ?_
    ring
  rw [h, sum_tent_one hx hx1, sum_tent_one hy hy1]; ring

/-! ### Positions -/

theorem cast_err {a b c : ℚ} (h : |a - b| ≤ c) : |(a : ℝ) - b| ≤ c := by
  have := (Rat.cast_le (K := ℝ)).2 h
  rw [Rat.cast_abs, Rat.cast_sub] at this
  exact this

theorem cast_tiny : ((tiny : ℚ) : ℝ) ≤ 1 / 2 ^ 60 := by
  have := (Rat.cast_le (K := ℝ)).2 tiny_le
  push_cast at this
  exact this

/-- The computed sampling position. -/
theorem pos_close (H : RoundsNearest fl) {c : ℚ} {c' : ℝ} (hc : |(c : ℝ) - c'| ≤ 1 / 2 ^ 52) (hc' : |c'| ≤ 1)
    {n x : ℕ} (hx : x < n) (h2 : 2 ≤ n) {d : ℤ} {R : ℝ} (hd : |(d : ℝ)| ≤ R) :
    |((fl ((x : ℚ) + fl (d * c)) : ℚ) : ℝ) - (x + d * c')| ≤ 1 / 2 ^ 52 * (n + 4 * R) := by
  have e1 := cast_err (H.gen_err (d * c))
  have e2 := cast_err (H.gen_err ((x : ℚ) + fl (d * c)))
  have ht := cast_tiny
  push_cast at e1 e2
  have hn : (2 : ℝ) ≤ n := by exact_mod_cast h2
  have hxn : (x : ℝ) + 1 ≤ n := by exact_mod_cast hx
  have hx0 : (0 : ℝ) ≤ x := by positivity
  have hR : 0 ≤ R := (abs_nonneg _).trans hd
  have hcb : |(c : ℝ)| ≤ 1 + 1 / 2 ^ 52 := by
    have := abs_sub_abs_le_abs_sub (c : ℝ) c'
    linarith
  have hdc : |(d : ℝ) * c| ≤ R * (1 + 1 / 2 ^ 52) := by
    rw [abs_mul]
    exact mul_le_mul hd hcb (abs_nonneg _) hR
  have hdd : |(d : ℝ) * c - d * c'| ≤ R * (1 / 2 ^ 52) := by
    rw [← mul_sub, abs_mul]
    exact mul_le_mul hd hc (abs_nonneg _) hR
  have ht0 : (0 : ℝ) ≤ ((tiny : ℚ) : ℝ) := by exact_mod_cast tiny_pos.le
  have hsum : |(x : ℝ) + ((fl (d * c) : ℚ) : ℝ)| ≤ n - 1 + 2 * R + 1 / 2 ^ 60 := by
    have h1 := abs_sub_abs_le_abs_sub ((fl (d * c) : ℚ) : ℝ) ((d : ℝ) * c)
    have h2 := abs_add_le (x : ℝ) ((fl (d * c) : ℚ) : ℝ)
    rw [abs_of_nonneg hx0] at h2
    norm_num at *
    linarith
  have t1 := abs_sub_le ((fl ((x : ℚ) + fl (d * c)) : ℚ) : ℝ) ((x : ℝ) + ((fl (d * c) : ℚ) : ℝ)) (x + d * c')
  have t2 : |(x : ℝ) + ((fl (d * c) : ℚ) : ℝ) - (x + d * c')| ≤ |((fl (d * c) : ℚ) : ℝ) - d * c| + |(d : ℝ) * c - d * c'| := by
    have := abs_sub_le ((fl (d * c) : ℚ) : ℝ) ((d : ℝ) * c) (d * c')
    rwa [add_sub_add_left_eq_sub]
  rw [abs_mul] at hdc
  have u1 : (1 : ℝ) / 2 ^ 53 * (|(d : ℝ)| * |(c : ℝ)|) ≤ 1 / 2 ^ 53 * (R * (1 + 1 / 2 ^ 52)) :=
    mul_le_mul_of_nonneg_left hdc (by norm_num)
  have u2 : (1 : ℝ) / 2 ^ 53 * |(x : ℝ) + ((fl (d * c) : ℚ) : ℝ)| ≤ 1 / 2 ^ 53 * (n - 1 + 2 * R + 1 / 2 ^ 60) :=
    mul_le_mul_of_nonneg_left hsum (by norm_num)
  generalize |((fl ((x : ℚ) + fl (d * c)) : ℚ) : ℝ) - (x + d * c')| = A at *
  norm_num at u1 u2 e1 e2 ht hdd ⊢
  linarith

theorem lastPos_close (H : RoundsNearest fl) {n : ℕ} (h2 : 2 ≤ n) :
    |((lastPos fl n : ℚ) : ℝ) - ((n : ℝ) - 1.001)| ≤ 1 / 2 ^ 52 * n := by
  have e1 := cast_err (H.gen_err 1.001)
  have e2 := cast_err (H.gen_err ((n : ℚ) - fl 1.001))
  have ht := cast_tiny
  have hn : (2 : ℝ) ≤ n := by exact_mod_cast h2
  unfold lastPos
  simp only [Int.cast_natCast]
  rw [abs_of_nonneg (by norm_num : (0 : ℚ) ≤ 1.001)] at e1
  have ht0 : (0 : ℝ) ≤ ((tiny : ℚ) : ℝ) := by exact_mod_cast tiny_pos.le
  have hb : |(n : ℝ) - ((fl 1.001 : ℚ) : ℝ)| ≤ n - 1 := by
    rw [abs_le] at e1 ⊢
    norm_num at e1 ht ⊢
    constructor <;> linarith
  push_cast at e2
  have u2 : (1 : ℝ) / 2 ^ 53 * |(n : ℝ) - ((fl 1.001 : ℚ) : ℝ)| ≤ 1 / 2 ^ 53 * (n - 1) :=
    mul_le_mul_of_nonneg_left hb (by norm_num)
  rw [abs_le] at e1 e2 ⊢
  norm_num at e1 e2 u2 ht ⊢
  constructor <;> linarith

theorem clamp_close (H : RoundsNearest fl) {n : ℕ} (h2 : 2 ≤ n) (hn : n ≤ 2 ^ 31) {p : ℚ} {p' : ℝ} {δ : ℝ}
    (h : |(p : ℝ) - p'| ≤ δ) :
    |((clampCoord fl n p : ℚ) : ℝ) - inRange n p'| ≤ δ + 1 / 2 ^ 52 * n := by
  have hl := lastPos_close H h2
  obtain ⟨l0, -, -⟩ := lastPos_bounds H h2 hn
  have hn' : (2 : ℝ) ≤ n := by exact_mod_cast h2
  have e : ((clampCoord fl n p : ℚ) : ℝ) = max 0 (min (p : ℝ) ((lastPos fl n : ℚ) : ℝ)) := by
    have : clampCoord fl n p = max 0 (min p (lastPos fl n)) := by
      unfold clampCoord
      split
      · rename_i hp
        rw [max_eq_left]; exact (min_le_left _ _).trans hp.le
      · rename_i hp
        push Not at hp
        split
        · rename_i hq
          rw [min_eq_right hq.le, max_eq_right l0]
        · rename_i hq
          push Not at hq
          rw [min_eq_left hq, max_eq_right hp]
    rw [this, Rat.cast_max, Rat.cast_min, Rat.cast_zero]
  rw [e]
  unfold inRange
  refine (abs_max_sub_max_le_max _ _ _ _).trans ?_
  rw [sub_self, abs_zero, max_eq_right (abs_nonneg _)]
  refine (abs_min_sub_min_le_max _ _ _ _).trans ?_
  have hδ : 0 ≤ δ := (abs_nonneg _).trans h
  have : (0 : ℝ) ≤ 1 / 2 ^ 52 * n := by positivity
  exact max_le (by linarith) (by linarith)

/-- The comparison value in floating point against the exact one. -/
theorem sample_close (H : RoundsNearest fl) {I : Img ℚ} (hs : SizeOk I) {V : ℚ}
    (hI : ∀ i < I.rows, ∀ j < I.cols, 0 ≤ I.at_ i j ∧ I.at_ i j ≤ V) {c s : ℚ} {c' s' : ℝ}
    (hc : |(c : ℝ) - c'| ≤ 1 / 2 ^ 52) (hs' : |(s : ℝ) - s'| ≤ 1 / 2 ^ 52) (hc1 : |c'| ≤ 1) (hs1 : |s'| ≤ 1)
    {y x : ℕ} (hy : y < I.rows) (hx : x < I.cols) {d r : ℤ} (hd : |d| ≤ r) :
    |((sampleF fl I (fl ((x : ℚ) + fl (d * c))) (fl ((y : ℚ) + fl (d * s))) : ℚ) : ℝ)
      - sample (realImg I) (x + d * c') (y + d * s')| ≤ V * (I.rows + I.cols + 2 * r) / 2 ^ 48 + 1 / 2 ^ 990 := by
  have hdR : |(d : ℝ)| ≤ (r : ℝ) := by exact_mod_cast hd
  have px := clamp_close H hs.c2 hs.cm (pos_close H hc hc1 hx hs.c2 hdR)
  have py := clamp_close H hs.r2 hs.rm (pos_close H hs' hs1 hy hs.r2 hdR)
  have hv := interp_ok H hs (fl ((x : ℚ) + fl (d * c))) (fl ((y : ℚ) + fl (d * s)))
  obtain ⟨-, n2, n3⟩ := interp_close H I hs.r2 hs.c2 hs.rm hs.cm (fun i hi j hj => (hI i hi j hj).1) (H.rep _) (H.rep _) hv
  have hW : Within (realImg I) 0 V := by
    intro i hi j hj
    obtain ⟨a, b⟩ := hI i hi j hj
    refine ⟨?_, ?_⟩
    · show (0 : ℝ) ≤ ((I.at_ i j : ℚ) : ℝ)
      exact_mod_cast a
    · show ((I.at_ i j : ℚ) : ℝ) ≤ V
      exact_mod_cast b
  have hV0 : (0 : ℝ) ≤ V := by
    have := hI y hy x hx
    exact_mod_cast this.1.trans this.2
  have bx := clampCoord_bounds H hs.c2 hs.cm (fl ((x : ℚ) + fl (d * c)))
  have by_ := clampCoord_bounds H hs.r2 hs.rm (fl ((y : ℚ) + fl (d * s)))
  have bx0 : (0 : ℝ) ≤ ((clampCoord fl I.cols (fl ((x : ℚ) + fl (d * c))) : ℚ) : ℝ) := by exact_mod_cast bx.1
  have by0 : (0 : ℝ) ≤ ((clampCoord fl I.rows (fl ((y : ℚ) + fl (d * s))) : ℚ) : ℝ) := by exact_mod_cast by_.1
  have bx1 : ((clampCoord fl I.cols (fl ((x : ℚ) + fl (d * c))) : ℚ) : ℝ) ≤ (I.cols : ℝ) - 1.0009 := by
    have := (Rat.cast_le (K := ℝ)).2 bx.2
    push_cast at this
    exact this
  have by1 : ((clampCoord fl I.rows (fl ((y : ℚ) + fl (d * s))) : ℚ) : ℝ) ≤ (I.rows : ℝ) - 1.0009 := by
    have := (Rat.cast_le (K := ℝ)).2 by_.2
    push_cast at this
    exact this
  have ex := Nms.inRange_bounds hs.c2 ((x : ℝ) + d * c')
  have ey := Nms.inRange_bounds hs.r2 ((y : ℝ) + d * s')
  have L := bilinear_lip hW hV0 bx0 by0 by1 ex.1 (by norm_num at *; simp only [realImg]; linarith [ex.2]) ey.1
  have U := bilinear_le hW bx0 bx1 by0 by1
  unfold sample
  unfold exactAt at n2 n3
  have hr2 : (2 : ℝ) ≤ I.rows := by exact_mod_cast hs.r2
  have hc2 : (2 : ℝ) ≤ I.cols := by exact_mod_cast hs.c2
  have hr0 : (0 : ℝ) ≤ r := (abs_nonneg _).trans hdR
  simp only [realImg] at *
  generalize bilinear _ _ _ = B at *
  generalize bilinear _ _ _ = E at *
  have h1 := abs_sub_le ((sampleF fl I (fl ((x : ℚ) + fl (d * c))) (fl ((y : ℚ) + fl (d * s))) : ℚ) : ℝ) B E
  have h2 : 4 * (V : ℝ) * (|((clampCoord fl I.cols (fl ((x : ℚ) + fl (d * c))) : ℚ) : ℝ) - inRange I.cols (x + d * c')| +
      |((clampCoord fl I.rows (fl ((y : ℚ) + fl (d * s))) : ℚ) : ℝ) - inRange I.rows (y + d * s')|) ≤
      4 * V * (1 / 2 ^ 51 * (I.rows + I.cols + 4 * r)) := by
    refine mul_le_mul_of_nonneg_left ?_ (by linarith)
    norm_num at *
    linarith
  have h4 : (V : ℝ) * 1 ≤ V * (I.rows + I.cols) := mul_le_mul_of_nonneg_left (by linarith) hV0
  have h5 : 4 * (V : ℝ) * (1 / 2 ^ 51 * (I.rows + I.cols + 4 * r)) + 1 / 2 ^ 49 * V ≤ V * (I.rows + I.cols + 2 * r) / 2 ^ 48 := by
    have : (V : ℝ) * (I.rows + I.cols + 2 * r) / 2 ^ 48 =
      4 * (V : ℝ) * (1 / 2 ^ 51 * (I.rows + I.cols + 4 * r)) + 1 / 2 ^ 49 * (V * (I.rows + I.cols)) := by ring
    rw [this]
    have : (0 : ℝ) < 1 / 2 ^ 49 := by norm_num
    nlinarith
  have h6 : 1 / 2 ^ 49 * B ≤ 1 / 2 ^ 49 * (V : ℝ) := mul_le_mul_of_nonneg_left U (by norm_num)
  generalize (1 : ℝ) / 2 ^ 990 = z at *
  linarith

/-! ### Damping -/

theorem dampF_close (H : RoundsNearest fl) (s n k : ℕ) {v : ℚ} (h0 : 0 ≤ v) :
    |((dampF fl s n k v : ℚ) : ℝ) - v * ramp s n k| ≤ v / 2 ^ 51 + 1 / 2 ^ 1000 := by
  have hv0 : (0 : ℝ) ≤ v := by exact_mod_cast h0
  unfold dampF ramp
  split
  · rename_i hlt
    have hs : (0 : ℚ) < s := by exact_mod_cast (by omega : 0 < s)
    have hsr : (0 : ℝ) < s := by exact_mod_cast (by omega : 0 < s)
    have hq0 : (0 : ℚ) ≤ (toEnd n k : ℚ) / s := by positivity
    have hq1 : (toEnd n k : ℚ) / s ≤ 1 := by
      rw [div_le_one hs]
      exact_mod_cast hlt.le
    rw [if_neg (by omega), min_eq_right (by rw [div_le_one hsr]; exact_mod_cast hlt.le)]
    have hqq : ((toEnd n k : ℝ) / s) = (((toEnd n k : ℚ) / s : ℚ) : ℝ) := by push_cast; ring
    rw [hqq]
    have e1 := H.err_unit hq0 hq1
    have f0 := H.nonneg hq0
    have f1 := H.le_one hq1
    generalize (toEnd n k : ℚ) / s = t at *
    generalize fl t = t' at *
    have e2 := H.gen_err (v * t')
    rw [abs_of_nonneg (mul_nonneg h0 f0)] at e2
    have h3 : v * t' ≤ v := by nlinarith
    have fin : |fl (v * t') - v * t| ≤ v / 2 ^ 51 + 1 / 2 ^ 1000 := by
      have e3 : |v * t' - v * t| ≤ v * (1 / 2 ^ 54) := by
        rw [← mul_sub, abs_mul, abs_of_nonneg h0]
        exact mul_le_mul_of_nonneg_left e1 h0
      have e4 := abs_sub_le (fl (v * t')) (v * t') (v * t)
      unfold tiny at e2
      have : (v / 2 ^ 51 : ℚ) = 1 / 2 ^ 53 * v + v * (1 / 2 ^ 54) + v * (5 / 2 ^ 54) := by ring
      rw [this]
      have : 0 ≤ v * (5 / 2 ^ 54) := by positivity
      have : 1 / 2 ^ 53 * (v * t') ≤ 1 / 2 ^ 53 * v := mul_le_mul_of_nonneg_left h3 (by norm_num)
      generalize (1 : ℚ) / 2 ^ 1000 = z at *
      linarith
    have := (Rat.cast_le (K := ℝ)).2 fin
    rw [Rat.cast_abs] at this
    simp only [Rat.cast_sub, Rat.cast_add, Rat.cast_mul, Rat.cast_div, Rat.cast_one, Rat.cast_pow, Rat.cast_ofNat] at this
    exact this
  · rename_i hge
    have : (if s = 0 then (1 : ℝ) else min 1 ((toEnd n k : ℝ) / s)) = 1 := by
      split
      · rfl
      · apply min_eq_left
        rw [le_div_iff₀ (by exact_mod_cast (by omega : 0 < s)), one_mul]
        exact_mod_cast (by omega : s ≤ toEnd n k)
    rw [this, mul_one, sub_self, abs_zero]
    positivity

end EdgeEval.NmsFloat
