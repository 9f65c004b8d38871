import Mathlib.Analysis.SpecialFunctions.Trigonometric.Arctan
import Verif.Props.Nms

/-!
# C46: the direction in which `fast_nms` compares a response with its neighbours
-/

namespace EdgeEval.Props

open Spec Nms

theorem grad1_eq (n : ℕ) (hn : 2 ≤ n) (a : ℕ → ℝ) (i : ℕ) (hi : i < n) : grad1 n a i = slope n a i := by
  unfold grad1 slope
  split
  · next h =>
    subst h
    rw [show min (0 + 1) (n - 1) = 1 by omega]
    norm_num
  · split
    · next h0 h =>
      subst h
      rw [show min (n - 1 + 1) (n - 1) = n - 1 by omega, show n - 1 - 1 = n - 2 by omega]
      have : ((n - 1 : ℕ) : ℝ) - ((n - 2 : ℕ) : ℝ) = 1 := by
        rw [show n - 1 = (n - 2) + 1 by omega]; push_cast; ring
      rw [this, div_one]
    · next h0 h =>
      rw [show min (i + 1) (n - 1) = i + 1 by omega]
      have : ((i + 1 : ℕ) : ℝ) - ((i - 1 : ℕ) : ℝ) = 2 := by
        rw [show i + 1 = (i - 1) + 2 by omega]; push_cast; ring
      rw [this]

theorem slope_congr {n : ℕ} (hn : 2 ≤ n) {a b : ℕ → ℝ} (h : ∀ k < n, a k = b k) {i : ℕ} (hi : i < n) :
    slope n a i = slope n b i := by
  unfold slope
  rw [h _ (by omega), h _ (by omega)]

theorem slope_const {n : ℕ} (hn : 2 ≤ n) {a : ℕ → ℝ} (h : ∀ k < n, ∀ l < n, a k = a l) {i : ℕ} (hi : i < n) :
    slope n a i = 0 := by
  unfold slope
  rw [h (min (i + 1) (n - 1)) (by omega) (i - 1) (by omega), sub_self, zero_div]

/-- `arctan` reduced modulo `π` lies in `[0, π)` and still has the given tangent. -/
theorem npMod_arctan (v : ℝ) : 0 ≤ npMod (Real.arctan v) Real.pi ∧ npMod (Real.arctan v) Real.pi < Real.pi ∧
    Real.cos (npMod (Real.arctan v) Real.pi) ≠ 0 ∧ Real.tan (npMod (Real.arctan v) Real.pi) = v := by
  have hp := Real.pi_pos
  have h1 := Int.floor_le (Real.arctan v / Real.pi)
  have h2 := Int.lt_floor_add_one (Real.arctan v / Real.pi)
  rw [le_div_iff₀ hp] at h1
  rw [div_lt_iff₀ hp] at h2
  have hc := Real.cos_arctan_pos v
  unfold npMod
  refine ⟨by nlinarith, by nlinarith, ?_, ?_⟩
  · rw [mul_comm, Real.cos_sub_int_mul_pi]
    exact mul_ne_zero (by positivity) hc.ne'
  · rw [mul_comm, Real.tan_sub_int_mul_pi, Real.tan_arctan]

theorem orientation_value (e4 : Img ℝ) (hr : 2 ≤ e4.rows) (hc : 2 ≤ e4.cols) :
    ∃ o, orientation e4 = .ok o ∧ o.rows = e4.rows ∧ o.cols = e4.cols ∧
      ∀ i < e4.rows, ∀ j < e4.cols, 0 ≤ o.at_ i j ∧ o.at_ i j < Real.pi ∧ Real.cos (o.at_ i j) ≠ 0 ∧
        Real.tan (o.at_ i j) = dirTangent e4 i j := by
  unfold orientation grad2
  have hcond : ¬ (e4.rows < 2 ∨ e4.cols < 2) := by omega
  simp only [if_neg hcond]
  refine ⟨_, rfl, rfl, rfl, fun i hi j hj => ?_⟩
  simp only
  obtain ⟨h1, h2, h3, h4⟩ := npMod_arctan (grad1 e4.rows (fun (k : ℕ) =>
      grad1 e4.rows (fun (k : ℕ) => e4.at_ k j) k) i *
    (SignType.sign (-grad1 e4.cols (fun (k : ℕ) => grad1 e4.rows (fun (k' : ℕ) => e4.at_ k' k) i) j) : ℝ) /
    (if grad1 e4.cols (fun (k : ℕ) => grad1 e4.cols (fun (k' : ℕ) => e4.at_ i k') k) j = 0 then 1e-5 else
      grad1 e4.cols (fun (k : ℕ) => grad1 e4.cols (fun (k' : ℕ) => e4.at_ i k') k) j))
  refine ⟨h1, h2, h3, ?_⟩
  rw [h4]
  unfold dirTangent slopeX slopeY
  simp only
  rw [grad1_eq _ hr _ _ hi, grad1_eq _ hc _ _ hj, grad1_eq _ hc _ _ hj,
    slope_congr hr (b := fun (k : ℕ) => slope e4.rows (fun (k : ℕ) => e4.at_ k j) k)
      (fun k hk => grad1_eq _ hr _ _ hk) hi,
    slope_congr hc (b := fun (k : ℕ) => slope e4.cols (fun (k' : ℕ) => e4.at_ i k') k)
      (fun k hk => grad1_eq _ hc _ _ hk) hj,
    slope_congr hc (b := fun (k : ℕ) => slope e4.rows (fun (k' : ℕ) => e4.at_ k' k) i)
      (fun k hk => grad1_eq _ hr _ _ hi) hj]
  generalize slope e4.cols (fun (k : ℕ) => slope e4.rows (fun (k' : ℕ) => e4.at_ k' k) i) j = xy
  congr 1
  rcases lt_trichotomy 0 xy with h | h | h
  · rw [if_pos h, sign_neg (by linarith)]; simp
  · rw [← h]; simp
  · rw [if_neg (by linarith), if_pos h, sign_pos (by linarith)]; simp

/-- C46: on every float image of at least 2×2 pixels `fast_nms` succeeds with a direction map that lies in
`[0, π)` and whose tangent is the specified quotient of second slopes of the twice smoothed image; every
result pixel is 0 if the smoothed response is beaten along that direction and the response times the
border ramps otherwise. -/
theorem C46_direction (im : Img ℝ) (hr : 2 ≤ im.rows) (hc : 2 ≤ im.cols) (r s : ℤ) (m : ℝ) :
    ∃ ori out, fastNms (.float im) r s m false = .ok (.float out) ∧ out.rows = im.rows ∧
      out.cols = im.cols ∧
      (∀ i < im.rows, ∀ j < im.cols, 0 ≤ ori.at_ i j ∧ ori.at_ i j < Real.pi ∧
        Real.cos (ori.at_ i j) ≠ 0 ∧ Real.tan (ori.at_ i j) = dirTangent (smooth (smooth im 1) 4) i j) ∧
      ∀ i < im.rows, ∀ j < im.cols,
        (Beaten (smooth im 1) ori r m i j → out.at_ i j = 0) ∧
        (¬ Beaten (smooth im 1) ori r m i j → out.at_ i j = (smooth im 1).at_ i j *
          ramp (usedMargin im.rows im.cols s) im.cols j * ramp (usedMargin im.rows im.cols s) im.rows i) := by
  obtain ⟨edge, he, e1, e2, ev⟩ := convTri_eq im (r := 1) (le_refl _) (by omega) (by omega)
  obtain ⟨e4, h4, f1, f2, fv⟩ := convTri_eq edge (r := 4) (by omega) (by omega) (by omega)
  have hedge : edge = smooth im 1 := by
    cases edge; simp only [smooth] at *; subst e1 e2; congr 1; funext i j; exact ev i j
  have he4 : e4 = smooth (smooth im 1) 4 := by
    rw [← hedge]
    cases e4; simp only [smooth] at *; subst f1 f2; congr 1; funext i j; exact fv i j
  obtain ⟨ori, ho, o1, o2, ov⟩ := orientation_value e4 (by omega) (by omega)
  obtain ⟨out, hn, r1, r2, hv⟩ := C21_result edge ori (by omega) (by omega) (by omega) (by omega) r s m
  refine ⟨ori, out, ?_, by omega, by omega, ?_, ?_⟩
  · simp only [fastNms, toFloat, fastNmsFloat, he, h4, ho, hn]
    rfl
  · rw [← he4]
    intro i hi j hj
    exact ov i (by omega) j (by omega)
  · intro i hi j hj
    rw [← hedge]
    have := hv i (by omega) j (by omega)
    rw [e1, e2] at this
    exact this

/-- An image whose value depends only on the row. -/
def RowsConstant (I : Img ℝ) : Prop := ∀ i < I.rows, ∀ j < I.cols, ∀ j' < I.cols, I.at_ i j = I.at_ i j'

/-- An image whose value depends only on the column. -/
def ColsConstant (I : Img ℝ) : Prop := ∀ i < I.rows, ∀ i' < I.rows, ∀ j < I.cols, I.at_ i j = I.at_ i' j

theorem smooth_rowsConstant {I : Img ℝ} (hr : 0 < I.rows) (hc : 0 < I.cols) (h : RowsConstant I) (r : ℕ) :
    RowsConstant (smooth I r) := by
  intro i _ j _ j' _
  simp only [smooth, triMean]
  refine Finset.sum_congr rfl fun a _ => Finset.sum_congr rfl fun b _ => ?_
  rw [h _ (mirror_lt hr _) _ (mirror_lt hc _) _ (mirror_lt hc _)]

theorem smooth_colsConstant {I : Img ℝ} (hr : 0 < I.rows) (hc : 0 < I.cols) (h : ColsConstant I) (r : ℕ) :
    ColsConstant (smooth I r) := by
  intro i _ i' _ j _
  simp only [smooth, triMean]
  refine Finset.sum_congr rfl fun a _ => Finset.sum_congr rfl fun b _ => ?_
  rw [h _ (mirror_lt hr _) _ (mirror_lt hr _) _ (mirror_lt hc _)]

theorem dirTangent_rows {I : Img ℝ} (hr : 2 ≤ I.rows) (hc : 2 ≤ I.cols) (h : RowsConstant I) {i j : ℕ}
    (hi : i < I.rows) (hj : j < I.cols) : dirTangent I i j = 0 := by
  have hxy : (slopeX (slopeY I)).at_ i j = 0 := by
    simp only [slopeX, slopeY]
    exact slope_const hc (fun k hk l hl => slope_congr hr (fun t ht => h t ht k hk l hl) hi) hj
  unfold dirTangent
  simp [hxy]

theorem dirTangent_cols {I : Img ℝ} (hr : 2 ≤ I.rows) (hc : 2 ≤ I.cols) (h : ColsConstant I) {i j : ℕ}
    (hi : i < I.rows) (hj : j < I.cols) : dirTangent I i j = 0 := by
  have hxy : (slopeX (slopeY I)).at_ i j = 0 := by
    simp only [slopeX, slopeY]
    refine slope_const hc (fun k hk l hl => ?_) hj
    rw [slope_const hr (fun a ha b hb => h a ha b hb k hk) hi,
      slope_const hr (fun a ha b hb => h a ha b hb l hl) hi]
  unfold dirTangent
  simp [hxy]

theorem zero_of_tan {x : ℝ} (h0 : 0 ≤ x) (h1 : x < Real.pi) (hc : Real.cos x ≠ 0) (ht : Real.tan x = 0) :
    x = 0 := by
  rw [Real.tan_eq_sin_div_cos, div_eq_zero_iff] at ht
  rcases ht with h | h
  · rcases h0.eq_or_lt with h2 | h2
    · exact h2.symm
    · exact absurd h (Real.sin_pos_of_pos_of_lt_pi h2 h1).ne'
  · exact absurd h hc

theorem inRange_nat {n k : ℕ} (h : k + 1 < n) : inRange n (k : ℝ) = k := by
  unfold inRange
  have : ((k : ℝ) + 2) ≤ n := by exact_mod_cast h
  rw [min_eq_left (by linarith), max_eq_right (by positivity)]

/-- On an image depending only on the row, sampling at a whole row above the last one gives that row's value
wherever the column position is. -/
theorem sample_row {I : Img ℝ} (hc : 2 ≤ I.cols) (h : RowsConstant I) {i j : ℕ}
    (hi : i + 1 < I.rows) (hj : j < I.cols) (x : ℝ) : sample I x i = I.at_ i j := by
  unfold sample
  rw [inRange_nat hi]
  obtain ⟨h0, h1⟩ := inRange_bounds hc x
  have hf := floor_cell h0 h1
  obtain ⟨hk, hk0, hk1⟩ : ⌊inRange I.cols x⌋₊ + 1 < I.cols ∧ (⌊inRange I.cols x⌋₊ : ℝ) ≤ inRange I.cols x ∧
      inRange I.cols x < ⌊inRange I.cols x⌋₊ + 1 := by
    refine ⟨?_, Nat.floor_le h0, Nat.lt_floor_add_one _⟩
    have : (⌊inRange I.cols x⌋₊ : ℝ) ≤ (I.cols : ℝ) - 1.001 := le_trans (Nat.floor_le h0) h1
    have : ((⌊inRange I.cols x⌋₊ + 1 : ℕ) : ℝ) < I.cols := by push_cast; linarith
    exact_mod_cast this
  rw [bilinear_cell I hk hi hk0 hk1 (le_refl _) (by linarith)]
  rw [h i (by omega) ⌊inRange I.cols x⌋₊ (by omega) j hj, h i (by omega) (⌊inRange I.cols x⌋₊ + 1) hk j hj]
  ring

/-- C46 (finding): in a non-negative image that depends only on the row — horizontal edges — nothing above the
last row is ever suppressed when `m ≥ 1`: the mixed second slope vanishes, so the comparison runs along the
edge instead of across it. -/
theorem C46_horizontal_not_thinned (im : Img ℝ) (hr : 2 ≤ im.rows) (hc : 2 ≤ im.cols)
    (hpos : ∀ i < im.rows, ∀ j < im.cols, 0 ≤ im.at_ i j) (h : RowsConstant im) (r s : ℤ) (m : ℝ)
    (hm : 1 ≤ m) :
    ∃ out, fastNms (.float im) r s m false = .ok (.float out) ∧
      ∀ i < im.rows - 1, ∀ j < im.cols, out.at_ i j = triMean im 1 i j *
        ramp (usedMargin im.rows im.cols s) im.cols j * ramp (usedMargin im.rows im.cols s) im.rows i := by
  obtain ⟨ori, out, ho, -, -, hd, hv⟩ := C46_direction im hr hc r s m
  refine ⟨out, ho, fun i hi j hj => ?_⟩
  rw [(hv i (by omega) j hj).2]
  · rfl
  · rintro ⟨d, -, -, hlt⟩
    obtain ⟨a0, a1, a2, a3⟩ := hd i (by omega) j hj
    have hs := smooth_rowsConstant (by omega) (by omega) h 1
    rw [dirTangent_rows (I := smooth (smooth im 1) 4) hr hc
      (smooth_rowsConstant (I := smooth im 1) (by simp only [smooth]; omega) (by simp only [smooth]; omega) hs 4)
      (i := i) (j := j) (by simp only [smooth]; omega) (by simp only [smooth]; omega)] at a3
    rw [zero_of_tan a0 a1 a2 a3, Real.sin_zero, mul_zero, add_zero,
      sample_row (I := smooth im 1) hc hs (j := j) (by simp only [smooth]; omega) hj] at hlt
    have hnn : 0 ≤ (smooth im 1).at_ i j := by
      simp only [smooth, triMean]
      refine Finset.sum_nonneg fun a ha => Finset.sum_nonneg fun b hb =>
        mul_nonneg (mul_nonneg (triWeight_nonneg ha) (triWeight_nonneg hb))
          (hpos _ (mirror_lt (by omega) _) _ (mirror_lt (by omega) _))
    nlinarith

/-- C46: in an image that depends only on the column — vertical edges — a response is set to 0 as soon as a
column at distance at most `r` (not the last one) has a smoothed response above `m` times its own. -/
theorem C46_vertical_thinned (im : Img ℝ) (hr : 2 ≤ im.rows) (hc : 2 ≤ im.cols) (h : ColsConstant im)
    (r s : ℤ) (m : ℝ) :
    ∃ out, fastNms (.float im) r s m false = .ok (.float out) ∧
      ∀ i < im.rows - 1, ∀ j < im.cols, ∀ k < im.cols - 1, k ≠ j → |(k : ℤ) - j| ≤ r →
        m * triMean im 1 i j < triMean im 1 i k → out.at_ i j = 0 := by
  obtain ⟨ori, out, ho, -, -, hd, hv⟩ := C46_direction im hr hc r s m
  refine ⟨out, ho, fun i hi j hj k hk hkj hkr hlt => ?_⟩
  apply (hv i (by omega) j hj).1
  refine ⟨(k : ℤ) - j, by omega, hkr, ?_⟩
  obtain ⟨a0, a1, a2, a3⟩ := hd i (by omega) j hj
  have hs := smooth_colsConstant (by omega) (by omega) h 1
  rw [dirTangent_cols (I := smooth (smooth im 1) 4) hr hc
    (smooth_colsConstant (I := smooth im 1) (by simp only [smooth]; omega) (by simp only [smooth]; omega) hs 4)
    (i := i) (j := j) (by simp only [smooth]; omega) (by simp only [smooth]; omega)] at a3
  rw [zero_of_tan a0 a1 a2 a3, Real.sin_zero, Real.cos_zero, mul_zero, add_zero, mul_one]
  have ek : (j : ℝ) + (((k : ℤ) - (j : ℤ) : ℤ) : ℝ) = (k : ℝ) := by push_cast; ring
  rw [ek]
  unfold sample
  rw [inRange_nat (n := (smooth im 1).cols) (k := k) (by simp only [smooth]; omega),
    inRange_nat (n := (smooth im 1).rows) (k := i) (by simp only [smooth]; omega),
    bilinear_cell (smooth im 1) (k := k) (l := i) (by simp only [smooth]; omega)
      (by simp only [smooth]; omega) (le_refl _) (by linarith) (le_refl _) (by linarith)]
  simp only [sub_self, sub_zero, mul_zero, mul_one, add_zero]
  exact hlt

theorem t2 : Int.toNat 2 = 2 := rfl
theorem t3 : Int.toNat 3 = 3 := rfl
theorem t4 : Int.toNat 4 = 4 := rfl

theorem exEdge_triMean (j : ℕ) (hj : j < 4) :
    triMean exEdge 1 1 j = if j = 1 then 3 / 4 else if j = 3 then 1 / 2 else 5 / 8 := by
  unfold triMean
  rw [show Finset.Icc (-((1 : ℕ) : ℤ)) (1 : ℕ) = {-1, 0, 1} by decide]
  interval_cases j <;> norm_num [exEdge, triWeight, mirror, t2, t3, t4]

/-- A case of `C46_vertical_thinned`: beside the ridge of `exEdge` the response is suppressed. -/
example : ∃ out, fastNms (.float exEdge) 1 5 1.01 false = .ok (.float out) ∧ out.at_ 1 2 = 0 := by
  obtain ⟨out, h, hv⟩ := C46_vertical_thinned exEdge (by simp [exEdge]) (by simp [exEdge])
    (fun _ _ _ _ _ _ => rfl) 1 5 1.01
  refine ⟨out, h, hv 1 (by simp [exEdge]) 2 (by simp [exEdge]) 1 (by simp [exEdge]) (by omega) (by norm_num) ?_⟩
  rw [exEdge_triMean 1 (by omega), exEdge_triMean 2 (by omega)]
  norm_num

/-- The transposed example: the ridge is a row, and beside it the response survives. -/
noncomputable def exEdgeT : Img ℝ := { rows := 4, cols := 4, at_ := fun i _ => if i = 1 then 1 else 1 / 2 }

/-- A case of `C46_horizontal_not_thinned`: without border damping the response beside the ridge is kept. -/
example : ∃ out, fastNms (.float exEdgeT) 1 0 1.01 false = .ok (.float out) ∧ out.at_ 2 1 = 5 / 8 := by
  obtain ⟨out, h, hv⟩ := C46_horizontal_not_thinned exEdgeT (by simp [exEdgeT]) (by simp [exEdgeT])
    (fun i _ j _ => by simp only [exEdgeT]; split <;> norm_num) (fun _ _ _ _ _ _ => rfl) 1 0 1.01 (by norm_num)
  refine ⟨out, h, ?_⟩
  rw [hv 2 (by simp [exEdgeT]) 1 (by simp [exEdgeT])]
  have : triMean exEdgeT 1 2 1 = 5 / 8 := by
    unfold triMean
    rw [show Finset.Icc (-((1 : ℕ) : ℤ)) (1 : ℕ) = {-1, 0, 1} by decide]
    norm_num [exEdgeT, triWeight, mirror, t2, t3]
  rw [this]
  norm_num [ramp, usedMargin]

end EdgeEval.Props
