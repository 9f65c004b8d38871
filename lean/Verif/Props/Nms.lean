import Mathlib.Tactic.IntervalCases
import Verif.Lemmas.ConvTri

/-!
# C21, C44, C45: non-maximum suppression and its smoothing
-/

namespace EdgeEval.Props

open Spec Nms

/-- C21: for maps of the same shape, at least 2×2, `nms` succeeds (so every read was in range), and each
pixel is its response — or 0 if it is beaten — times the two ramps. -/
theorem C21_result (edge ori : Img ℝ) (hro : ori.rows = edge.rows) (hco : ori.cols = edge.cols)
    (hr : 2 ≤ edge.rows) (hc : 2 ≤ edge.cols) (r s : ℤ) (m : ℝ) :
    ∃ out, nms edge ori r s m = .ok out ∧ out.rows = edge.rows ∧ out.cols = edge.cols ∧
      ∀ y < edge.rows, ∀ x < edge.cols,
        (Beaten edge ori r m y x → out.at_ y x = 0) ∧
        (¬ Beaten edge ori r m y x → out.at_ y x = edge.at_ y x *
          ramp (usedMargin edge.rows edge.cols s) edge.cols x *
          ramp (usedMargin edge.rows edge.cols s) edge.rows y) := by
  obtain ⟨out, ho, h1, h2, hv⟩ := benms_eq edge ori hr hc r s m
  refine ⟨out, ?_, h1, h2, fun y hy x hx => ⟨fun hb => ?_, fun hb => ?_⟩⟩
  · unfold nms
    rw [if_neg (by rw [hro, hco]; simp), if_neg (by omega), ho]
  · rw [hv y hy x hx, if_pos hb]; ring
  · rw [hv y hy x hx, if_neg hb]

/-- C21: images without pixels are rejected. -/
theorem C21_empty (edge ori : Img ℝ) (h : edge.rows = 0 ∨ edge.cols = 0) (r s : ℤ) (m : ℝ) :
    nms edge ori r s m = .error .valueError := by
  unfold nms
  rw [if_pos h]
  split <;> rfl

/-- C21: maps of different shapes are rejected. -/
theorem C21_shape_mismatch (edge ori : Img ℝ) (h : edge.rows ≠ ori.rows ∨ edge.cols ≠ ori.cols)
    (r s : ℤ) (m : ℝ) : nms edge ori r s m = .error .valueError := by
  unfold nms; rw [if_pos h]

/-- C21: every output pixel is the input damped by a factor between 0 and 1. -/
theorem C21_damped (edge ori out : Img ℝ) (hr : 2 ≤ edge.rows) (hc : 2 ≤ edge.cols) (r s : ℤ) (m : ℝ)
    (ho : nms edge ori r s m = .ok out) (y x : ℕ) (hy : y < edge.rows) (hx : x < edge.cols) :
    out.at_ y x = 0 ∨ ∃ f : ℝ, 0 ≤ f ∧ f ≤ 1 ∧ out.at_ y x = edge.at_ y x * f := by
  have hsh : ori.rows = edge.rows ∧ ori.cols = edge.cols := by
    by_contra hne
    rw [C21_shape_mismatch edge ori (by omega)] at ho
    cases ho
  obtain ⟨out', ho', -, -, hv⟩ := C21_result edge ori hsh.1 hsh.2 hr hc r s m
  rw [ho] at ho'
  cases ho'
  by_cases hb : Beaten edge ori r m y x
  · exact .inl ((hv y hy x hx).1 hb)
  · right
    refine ⟨ramp (usedMargin edge.rows edge.cols s) edge.cols x *
      ramp (usedMargin edge.rows edge.cols s) edge.rows y, mul_nonneg (ramp_nonneg _ _ _) (ramp_nonneg _ _ _),
      mul_le_one₀ (ramp_le_one _ _ _) (ramp_nonneg _ _ _) (ramp_le_one _ _ _), ?_⟩
    rw [(hv y hy x hx).2 hb, mul_assoc]

/-- C21: for a non-negative response the output is between 0 and the input. -/
theorem C21_between (edge ori out : Img ℝ) (hr : 2 ≤ edge.rows) (hc : 2 ≤ edge.cols) (r s : ℤ) (m : ℝ)
    (ho : nms edge ori r s m = .ok out) (y x : ℕ) (hy : y < edge.rows) (hx : x < edge.cols)
    (hpos : 0 ≤ edge.at_ y x) : 0 ≤ out.at_ y x ∧ out.at_ y x ≤ edge.at_ y x := by
  rcases C21_damped edge ori out hr hc r s m ho y x hy hx with h | ⟨f, h0, h1, h⟩
  · rw [h]; exact ⟨le_refl _, hpos⟩
  · rw [h]; exact ⟨mul_nonneg hpos h0, mul_le_of_le_one_right hpos h1⟩

/-- C21: at distance at least `s` from all four sides there is no damping: a response is removed exactly
when it is beaten and otherwise kept unchanged. -/
theorem C21_interior (edge ori out : Img ℝ) (hr : 2 ≤ edge.rows) (hc : 2 ≤ edge.cols) (r s : ℤ) (m : ℝ)
    (ho : nms edge ori r s m = .ok out) (y x : ℕ)
    (hy : s ≤ y) (hy' : (y : ℤ) + s < edge.rows) (hx : s ≤ x) (hx' : (x : ℤ) + s < edge.cols)
    (hyr : y < edge.rows) (hxc : x < edge.cols) :
    (Beaten edge ori r m y x → out.at_ y x = 0) ∧
    (¬ Beaten edge ori r m y x → out.at_ y x = edge.at_ y x) ∧
    (edge.at_ y x ≠ 0 → (out.at_ y x = 0 ↔ Beaten edge ori r m y x)) := by
  have hsh : ori.rows = edge.rows ∧ ori.cols = edge.cols := by
    by_contra hne
    rw [C21_shape_mismatch edge ori (by omega)] at ho
    cases ho
  obtain ⟨out', ho', -, -, hv⟩ := C21_result edge ori hsh.1 hsh.2 hr hc r s m
  rw [ho] at ho'
  cases ho'
  have hk : ¬ Beaten edge ori r m y x → out.at_ y x = edge.at_ y x := by
    intro hb
    rw [(hv y hyr x hxc).2 hb, ramp_mid, ramp_mid, mul_one, mul_one]
    all_goals unfold usedMargin; omega
  refine ⟨(hv y hyr x hxc).1, hk, fun hne => ⟨fun h0 => ?_, (hv y hyr x hxc).1⟩⟩
  by_contra hb
  exact hne ((hk hb).symm.trans h0)

/-- C21: with a positive margin the outermost pixels are always 0. -/
theorem C21_border (edge ori out : Img ℝ) (hr : 2 ≤ edge.rows) (hc : 2 ≤ edge.cols) (r s : ℤ) (hs : 1 ≤ s)
    (m : ℝ) (ho : nms edge ori r s m = .ok out) (y x : ℕ) (hy : y < edge.rows) (hx : x < edge.cols)
    (hb : y = 0 ∨ x = 0 ∨ y + 1 = edge.rows ∨ x + 1 = edge.cols) : out.at_ y x = 0 := by
  have hsh : ori.rows = edge.rows ∧ ori.cols = edge.cols := by
    by_contra hne
    rw [C21_shape_mismatch edge ori (by omega)] at ho
    cases ho
  obtain ⟨out', ho', -, -, hv⟩ := C21_result edge ori hsh.1 hsh.2 hr hc r s m
  rw [ho] at ho'
  cases ho'
  by_cases hbt : Beaten edge ori r m y x
  · exact (hv y hy x hx).1 hbt
  · have hm : usedMargin edge.rows edge.cols s ≠ 0 := by unfold usedMargin; omega
    have key : ∀ n k : ℕ, (k = 0 ∨ k + 1 = n) → ramp (usedMargin edge.rows edge.cols s) n k = 0 := by
      intro n k hk
      unfold ramp
      have : toEnd n k = 0 := by unfold toEnd; omega
      rw [if_neg hm, this]; simp
    rw [(hv y hy x hx).2 hbt]
    rcases hb with h | h | h | h
    · rw [key edge.rows y (.inl h), mul_zero]
    · rw [key edge.cols x (.inl h)]; ring
    · rw [key edge.rows y (.inr h), mul_zero]
    · rw [key edge.cols x (.inr h)]; ring

/-- C21: a pixel carrying the largest response of a non-negative map is never removed when `m ≥ 1`. -/
theorem C21_maximum_kept (edge ori : Img ℝ) (hr : 2 ≤ edge.rows) (hc : 2 ≤ edge.cols) (r : ℤ) (m : ℝ)
    (hm : 1 ≤ m) (y x : ℕ) (hpos : 0 ≤ edge.at_ y x)
    (hmax : ∀ i < edge.rows, ∀ j < edge.cols, edge.at_ i j ≤ edge.at_ y x) :
    ¬ Beaten edge ori r m y x := by
  rintro ⟨d, -, -, hlt⟩
  have hlo : ∃ lo, ∀ i < edge.rows, ∀ j < edge.cols, lo ≤ edge.at_ i j := by
    refine ⟨-∑ i ∈ Finset.range edge.rows, ∑ j ∈ Finset.range edge.cols, |edge.at_ i j|, ?_⟩
    intro i hi j hj
    have h1 : |edge.at_ i j| ≤ ∑ j ∈ Finset.range edge.cols, |edge.at_ i j| :=
      Finset.single_le_sum (f := fun j => |edge.at_ i j|) (fun _ _ => abs_nonneg _)
        (Finset.mem_range.2 hj)
    have h2 : ∑ j ∈ Finset.range edge.cols, |edge.at_ i j| ≤
        ∑ i ∈ Finset.range edge.rows, ∑ j ∈ Finset.range edge.cols, |edge.at_ i j| :=
      Finset.single_le_sum (f := fun i => ∑ j ∈ Finset.range edge.cols, |edge.at_ i j|)
        (fun _ _ => Finset.sum_nonneg fun _ _ => abs_nonneg _) (Finset.mem_range.2 hi)
    have := neg_abs_le (edge.at_ i j)
    linarith
  obtain ⟨lo, hlo⟩ := hlo
  have := (sample_within edge hr hc (lo := lo) (hi := edge.at_ y x)
    (fun i hi j hj => ⟨hlo i hi j hj, hmax i hi j hj⟩) (x + d * Real.cos (ori.at_ y x))
    (y + d * Real.sin (ori.at_ y x))).2
  nlinarith

/-- C21: raising the multiplier `m` removes no additional non-negative response. -/
theorem C21_conservative (edge ori : Img ℝ) (r : ℤ) (m m' : ℝ) (hm : m ≤ m') (y x : ℕ)
    (hpos : 0 ≤ edge.at_ y x) (hb : Beaten edge ori r m' y x) : Beaten edge ori r m y x := by
  obtain ⟨d, h0, hd, hlt⟩ := hb
  exact ⟨d, h0, hd, lt_of_le_of_lt (mul_le_mul_of_nonneg_right hm hpos) hlt⟩

/-- C21: a radius of 0 or less removes nothing. -/
theorem C21_radius_zero (edge ori : Img ℝ) (r : ℤ) (hr : r ≤ 0) (m : ℝ) (y x : ℕ) :
    ¬ Beaten edge ori r m y x := by
  rintro ⟨d, h0, hd, -⟩
  have := abs_pos.2 h0
  omega

/-- C21 (finding): on an image of a single column with a non-zero response and radius at least 1, the
interpolation asks for column 1, outside the matrix; the C++ exception is not translated and ends the Python process. -/
theorem C21_single_column_reads_outside (edge ori : Img ℝ) (hc : edge.cols = 1)
    (hrows : edge.rows = ori.rows) (hcols : edge.cols = ori.cols) (r s : ℤ) (hr : 1 ≤ r) (m : ℝ)
    (y : ℕ) (hy : y < edge.rows) (hne : edge.at_ y 0 ≠ 0) :
    nms edge ori r s m = .error .terminated := by
  have hin : ∀ x y, interp edge edge.rows edge.cols x y = .error .terminated := by
    intro x y
    have hcl : cInt (clampCoord edge.cols x) = 0 := by
      rw [hc]
      unfold clampCoord
      norm_num
      split
      · unfold cInt; norm_num
      · unfold cInt
        split
        · rw [if_neg (by norm_num), Int.ceil_eq_iff]
          norm_num
        · rename_i h1 h2
          exfalso
          linarith
    unfold interp
    simp only [hcl]
    have : readAt edge (cInt (clampCoord edge.rows y)) (0 + 1) = .error .terminated := by
      unfold readAt
      rw [if_neg]
      rw [hc]; simp
    rw [this]
    cases readAt edge (cInt (clampCoord edge.rows y)) 0 <;> rfl
  have hsup : ∀ e c s' x y, suppressLoop edge e c s' x y (offsets r) = .error .terminated := by
    intro e c s' x y
    have hmem : ∃ d ∈ offsets r, d ≠ 0 := ⟨1, mem_offsets.2 (by rw [abs_one]; exact hr), by omega⟩
    generalize offsets r = ds at hmem
    induction ds with
    | nil => simp at hmem
    | cons d ds ih =>
      unfold suppressLoop
      by_cases hd : d = 0
      · rw [if_neg (by simp [hd])]
        apply ih
        obtain ⟨d', hm', hd'⟩ := hmem
        rcases List.mem_cons.1 hm' with h | h
        · exact absurd (h.trans hd) hd'
        · exact ⟨d', h, hd'⟩
      · rw [if_pos hd, hin]
  have hpix : ∀ y' x', nmsPixel edge ori r m y' x' = .error .terminated ∨
      (edge.at_ y' x' = 0 ∧ ∃ v, nmsPixel edge ori r m y' x' = .ok v) := by
    intro y' x'
    unfold nmsPixel
    by_cases h : edge.at_ y' x' = 0
    · right; exact ⟨h, _, by rw [if_pos h]⟩
    · left; simp only [h, if_false, hsup]
  have hfp : ∀ (ps : List (ℕ × ℕ)) out, (∃ p ∈ ps, edge.at_ p.2 p.1 ≠ 0) →
      firstPass edge ori r m ps out = .error .terminated := by
    intro ps
    induction ps with
    | nil => intro out h; simp at h
    | cons p ps ih =>
      intro out h
      unfold firstPass
      rcases hpix p.2 p.1 with h1 | ⟨h0, v, hv⟩
      · rw [h1]
      · rw [hv]
        apply ih
        obtain ⟨q, hq, hqn⟩ := h
        rcases List.mem_cons.1 hq with h2 | h2
        · rw [h2] at hqn; exact absurd h0 hqn
        · exact ⟨q, h2, hqn⟩
  unfold nms
  rw [if_neg (by omega), if_neg (by omega)]
  unfold benms
  rw [hfp _ _ ⟨(0, y), mem_loop2.2 ⟨by simp only; omega, hy⟩, hne⟩]

/-- A 4×4 map with one ridge, oriented along x. -/
noncomputable def exEdge : Img ℝ := { rows := 4, cols := 4, at_ := fun _ j => if j = 1 then 1 else 1 / 2 }
noncomputable def exOri : Img ℝ := { rows := 4, cols := 4, at_ := fun _ _ => 0 }

/-- The response at column 2 is beaten by the ridge at column 1. -/
theorem C21_beaten_witness : Beaten exEdge exOri 1 1 1 2 := by
  refine ⟨-1, by omega, by simp, ?_⟩
  have h : sample exEdge (((2 : ℕ) : ℝ) + ((-1 : ℤ) : ℝ) * Real.cos (exOri.at_ 1 2))
      (((1 : ℕ) : ℝ) + ((-1 : ℤ) : ℝ) * Real.sin (exOri.at_ 1 2)) = 1 := by
    have ex : exOri.at_ 1 2 = 0 := rfl
    rw [ex, Real.cos_zero, Real.sin_zero]
    unfold sample
    have e1 : inRange exEdge.cols (((2 : ℕ) : ℝ) + ((-1 : ℤ) : ℝ) * 1) = 1 := by
      unfold inRange exEdge; norm_num
    have e2 : inRange exEdge.rows (((1 : ℕ) : ℝ) + ((-1 : ℤ) : ℝ) * 0) = 1 := by
      unfold inRange exEdge; norm_num
    rw [e1, e2]
    rw [bilinear_cell exEdge (k := 1) (l := 1) (by simp [exEdge]) (by simp [exEdge]) (by norm_num)
      (by norm_num) (by norm_num) (by norm_num)]
    norm_num [exEdge]
  rw [h]
  norm_num [exEdge]

/-- The hypotheses of the theorems above are met: `nms` succeeds on the example, removes the pixel beside
the ridge and keeps the ridge. -/
example : ∃ out, nms exEdge exOri 1 1 1 = .ok out ∧ out.at_ 1 2 = 0 ∧ out.at_ 1 1 = 1 := by
  obtain ⟨out, ho, -, -, hv⟩ := C21_result exEdge exOri rfl rfl (by simp [exEdge]) (by simp [exEdge]) 1 1 1
  refine ⟨out, ho, (hv 1 (by simp [exEdge]) 2 (by simp [exEdge])).1 C21_beaten_witness, ?_⟩
  rw [(C21_interior exEdge exOri out (by simp [exEdge]) (by simp [exEdge]) 1 1 1 ho 1 1 (by simp)
    (by simp [exEdge]) (by simp) (by simp [exEdge]) (by simp [exEdge]) (by simp [exEdge])).2.1]
  · simp [exEdge]
  · apply C21_maximum_kept exEdge exOri (by simp [exEdge]) (by simp [exEdge]) 1 1 (le_refl _)
    · simp [exEdge]
    · intro i _ j _
      simp only [exEdge]
      split <;> norm_num

/-! ## C44: triangle smoothing -/

/-- C44: for every positive integer radius, `conv_tri` keeps the shape and returns at each pixel the average
with triangle weights of the mirrored image; the special case of the code for `r ≤ 1` is the same formula. -/
theorem C44_closed_form (im : Img ℝ) (r : ℕ) (hr : 1 ≤ r) (h0 : 0 < im.rows) (w0 : 0 < im.cols) :
    ∃ out, convTri im r 1 = .ok out ∧ out.rows = im.rows ∧ out.cols = im.cols ∧
      ∀ i < im.rows, ∀ j < im.cols, out.at_ i j = triMean im r i j := by
  obtain ⟨out, h, h1, h2, hv⟩ := convTri_eq im hr h0 w0
  exact ⟨out, h, h1, h2, fun i _ j _ => hv i j⟩

/-- C44: the weights are a probability distribution. -/
theorem C44_weights (r : ℕ) :
    (∀ a : ℤ, |a| ≤ r → 0 ≤ triWeight r a) ∧ ∑ a ∈ Finset.Icc (-(r : ℤ)) r, triWeight r a = 1 :=
  ⟨fun a ha => triWeight_nonneg (by rw [Finset.mem_Icc]; exact abs_le.1 ha), triWeight_sum r⟩

/-- C44: smoothing does not leave the range of the input; a constant image is unchanged. -/
theorem C44_range (im out : Img ℝ) (r : ℕ) (lo hi : ℝ) (hw : Within im lo hi)
    (ho : convTri im r 1 = .ok out) : Within out lo hi := by
  by_cases hz : im.rows * im.cols = 0 ∨ (r = 0 ∧ 1 = 1)
  · unfold convTri at ho
    rw [if_pos hz] at ho
    cases ho
    exact hw
  · have hpos : 0 < im.rows ∧ 0 < im.cols := by
      constructor <;> by_contra hneg <;> apply hz <;> left <;>
        simp [Nat.eq_zero_of_not_pos hneg]
    obtain ⟨out', h, h1, h2, hv⟩ := convTri_eq im (r := r) (by omega) hpos.1 hpos.2
    rw [ho] at h
    cases h
    intro i _ j _
    rw [hv]
    exact triMean_within im r hpos.1 hpos.2 hw i j

/-- C44: an empty image, and radius 0 without sub-sampling, are returned unchanged. -/
theorem C44_trivial (im : Img ℝ) (r s : ℕ) (h : im.rows = 0 ∨ im.cols = 0 ∨ (r = 0 ∧ s = 1)) :
    convTri im r s = .ok im := by
  unfold convTri
  rw [if_pos]
  rcases h with h | h | h
  · left; rw [h]; simp
  · left; rw [h]; simp
  · right; exact h

/-- C44 (finding): radius 0 with sub-sampling divides by zero instead of sub-sampling. -/
theorem C44_radius_zero_subsampling (im : Img ℝ) (s : ℕ) (hs : 1 < s) (h0 : 0 < im.rows)
    (w0 : 0 < im.cols) : convTri im 0 s = .error .zeroDivisionError := by
  unfold convTri
  have := Nat.mul_pos h0 w0
  rw [if_neg (by omega), if_pos rfl]

/-- C44: with sub-sampling, pixel `(i, j)` of the result is pixel `(s/2 + i s, s/2 + j s)` of the smoothed
image, and all of these are inside it. -/
theorem C44_subsampling (im : Img ℝ) (r s : ℕ) (hr : 1 ≤ r) (hs : 1 < s) (h0 : 0 < im.rows)
    (w0 : 0 < im.cols) :
    ∃ out, convTri im r s = .ok out ∧
      ∀ i < out.rows, ∀ j < out.cols, s / 2 + i * s < im.rows ∧ s / 2 + j * s < im.cols ∧
        out.at_ i j = triMean im r (s / 2 + i * s) (s / 2 + j * s) := by
  obtain ⟨full, hf, -, -, hv⟩ := convTri_eq im hr h0 w0
  have hsl : ∀ n i : ℕ, i < sliceLen n (s / 2 + 1 - 1) ((n : ℤ) - ((s : ℤ) - ((s / 2 + 1 : ℕ) : ℤ)) + 1) s →
      s / 2 + i * s < n := by
    intro n i hi
    unfold sliceLen at hi
    simp only at hi
    rw [Nat.lt_div_iff_mul_lt (by omega)] at hi
    generalize i * s = q at *
    split at hi
    · omega
    · have := min_le_right ((n : ℤ) - ((s : ℤ) - ((s / 2 + 1 : ℕ) : ℤ)) + 1) (n : ℤ)
      omega
  unfold convTri at hf ⊢
  have := Nat.mul_pos h0 w0
  rw [if_neg (by omega), if_neg (by omega)] at hf ⊢
  simp only [lt_irrefl, if_false] at hf
  rw [if_pos hs]
  refine ⟨_, rfl, fun i hi j hj => ⟨hsl _ i hi, hsl _ j hj, ?_⟩⟩
  have e := congrArg (fun (z : Except PyErr (Img ℝ)) => match z with
    | .ok q => q.at_ (s / 2 + i * s) (s / 2 + j * s)
    | .error _ => 0) hf
  simp only at e
  rw [← hv, ← e]
  simp only [Nat.add_sub_cancel]

/-- C44 (finding): with `s = 3` a side of 5 is sub-sampled to 2 samples, where the MATLAB original
(`t:s:end-s+t`) keeps 1: the Python slice ends one sample later. -/
theorem C44_matlab_differs (im : Img ℝ) (r : ℕ) (hr : 1 ≤ r) (h5 : im.rows = 5) (w5 : im.cols = 5) :
    ∃ out, convTri im r 3 = .ok out ∧ out.rows = 2 ∧ out.cols = 2 := by
  unfold convTri
  rw [if_neg (by rw [h5, w5]; omega), if_neg (by omega), if_pos (by omega)]
  refine ⟨_, rfl, ?_, ?_⟩
  · simp only [h5]; decide
  · simp only [w5]; decide

/-- C44: the mirrored index: identity inside, reflection at both ends. -/
theorem C44_mirror (n : ℕ) (hn : 0 < n) (k : ℤ) :
    mirror n k < n ∧ (0 ≤ k → k < n → (mirror n k : ℤ) = k) ∧ mirror n (-1 - k) = mirror n k ∧
      mirror n (2 * n - 1 - k) = mirror n k := by
  have h1 : 0 ≤ k % (2 * n) := Int.emod_nonneg _ (by omega)
  have h2 : k % (2 * n) < 2 * n := Int.emod_lt_of_pos _ (by omega)
  have key : (2 * n - 1 - k) % (2 * n) = 2 * n - 1 - k % (2 * n) := by
    have hdm := Int.mul_ediv_add_emod k (2 * n)
    rw [show (2 * (n : ℤ) - 1 - k) = (2 * n - 1 - k % (2 * n)) + (-(k / (2 * n))) * (2 * n) by linarith]
    rw [Int.add_mul_emod_self_right]
    exact Int.emod_eq_of_lt (by omega) (by omega)
  have key2 : (-1 - k) % (2 * n) = (2 * n - 1 - k) % (2 * n) := by
    rw [show (2 * (n : ℤ) - 1 - k) = (-1 - k) + 1 * (2 * n) by ring, Int.add_mul_emod_self_right]
  refine ⟨mirror_lt hn k, fun hk0 hkn => ?_, ?_, ?_⟩
  · unfold mirror
    rw [Int.emod_eq_of_lt hk0 (by omega)]
    omega
  · unfold mirror
    rw [key2, key]
    omega
  · unfold mirror
    rw [key]
    omega

example : ∃ out, convTri exEdge 4 1 = .ok out ∧ Within out (1 / 2) 1 := by
  obtain ⟨out, h, -⟩ := C44_closed_form exEdge 4 (by omega) (by simp [exEdge]) (by simp [exEdge])
  refine ⟨out, h, C44_range exEdge out 4 _ _ ?_ h⟩
  intro i _ j _
  simp only [exEdge]
  split <;> norm_num

/-! ## C45: `fast_nms` -/

theorem grad2_ok (im : Img ℝ) (hr : 2 ≤ im.rows) (hc : 2 ≤ im.cols) :
    ∃ a b, grad2 im = .ok (a, b) ∧ a.rows = im.rows ∧ a.cols = im.cols ∧ b.rows = im.rows ∧
      b.cols = im.cols := by
  unfold grad2
  rw [if_neg (by omega)]
  exact ⟨_, _, rfl, rfl, rfl, rfl, rfl⟩

theorem orientation_ok (im : Img ℝ) (hr : 2 ≤ im.rows) (hc : 2 ≤ im.cols) :
    ∃ o, orientation im = .ok o ∧ o.rows = im.rows ∧ o.cols = im.cols ∧
      ∀ i j, 0 ≤ o.at_ i j ∧ o.at_ i j < Real.pi := by
  obtain ⟨a, b, h, ha1, ha2, hb1, hb2⟩ := grad2_ok im hr hc
  obtain ⟨aa, ab, h2, -⟩ := grad2_ok a (by omega) (by omega)
  obtain ⟨ba, bb, h3, -⟩ := grad2_ok b (by omega) (by omega)
  unfold orientation
  simp only [h, h2, h3]
  refine ⟨_, rfl, rfl, rfl, fun i j => ?_⟩
  simp only
  unfold npMod
  generalize Real.arctan _ = v
  have hp := Real.pi_pos
  have h1 := Int.floor_le (v / Real.pi)
  have h2 := Int.lt_floor_add_one (v / Real.pi)
  rw [le_div_iff₀ hp] at h1
  rw [div_lt_iff₀ hp] at h2
  constructor <;> nlinarith

/-- C45: `fast_nms` is non-maximum suppression of the smoothed response, with some orientation in
`[0, π)`; it succeeds on all images with both sides at least 2. -/
theorem fastNmsFloat_ok (im : Img ℝ) (hr : 2 ≤ im.rows) (hc : 2 ≤ im.cols) (r s : ℤ) (m : ℝ) :
    ∃ edge ori out, edge.rows = im.rows ∧ edge.cols = im.cols ∧
      (∀ i j, edge.at_ i j = triMean im 1 i j) ∧
      ori.rows = im.rows ∧ ori.cols = im.cols ∧ (∀ i j, 0 ≤ ori.at_ i j ∧ ori.at_ i j < Real.pi) ∧
      nms edge ori r s m = .ok out ∧ fastNmsFloat im r s m = .ok out := by
  obtain ⟨edge, he, e1, e2, ev⟩ := convTri_eq im (r := 1) (le_refl _) (by omega) (by omega)
  obtain ⟨e4, h4, f1, f2, -⟩ := convTri_eq edge (r := 4) (by omega) (by omega) (by omega)
  obtain ⟨ori, ho, o1, o2, ov⟩ := orientation_ok e4 (by omega) (by omega)
  obtain ⟨out, hn, -⟩ := C21_result edge ori (by omega) (by omega) (by omega) (by omega) r s m
  refine ⟨edge, ori, out, e1, e2, ev, by omega, by omega, ov, hn, ?_⟩
  unfold fastNmsFloat
  simp only [he, h4, ho, hn]

/-- C45: on a float image of at least 2×2 pixels with values in `[0, 1]` `fast_nms` succeeds, keeps the shape,
and returns values between 0 and the smoothed response, hence in `[0, 1]`. -/
theorem C45_float (im : Img ℝ) (hr : 2 ≤ im.rows) (hc : 2 ≤ im.cols) (hw : Within im 0 1) (r s : ℤ) (m : ℝ) :
    ∃ out, fastNms (.float im) r s m false = .ok (.float out) ∧ out.rows = im.rows ∧ out.cols = im.cols ∧
      ∀ i < im.rows, ∀ j < im.cols,
        0 ≤ out.at_ i j ∧ out.at_ i j ≤ triMean im 1 i j ∧ out.at_ i j ≤ 1 := by
  obtain ⟨edge, ori, out, e1, e2, ev, o1, o2, -, hn, hf⟩ := fastNmsFloat_ok im hr hc r s m
  obtain ⟨out', hn', r1, r2, -⟩ := C21_result edge ori (by omega) (by omega) (by omega) (by omega) r s m
  rw [hn] at hn'
  cases hn'
  refine ⟨out, by simp [fastNms, toFloat, hf], by omega, by omega, fun i hi j hj => ?_⟩
  have hb := triMean_within im 1 (by omega) (by omega) hw i j
  have := C21_between edge ori out (by omega) (by omega) r s m hn i j (by omega) (by omega)
    (by rw [ev]; exact hb.1)
  rw [ev] at this
  exact ⟨this.1, this.2, le_trans this.2 hb.2⟩

/-- C45: the value at each pixel is 0 if it is beaten in the smoothed response along the orientation, and the
smoothed response times the border ramps otherwise. -/
theorem C45_value (im : Img ℝ) (hr : 2 ≤ im.rows) (hc : 2 ≤ im.cols) (r s : ℤ) (m : ℝ) :
    ∃ edge ori out, (∀ i j, edge.at_ i j = triMean im 1 i j) ∧ edge.rows = im.rows ∧ edge.cols = im.cols ∧
      (∀ i j, 0 ≤ ori.at_ i j ∧ ori.at_ i j < Real.pi) ∧
      fastNms (.float im) r s m false = .ok (.float out) ∧
      ∀ i < im.rows, ∀ j < im.cols,
        (Beaten edge ori r m i j → out.at_ i j = 0) ∧
        (¬ Beaten edge ori r m i j → out.at_ i j = triMean im 1 i j *
          ramp (usedMargin im.rows im.cols s) im.cols j * ramp (usedMargin im.rows im.cols s) im.rows i) := by
  obtain ⟨edge, ori, out, e1, e2, ev, o1, o2, ov, hn, hf⟩ := fastNmsFloat_ok im hr hc r s m
  obtain ⟨out', hn', -, -, hv⟩ := C21_result edge ori (by omega) (by omega) (by omega) (by omega) r s m
  rw [hn] at hn'
  cases hn'
  refine ⟨edge, ori, out, ev, e1, e2, ov, by simp [fastNms, toFloat, hf], fun i hi j hj => ?_⟩
  have := hv i (by omega) j (by omega)
  rw [ev, e1, e2] at this
  exact this

/-- C45: an image with a side shorter than 2 is rejected with a `ValueError` whatever its contents and
parameters, so the out-of-range read of `C21_single_column_reads_outside` is never reached from `fast_nms`. -/
theorem C45_small_rejected (im : Img ℝ) (h : im.rows < 2 ∨ im.cols < 2) (r s : ℤ) (m : ℝ) (u : Bool) :
    fastNms (.float im) r s m u = .error .valueError := by
  have hg : ∀ e : Img ℝ, e.rows = im.rows → e.cols = im.cols → orientation e = .error .valueError := by
    intro e h1 h2
    unfold orientation grad2
    rw [if_pos (by omega)]
  have hf : fastNmsFloat im r s m = .error .valueError := by
    unfold fastNmsFloat
    by_cases hz : im.rows = 0 ∨ im.cols = 0
    · simp only [C44_trivial im 1 1 (by tauto), C44_trivial im 4 1 (by tauto), hg im rfl rfl]
    · obtain ⟨edge, he, e1, e2, -⟩ := convTri_eq im (r := 1) (le_refl _) (by omega) (by omega)
      obtain ⟨e4, h4, f1, f2, -⟩ := convTri_eq edge (r := 4) (by omega) (by omega) (by omega)
      simp only [he, h4, hg e4 (by omega) (by omega)]
  simp only [fastNms, toFloat, hf]

/-- C45: an 8-bit image is treated as the float image divided by 255. -/
theorem C45_uint8_input (im : Img ℕ) (r s : ℤ) (m : ℝ) (u : Bool) :
    fastNms (.u8 im) r s m u =
      fastNms (.float { rows := im.rows, cols := im.cols, at_ := fun (i j : ℕ) => (im.at_ i j : ℝ) / 255 })
        r s m u := rfl

/-- C45: any other dtype fails the assertion. -/
theorem C45_other_dtype (r s : ℤ) (m : ℝ) (u : Bool) : fastNms .other r s m u = .error .assertionError := rfl

theorem npRound_close (x : ℝ) : |(npRound x : ℝ) - x| ≤ 1 / 2 := by
  have h1 := Int.floor_le x
  have h2 := Int.lt_floor_add_one x
  unfold npRound
  simp only
  split
  · rw [abs_le]; constructor <;> linarith
  · split
    · push_cast
      rw [abs_le]; constructor <;> linarith
    · split
      · rw [abs_le]; constructor <;> linarith
      · push_cast
        rw [abs_le]; constructor <;> linarith

/-- C45: the 8-bit result is 255 times the float result, rounded to the closest integer, and never exceeds
255. -/
theorem C45_uint8_output (im : Img ℝ) (hr : 2 ≤ im.rows) (hc : 2 ≤ im.cols) (hw : Within im 0 1) (r s : ℤ)
    (m : ℝ) :
    ∃ out q, fastNms (.float im) r s m false = .ok (.float out) ∧
      fastNms (.float im) r s m true = .ok (.u8 q) ∧ q.rows = im.rows ∧ q.cols = im.cols ∧
      ∀ i < im.rows, ∀ j < im.cols, q.at_ i j ≤ 255 ∧ |(q.at_ i j : ℝ) - 255 * out.at_ i j| ≤ 1 / 2 := by
  obtain ⟨out, ho, r1, r2, hv⟩ := C45_float im hr hc hw r s m
  have hf : fastNmsFloat im r s m = .ok out := by
    unfold fastNms toFloat at ho
    simp only at ho
    cases hh : fastNmsFloat im r s m with
    | error e => rw [hh] at ho; simp at ho
    | ok o => rw [hh] at ho; simp at ho; rw [ho]
  refine ⟨out, quantize out, ho, by simp [fastNms, toFloat, hf], r1, r2, fun i hi j hj => ?_⟩
  obtain ⟨h0, -, h1⟩ := hv i hi j hj
  have e : (quantize out).at_ i j = (npRound (out.at_ i j * 255)).toNat := by
    simp only [quantize]
    rw [max_eq_left h0, min_eq_left h1]
  have hc' := npRound_close (out.at_ i j * 255)
  rw [abs_le] at hc'
  have hnn : 0 ≤ npRound (out.at_ i j * 255) := by
    have : (-1 : ℝ) < npRound (out.at_ i j * 255) := by linarith
    have : (-1 : ℤ) < npRound (out.at_ i j * 255) := by exact_mod_cast this
    omega
  have hle : npRound (out.at_ i j * 255) ≤ 255 := by
    have : (npRound (out.at_ i j * 255) : ℝ) < 256 := by linarith
    have : npRound (out.at_ i j * 255) < 256 := by exact_mod_cast this
    omega
  have hcast : (((npRound (out.at_ i j * 255)).toNat : ℕ) : ℝ) = (npRound (out.at_ i j * 255) : ℝ) := by
    rw [show (((npRound (out.at_ i j * 255)).toNat : ℕ) : ℝ)
      = (((npRound (out.at_ i j * 255)).toNat : ℤ) : ℝ) by norm_cast, Int.toNat_of_nonneg hnn]
  rw [e]
  refine ⟨by omega, ?_⟩
  rw [hcast, abs_le]
  constructor <;> linarith

/-- C45: a constant image `c ≥ 0` is not suppressed anywhere when `m ≥ 1`: only the border ramps act. -/
theorem C45_constant (im : Img ℝ) (hr : 2 ≤ im.rows) (hc : 2 ≤ im.cols) (c : ℝ) (hpos : 0 ≤ c)
    (hw : Within im c c) (r s : ℤ) (m : ℝ) (hm : 1 ≤ m) :
    ∃ out, fastNms (.float im) r s m false = .ok (.float out) ∧
      ∀ i < im.rows, ∀ j < im.cols, out.at_ i j =
        c * ramp (usedMargin im.rows im.cols s) im.cols j * ramp (usedMargin im.rows im.cols s) im.rows i := by
  obtain ⟨edge, ori, out, ev, e1, e2, -, ho, hv⟩ := C45_value im hr hc r s m
  have hcst : ∀ i j, triMean im 1 i j = c := fun i j =>
    le_antisymm (triMean_within im 1 (by omega) (by omega) hw i j).2
      (triMean_within im 1 (by omega) (by omega) hw i j).1
  refine ⟨out, ho, fun i hi j hj => ?_⟩
  rw [(hv i hi j hj).2, hcst]
  apply C21_maximum_kept edge ori (by omega) (by omega) r m hm
  · rw [ev, hcst]; exact hpos
  · intro a _ b _
    rw [ev, ev, hcst, hcst]

example : ∃ out, fastNms (.float exEdge) 1 5 1.01 false = .ok (.float out) := by
  obtain ⟨out, h, -⟩ := C45_float exEdge (by simp [exEdge]) (by simp [exEdge])
    (fun i _ j _ => by simp only [exEdge]; split <;> norm_num) 1 5 1.01
  exact ⟨out, h⟩

end EdgeEval.Props
