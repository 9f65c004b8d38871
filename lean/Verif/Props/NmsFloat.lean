import Verif.Lemmas.NmsFloatConv

/-!
# C65  Non-maximum suppression in floating point

`fl` is any rounding to nearest of doubles, `fl32` any rounding to nearest of floats, `cosF` and `sinF` any functions of
the C library.
-/

namespace EdgeEval.Props

open EdgeEval EdgeEval.Spec EdgeEval.NmsFloat

variable {fl fl32 cosF sinF : ℚ → ℚ}

/-- C65: `nms` refuses maps of different shapes and maps without pixels with a `ValueError`. -/
theorem C65_refusals (edge ori : Img ℚ) (r s : ℤ) (m : ℚ)
    (h : (edge.rows ≠ ori.rows ∨ edge.cols ≠ ori.cols) ∨ edge.rows = 0 ∨ edge.cols = 0) :
    NmsFloat.nms fl fl32 cosF sinF edge ori r s m = .error .valueError := by
  unfold NmsFloat.nms
  by_cases h1 : edge.rows ≠ ori.rows ∨ edge.cols ≠ ori.cols
  · rw [if_pos h1]
  · rw [if_neg h1, if_pos (h.resolve_left h1)]

/-- C65: on every image of at least 2 × 2 pixels `nms` returns a map of the same shape, however the roundings, the sines
and the cosines come out (no read outside the image); every value is a double between 0 and the value of the input. -/
theorem C65_between (H : RoundsNearest fl) (edge ori : Img ℚ) (h1 : ori.rows = edge.rows) (h2 : ori.cols = edge.cols)
    (hr : 2 ≤ edge.rows ∧ edge.rows ≤ 2 ^ 31) (hc : 2 ≤ edge.cols ∧ edge.cols ≤ 2 ^ 31) {V : ℚ} (hV : Doubles edge V)
    (r s : ℤ) (m : ℚ) :
    ∃ out, NmsFloat.nms fl fl32 cosF sinF edge ori r s m = .ok out ∧ out.rows = edge.rows ∧ out.cols = edge.cols ∧
      ∀ y < edge.rows, ∀ x < edge.cols, IsF64 (out.at_ y x) ∧ 0 ≤ out.at_ y x ∧ out.at_ y x ≤ edge.at_ y x := by
  classical
  obtain ⟨out, ho, e1, e2, hv⟩ := nms_eq H fl32 cosF sinF ⟨hr.1, hc.1, hr.2, hc.2⟩ h1 h2 r s m
  refine ⟨out, ho, e1, e2, fun y hy x hx => ?_⟩
  rw [hv y hy x hx]
  obtain ⟨v1, v2, -⟩ := hV y hy x hx
  have key : IsF64 (if BeatenF fl cosF sinF edge ori r (fl32 m) y x then 0 else edge.at_ y x) ∧
      0 ≤ (if BeatenF fl cosF sinF edge ori r (fl32 m) y x then 0 else edge.at_ y x) ∧
      (if BeatenF fl cosF sinF edge ori r (fl32 m) y x then 0 else edge.at_ y x) ≤ edge.at_ y x := by
    split
    · exact ⟨isF64_zero, le_refl _, v2⟩
    · exact ⟨v1, v2, le_refl _⟩
  obtain ⟨a1, a2, a3⟩ := dampF_bounds H (usedMargin edge.rows edge.cols s) edge.cols x key.1 key.2.1
  obtain ⟨b1, b2, b3⟩ := dampF_bounds H (usedMargin edge.rows edge.cols s) edge.rows y a1 a2
  exact ⟨b1, b2, b3.trans (a3.trans key.2.2)⟩

/-- C65: at distance at least `s` from all four sides a value is either removed or copied unchanged, bit for bit. -/
theorem C65_interior (H : RoundsNearest fl) (edge ori : Img ℚ) (h1 : ori.rows = edge.rows) (h2 : ori.cols = edge.cols)
    (hr : 2 ≤ edge.rows ∧ edge.rows ≤ 2 ^ 31) (hc : 2 ≤ edge.cols ∧ edge.cols ≤ 2 ^ 31)
    (r s : ℤ) (m : ℚ) {out : Img ℚ} (ho : NmsFloat.nms fl fl32 cosF sinF edge ori r s m = .ok out) (y x : ℕ)
    (hy : s ≤ y) (hy' : (y : ℤ) + s < edge.rows) (hx : s ≤ x) (hx' : (x : ℤ) + s < edge.cols)
    (hyr : y < edge.rows) (hxc : x < edge.cols) : out.at_ y x = 0 ∨ out.at_ y x = edge.at_ y x := by
  obtain ⟨out', ho', e1, e2, hv⟩ := nms_eq H fl32 cosF sinF ⟨hr.1, hc.1, hr.2, hc.2⟩ h1 h2 r s m
  rw [ho] at ho'
  cases ho'
  rw [hv y hyr x hxc]
  have d1 : ∀ v, dampF fl (usedMargin edge.rows edge.cols s) edge.cols x v = v := by
    intro v
    unfold dampF
    rw [if_neg]
    unfold toEnd usedMargin
    omega
  have d2 : ∀ v, dampF fl (usedMargin edge.rows edge.cols s) edge.rows y v = v := by
    intro v
    unfold dampF
    rw [if_neg]
    unfold toEnd usedMargin
    omega
  rw [d1, d2]
  split
  · exact .inl rfl
  · exact .inr rfl

/-- C65: with `s ≥ 1` the outermost rows and columns of the result are exactly 0. -/
theorem C65_border (H : RoundsNearest fl) (edge ori : Img ℚ) (h1 : ori.rows = edge.rows) (h2 : ori.cols = edge.cols)
    (hr : 2 ≤ edge.rows ∧ edge.rows ≤ 2 ^ 31) (hc : 2 ≤ edge.cols ∧ edge.cols ≤ 2 ^ 31)
    (r s : ℤ) (hs : 1 ≤ s) (m : ℚ) {out : Img ℚ} (ho : NmsFloat.nms fl fl32 cosF sinF edge ori r s m = .ok out) (y x : ℕ)
    (hy : y < edge.rows) (hx : x < edge.cols) (hb : y = 0 ∨ x = 0 ∨ y + 1 = edge.rows ∨ x + 1 = edge.cols) :
    out.at_ y x = 0 := by
  obtain ⟨out', ho', e1, e2, hv⟩ := nms_eq H fl32 cosF sinF ⟨hr.1, hc.1, hr.2, hc.2⟩ h1 h2 r s m
  rw [ho] at ho'
  cases ho'
  rw [hv y hy x hx]
  have hm : 0 < usedMargin edge.rows edge.cols s := by unfold usedMargin; omega
  have zero_at : ∀ n k v, toEnd n k = 0 → dampF fl (usedMargin edge.rows edge.cols s) n k v = 0 := by
    intro n k v h0
    unfold dampF
    rw [if_pos (by omega), h0, Nat.cast_zero, zero_div, H.zero, mul_zero, H.zero]
  rcases hb with h | h | h | h
  · exact zero_at _ _ _ (by unfold toEnd; omega)
  · rw [zero_at edge.cols x _ (by unfold toEnd; omega), dampF_zero H]
  · exact zero_at _ _ _ (by unfold toEnd; omega)
  · rw [zero_at edge.cols x _ (by unfold toEnd; omega), dampF_zero H]

theorem tiny_sum : 2 * ((tiny : ℚ) : ℝ) + 1 / 2 ^ 990 ≤ 1 / 2 ^ 980 ∧ ((tiny : ℚ) : ℝ) = 1 / 2 ^ 1000 := by
  have ht : ((tiny : ℚ) : ℝ) = 1 / 2 ^ 1000 := by unfold tiny; push_cast; ring
  refine ⟨?_, ht⟩
  rw [ht]
  have h1 : (1 : ℝ) / 2 ^ 1000 = 1 / 2 ^ 980 * (1 / 2 ^ 20) := by
    rw [show (1000 : ℕ) = 980 + 20 from rfl, pow_add]
    have h : (2 : ℝ) ^ 980 ≠ 0 := by positivity
    generalize (2 : ℝ) ^ 980 = z at h ⊢
    field_simp
  have h2 : (1 : ℝ) / 2 ^ 990 = 1 / 2 ^ 980 * (1 / 2 ^ 10) := by
    rw [show (990 : ℕ) = 980 + 10 from rfl, pow_add]
    have h : (2 : ℝ) ^ 980 ≠ 0 := by positivity
    generalize (2 : ℝ) ^ 980 = z at h ⊢
    field_simp
  rw [h1, h2]
  have h3 : (0 : ℝ) < 1 / 2 ^ 980 := by positivity
  generalize (1 : ℝ) / 2 ^ 980 = z at h3 ⊢
  norm_num
  linarith

/-- C65: the program decides like exact arithmetic.  Take a pixel for which no comparison is a near-tie: all exactly
sampled responses differ from `m` times the response of the pixel by more than `V · (m + rows + cols + 2 r) · 2^-48`
(`V` bounds the image, `m` is the multiplier as a C `float`).  Then it is removed if and only if it is beaten in exact
arithmetic; and if it stays, its value is the exactly damped one up to `2^-50`, relatively. -/
theorem C65_agrees (H : RoundsNearest fl) (H32 : RoundsNearest32 fl32) (edge ori : Img ℚ) (h1 : ori.rows = edge.rows)
    (h2 : ori.cols = edge.cols) (hr : 2 ≤ edge.rows ∧ edge.rows ≤ 2 ^ 31) (hc : 2 ≤ edge.cols ∧ edge.cols ≤ 2 ^ 31)
    {V : ℚ} (hV : Doubles edge V) (r s : ℤ) {m : ℚ} (hm : 0 ≤ m) {out : Img ℚ}
    (ho : NmsFloat.nms fl fl32 cosF sinF edge ori r s m = .ok out) {y x : ℕ} (hy : y < edge.rows) (hx : x < edge.cols)
    (hcos : |((cosF (ori.at_ y x) : ℚ) : ℝ) - Real.cos (ori.at_ y x)| ≤ 1 / 2 ^ 52)
    (hsin : |((sinF (ori.at_ y x) : ℚ) : ℝ) - Real.sin (ori.at_ y x)| ≤ 1 / 2 ^ 52)
    (clear : ∀ d : ℤ, d ≠ 0 → |d| ≤ r →
      V * (fl32 m + edge.rows + edge.cols + 2 * r) / 2 ^ 48 + 1 / 2 ^ 980 <
        |(fl32 m : ℝ) * edge.at_ y x -
          sample (realImg edge) (x + d * Real.cos (ori.at_ y x)) (y + d * Real.sin (ori.at_ y x))|) :
    (Beaten (realImg edge) (realImg ori) r (fl32 m) y x → out.at_ y x = 0) ∧
    (¬ Beaten (realImg edge) (realImg ori) r (fl32 m) y x →
      |(out.at_ y x : ℝ) - edge.at_ y x * ramp (usedMargin edge.rows edge.cols s) edge.cols x *
        ramp (usedMargin edge.rows edge.cols s) edge.rows y| ≤ edge.at_ y x / 2 ^ 50 + 1 / 2 ^ 980) := by
  have hs : SizeOk edge := ⟨hr.1, hc.1, hr.2, hc.2⟩
  obtain ⟨out', ho', -, -, hv⟩ := nms_eq H fl32 cosF sinF hs h1 h2 r s m
  rw [ho] at ho'
  cases ho'
  have hv' := hv y hy x hx
  obtain ⟨v1, v2, v3⟩ := hV y hy x hx
  have hm32 : 0 ≤ fl32 m := by
    have := H32.mono hm
    rwa [H32.exact (by simpa using isF32_quarter 0 (by norm_num))] at this
  have hm32r : (0 : ℝ) ≤ fl32 m := by exact_mod_cast hm32
  have v2r : (0 : ℝ) ≤ edge.at_ y x := by exact_mod_cast v2
  have v3r : (edge.at_ y x : ℝ) ≤ V := by exact_mod_cast v3
  obtain ⟨ts, te⟩ := tiny_sum
  have ht0 : (0 : ℝ) ≤ ((tiny : ℚ) : ℝ) := by exact_mod_cast tiny_pos.le
  -- the two sides of the comparison
  have hside := cast_err (H.gen_err (edge.at_ y x * fl32 m))
  rw [abs_of_nonneg (mul_nonneg v2 hm32)] at hside
  push_cast at hside
  have hprod : (edge.at_ y x : ℝ) * fl32 m ≤ V * fl32 m := mul_le_mul_of_nonneg_right v3r hm32r
  have hp0 : (0 : ℝ) ≤ edge.at_ y x * fl32 m := mul_nonneg v2r hm32r
  have hVm : (0 : ℝ) ≤ (V : ℝ) * fl32 m := hp0.trans hprod
  have key : ∀ d : ℤ, d ≠ 0 → |d| ≤ r → (fl (edge.at_ y x * fl32 m) <
      sampleF fl edge (fl ((x : ℚ) + fl (d * cosF (ori.at_ y x)))) (fl ((y : ℚ) + fl (d * sinF (ori.at_ y x)))) ↔
      (fl32 m : ℝ) * edge.at_ y x <
        sample (realImg edge) (x + d * Real.cos (ori.at_ y x)) (y + d * Real.sin (ori.at_ y x))) := by
    intro d hd0 hd
    have hcl := clear d hd0 hd
    have hsm := sample_close H hs (fun i hi j hj => (hV i hi j hj).2) hcos hsin
      (Real.abs_cos_le_one _) (Real.abs_sin_le_one _) hy hx hd
    rw [← (Rat.cast_lt (K := ℝ))]
    generalize ((sampleF fl edge (fl ((x : ℚ) + fl (d * cosF (ori.at_ y x))))
      (fl ((y : ℚ) + fl (d * sinF (ori.at_ y x)))) : ℚ) : ℝ) = F at *
    generalize sample (realImg edge) (x + d * Real.cos (ori.at_ y x)) (y + d * Real.sin (ori.at_ y x)) = E at *
    generalize ((fl (edge.at_ y x * fl32 m) : ℚ) : ℝ) = L at *
    have split : (V : ℝ) * (fl32 m + edge.rows + edge.cols + 2 * r) / 2 ^ 48 =
        V * fl32 m / 2 ^ 48 + V * (edge.rows + edge.cols + 2 * r) / 2 ^ 48 := by ring
    rw [split] at hcl
    have hlm : 1 / 2 ^ 53 * ((edge.at_ y x : ℝ) * fl32 m) ≤ V * fl32 m / 2 ^ 48 := by
      norm_num
      linarith
    have comm : (fl32 m : ℝ) * edge.at_ y x = edge.at_ y x * fl32 m := mul_comm _ _
    rw [comm] at hcl ⊢
    generalize (V : ℝ) * (edge.rows + edge.cols + 2 * r) / 2 ^ 48 = T at *
    generalize (V : ℝ) * fl32 m / 2 ^ 48 = T' at *
    generalize (1 : ℝ) / 2 ^ 53 * ((edge.at_ y x : ℝ) * fl32 m) = T'' at *
    generalize (1 : ℝ) / 2 ^ 990 = z1 at *
    generalize (1 : ℝ) / 2 ^ 980 = z2 at *
    rw [abs_le] at hside hsm
    constructor
    · intro hlt
      by_contra hge
      push Not at hge
      rw [abs_of_nonneg (by linarith)] at hcl
      linarith [hside.1, hsm.2]
    · intro hlt
      rw [abs_of_neg (by linarith)] at hcl
      linarith [hside.2, hsm.1]
  have hiff : BeatenF fl cosF sinF edge ori r (fl32 m) y x ↔ Beaten (realImg edge) (realImg ori) r (fl32 m) y x := by
    constructor
    · rintro ⟨d, h0, hd, hlt⟩
      exact ⟨d, h0, hd, (key d h0 hd).1 hlt⟩
    · rintro ⟨d, h0, hd, hlt⟩
      exact ⟨d, h0, hd, (key d h0 hd).2 hlt⟩
  constructor
  · intro hb
    rw [hv', if_pos (hiff.2 hb), dampF_zero H, dampF_zero H]
  · intro hb
    rw [if_neg (fun h => hb (hiff.1 h))] at hv'
    rw [hv']
    obtain ⟨a1, a2, a3⟩ := dampF_bounds H (usedMargin edge.rows edge.cols s) edge.cols x v1 v2
    have c1 := dampF_close H (usedMargin edge.rows edge.cols s) edge.cols x v2
    have c2 := dampF_close H (usedMargin edge.rows edge.cols s) edge.rows y a2
    have a3r : ((dampF fl (usedMargin edge.rows edge.cols s) edge.cols x (edge.at_ y x) : ℚ) : ℝ) ≤ edge.at_ y x := by
      exact_mod_cast a3
    have hρ0 : 0 ≤ ramp (usedMargin edge.rows edge.cols s) edge.rows y := by
      unfold ramp
      split
      · norm_num
      · exact le_min (by norm_num) (by positivity)
    have hρ1 : ramp (usedMargin edge.rows edge.cols s) edge.rows y ≤ 1 := by
      unfold ramp
      split
      · norm_num
      · exact min_le_left _ _
    generalize ((dampF fl (usedMargin edge.rows edge.cols s) edge.rows y
      (dampF fl (usedMargin edge.rows edge.cols s) edge.cols x (edge.at_ y x)) : ℚ) : ℝ) = O2 at *
    generalize ((dampF fl (usedMargin edge.rows edge.cols s) edge.cols x (edge.at_ y x) : ℚ) : ℝ) = O1 at *
    generalize ramp (usedMargin edge.rows edge.cols s) edge.rows y = ρ at *
    have c3 : |O1 * ρ - edge.at_ y x * ramp (usedMargin edge.rows edge.cols s) edge.cols x * ρ| ≤
        edge.at_ y x / 2 ^ 51 + 1 / 2 ^ 1000 := by
      rw [← sub_mul, abs_mul, abs_of_nonneg hρ0]
      exact (mul_le_of_le_one_right (abs_nonneg _) hρ1).trans c1
    have c4 := abs_sub_le O2 (O1 * ρ) (edge.at_ y x * ramp (usedMargin edge.rows edge.cols s) edge.cols x * ρ)
    have c5 : O1 / 2 ^ 51 ≤ (edge.at_ y x : ℝ) / 2 ^ 51 := div_le_div_of_nonneg_right a3r (by norm_num)
    have c6 : (edge.at_ y x : ℝ) / 2 ^ 50 = edge.at_ y x / 2 ^ 51 + edge.at_ y x / 2 ^ 51 := by ring
    rw [c6]
    rw [te] at ts
    have hz : (0 : ℝ) ≤ 1 / 2 ^ 990 := by positivity
    generalize (1 : ℝ) / 2 ^ 990 = z1 at *
    generalize (1 : ℝ) / 2 ^ 980 = z2 at *
    generalize (1 : ℝ) / 2 ^ 1000 = z3 at *
    linarith

/-- C65: with a multiplier of at least `1 + 2^-22` (the default is 1.01) rounding never removes a largest response of the
image, whatever the orientations and whatever the C library returns for sines and cosines. -/
theorem C65_maximum_kept (H : RoundsNearest fl) (H32 : RoundsNearest32 fl32) (edge ori : Img ℚ)
    (h1 : ori.rows = edge.rows) (h2 : ori.cols = edge.cols) (hr : 2 ≤ edge.rows ∧ edge.rows ≤ 2 ^ 31)
    (hc : 2 ≤ edge.cols ∧ edge.cols ≤ 2 ^ 31) (r s : ℤ) {m : ℚ} (hm : 1 + 1 / 2 ^ 22 ≤ m) {out : Img ℚ}
    (ho : NmsFloat.nms fl fl32 cosF sinF edge ori r s m = .ok out) {y x : ℕ} (hy : y < edge.rows) (hx : x < edge.cols)
    (hV : Doubles edge (edge.at_ y x)) (hbig : 1 / 2 ^ 900 ≤ edge.at_ y x)
    (hy1 : s ≤ y) (hy' : (y : ℤ) + s < edge.rows) (hx1 : s ≤ x) (hx' : (x : ℤ) + s < edge.cols) :
    out.at_ y x = edge.at_ y x := by
  have hs : SizeOk edge := ⟨hr.1, hc.1, hr.2, hc.2⟩
  obtain ⟨out', ho', -, -, hv⟩ := nms_eq H fl32 cosF sinF hs h1 h2 r s m
  rw [ho] at ho'
  cases ho'
  have hn : ¬ BeatenF fl cosF sinF edge ori r (fl32 m) y x := by
    rintro ⟨d, -, -, hlt⟩
    have hm32 : 1 + 1 / 2 ^ 22 ≤ fl32 m := by
      have := H32.mono hm
      rwa [H32.exact ⟨2 ^ 22 + 1, -22, by norm_num, by norm_num, by norm_num⟩] at this
    set px := fl ((x : ℚ) + fl (d * cosF (ori.at_ y x))) with hpx
    set py := fl ((y : ℚ) + fl (d * sinF (ori.at_ y x))) with hpy
    obtain ⟨-, n2, n3⟩ := interp_close H edge hs.r2 hs.c2 hs.rm hs.cm (fun i hi j hj => (hV i hi j hj).2.1)
      (x := px) (y := py) (H.rep _) (H.rep _) (interp_ok H hs px py)
    have hW : Within (realImg edge) 0 (edge.at_ y x) := by
      intro i hi j hj
      obtain ⟨-, a, b⟩ := hV i hi j hj
      refine ⟨?_, ?_⟩
      · show (0 : ℝ) ≤ ((edge.at_ i j : ℚ) : ℝ)
        exact_mod_cast a
      · show ((edge.at_ i j : ℚ) : ℝ) ≤ _
        exact_mod_cast b
    have bx := clampCoord_bounds H hs.c2 hs.cm px
    have by_ := clampCoord_bounds H hs.r2 hs.rm py
    have U : exactAt fl edge px py ≤ edge.at_ y x := by
      unfold exactAt
      refine bilinear_le hW (by exact_mod_cast bx.1) ?_ (by exact_mod_cast by_.1) ?_
      · have := (Rat.cast_le (K := ℝ)).2 bx.2
        push_cast at this
        exact this
      · have := (Rat.cast_le (K := ℝ)).2 by_.2
        push_cast at this
        exact this
    have hside := cast_err (H.gen_err (edge.at_ y x * fl32 m))
    have hlt' := (Rat.cast_lt (K := ℝ)).2 hlt
    obtain ⟨ts, te⟩ := tiny_sum
    have e0 : (0 : ℝ) < edge.at_ y x := by
      have : (0 : ℚ) < edge.at_ y x := lt_of_lt_of_le (by positivity) hbig
      exact_mod_cast this
    have hm32r : (1 : ℝ) + 1 / 2 ^ 22 ≤ fl32 m := by
      have := (Rat.cast_le (K := ℝ)).2 hm32
      push_cast at this
      exact this
    have hbigr : (1 : ℝ) / 2 ^ 980 ≤ edge.at_ y x / 2 ^ 80 := by
      have := (Rat.cast_le (K := ℝ)).2 hbig
      push_cast at this
      have e : (1 : ℝ) / 2 ^ 980 = 1 / 2 ^ 900 / 2 ^ 80 := by rw [div_div, ← pow_add]
      rw [e]
      exact div_le_div_of_nonneg_right this (by norm_num)
    have hem : (edge.at_ y x : ℝ) * (1 + 1 / 2 ^ 22) ≤ edge.at_ y x * fl32 m := mul_le_mul_of_nonneg_left hm32r e0.le
    have habs : |edge.at_ y x * fl32 m| = edge.at_ y x * fl32 m :=
      abs_of_nonneg (mul_nonneg (le_trans (by positivity) hbig) (le_trans (by norm_num) hm32))
    rw [habs] at hside
    push_cast at hside
    generalize ((sampleF fl edge px py : ℚ) : ℝ) = F at *
    generalize ((fl (edge.at_ y x * fl32 m) : ℚ) : ℝ) = L at *
    generalize exactAt fl edge px py = E at *
    rw [abs_le] at hside n3
    have q1 := hside.1
    have q2 := n3.2
    have q3 : (1 : ℝ) / 2 ^ 49 * E ≤ 1 / 2 ^ 49 * edge.at_ y x := mul_le_mul_of_nonneg_left U (by norm_num)
    generalize (edge.at_ y x : ℝ) * fl32 m = M at *
    have ht0 : (0 : ℝ) ≤ ((tiny : ℚ) : ℝ) := by exact_mod_cast tiny_pos.le
    have hz : (0 : ℝ) ≤ 1 / 2 ^ 990 := by positivity
    clear te
    generalize (1 : ℝ) / 2 ^ 990 = z1 at *
    generalize (1 : ℝ) / 2 ^ 980 = z2 at *
    norm_num at q1 q2 q3 hem hbigr
    linarith
  have hv' := hv y hy x hx
  rw [if_neg hn] at hv'
  rw [hv']
  have d1 : ∀ v, dampF fl (usedMargin edge.rows edge.cols s) edge.cols x v = v := by
    intro v
    unfold dampF
    rw [if_neg]
    unfold toEnd usedMargin
    omega
  have d2 : ∀ v, dampF fl (usedMargin edge.rows edge.cols s) edge.rows y v = v := by
    intro v
    unfold dampF
    rw [if_neg]
    unfold toEnd usedMargin
    omega
  rw [d1, d2]

end EdgeEval.Props
