import Verif.Props.NmsFloat
import Verif.Props.Float

/-!
# C65  `fast_nms` in floating point, and two findings
-/

namespace EdgeEval.Props

open EdgeEval EdgeEval.Spec EdgeEval.NmsFloat

/-- The inputs `fast_nms` is meant for: 8-bit images, and images of doubles or floats with values between 0 and 1. -/
def UnitInput : NmsFloat.Input → Prop
  | .u8 im => ∀ i < im.rows, ∀ j < im.cols, im.at_ i j ≤ 255
  | .f64 im => ∀ i < im.rows, ∀ j < im.cols, IsF64 (im.at_ i j) ∧ 0 ≤ im.at_ i j ∧ im.at_ i j ≤ 1
  | .f32 im => ∀ i < im.rows, ∀ j < im.cols, IsF32 (im.at_ i j) ∧ 0 ≤ im.at_ i j ∧ im.at_ i j ≤ 1
  | .other => False

/-- The response an input stands for, exactly: bytes are divided by 255. -/
noncomputable def exactInput : NmsFloat.Input → Img ℝ
  | .u8 im => { rows := im.rows, cols := im.cols, at_ := fun i j => (im.at_ i j : ℝ) / 255 }
  | .f64 im => realImg im
  | .f32 im => realImg im
  | .other => { rows := 0, cols := 0, at_ := fun _ _ => 0 }

/-- A machine that rounds to nearest in both float types; sums may be taken in any order. -/
structure Ieee (M : NmsFloat.Machine) : Prop where
  fl : RoundsNearest M.fl
  fl32 : RoundsNearest32 M.fl32
  sum : ∀ l, SumsTo M.fl l (M.sum l)
  sum32 : ∀ l, SumsTo M.fl32 l (M.sum32 l)

/-- The accuracy of the smoothing step: `2^-50` in double precision, `2^-21` if single precision is involved (a
single-precision input, or `half_prec`). -/
noncomputable def smoothAccuracy (half : Bool) : NmsFloat.Input → ℝ
  | .f32 _ => 1 / 2 ^ 21
  | _ => if half then 1 / 2 ^ 21 else 1 / 2 ^ 50

theorem triMean_close {I J : Img ℝ} (hr : I.rows = J.rows) (hc : I.cols = J.cols) {δ : ℝ} (hr0 : 0 < I.rows) (hc0 : 0 < I.cols)
    (h : ∀ i < I.rows, ∀ j < I.cols, |I.at_ i j - J.at_ i j| ≤ δ) (r i j : ℕ) :
    |triMean I r i j - triMean J r i j| ≤ δ := by
  unfold triMean
  rw [← Finset.sum_sub_distrib]
  have step : ∀ a ∈ Finset.Icc (-(r : ℤ)) r, |(∑ b ∈ Finset.Icc (-(r : ℤ)) r,
      triWeight r a * triWeight r b * I.at_ (mirror I.rows (i + a)) (mirror I.cols (j + b))) -
      ∑ b ∈ Finset.Icc (-(r : ℤ)) r, triWeight r a * triWeight r b * J.at_ (mirror J.rows (i + a)) (mirror J.cols (j + b))|
      ≤ triWeight r a * δ := by
    intro a ha
    rw [← Finset.sum_sub_distrib]
    refine (Finset.abs_sum_le_sum_abs _ _).trans ?_
    have : ∀ b ∈ Finset.Icc (-(r : ℤ)) r, |triWeight r a * triWeight r b * I.at_ (mirror I.rows (i + a)) (mirror I.cols (j + b)) -
        triWeight r a * triWeight r b * J.at_ (mirror J.rows (i + a)) (mirror J.cols (j + b))| ≤
        triWeight r b * (triWeight r a * δ) := by
      intro b hb
      have wa := Nms.triWeight_nonneg ha
      have wb := Nms.triWeight_nonneg hb
      rw [← mul_sub, abs_mul, abs_of_nonneg (mul_nonneg wa wb), ← hr, ← hc]
      have := h _ (mirror_lt hr0 (i + a)) _ (mirror_lt hc0 (j + b))
      calc _ ≤ triWeight r a * triWeight r b * δ := mul_le_mul_of_nonneg_left this (mul_nonneg wa wb)
        _ = _ := by ring
    refine (Finset.sum_le_sum this).trans (le_of_eq ?_)
    rw [← Finset.sum_mul, Nms.triWeight_sum, one_mul]
  refine (Finset.abs_sum_le_sum_abs _ _).trans ((Finset.sum_le_sum step).trans (le_of_eq ?_))
  rw [← Finset.sum_mul, Nms.triWeight_sum, one_mul]

/-- C65: smoothing keeps every response a double in `[0, 1]` (exactly: no overshoot by rounding) and is as accurate as
the float type allows. -/
theorem C65_smoothing {M : NmsFloat.Machine} (h : Ieee M) (half : Bool) (im : NmsFloat.Input) (hu : UnitInput im)
    (hr : 0 < (exactInput im).rows) (hc : 0 < (exactInput im).cols) :
    ∃ e, NmsFloat.smoothed M half im = .ok e ∧ e.rows = (exactInput im).rows ∧ e.cols = (exactInput im).cols ∧
      Doubles e 1 ∧
      ∀ i < e.rows, ∀ j < e.cols, |(e.at_ i j : ℝ) - triMean (exactInput im) 1 i j| ≤ smoothAccuracy half im := by
  -- the rounding to binary32 of `half_prec`
  have fin : ∀ (e : Img ℚ) (a : ℝ) (T : ℕ → ℕ → ℝ) (b : ℝ), (∀ i j, IsF64 (e.at_ i j) ∧ 0 ≤ e.at_ i j ∧ e.at_ i j ≤ 1 ∧
      |(e.at_ i j : ℝ) - T i j| ≤ a) → (half = false → a ≤ b) → (half = true → a + 1 / 2 ^ 25 ≤ b) →
      (∀ i j, IsF64 ((if half then { e with at_ := fun (i j : Nat) => M.fl32 (e.at_ i j) } else e).at_ i j) ∧
        0 ≤ (if half then { e with at_ := fun (i j : Nat) => M.fl32 (e.at_ i j) } else e).at_ i j ∧
        (if half then { e with at_ := fun (i j : Nat) => M.fl32 (e.at_ i j) } else e).at_ i j ≤ 1 ∧
        |(((if half then { e with at_ := fun (i j : Nat) => M.fl32 (e.at_ i j) } else e).at_ i j : ℚ) : ℝ) - T i j| ≤ b) := by
    intro e a T b he h1 h2 i j
    obtain ⟨q1, q2, q3, q4⟩ := he i j
    cases half with
    | false => exact ⟨q1, q2, q3, q4.trans (h1 rfl)⟩
    | true =>
      have R := rd32 h.fl32
      refine ⟨(h.fl32.rep _).f64, R.nonneg q2, ?_, ?_⟩
      · have := R.le_quarter (x := e.at_ i j) (k := 4) (by norm_num) (by norm_num; exact q3)
        norm_num at this
        exact this
      · have e1 := cast_err (R.err q2 q3)
        have e2 := abs_sub_le ((M.fl32 (e.at_ i j) : ℚ) : ℝ) (e.at_ i j) (T i j)
        have e3 := h2 rfl
        push_cast at e1
        simp only [if_true]
        linarith
  cases im with
  | other => cases hu
  | f64 im =>
    have R := rd64 h.fl
    obtain ⟨c1, c2, c3⟩ := convTri1_close h.fl R h.sum hr hc fun i hi j hj => (hu i hi j hj).2
    have key := fin _ (1 / 2 ^ 50) _ (smoothAccuracy half (.f64 im)) (fun i j => ⟨(c3 i j).1, (c3 i j).2.1, (c3 i j).2.2.1,
      (c3 i j).2.2.2.trans (by norm_num)⟩) (by rintro rfl; simp [smoothAccuracy])
      (by rintro rfl; simp only [smoothAccuracy, if_true]; norm_num)
    refine ⟨_, rfl, ?_, ?_, fun i _ j _ => ⟨(key i j).1, (key i j).2.1, (key i j).2.2.1⟩, fun i _ j _ => (key i j).2.2.2⟩
    · cases half <;> exact c1
    · cases half <;> exact c2
  | f32 im =>
    have R := rd32 h.fl32
    obtain ⟨c1, c2, c3⟩ := convTri1_close h.fl R h.sum32 hr hc fun i hi j hj => (hu i hi j hj).2
    have key := fin _ (10 * (1 / 2 ^ 25)) _ (smoothAccuracy half (.f32 im)) (fun i j => ⟨(c3 i j).1.f64, (c3 i j).2.1, (c3 i j).2.2.1,
      (c3 i j).2.2.2.trans (by norm_num)⟩) (by intro _; simp only [smoothAccuracy]; norm_num)
      (by intro _; simp only [smoothAccuracy]; norm_num)
    refine ⟨_, rfl, ?_, ?_, fun i _ j _ => ⟨(key i j).1, (key i j).2.1, (key i j).2.2.1⟩, fun i _ j _ => (key i j).2.2.2⟩
    · cases half <;> exact c1
    · cases half <;> exact c2
  | u8 im =>
    have R := rd64 h.fl
    have hq : ∀ i < im.rows, ∀ j < im.cols, (0 : ℚ) ≤ (im.at_ i j : ℚ) / 255 ∧ (im.at_ i j : ℚ) / 255 ≤ 1 := by
      intro i hi j hj
      have : (im.at_ i j : ℚ) ≤ 255 := by exact_mod_cast hu i hi j hj
      exact ⟨by positivity, by rw [div_le_one (by norm_num)]; exact this⟩
    set f : Img ℚ := { rows := im.rows, cols := im.cols, at_ := fun (i j : Nat) => M.fl ((im.at_ i j : ℚ) / 255) } with hf
    have hf1 : ∀ i < f.rows, ∀ j < f.cols, 0 ≤ f.at_ i j ∧ f.at_ i j ≤ 1 := fun i hi j hj =>
      ⟨h.fl.nonneg (hq i hi j hj).1, h.fl.le_one (hq i hi j hj).2⟩
    obtain ⟨c1, c2, c3⟩ := convTri1_close h.fl R h.sum (im := f) hr hc hf1
    have hclose := triMean_close (I := realImg f) (J := exactInput (.u8 im)) rfl rfl (δ := 1 / 2 ^ 54) hr hc (by
      intro i hi j hj
      have e := cast_err (h.fl.err_unit (hq i hi j hj).1 (hq i hi j hj).2)
      push_cast at e
      exact e) 1
    have key := fin _ (1 / 2 ^ 50) (triMean (exactInput (.u8 im)) 1) (smoothAccuracy half (.u8 im))
      (fun i j => ⟨(c3 i j).1, (c3 i j).2.1, (c3 i j).2.2.1, by
        have e1 := (c3 i j).2.2.2
        have e2 := hclose i j
        have e3 := abs_sub_le (((convTri1 M.fl M.fl M.sum f).at_ i j : ℚ) : ℝ) (triMean (realImg f) 1 i j)
          (triMean (exactInput (.u8 im)) 1 i j)
        push_cast at e1
        norm_num at e1 e2 ⊢
        linarith⟩) (by rintro rfl; simp [smoothAccuracy])
      (by rintro rfl; simp only [smoothAccuracy, if_true]; norm_num)
    refine ⟨_, rfl, ?_, ?_, fun i _ j _ => ⟨(key i j).1, (key i j).2.1, (key i j).2.2.1⟩, fun i _ j _ => (key i j).2.2.2⟩
    · cases half <;> exact c1
    · cases half <;> exact c2

/-- C65: `fast_nms` on a valid input of at least 2 × 2 pixels always returns a map of the same shape, whatever radius,
margin and multiplier: every value is a double, at least 0, and at most the smoothed response — hence at most 1. -/
theorem C65_fast_nms {M : NmsFloat.Machine} (h : Ieee M) (half : Bool) (im : NmsFloat.Input) (hu : UnitInput im)
    (hr : 2 ≤ (exactInput im).rows ∧ (exactInput im).rows ≤ 2 ^ 31)
    (hc : 2 ≤ (exactInput im).cols ∧ (exactInput im).cols ≤ 2 ^ 31) (r s : ℤ) (m : ℚ) :
    ∃ e out, NmsFloat.smoothed M half im = .ok e ∧ NmsFloat.fastNms M half im r s m false = .ok (.f64 out) ∧
      out.rows = (exactInput im).rows ∧ out.cols = (exactInput im).cols ∧
      ∀ y < out.rows, ∀ x < out.cols, IsF64 (out.at_ y x) ∧ 0 ≤ out.at_ y x ∧ out.at_ y x ≤ e.at_ y x ∧ e.at_ y x ≤ 1 := by
  obtain ⟨e, he, e1, e2, hd, -⟩ := C65_smoothing h half im hu (by omega) (by omega)
  obtain ⟨out, ho, o1, o2, ov⟩ := C65_between (fl32 := M.fl32) (cosF := M.cosF) (sinF := M.sinF) h.fl e
    { rows := e.rows, cols := e.cols, at_ := M.ori e } rfl rfl (by rw [e1]; exact hr) (by rw [e2]; exact hc) hd r s m
  refine ⟨e, out, he, ?_, by omega, by omega, fun y hy x hx => ?_⟩
  · unfold fastNms fastNmsFloat
    rw [he]
    simp only [orientation, if_neg (show ¬ (e.rows < 2 ∨ e.cols < 2) by omega), ho]
    rfl
  · rw [o1] at hy
    rw [o2] at hx
    obtain ⟨q1, q2, q3⟩ := ov y hy x hx
    exact ⟨q1, q2, q3, (hd y hy x hx).2.2⟩

theorem npRound_near (x : ℚ) : |(NmsFloat.npRound x : ℚ) - x| ≤ 1 / 2 := by
  have h0 := Int.floor_le x
  have h1 := Int.lt_floor_add_one x
  unfold NmsFloat.npRound
  simp only
  split
  · rw [abs_le]; constructor <;> linarith
  · split
    · push_cast
      rw [abs_le]; constructor <;> linarith
    · split
      · rw [abs_le]; constructor <;> linarith
      · push_cast
        rw [abs_le]; constructor <;> linarith

/-- C65: asked for bytes, `fast_nms` returns numbers between 0 and 255 (the cast never wraps around), each within
`1/2 + 2^-40` of 255 times the float result. -/
theorem C65_fast_nms_bytes {M : NmsFloat.Machine} (h : Ieee M) (half : Bool) (im : NmsFloat.Input) (hu : UnitInput im)
    (hr : 2 ≤ (exactInput im).rows ∧ (exactInput im).rows ≤ 2 ^ 31)
    (hc : 2 ≤ (exactInput im).cols ∧ (exactInput im).cols ≤ 2 ^ 31) (r s : ℤ) (m : ℚ) :
    ∃ out q, NmsFloat.fastNms M half im r s m false = .ok (.f64 out) ∧ NmsFloat.fastNms M half im r s m true = .ok (.u8 q) ∧
      q.rows = out.rows ∧ q.cols = out.cols ∧
      ∀ y < out.rows, ∀ x < out.cols, q.at_ y x ≤ 255 ∧ |(q.at_ y x : ℚ) - 255 * out.at_ y x| ≤ 1 / 2 + 1 / 2 ^ 40 := by
  obtain ⟨e, out, -, ho, o1, o2, ov⟩ := C65_fast_nms h half im hu hr hc r s m
  have hf : NmsFloat.fastNmsFloat M half im r s m = .ok out := by
    unfold fastNms at ho
    cases hx : NmsFloat.fastNmsFloat M half im r s m with
    | error er => rw [hx] at ho; cases ho
    | ok o =>
      rw [hx] at ho
      simp only [Except.ok.injEq] at ho
      cases ho
      rfl
  refine ⟨out, quantize M.fl out, ho, ?_, rfl, rfl, fun y hy x hx => ?_⟩
  · unfold fastNms
    rw [hf]
    rfl
  · obtain ⟨-, q1, q2, q3⟩ := ov y hy x hx
    simp only [quantize]
    rw [max_eq_left q1, min_eq_left (q2.trans q3)]
    generalize out.at_ y x = v at *
    have hv1 : v ≤ 1 := q2.trans q3
    have hfl0 : 0 ≤ M.fl (v * 255) := h.fl.nonneg (by linarith)
    have hfl1 : M.fl (v * 255) ≤ 255 := by
      have := h.fl.mono (show v * 255 ≤ ((255 : ℕ) : ℚ) by push_cast; linarith)
      rw [h.fl.nat 255 (by norm_num)] at this
      exact_mod_cast this
    have herr := h.fl.abs_err (v * 255) 8 (by norm_num) (by rw [abs_of_nonneg (by linarith)]; norm_num; linarith)
    have hn := npRound_near (M.fl (v * 255))
    rw [abs_le] at hn herr
    have hz0 : 0 ≤ NmsFloat.npRound (M.fl (v * 255)) := by
      have : (-1 : ℚ) < NmsFloat.npRound (M.fl (v * 255)) := by linarith [hn.1]
      have : (-1 : ℤ) < NmsFloat.npRound (M.fl (v * 255)) := by exact_mod_cast this
      omega
    have hz1 : NmsFloat.npRound (M.fl (v * 255)) ≤ 255 := by
      have : (NmsFloat.npRound (M.fl (v * 255)) : ℚ) < 256 := by linarith [hn.2]
      have : NmsFloat.npRound (M.fl (v * 255)) < 256 := by exact_mod_cast this
      omega
    have hc : (((NmsFloat.npRound (M.fl (v * 255))).toNat : ℕ) : ℚ) = (NmsFloat.npRound (M.fl (v * 255)) : ℚ) := by
      have : (((NmsFloat.npRound (M.fl (v * 255))).toNat : ℕ) : ℤ) = NmsFloat.npRound (M.fl (v * 255)) := Int.toNat_of_nonneg hz0
      exact_mod_cast congrArg (fun z : ℤ => (z : ℚ)) this
    refine ⟨by omega, ?_⟩
    rw [hc, abs_le]
    norm_num at herr ⊢
    constructor <;> linarith [hn.1, hn.2, herr.1, herr.2]

/-- C65: anything but bytes, doubles and floats is refused by an assertion; a valid image with a side shorter than 2 (but
not empty) by the `ValueError` of `np.gradient`. -/
theorem C65_fast_nms_refusals (M : NmsFloat.Machine) (half asU8 : Bool) (r s : ℤ) (m : ℚ) :
    NmsFloat.fastNms M half .other r s m asU8 = .error .assertionError ∧
    (Ieee M → ∀ im, UnitInput im → 0 < (exactInput im).rows → 0 < (exactInput im).cols →
      ((exactInput im).rows < 2 ∨ (exactInput im).cols < 2) →
      NmsFloat.fastNms M half im r s m asU8 = .error .valueError) := by
  refine ⟨rfl, fun h im hu h1 h2 hs => ?_⟩
  obtain ⟨e, he, e1, e2, -⟩ := C65_smoothing h half im hu h1 h2
  unfold fastNms fastNmsFloat
  rw [he]
  simp only [orientation, if_pos (show e.rows < 2 ∨ e.cols < 2 by omega)]

/-! ### Findings -/

/-- A way to compute a rounding. -/
theorem fl_eq {fl : ℚ → ℚ} (H : RoundsNearest fl) {x : ℚ} {m k : ℕ} (h1 : 2 ^ 52 < m) (h2 : m < 2 ^ 53) (hk : k ≤ 1074)
    (h : |x - m / 2 ^ k| < 1 / 2 ^ (k + 1)) : fl x = m / 2 ^ k := by
  have hp : (0 : ℚ) < 2 ^ k := by positivity
  have hzk : (2 : ℚ) ^ (-(k : ℤ)) = 1 / 2 ^ k := by rw [zpow_neg, zpow_natCast, one_div]
  have hF : IsF64 ((m : ℚ) / 2 ^ k) := by
    refine ⟨m, -(k : ℤ), ?_, by omega, ?_⟩
    · rw [abs_of_nonneg (by positivity)]; exact_mod_cast h2.le
    · rw [hzk]; push_cast; ring
  have hn := H.near x _ hF
  have hhalf : (1 : ℚ) / 2 ^ (k + 1) = 1 / 2 ^ k / 2 := by rw [pow_succ]; field_simp
  rw [hhalf] at h
  have hd : |fl x - m / 2 ^ k| < 1 / 2 ^ k := by
    have e := abs_sub_le (fl x) x (m / 2 ^ k)
    rw [abs_sub_comm _ x] at hn
    rw [abs_sub_comm (fl x) x] at e
    rw [abs_sub_comm (m / 2 ^ k : ℚ) x] at hn
    linarith
  have hlow : (2 : ℚ) ^ ((52 : ℤ) - k) < fl x := by
    have e : (2 : ℚ) ^ ((52 : ℤ) - k) = 2 ^ 52 / 2 ^ k := by
      rw [zpow_sub₀ (by norm_num), zpow_natCast]; norm_num
    have hm : ((2 : ℚ) ^ 52 + 1) / 2 ^ k ≤ m / 2 ^ k := by
      refine div_le_div_of_nonneg_right ?_ hp.le
      exact_mod_cast h1
    rw [add_div] at hm
    rw [e]
    rw [abs_lt] at hd
    linarith [hd.1]
  obtain ⟨z, hz⟩ := isF64_multiple' (H.rep x) _ hlow
  rw [show (52 : ℤ) - k - 52 = -(k : ℤ) by ring, hzk, mul_one_div] at hz
  rw [hz]
  rw [hz, ← sub_div, abs_div, abs_of_pos hp, div_lt_div_iff_of_pos_right hp] at hd
  have : |z - (m : ℤ)| < 1 := by exact_mod_cast hd
  have hzm : z = m := by
    rw [abs_lt] at this
    omega
  rw [hzm]; push_cast; ring

/-- C65 (finding): the multiplier is declared as a C `float`: values up to `1 + 2^-25` act as 1. -/
theorem C65_float_multiplier {fl fl32 cosF sinF : ℚ → ℚ} (H32 : RoundsNearest32 fl32) {m : ℚ} (h1 : 1 ≤ m)
    (h2 : m ≤ 1 + 1 / 2 ^ 25) (edge ori : Img ℚ) (r s : ℤ) :
    fl32 m = 1 ∧ NmsFloat.nms fl fl32 cosF sinF edge ori r s m = NmsFloat.nms fl fl32 cosF sinF edge ori r s 1 := by
  have one32 : fl32 1 = 1 := H32.exact (by simpa using isF32_quarter 4 (by norm_num))
  have key : fl32 m = 1 := by
    have hge : 1 ≤ fl32 m := one32 ▸ H32.mono h1
    by_contra hne
    have hgap := gap_above32 (H32.rep m) (lt_of_le_of_ne hge (Ne.symm hne))
    have hn := H32.near m 1 (by simpa using isF32_quarter 4 (by norm_num))
    rw [abs_of_nonpos (by linarith : (1 : ℚ) - m ≤ 0)] at hn
    have := (abs_le.1 hn).2
    norm_num at h2 hgap
    linarith
  refine ⟨key, ?_⟩
  unfold NmsFloat.nms
  rw [key, one32]

/-- C65 (finding): with `m = 1` rounding errors alone remove responses.  On an image that is constant (0.62), in the
direction of the 20-21-29 triangle, the interpolated neighbour comes out one unit in the last place above the constant,
and the pixel is erased — with every rounding rule.  In exact arithmetic nothing is erased. -/
theorem C65_constant_erased {fl fl32 cosF sinF : ℚ → ℚ} (H : RoundsNearest fl) (H32 : RoundsNearest32 fl32)
    (edge ori : Img ℚ) (h1 : ori.rows = edge.rows) (h2 : ori.cols = edge.cols)
    (hr : 3 ≤ edge.rows ∧ edge.rows ≤ 2 ^ 31) (hc : 3 ≤ edge.cols ∧ edge.cols ≤ 2 ^ 31)
    (hconst : ∀ i j, edge.at_ i j = fl 0.62) (hcos : cosF (ori.at_ 1 1) = fl (20 / 29))
    (hsin : sinF (ori.at_ 1 1) = fl (21 / 29)) (r s : ℤ) (hr1 : 1 ≤ r) {out : Img ℚ}
    (ho : NmsFloat.nms fl fl32 cosF sinF edge ori r s 1 = .ok out) :
    out.at_ 1 1 = 0 ∧ edge.at_ 1 1 ≠ 0 ∧ ¬ Beaten (realImg edge) (realImg ori) r 1 1 1 := by
  have hs' : SizeOk edge := ⟨by omega, by omega, hr.2, hc.2⟩
  have hcc := hc
  have one32 : fl32 1 = 1 := H32.exact (by simpa using isF32_quarter 4 (by norm_num))
  have hc : fl (20 / 29) = (6211861554993788 / 2 ^ 53) := fl_eq H (m := 6211861554993788) (k := 53) (by norm_num) (by norm_num) (by norm_num) (by norm_num [abs_lt])
  have hs : fl (21 / 29) = (6522454632743477 / 2 ^ 53) := fl_eq H (m := 6522454632743477) (k := 53) (by norm_num) (by norm_num) (by norm_num) (by norm_num [abs_lt])
  have hv : fl (62 / 100) = (5584463537939415 / 2 ^ 53) := fl_eq H (m := 5584463537939415) (k := 53) (by norm_num) (by norm_num) (by norm_num) (by norm_num [abs_lt])
  have hx : fl (1 + -1 * (6211861554993788 / 2 ^ 53)) = (5590675399494408 / 2 ^ 54) := fl_eq H (m := 5590675399494408) (k := 54) (by norm_num) (by norm_num) (by norm_num) (by norm_num [abs_lt])
  have hy : fl (1 + -1 * (6522454632743477 / 2 ^ 53)) = (4969489243995030 / 2 ^ 54) := fl_eq H (m := 4969489243995030) (k := 54) (by norm_num) (by norm_num) (by norm_num) (by norm_num [abs_lt])
  have hdx1 : fl (1 - (5590675399494408 / 2 ^ 54)) = (6211861554993788 / 2 ^ 53) := fl_eq H (m := 6211861554993788) (k := 53) (by norm_num) (by norm_num) (by norm_num) (by norm_num [abs_lt])
  have hdy1 : fl (1 - (4969489243995030 / 2 ^ 54)) = (6522454632743477 / 2 ^ 53) := fl_eq H (m := 6522454632743477) (k := 53) (by norm_num) (by norm_num) (by norm_num) (by norm_num [abs_lt])
  have ha1 : fl ((5584463537939415 / 2 ^ 53) * (6211861554993788 / 2 ^ 53)) = (7702708328192297 / 2 ^ 54) := fl_eq H (m := 7702708328192297) (k := 54) (by norm_num) (by norm_num) (by norm_num) (by norm_num [abs_lt])
  have ha2 : fl ((7702708328192297 / 2 ^ 54) * (6522454632743477 / 2 ^ 53)) = (5577823272139250 / 2 ^ 54) := fl_eq H (m := 5577823272139250) (k := 54) (by norm_num) (by norm_num) (by norm_num) (by norm_num [abs_lt])
  have hb1 : fl ((5584463537939415 / 2 ^ 53) * (5590675399494408 / 2 ^ 54)) = (6932437495373066 / 2 ^ 55) := fl_eq H (m := 6932437495373066) (k := 55) (by norm_num) (by norm_num) (by norm_num) (by norm_num [abs_lt])
  have hb2 : fl ((6932437495373066 / 2 ^ 55) * (6522454632743477 / 2 ^ 53)) = (5020040944925324 / 2 ^ 55) := fl_eq H (m := 5020040944925324) (k := 55) (by norm_num) (by norm_num) (by norm_num) (by norm_num [abs_lt])
  have hc2 : fl ((7702708328192297 / 2 ^ 54) * (4969489243995030 / 2 ^ 54)) = (8499540224212190 / 2 ^ 56) := fl_eq H (m := 8499540224212190) (k := 56) (by norm_num) (by norm_num) (by norm_num) (by norm_num [abs_lt])
  have hd2 : fl ((6932437495373066 / 2 ^ 55) * (4969489243995030 / 2 ^ 54)) = (7649586201790969 / 2 ^ 57) := fl_eq H (m := 7649586201790969) (k := 57) (by norm_num) (by norm_num) (by norm_num) (by norm_num [abs_lt])
  have hs1 : fl ((5577823272139250 / 2 ^ 54) + (5020040944925324 / 2 ^ 55)) = (8087843744601912 / 2 ^ 54) := fl_eq H (m := 8087843744601912) (k := 54) (by norm_num) (by norm_num) (by norm_num) (by norm_num [abs_lt])
  have hs2 : fl ((8087843744601912 / 2 ^ 54) + (8499540224212190 / 2 ^ 56)) = (5106364400327480 / 2 ^ 53) := fl_eq H (m := 5106364400327480) (k := 53) (by norm_num) (by norm_num) (by norm_num) (by norm_num [abs_lt])
  have hs3 : fl ((5106364400327480 / 2 ^ 53) + (7649586201790969 / 2 ^ 57)) = (5584463537939416 / 2 ^ 53) := fl_eq H (m := 5584463537939416) (k := 53) (by norm_num) (by norm_num) (by norm_num) (by norm_num [abs_lt])
  have hv' : fl 0.62 = 5584463537939415 / 2 ^ 53 := by rw [← hv]; norm_num
  have hpos : ∀ {x : ℚ}, 0 ≤ x → x < 1 → ∀ {n : ℕ}, 3 ≤ n → n ≤ 2 ^ 31 → clampCoord fl n x = x ∧ cInt x = 0 := by
    intro x h0 h1 n h3 hn
    obtain ⟨-, -, hl⟩ := lastPos_bounds H (by omega : 2 ≤ n) hn
    have h3' : (3 : ℚ) ≤ n := by exact_mod_cast h3
    have := (abs_le.1 hl).1
    norm_num at this
    unfold clampCoord cInt
    rw [if_neg (not_lt.2 h0), if_neg (by push Not; linarith), if_pos h0]
    refine ⟨rfl, Int.floor_eq_zero_iff.2 ⟨h0, h1⟩⟩
  obtain ⟨cx, ix⟩ := hpos (x := 5590675399494408 / 2 ^ 54) (by norm_num) (by norm_num) hcc.1 hcc.2
  obtain ⟨cy, iy⟩ := hpos (x := 4969489243995030 / 2 ^ 54) (by norm_num) (by norm_num) hr.1 hr.2
  have hX : IsF64 (5590675399494408 / 2 ^ 54) := ⟨5590675399494408, -54, by norm_num, by norm_num, by norm_num⟩
  have hY : IsF64 (4969489243995030 / 2 ^ 54) := ⟨4969489243995030, -54, by norm_num, by norm_num, by norm_num⟩
  have hin : interp fl edge edge.rows edge.cols (5590675399494408 / 2 ^ 54) (4969489243995030 / 2 ^ 54)
      = .ok (5584463537939416 / 2 ^ 53) := by
    unfold interp
    simp only [cx, cy, ix, iy, Int.cast_zero, sub_zero, H.exact hX, H.exact hY, hdx1, hdy1]
    have ra : ∀ a b : ℤ, 0 ≤ a → a ≤ 1 → 0 ≤ b → b ≤ 1 → readAt edge a b = .ok (5584463537939415 / 2 ^ 53) := by
      intro a b a0 a1 b0 b1
      unfold readAt
      rw [if_pos (by omega), hconst, hv']
    rw [ra 0 0 (by norm_num) (by norm_num) (by norm_num) (by norm_num),
      ra 0 (0 + 1) (by norm_num) (by norm_num) (by norm_num) (by norm_num),
      ra (0 + 1) 0 (by norm_num) (by norm_num) (by norm_num) (by norm_num),
      ra (0 + 1) (0 + 1) (by norm_num) (by norm_num) (by norm_num) (by norm_num)]
    simp only [ha1, ha2, hb1, hb2, hc2, hd2, hs1, hs2, hs3]
  have hbeat : BeatenF fl cosF sinF edge ori r (fl32 1) 1 1 := by
    refine ⟨-1, by norm_num, by simpa using hr1, ?_⟩
    have fneg : ∀ {z : ℚ}, IsF64 z → fl (((-1 : ℤ) : ℚ) * z) = -1 * z := by
      intro z hz
      have := H.exact (isF64_neg hz)
      push_cast
      rw [neg_one_mul]
      exact this
    rw [hcos, hsin, one32, mul_one, hconst, H.exact (H.rep _), fneg (H.rep _), fneg (H.rep _), hc, hs, hv', Nat.cast_one, hx, hy]
    unfold sampleF
    rw [hin]
    norm_num
  obtain ⟨out', ho', -, -, hv⟩ := nms_eq H fl32 cosF sinF hs' h1 h2 r s 1
  rw [ho] at ho'
  cases ho'
  refine ⟨?_, ?_, ?_⟩
  · rw [hv 1 (by omega) 1 (by omega), if_pos hbeat, dampF_zero H, dampF_zero H]
  · rw [hconst, hv']; norm_num
  · rintro ⟨d, -, -, hlt⟩
    have hW : Within (realImg edge) 0 (((fl 0.62 : ℚ)) : ℝ) := by
      intro i hi j hj
      refine ⟨?_, ?_⟩
      · show (0 : ℝ) ≤ ((edge.at_ i j : ℚ) : ℝ)
        rw [hconst, hv']; norm_num
      · show ((edge.at_ i j : ℚ) : ℝ) ≤ _
        rw [hconst]
    have bx := Nms.inRange_bounds hs'.c2 ((1 : ℕ) + d * Real.cos ((realImg ori).at_ 1 1))
    have by_ := Nms.inRange_bounds hs'.r2 ((1 : ℕ) + d * Real.sin ((realImg ori).at_ 1 1))
    have := bilinear_le hW bx.1 (by norm_num at *; simp only [realImg] at *; linarith [bx.2]) by_.1
      (by norm_num at *; simp only [realImg] at *; linarith [by_.2])
    have he : (realImg edge).at_ 1 1 = ((fl 0.62 : ℚ) : ℝ) := by
      show ((edge.at_ 1 1 : ℚ) : ℝ) = _
      rw [hconst]
    unfold sample at hlt
    rw [he] at hlt
    simp only [realImg] at *
    linarith

/-! ### Witnesses -/

/-- A machine: nearest doubles and floats, sums from the right, constant orientation. -/
noncomputable def exMachine : NmsFloat.Machine where
  fl := nearestF64
  fl32 := nearestF32
  sum := seqSum nearestF64
  sum32 := seqSum nearestF32
  cosF := fun _ => 1
  sinF := fun _ => 0
  ori := fun _ _ _ => 0

theorem exMachine_ieee : Ieee exMachine :=
  ⟨nearestF64_rounds, nearestF32_rounds, seqSum_sums _, seqSum_sums _⟩

/-- The hypotheses of the theorems about `fast_nms` are met by a byte image. -/
example : UnitInput (.u8 { rows := 3, cols := 4, at_ := fun i j => 50 * i + j }) ∧
    2 ≤ (exactInput (.u8 { rows := 3, cols := 4, at_ := fun i j => 50 * i + j })).rows ∧
    2 ≤ (exactInput (.u8 { rows := 3, cols := 4, at_ := fun i j => 50 * i + j })).cols := by
  refine ⟨fun i hi j hj => ?_, by simp [exactInput], by simp [exactInput]⟩
  simp only at hi hj ⊢
  omega

/-- An image with one bright column, compared along the rows. -/
def exBright : Img ℚ := { rows := 3, cols := 5, at_ := fun _ j => if j = 2 then 1 else if j = 1 then 1 / 2 else 1 / 4 }

def exAlong : Img ℚ := { rows := 3, cols := 5, at_ := fun _ _ => 0 }

theorem exBright_doubles : Doubles exBright 1 := by
  intro i _ j _
  unfold exBright
  simp only
  have q1 := isF64_quarter 1 (by norm_num)
  have q2 := isF64_quarter 2 (by norm_num)
  norm_num at q1 q2
  split
  · exact ⟨isF64_one, by norm_num, by norm_num⟩
  · split
    · exact ⟨by norm_num; exact q2, by norm_num, by norm_num⟩
    · exact ⟨by norm_num; exact q1, by norm_num, by norm_num⟩

/-- The response sampled at a pixel of the middle row. -/
theorem exBright_sample (k : ℕ) (hk : k < 4) : sample (realImg exBright) (k : ℝ) (1 : ℕ) = ((exBright.at_ 1 k : ℚ) : ℝ) := by
  have hk' : (k : ℝ) ≤ 3 := by exact_mod_cast (by omega : k ≤ 3)
  have hk0 : (0 : ℝ) ≤ k := by positivity
  unfold sample
  have e1 : inRange (realImg exBright).cols (k : ℝ) = k := by
    show max 0 (min (k : ℝ) (((5 : ℕ) : ℝ) - 1.001)) = k
    rw [min_eq_left (by norm_num; linarith), max_eq_right hk0]
  have e2 : inRange (realImg exBright).rows ((1 : ℕ) : ℝ) = (1 : ℕ) := by
    show max 0 (min (((1 : ℕ)) : ℝ) (((3 : ℕ) : ℝ) - 1.001)) = _
    norm_num
  rw [e1, e2, Nms.bilinear_cell _ (k := k) (l := 1) (by show k + 1 < 5; omega) (by show 1 + 1 < 3; omega) (le_refl _) (by linarith)
    (le_refl _) (by norm_num)]
  simp [realImg]

/-- C65_agrees is not vacuous: in this image no comparison at pixel (1, 1) is a near-tie; the pixel is beaten by its
right neighbour and erased. -/
example : ∃ out, NmsFloat.nms nearestF64 nearestF32 (fun _ => 1) (fun _ => 0) exBright exAlong 1 0 1 = .ok out ∧
    out.at_ 1 1 = 0 := by
  obtain ⟨out, ho, -⟩ := C65_between (fl32 := nearestF32) (cosF := fun _ => 1) (sinF := fun _ => 0) nearestF64_rounds exBright
    exAlong rfl rfl (by simp [exBright]) (by simp [exBright]) exBright_doubles 1 0 1
  have one32 : nearestF32 1 = 1 := nearestF32_rounds.exact (by simpa using isF32_quarter 4 (by norm_num))
  refine ⟨out, ho, ?_⟩
  have pos : ∀ d : ℤ, (((1 : ℕ) : ℝ) + d * Real.cos ((exAlong.at_ 1 1 : ℚ) : ℝ)) = 1 + d ∧
      (((1 : ℕ) : ℝ) + d * Real.sin ((exAlong.at_ 1 1 : ℚ) : ℝ)) = (1 : ℕ) := by
    intro d
    have : exAlong.at_ 1 1 = 0 := rfl
    rw [this, Rat.cast_zero, Real.cos_zero, Real.sin_zero]
    constructor <;> norm_num
  have s0 := exBright_sample 0 (by norm_num)
  have s2 := exBright_sample 2 (by norm_num)
  have v0 : exBright.at_ 1 0 = 1 / 4 := rfl
  have v1 : exBright.at_ 1 1 = 1 / 2 := rfl
  have v2 : exBright.at_ 1 2 = 1 := rfl
  have hz : (1 : ℝ) / 2 ^ 980 ≤ 1 / 8 := one_div_le_one_div_of_le (by norm_num) (by
    calc (8 : ℝ) = 2 ^ 3 := by norm_num
      _ ≤ 2 ^ 980 := pow_le_pow_right₀ (by norm_num) (by norm_num))
  have := C65_agrees nearestF64_rounds nearestF32_rounds exBright exAlong rfl rfl (by simp [exBright]) (by simp [exBright])
    exBright_doubles 1 0 (by norm_num) ho (y := 1) (x := 1) (by simp [exBright]) (by simp [exBright])
    (by simp [exAlong]) (by simp [exAlong]) (by
      intro d hd0 hd
      rw [(pos d).1, (pos d).2, one32, v1]
      have hr : (exBright.rows : ℝ) = 3 := by norm_num [exBright]
      have hc : (exBright.cols : ℝ) = 5 := by norm_num [exBright]
      rw [hr, hc]
      have hd' : d = 1 ∨ d = -1 := by
        rw [abs_le] at hd; omega
      rcases hd' with rfl | rfl
      · have : (1 : ℝ) + ((1 : ℤ) : ℝ) = (2 : ℕ) := by norm_num
        rw [this, s2, v2]
        generalize (1 : ℝ) / 2 ^ 980 = z at *
        norm_num
        linarith
      · have : (1 : ℝ) + ((-1 : ℤ) : ℝ) = (0 : ℕ) := by norm_num
        rw [this, s0, v0]
        generalize (1 : ℝ) / 2 ^ 980 = z at *
        norm_num
        linarith)
  refine this.1 ⟨1, by norm_num, by norm_num, ?_⟩
  have hp := pos 1
  have : (1 : ℝ) + ((1 : ℤ) : ℝ) = (2 : ℕ) := by norm_num
  rw [this] at hp
  have e : (realImg exAlong).at_ 1 1 = ((exAlong.at_ 1 1 : ℚ) : ℝ) := rfl
  rw [e, hp.1, hp.2, s2, v2, one32]
  show ((1 : ℚ) : ℝ) * ((exBright.at_ 1 1 : ℚ) : ℝ) < _
  rw [v1]
  norm_num

/-- C65_maximum_kept is not vacuous: the bright pixel in the middle, default multiplier. -/
example : ∃ out, NmsFloat.nms nearestF64 nearestF32 (fun _ => 1) (fun _ => 0) exBright exAlong 1 1 1.01 = .ok out ∧
    out.at_ 1 2 = 1 := by
  obtain ⟨out, ho, -⟩ := C65_between (fl32 := nearestF32) (cosF := fun _ => 1) (sinF := fun _ => 0) nearestF64_rounds exBright
    exAlong rfl rfl (by simp [exBright]) (by simp [exBright]) exBright_doubles 1 1 1.01
  exact ⟨out, ho, C65_maximum_kept nearestF64_rounds nearestF32_rounds exBright exAlong rfl rfl (by simp [exBright])
    (by simp [exBright]) 1 1 (by norm_num) ho (y := 1) (x := 2) (by simp [exBright]) (by simp [exBright]) exBright_doubles
    (by
      show (1 : ℚ) / 2 ^ 900 ≤ 1
      rw [div_le_one (by positivity)]
      exact one_le_pow₀ (by norm_num)) (by norm_num) (by simp [exBright]) (by norm_num) (by simp [exBright])⟩

/-- A constant image. -/
noncomputable def exConst : Img ℚ := { rows := 3, cols := 3, at_ := fun _ _ => nearestF64 0.62 }

def exFlat : Img ℚ := { rows := 3, cols := 3, at_ := fun _ _ => 0 }

/-- C65_constant_erased is not vacuous. -/
example : ∃ out, NmsFloat.nms nearestF64 nearestF32 (fun _ => nearestF64 (20 / 29)) (fun _ => nearestF64 (21 / 29))
    exConst exFlat 1 0 1 = .ok out ∧ out.at_ 1 1 = 0 := by
  have hr : exConst.rows = 3 := rfl
  have hc : exConst.cols = 3 := rfl
  have hd : Doubles exConst 1 := fun i _ j _ => by
    show IsF64 (nearestF64 0.62) ∧ 0 ≤ nearestF64 0.62 ∧ nearestF64 0.62 ≤ 1
    exact ⟨nearestF64_rounds.rep _, nearestF64_rounds.nonneg (by norm_num), nearestF64_rounds.le_one (by norm_num)⟩
  have hk : ∀ i j, exConst.at_ i j = nearestF64 0.62 := fun _ _ => rfl
  have hc' : ∀ v : ℚ, (fun _ : ℚ => nearestF64 (20 / 29)) v = nearestF64 (20 / 29) := fun _ => rfl
  have hs' : ∀ v : ℚ, (fun _ : ℚ => nearestF64 (21 / 29)) v = nearestF64 (21 / 29) := fun _ => rfl
  have H := nearestF64_rounds
  generalize (fun _ : ℚ => nearestF64 (20 / 29)) = C at *
  generalize (fun _ : ℚ => nearestF64 (21 / 29)) = S at *
  generalize exConst = E at *
  generalize nearestF64 = F at *
  obtain ⟨out, ho, -⟩ := C65_between (fl32 := nearestF32) (cosF := C) (sinF := S) H E exFlat hr.symm hc.symm
    (by rw [hr]; norm_num) (by rw [hc]; norm_num) hd 1 0 1
  exact ⟨out, ho, (C65_constant_erased H nearestF32_rounds E exFlat hr.symm hc.symm (by rw [hr]; norm_num)
    (by rw [hc]; norm_num) hk (hc' _) (hs' _) 1 0 (by norm_num) ho).1⟩

end EdgeEval.Props
