import Verif.Model.Datasets
import Verif.Spec.Datasets
import Verif.Props.SampleData
import Verif.Props.Labels
import Verif.Props.Codec
import Verif.Props.Kill
import Verif.Props.Mask2Edge

/-!
# C49: what is read for one sample
-/

namespace EdgeEval.Props

open Spec Text Evaluators Samples Datasets

/-! ## Sizes and source pixels -/

/-- C49: a side of `n` pixels scaled by `s ≥ 0` becomes `n·s` rounded to the nearest integer, halves up; scale 1
keeps it. -/
theorem C49_scaled_size (n : Nat) (s : ℚ) (hs : 0 ≤ s) :
    ∃ m : Nat, scaledSize n s = m ∧ RoundsTo (n * s) m ∧ (s = 1 → m = n) ∧ (1 ≤ m ↔ 1 / 2 ≤ n * s) := by
  have h0 : (0 : ℚ) ≤ n * s + 1 / 2 := by positivity
  refine ⟨⌊(n : ℚ) * s + 1 / 2⌋.toNat, ?_, ?_, ?_, ?_⟩
  · unfold scaledSize pyTrunc
    rw [if_pos h0, Int.toNat_of_nonneg (Int.floor_nonneg.2 h0)]
  · have hz := Int.floor_nonneg.2 h0
    have e : ((⌊(n : ℚ) * s + 1 / 2⌋.toNat : Nat) : ℚ) = (⌊(n : ℚ) * s + 1 / 2⌋ : ℚ) := by
      have := Int.toNat_of_nonneg hz
      exact_mod_cast congrArg (Int.cast (R := ℚ)) this
    unfold RoundsTo
    rw [e]
    have h1 := Int.floor_le ((n : ℚ) * s + 1 / 2)
    have h2 := Int.lt_floor_add_one ((n : ℚ) * s + 1 / 2)
    constructor <;> linarith
  · rintro rfl
    have : ⌊(n : ℚ) * 1 + 1 / 2⌋ = n := by
      rw [Int.floor_eq_iff]; push_cast; constructor <;> linarith
    rw [this]; simp
  · have hz := Int.floor_nonneg.2 h0
    have : 1 ≤ ⌊(n : ℚ) * s + 1 / 2⌋.toNat ↔ 1 ≤ ⌊(n : ℚ) * s + 1 / 2⌋ := by omega
    rw [this, Int.le_floor]
    push_cast
    constructor <;> intro <;> linarith

theorem srcIdx_cell {n m x : Nat} (hn : 0 < n) (hx : x < m) : CellOf n m x (srcIdx n m x) := by
  have hm : (0 : ℚ) < m := by exact_mod_cast (by omega : 0 < m)
  have hn' : (0 : ℚ) < n := by exact_mod_cast hn
  have h0 : (0 : ℚ) ≤ ((x : ℚ) + 1 / 2) * ((n : ℚ) / m) := by positivity
  have hz := Int.floor_nonneg.2 h0
  have e : ((srcIdx n m x : Nat) : ℚ) = (⌊((x : ℚ) + 1 / 2) * ((n : ℚ) / m)⌋ : ℚ) := by
    have := Int.toNat_of_nonneg hz
    exact_mod_cast congrArg (Int.cast (R := ℚ)) this
  have h1 := Int.floor_le (((x : ℚ) + 1 / 2) * ((n : ℚ) / m))
  have h2 := Int.lt_floor_add_one (((x : ℚ) + 1 / 2) * ((n : ℚ) / m))
  rw [← e] at h1 h2
  have hr : ((x : ℚ) + 1 / 2) * ((n : ℚ) / m) = ((x : ℚ) + 1 / 2) / m * n := by ring
  rw [hr] at h1 h2
  refine ⟨?_, by rwa [div_le_iff₀ hn'], by rwa [lt_div_iff₀ hn']⟩
  have hlt : ((x : ℚ) + 1 / 2) / m * n < n := by
    have : ((x : ℚ) + 1 / 2) / m < 1 := by
      rw [div_lt_one hm]
      have : (x : ℚ) + 1 ≤ m := by exact_mod_cast hx
      linarith
    nlinarith
  exact_mod_cast lt_of_le_of_lt h1 hlt

/-- The source pixel is determined. -/
theorem cell_unique {n m x p q : Nat} (h : CellOf n m x p) (h' : CellOf n m x q) : p = q := by
  obtain ⟨hp, a, b⟩ := h
  obtain ⟨-, c, d⟩ := h'
  have hn : (0 : ℚ) < n := by exact_mod_cast (by omega : 0 < n)
  have h1 : (p : ℚ) < q + 1 := (div_lt_div_iff_of_pos_right hn).1 (lt_of_le_of_lt a d)
  have h2 : (q : ℚ) < p + 1 := (div_lt_div_iff_of_pos_right hn).1 (lt_of_le_of_lt c b)
  have h1' : p < q + 1 := by exact_mod_cast h1
  have h2' : q < p + 1 := by exact_mod_cast h2
  omega

theorem cell_same {n x : Nat} (h : x < n) : CellOf n n x x := by
  have hn : (0 : ℚ) < n := by exact_mod_cast (by omega : 0 < n)
  refine ⟨h, ?_, ?_⟩
  · exact (div_le_div_iff_of_pos_right hn).2 (by linarith)
  · exact (div_lt_div_iff_of_pos_right hn).2 (by linarith)

theorem srcIdx_same {n x : Nat} (h : x < n) : srcIdx n n x = x :=
  cell_unique (srcIdx_cell (by omega) h) (cell_same h)

/-- C49: each pixel of a resized picture is the pixel of the original in which its centre lies; the resize fails
exactly for an empty result; a resize to the same size changes nothing. -/
theorem C49_resize {α : Type} (im : Img α) (hr : 0 < im.rows) (hc : 0 < im.cols) (h w : Nat) :
    ((∃ r, resize im h w = .ok r) ↔ 0 < h ∧ 0 < w) ∧
    ∀ r, resize im h w = .ok r → r.rows = h ∧ r.cols = w ∧
      (∀ i < h, ∀ j < w, ∃ p q, CellOf im.rows h i p ∧ CellOf im.cols w j q ∧ r.at_ i j = im.at_ p q) ∧
      (h = im.rows → w = im.cols → ∀ i < h, ∀ j < w, r.at_ i j = im.at_ i j) := by
  unfold resize
  by_cases hb : (h : Int) < 1 ∨ (w : Int) < 1
  · rw [if_pos hb]
    constructor
    · constructor
      · rintro ⟨r, hr⟩; cases hr
      · intro; omega
    · intro r hr; cases hr
  · rw [if_neg hb]
    refine ⟨⟨fun _ => by omega, fun _ => ⟨_, rfl⟩⟩, ?_⟩
    rintro r hr'
    cases hr'
    refine ⟨by simp, by simp, ?_, ?_⟩
    · intro i hi j hj
      simp only [Int.toNat_natCast]
      exact ⟨_, _, srcIdx_cell hr hi, srcIdx_cell hc hj, rfl⟩
    · intro e1 e2 i hi j hj
      simp only [Int.toNat_natCast]
      rw [e1] at hi ⊢
      rw [e2] at hj ⊢
      rw [srcIdx_same hi, srcIdx_same hj]

/-- C49: resizing keeps the order of rows and columns (a later output pixel never comes from an earlier source
pixel). -/
theorem C49_resize_order (n m x y p q : Nat) (hx : x ≤ y) (h : CellOf n m x p) (h' : CellOf n m y q) : p ≤ q := by
  obtain ⟨hp, a, b⟩ := h
  obtain ⟨-, c, d⟩ := h'
  have hn : (0 : ℚ) < n := by exact_mod_cast (by omega : 0 < n)
  have hxy : (x : ℚ) ≤ y := by exact_mod_cast hx
  have hm : ((x : ℚ) + 1 / 2) / m ≤ ((y : ℚ) + 1 / 2) / m := by gcongr
  have h1 : (p : ℚ) < q + 1 := (div_lt_div_iff_of_pos_right hn).1 (lt_of_le_of_lt (a.trans hm) d)
  have h1' : p < q + 1 := by exact_mod_cast h1
  omega

/-- C49: at scale 1/2 with even sides the odd rows and columns are kept, so every edge pixel in an even row or column
is dropped. -/
theorem C49_half_scale (n x : Nat) (hx : x < n) : CellOf (2 * n) n x (2 * x + 1) := by
  have hn : (0 : ℚ) < n := by exact_mod_cast (by omega : 0 < n)
  refine ⟨by omega, ?_, ?_⟩
  · push_cast
    rw [div_le_div_iff₀ (by linarith) hn]
    nlinarith
  · push_cast
    rw [div_lt_div_iff₀ hn (by linarith)]
    nlinarith

/-- C49: enlarging a picture uses every source pixel. -/
theorem C49_upscale_uses_all (n m p : Nat) (hnm : n ≤ m) (hp : p < n) : ∃ x < m, CellOf n m x p := by
  have hn : (0 : ℚ) < n := by exact_mod_cast (by omega : 0 < n)
  have hm : (0 : ℚ) < m := by exact_mod_cast (by omega : 0 < m)
  have hnm' : (n : ℚ) ≤ m := by exact_mod_cast hnm
  have hp' : (p : ℚ) + 1 ≤ n := by exact_mod_cast hp
  have hl := Int.le_ceil ((p : ℚ) * m / n - 1 / 2)
  have hu := Int.ceil_lt_add_one ((p : ℚ) * m / n - 1 / 2)
  have hz : 0 ≤ ⌈(p : ℚ) * m / n - 1 / 2⌉ := by
    have h0 : (0 : ℚ) ≤ (p : ℚ) * m / n := by positivity
    have : (-1 : Int) < ⌈(p : ℚ) * m / n - 1 / 2⌉ := by
      rw [Int.lt_ceil]; push_cast; linarith
    omega
  obtain ⟨x, hx⟩ := Int.eq_ofNat_of_zero_le hz
  rw [hx, Int.cast_natCast] at hl hu
  have h1 : (p : ℚ) * m / n ≤ x + 1 / 2 := by linarith
  have h2 : (x : ℚ) + 1 / 2 < (p : ℚ) * m / n + 1 := by linarith
  rw [div_le_iff₀ hn] at h1
  have h3 : ((x : ℚ) + 1 / 2) * n < p * m + n := by
    have := mul_lt_mul_of_pos_right h2 hn
    rwa [add_mul ((p : ℚ) * m / n), div_mul_cancel₀ _ hn.ne', one_mul] at this
  have h4 : ((x : ℚ) + 1 / 2) * n < (p + 1) * m := by nlinarith
  have hxm : x < m := by
    have : ((x : ℚ) + 1 / 2) * n < m * n := by nlinarith
    have := lt_of_mul_lt_mul_right this hn.le
    have : (x : ℚ) < m := by linarith
    exact_mod_cast this
  refine ⟨x, hxm, hp, ?_, ?_⟩
  · rw [div_le_div_iff₀ hn hm]; exact h1
  · rw [div_lt_div_iff₀ hm hn]; exact h4

/-! ## The inputs of the multi-label evaluation -/

theorem kw_ok {α : Type} {x : Option α} {a : α} : kw x = .ok a ↔ x = some a := by
  cases x <;> simp [kw]

theorem load_ok {α : Type} {x : Option α} {a : α} : load x = .ok a ↔ x = some a := by
  cases x <;> simp [load]

theorem resize_ok {α : Type} {im : Img α} {h w : Nat} {r : Img α} : resize im h w = .ok r ↔
    0 < h ∧ 0 < w ∧ r = ⟨h, w, fun i j => im.at_ (srcIdx im.rows h i) (srcIdx im.cols w j)⟩ := by
  unfold resize
  by_cases hb : (h : Int) < 1 ∨ (w : Int) < 1
  · rw [if_pos hb]
    simp only [reduceCtorEq, false_iff]
    omega
  · rw [if_neg hb]
    simp only [Int.toNat_natCast, Except.ok.injEq]
    constructor
    · rintro rfl; exact ⟨by omega, by omega, rfl⟩
    · rintro ⟨-, -, rfl⟩; rfl

theorem loadPred_ok {pics : Pictures} {path : Str} {h w : Nat} {x : Img ℚ} : loadPred pics path h w = .ok x ↔
    ∃ P, pics.gray path = some P ∧ 0 < h ∧ 0 < w ∧
      x = ⟨h, w, fun i j => (P.at_ (srcIdx P.rows h i) (srcIdx P.cols w j) : ℚ) / 255⟩ := by
  unfold loadPred
  simp only [bind_ok, load_ok, resize_ok]
  constructor
  · rintro ⟨P, hP, r, ⟨h1, h2, rfl⟩, h3⟩
    cases h3
    exact ⟨P, hP, h1, h2, rfl⟩
  · rintro ⟨P, hP, h1, h2, rfl⟩
    exact ⟨P, hP, _, ⟨h1, h2, rfl⟩, rfl⟩

theorem loadSeg_ok {pics : Pictures} {path : Str} {kill : Bool} {edge : MLEdges} {h w : Nat} {c : Int}
    (e1 : edge.h = h) (e2 : edge.w = w) (h1 : 0 < h) (h2 : 0 < w) {x : Option Seg} :
    loadSeg pics path kill edge h w c = .ok x ↔
      (kill = false ∧ x = none) ∨ (kill = true ∧ ∃ S, pics.gray path = some S ∧
        x = some (eqMask ⟨h, w, fun i j => S.at_ (srcIdx S.rows h i) (srcIdx S.cols w j)⟩ c)) := by
  unfold loadSeg
  cases kill with
  | false => simp [eq_comm]
  | true =>
    simp only [if_true, bind_ok, load_ok, resize_ok, assert_ok, Bool.true_eq_false, false_and, false_or, true_and]
    constructor
    · rintro ⟨S, hS, r, ⟨-, -, rfl⟩, -, -, h3⟩
      cases h3
      exact ⟨S, hS, rfl⟩
    · rintro ⟨S, hS, rfl⟩
      exact ⟨S, hS, _, ⟨h1, h2, rfl⟩, (), by simp [e1, e2], rfl⟩

/-- The inputs of the evaluation of a category, as documented: `E` is the encoded ground truth, `P` the prediction,
`S` the label map (if internal pixels are killed), all resampled to the size of the ground truth times the
scale.  `border` pixels around the prediction are blanked; the label map is compared with the value `v`. -/
structure SampleInputs (E : Rgb) (P : Img Nat) (S : Option (Img Nat)) (scale : ℚ) (category border : Nat) (v : Int)
    (x : Inputs) : Prop where
  height : RoundsTo (E.h * scale) x.gt.rows
  width : RoundsTo (E.w * scale) x.gt.cols
  pos : 0 < x.gt.rows ∧ 0 < x.gt.cols
  predSize : x.pred.rows = x.gt.rows ∧ x.pred.cols = x.gt.cols
  gt : ∀ i < x.gt.rows, ∀ j < x.gt.cols, ∃ p q, CellOf E.h x.gt.rows i p ∧ CellOf E.w x.gt.cols j q ∧
    x.gt.at_ i j = if colourBit E p q (category - 1) then 1 else 0
  pred : ∀ i < x.gt.rows, ∀ j < x.gt.cols, ∃ p q, CellOf P.rows x.gt.rows i p ∧ CellOf P.cols x.gt.cols j q ∧
    x.pred.at_ i j = if InBorder border x.gt.rows x.gt.cols i j then 0 else (P.at_ p q : ℚ) / 255
  seg : (S = none → x.seg = none) ∧ ∀ T, S = some T → ∃ m, x.seg = some m ∧ m.isBool = true ∧
    m.img.rows = x.gt.rows ∧ m.img.cols = x.gt.cols ∧
    ∀ i < x.gt.rows, ∀ j < x.gt.cols, ∃ p q, CellOf T.rows x.gt.rows i p ∧ CellOf T.cols x.gt.cols j q ∧
      m.img.at_ i j = if (T.at_ p q : Int) = v then 1 else 0

/-- Pictures have at least one pixel. -/
def NoEmptyPictures (pics : Pictures) : Prop :=
  (∀ p E, pics.rgb p = some E → 0 < E.h ∧ 0 < E.w) ∧ (∀ p P, pics.gray p = some P → 0 < P.rows ∧ 0 < P.cols)

/-- C49: for a sample of a category in range, with ground-truth path `ep`, label map path `sp` and prediction path
`s.predPath`, reading succeeds exactly when the ground truth and the prediction exist, neither side is scaled
below half a pixel, and (if internal pixels are killed) the label map exists. Then the inputs are the documented ones.
`sbd` is the SBD variant, which blanks 5 pixels around the prediction. Both compare the label map with
`category - 1`. -/
theorem C49_precomputed_inputs (pics : Pictures) (hne : NoEmptyPictures pics) (sbd : Bool) (n : Nat) (hn : n ≤ 24)
    (s : Sample) (ep sp : Str) (kill : Bool) (h1 : s.edgePath = some ep) (h2 : s.segPath = some sp)
    (h3 : s.params.killInternal = some kill) (c : Nat) (hc : s.category = c) (hc1 : 1 ≤ c) (hc2 : c ≤ n)
    (hs : 0 ≤ s.params.scale) :
    ((∃ x, precomputedInputs pics sbd n s = .ok x) ↔
      (∃ E, pics.rgb ep = some E ∧ 1 / 2 ≤ E.h * s.params.scale ∧ 1 / 2 ≤ E.w * s.params.scale) ∧
      (∃ P, pics.gray s.predPath = some P) ∧ (kill = true → ∃ S, pics.gray sp = some S)) ∧
    ∀ x, precomputedInputs pics sbd n s = .ok x → ∃ E P S, pics.rgb ep = some E ∧
      pics.gray s.predPath = some P ∧ (kill = true → ∃ T, S = some T ∧ pics.gray sp = some T) ∧
      (kill = false → S = none) ∧
      SampleInputs E P S s.params.scale c (if sbd then 5 else 0) ((c : Int) - 1) x := by
  have hk : ∀ E : Rgb, pyIndex (decodePng E n).n ((c : Int) - 1) = .ok (c - 1) := by
    intro E
    have : (decodePng E n).n = n := by show min n 24 = n; omega
    rw [this]
    unfold pyIndex
    rw [if_pos (by omega)]
    congr 1; omega
  have key : ∀ x, precomputedInputs pics sbd n s = .ok x ↔ ∃ E, pics.rgb ep = some E ∧
      1 / 2 ≤ E.h * s.params.scale ∧ 1 / 2 ≤ E.w * s.params.scale ∧ ∃ P, pics.gray s.predPath = some P ∧
      ∃ h w : Nat, RoundsTo (E.h * s.params.scale) h ∧ RoundsTo (E.w * s.params.scale) w ∧ 0 < h ∧ 0 < w ∧
      ∃ seg, ((kill = false ∧ seg = none) ∨ (kill = true ∧ ∃ S, pics.gray sp = some S ∧
        seg = some (eqMask ⟨h, w, fun i j => S.at_ (srcIdx S.rows h i) (srcIdx S.cols w j)⟩ ((c : Int) - 1)))) ∧
      x = ⟨(if sbd then addIgnorePixel (⟨h, w, fun i j => (P.at_ (srcIdx P.rows h i) (srcIdx P.cols w j) : ℚ) / 255⟩ :
          Img ℚ) 5 0 else ⟨h, w, fun i j => (P.at_ (srcIdx P.rows h i) (srcIdx P.cols w j) : ℚ) / 255⟩),
        toImg h w (fun i j => colourBit E (srcIdx E.h h i) (srcIdx E.w w j) (c - 1)), seg⟩ := by
    intro x
    unfold precomputedInputs loadScaledEdge
    simp only [bind_ok, kw_ok, h1, h2, h3, load_ok, hc, Option.some.injEq]
    have hbits : ∀ (E : Rgb) (h w : Nat), (decodePng (⟨h, w, fun i j => E.r (srcIdx E.h h i) (srcIdx E.w w j),
        fun i j => E.g (srcIdx E.h h i) (srcIdx E.w w j), fun i j => E.b (srcIdx E.h h i) (srcIdx E.w w j)⟩ : Rgb) n).at_
          (c - 1) = fun i j => colourBit E (srcIdx E.h h i) (srcIdx E.w w j) (c - 1) := by
      intro E h w
      funext i j
      show (pngBits n _ _ _).getD (c - 1) false = _
      rw [pngBits_getD _ _ _ _ _ (by omega)]
      unfold colourBit
      have : c - 1 < 24 := by omega
      simp only [this, if_true]
    constructor
    · rintro ⟨_, rfl, _, rfl, _, rfl, ⟨rgb, height, width⟩, ⟨E, hE, r, hr, h5⟩, k, hk', pred, hp, seg, hseg, h6⟩
      obtain ⟨h, eh, rh, -, ph⟩ := C49_scaled_size E.h s.params.scale hs
      obtain ⟨w, ew, rw', -, pw⟩ := C49_scaled_size E.w s.params.scale hs
      rw [eh, ew] at hr h5
      unfold resizeRgb at hr
      split at hr
      · cases hr
      next hb =>
      cases hr
      simp only [Int.toNat_natCast] at h5
      cases h5
      rw [hk] at hk'
      cases hk'
      cases h6
      have h0 : 0 < h := by omega
      have w0 : 0 < w := by omega
      obtain ⟨P, hP, -, -, rfl⟩ := loadPred_ok.1 hp
      refine ⟨E, hE, ph.1 h0, pw.1 w0, P, hP, h, w, rh, rw', h0, w0, seg,
        (loadSeg_ok (edge := decodePng _ n) (h := h) (w := w) rfl rfl h0 w0).1 hseg, ?_⟩
      have := hbits E h w
      simp only [this]
      rfl
    · rintro ⟨E, hE, g1, g2, P, hP, h, w, rh, rw', h0, w0, seg, hseg, rfl⟩
      obtain ⟨h', eh, rh', -, -⟩ := C49_scaled_size E.h s.params.scale hs
      obtain ⟨w', ew, rw'', -, -⟩ := C49_scaled_size E.w s.params.scale hs
      have round_unique : ∀ {x : ℚ} {a b : Nat}, RoundsTo x a → RoundsTo x b → a = b := by
        rintro x a b ⟨p1, p2⟩ ⟨q1, q2⟩
        have : (a : ℚ) < b + 1 := by linarith
        have : (b : ℚ) < a + 1 := by linarith
        have : a < b + 1 := by exact_mod_cast (by linarith : (a : ℚ) < b + 1)
        have : b < a + 1 := by exact_mod_cast (by linarith : (b : ℚ) < a + 1)
        omega
      obtain rfl := round_unique rh rh'
      obtain rfl := round_unique rw' rw''
      refine ⟨ep, rfl, sp, rfl, kill, rfl, (⟨h, w, fun i j => E.r (srcIdx E.h h i) (srcIdx E.w w j),
        fun i j => E.g (srcIdx E.h h i) (srcIdx E.w w j), fun i j => E.b (srcIdx E.h h i) (srcIdx E.w w j)⟩, h, w),
        ⟨E, hE, _, ?_, by rw [eh, ew]⟩, c - 1, hk _, _, loadPred_ok.2 ⟨P, hP, h0, w0, rfl⟩, seg,
        (loadSeg_ok (edge := decodePng _ n) (h := h) (w := w) rfl rfl h0 w0).2 hseg, ?_⟩
      · unfold resizeRgb
        rw [eh, ew, if_neg (by omega)]
        simp only [Int.toNat_natCast]
      · have := hbits E h w
        simp only [this]
        rfl
  constructor
  · constructor
    · rintro ⟨x, hx⟩
      obtain ⟨E, hE, g1, g2, P, hP, h, w, -, -, -, -, seg, hseg, -⟩ := (key x).1 hx
      refine ⟨⟨E, hE, g1, g2⟩, ⟨P, hP⟩, ?_⟩
      rintro rfl
      rcases hseg with ⟨e, -⟩ | ⟨-, S, hS, -⟩
      · cases e
      · exact ⟨S, hS⟩
    · rintro ⟨⟨E, hE, g1, g2⟩, ⟨P, hP⟩, hS⟩
      obtain ⟨h, -, rh, -, ph⟩ := C49_scaled_size E.h s.params.scale hs
      obtain ⟨w, -, rw', -, pw⟩ := C49_scaled_size E.w s.params.scale hs
      cases kill with
      | false => exact ⟨_, (key _).2 ⟨E, hE, g1, g2, P, hP, h, w, rh, rw', ph.2 g1, pw.2 g2, none, Or.inl ⟨rfl, rfl⟩, rfl⟩⟩
      | true =>
        obtain ⟨S, hS⟩ := hS rfl
        exact ⟨_, (key _).2 ⟨E, hE, g1, g2, P, hP, h, w, rh, rw', ph.2 g1, pw.2 g2, _, Or.inr ⟨rfl, S, hS, rfl⟩, rfl⟩⟩
  · intro x hx
    obtain ⟨E, hE, g1, g2, P, hP, h, w, rh, rw', h0, w0, seg, hseg, rfl⟩ := (key x).1 hx
    obtain ⟨eh, ew⟩ := hne.1 _ _ hE
    obtain ⟨prr, prc⟩ := hne.2 _ _ hP
    have hpred : ∀ i < h, ∀ j < w, (if sbd = true then addIgnorePixel (⟨h, w, fun i j =>
          (P.at_ (srcIdx P.rows h i) (srcIdx P.cols w j) : ℚ) / 255⟩ : Img ℚ) 5 0 else
          ⟨h, w, fun i j => (P.at_ (srcIdx P.rows h i) (srcIdx P.cols w j) : ℚ) / 255⟩).at_ i j =
        if InBorder (if sbd then 5 else 0) h w i j then 0
          else (P.at_ (srcIdx P.rows h i) (srcIdx P.cols w j) : ℚ) / 255 := by
      intro i hi j hj
      cases sbd with
      | false =>
        rw [if_neg (by simp), if_neg]
        simp only [InBorder, Bool.false_eq_true, if_false]
        omega
      | true =>
        simp only [if_true]
        obtain ⟨-, -, hb⟩ := C27_border (⟨h, w, fun i j => (P.at_ (srcIdx P.rows h i) (srcIdx P.cols w j) : ℚ) / 255⟩ :
          Img ℚ) 5 0 (by omega)
        rw [hb i j hi hj]
        simp only
        have : ((i : Int) < 5 ∨ (h : Int) - 5 ≤ i ∨ (j : Int) < 5 ∨ (w : Int) - 5 ≤ j) ↔ InBorder 5 h w i j := by
          unfold InBorder; omega
        simp only [this]
    have hdims : ∀ (im : Img ℚ), (if sbd = true then addIgnorePixel im 5 0 else im).rows = im.rows ∧
        (if sbd = true then addIgnorePixel im 5 0 else im).cols = im.cols := by
      intro im; cases sbd <;> exact ⟨rfl, rfl⟩
    have base : ∀ S, ((S = none → seg = none) ∧ ∀ T, S = some T → ∃ m, seg = some m ∧ m.isBool = true ∧
        m.img.rows = h ∧ m.img.cols = w ∧
        ∀ i < h, ∀ j < w, ∃ p q, CellOf T.rows h i p ∧ CellOf T.cols w j q ∧
          m.img.at_ i j = if (T.at_ p q : Int) = (c : Int) - 1 then 1 else 0) →
        SampleInputs E P S s.params.scale c (if sbd then 5 else 0) ((c : Int) - 1)
          ⟨(if sbd then addIgnorePixel (⟨h, w, fun i j =>
            (P.at_ (srcIdx P.rows h i) (srcIdx P.cols w j) : ℚ) / 255⟩ : Img ℚ) 5 0 else
              ⟨h, w, fun i j => (P.at_ (srcIdx P.rows h i) (srcIdx P.cols w j) : ℚ) / 255⟩),
            toImg h w (fun i j => colourBit E (srcIdx E.h h i) (srcIdx E.w w j) (c - 1)), seg⟩ := by
      intro S hS
      exact
        { height := rh
          width := rw'
          pos := ⟨h0, w0⟩
          predSize := hdims _
          gt := fun i hi j hj => ⟨_, _, srcIdx_cell eh hi, srcIdx_cell ew hj, rfl⟩
          pred := fun i hi j hj => ⟨_, _, srcIdx_cell prr hi, srcIdx_cell prc hj, hpred i hi j hj⟩
          seg := hS }
    rcases hseg with ⟨rfl, rfl⟩ | ⟨rfl, S, hS, rfl⟩
    · exact ⟨E, P, none, hE, hP, by simp, fun _ => rfl, base none ⟨fun _ => rfl, by simp⟩⟩
    · obtain ⟨sr, sc⟩ := hne.2 _ _ hS
      refine ⟨E, P, some S, hE, hP, fun _ => ⟨S, rfl, hS⟩, by simp, base (some S) ⟨by simp, ?_⟩⟩
      rintro T hT
      cases hT
      exact ⟨_, rfl, rfl, rfl, rfl, fun i hi j hj => ⟨_, _, srcIdx_cell sr hi, srcIdx_cell sc hj, rfl⟩⟩

/-- C49: ground truth encoded by `rgb_multilabel_encoding` and read at scale 1 is the edge channel of the category,
pixel by pixel; a prediction of the same size is read pixel by pixel. -/
theorem C49_round_trip (e : MLEdges) (hn : e.n ≤ 24) (E : Rgb) (he : rgbEncode e = .ok E) (P : Img Nat)
    (S : Option (Img Nat)) (c border : Nat) (hc1 : 1 ≤ c) (hc2 : c ≤ e.n) (v : Int) (x : Inputs)
    (hx : SampleInputs E P S 1 c border v x) :
    x.gt.rows = e.h ∧ x.gt.cols = e.w ∧
    (∀ i < e.h, ∀ j < e.w, x.gt.at_ i j = if e.at_ (c - 1) i j then 1 else 0) ∧
    (P.rows = e.h → P.cols = e.w → ∀ i < e.h, ∀ j < e.w, ¬ InBorder border e.h e.w i j →
      x.pred.at_ i j = (P.at_ i j : ℚ) / 255) := by
  obtain ⟨E', he', hs, -⟩ := C22_png_roundtrip e hn
  rw [he] at he'
  cases he'
  obtain ⟨-, s2, s3, s4⟩ := hs
  have sh : E.h = e.h := s2
  have sw : E.w = e.w := s3
  have one : ∀ {a b : Nat}, RoundsTo ((a : ℚ) * 1) b → b = a := by
    rintro a b ⟨p1, p2⟩
    have h1 : a < b + 1 := by exact_mod_cast (by linarith : (a : ℚ) < b + 1)
    have h2 : b < a + 1 := by exact_mod_cast (by linarith : (b : ℚ) < a + 1)
    omega
  have hr := one hx.height
  have hw := one hx.width
  rw [sh] at hr
  rw [sw] at hw
  refine ⟨hr, hw, ?_, ?_⟩
  · intro i hi j hj
    obtain ⟨p, q, c1, c2, hv⟩ := hx.gt i (by omega) j (by omega)
    rw [hr, sh] at c1
    rw [hw, sw] at c2
    obtain rfl := cell_unique c1 (cell_same hi)
    obtain rfl := cell_unique c2 (cell_same hj)
    have h4 : (pngBits e.n _ _ _).getD (c - 1) false = _ :=
      s4 (c - 1) p q (by show c - 1 < min e.n 24; omega) (by show p < E.h; omega) (by show q < E.w; omega)
    rw [pngBits_getD _ _ _ _ _ (by omega)] at h4
    have h24 : c - 1 < 24 := by omega
    simp only [h24, if_true] at h4
    rw [hv]
    unfold colourBit
    rw [h4]
  · intro p1 p2 i hi j hj hb
    obtain ⟨p, q, c1, c2, hv⟩ := hx.pred i (by omega) j (by omega)
    rw [hr, p1] at c1
    rw [hw, p2] at c2
    obtain rfl := cell_unique c1 (cell_same hi)
    obtain rfl := cell_unique c2 (cell_same hj)
    rw [hv, hr, hw, if_neg hb]

/-- C49: responses are read into `[0, 1]` (8-bit pictures). -/
theorem C49_responses_in_unit (E : Rgb) (P : Img Nat) (S : Option (Img Nat)) (scale : ℚ) (c border : Nat) (v : Int)
    (x : Inputs) (hx : SampleInputs E P S scale c border v x) (hP : ∀ i < P.rows, ∀ j < P.cols, P.at_ i j ≤ 255) :
    ∀ i < x.pred.rows, ∀ j < x.pred.cols, 0 ≤ x.pred.at_ i j ∧ x.pred.at_ i j ≤ 1 := by
  intro i hi j hj
  obtain ⟨p, q, c1, c2, hv⟩ := hx.pred i (by rw [← hx.predSize.1]; exact hi) j (by rw [← hx.predSize.2]; exact hj)
  rw [hv]
  split
  · norm_num
  · have := hP p c1.1 q c2.1
    have h255 : (P.at_ p q : ℚ) ≤ 255 := by exact_mod_cast this
    exact ⟨by positivity, by rw [div_le_one (by norm_num)]; exact h255⟩

/-- C49 (defect): the SBD label map holds the class number `c` at the pixels of category `c` and 0 at the background,
but it is compared with `c - 1`: no pixel of the category is ever in the mask used to remove internal
predictions; the mask is the previous category's region, and the background for the first category. -/
theorem C49_sbd_mask_off_by_one (E : Rgb) (P T : Img Nat) (scale : ℚ) (c : Nat) (x : Inputs)
    (hx : SampleInputs E P (some T) scale c 5 ((c : Int) - 1) x) :
    ∃ m, x.seg = some m ∧ ∀ i < x.gt.rows, ∀ j < x.gt.cols, ∃ p q, CellOf T.rows x.gt.rows i p ∧
      CellOf T.cols x.gt.cols j q ∧ (T.at_ p q = c → m.img.at_ i j = 0) ∧ (T.at_ p q + 1 = c → m.img.at_ i j = 1) := by
  obtain ⟨m, hm, -, -, -, hv⟩ := hx.seg.2 T rfl
  refine ⟨m, hm, fun i hi j hj => ?_⟩
  obtain ⟨p, q, c1, c2, h⟩ := hv i hi j hj
  refine ⟨p, q, c1, c2, ?_, ?_⟩
  · intro e
    rw [h, if_neg (by omega)]
  · intro e
    rw [h, if_pos (by omega)]

/-! ## The whole sub-routine -/

theorem toImg_binary (h w : Nat) (m : Nat → Nat → Bool) :
    ∀ i j, i < (toImg h w m).rows → j < (toImg h w m).cols → (toImg h w m).at_ i j = 0 ∨ (toImg h w m).at_ i j = 1 := by
  intro i j _ _
  show (if m i j then (1 : ℚ) else 0) = 0 ∨ (if m i j then (1 : ℚ) else 0) = 1
  split <;> simp

/-- Shape-preserving NMS. -/
def KeepsShape (f : Img ℚ → Img ℚ) : Prop := ∀ im, (f im).rows = im.rows ∧ (f im).cols = im.cols

/-- C49: one sample of the Cityscapes, half-scale or SBD evaluators. When the files exist and the settings are valid,
the sub-routine returns four arrays of consistent counts: `sum_r` is the number of ground-truth pixels of
the category in the resampled picture at every threshold, and without NMS, thinning and internal removal `sum_p` is the
number of resampled responses reaching the threshold (0 when the category is absent and absent categories
are skipped). -/
theorem C49_single (env : Env) (hne : NoEmptyPictures env.pics) (hnms : KeepsShape env.nms) (k : Kind)
    (hk : k = .cityscapes ∨ k = .half ∨ k = .sbd ∨ k = .reanno) (arg : ThresholdArg) (ths : List ℚ)
    (hth : checkThresholds arg = .ok ths) (rnd : Nat → Nat → Nat → ℚ) (hx : UnitStreams rnd)
    (s : Sample) (ep sp : Str) (kill skip : Bool) (h1 : s.edgePath = some ep) (h2 : s.segPath = some sp)
    (h3 : s.params.killInternal = some kill) (h4 : s.params.skipIfNonexistent = some skip)
    (hd : 0 < s.params.maxDist) (c : Nat) (hc : s.category = c) (hc1 : 1 ≤ c)
    (hc2 : c ≤ if k = .sbd ∨ k = .reanno then 20 else 19) (hs : 0 ≤ s.params.scale)
    (hE : ∃ E, env.pics.rgb ep = some E ∧ 1 / 2 ≤ E.h * s.params.scale ∧ 1 / 2 ≤ E.w * s.params.scale)
    (hP : ∃ P, env.pics.gray s.predPath = some P) (hS : kill = true → ∃ S, env.pics.gray sp = some S) :
    ∃ E P S x F rows, env.pics.rgb ep = some E ∧ env.pics.gray s.predPath = some P ∧
      (kill = true → ∃ T, S = some T ∧ env.pics.gray sp = some T) ∧ (kill = false → S = none) ∧
      SampleInputs E P S s.params.scale c (if k = .sbd ∨ k = .reanno then 5 else 0) ((c : Int) - 1) x ∧
      (∀ fuel, F ≤ fuel → multiLabelSingle { env with fuel := fuel } k arg s rnd = .ok (some rows)) ∧
      Spec.Sane ths.length (toCounts rows) ∧
      ∀ i < ths.length, (rowAt rows i).sumR = (edgePixels x.gt).card ∧
        (s.params.nms = false → s.params.thinning = false → kill = false →
          (rowAt rows i).sumP = if skip = true ∧ edgePixels x.gt = ∅ then 0 else
            (((Finset.range x.gt.rows ×ˢ Finset.range x.gt.cols).filter fun q =>
              ths.getD i 0 ≤ x.pred.at_ q.1 q.2).card : ℚ)) := by
  have hko : k ≠ .otf := by rintro rfl; simp at hk
  have hnum : numClasses k = if k = .sbd ∨ k = .reanno then 20 else 19 := by
    rcases hk with rfl | rfl | rfl | rfl <;> rfl
  have hn24 : numClasses k ≤ 24 := by rw [hnum]; split <;> omega
  obtain ⟨a1, a2⟩ := C49_precomputed_inputs env.pics hne (decide (k = .sbd ∨ k = .reanno)) (numClasses k) hn24 s ep sp
    kill h1 h2 h3 c hc hc1 (by rw [hnum]; exact hc2) hs
  obtain ⟨x, hxx⟩ := a1.2 ⟨hE, hP, hS⟩
  obtain ⟨E, P, S, b1, b2, b3, b4, b5⟩ := a2 x hxx
  simp only [decide_eq_true_eq] at b5
  have hbin : ∀ i j, i < x.gt.rows → j < x.gt.cols → x.gt.at_ i j = 0 ∨ x.gt.at_ i j = 1 := by
    intro i j hi hj
    obtain ⟨p, q, -, -, hv⟩ := b5.gt i hi j hj
    rw [hv]; split <;> simp
  have hshape : (preNms (options env s.params kill skip).nms x.pred).rows = x.gt.rows ∧
      (preNms (options env s.params kill skip).nms x.pred).cols = x.gt.cols := by
    unfold options preNms
    cases s.params.nms
    · exact b5.predSize
    · exact ⟨(hnms _).1.trans b5.predSize.1, (hnms _).2.trans b5.predSize.2⟩
  obtain ⟨F, rows, hF⟩ := C10_multi_label_total ths x.pred x.gt x.seg (options env s.params kill skip) rnd hx hd hshape
    (fun hkill => by
      obtain ⟨T, hT, -⟩ := b3 hkill
      obtain ⟨m, m1, -, m3, m4, -⟩ := b5.seg.2 T hT
      exact ⟨m, m1, m3, m4⟩)
  have hrun : ∀ fuel, F ≤ fuel → multiLabelSingle { env with fuel := fuel } k arg s rnd = .ok (some rows) := by
    intro fuel hf
    unfold multiLabelSingle
    simp only [if_neg hko, hxx, h3, h4, hth, kw]
    exact hF fuel hf
  have hseg : SegOk x.seg := by
    intro m hm hb
    cases hS' : S with
    | none => rw [b5.seg.1 hS'] at hm; cases hm
    | some T =>
      obtain ⟨m', m1, m2, -⟩ := b5.seg.2 T hS'
      rw [m1] at hm; cases hm
      rw [m2] at hb; cases hb
  refine ⟨E, P, S, x, F, rows, b1, b2, b3, b4, b5, hrun, ?_, ?_⟩
  · exact C10_multi_label_counts F ths x.pred x.gt x.seg _ rnd rows hx hseg
      (fun i j hi hj => (hbin i j hi hj).imp_right fun e => e.ge) (hF F le_rfl)
  · intro i hi
    obtain ⟨t1, t2, t3, t4⟩ := C10_multi_label_totals F ths x.pred x.gt x.seg _ rnd rows hx hseg hbin (hF F le_rfl) i hi
    refine ⟨t1, ?_⟩
    intro g1 g2 g3
    have hpn : preNms (options env s.params kill skip).nms x.pred = x.pred := by
      unfold options preNms
      rw [g1]; rfl
    rw [hpn] at t3 t4
    have hplain : ∀ p, Processed F (options env s.params kill skip).thin x.pred (ths.getD i 0) p →
        edgePixels p = (Finset.range x.gt.rows ×ˢ Finset.range x.gt.cols).filter fun q =>
          ths.getD i 0 ≤ x.pred.at_ q.1 q.2 := by
      intro p hp
      rw [hp.plain g2, b5.predSize.1, b5.predSize.2]
    by_cases he : edgePixels x.gt = ∅
    · cases hsk : skip with
      | true =>
        rw [if_pos ⟨rfl, he⟩, t2 he hsk]
      | false =>
        rw [if_neg (by simp)]
        obtain ⟨p, hp, hrow⟩ := t3 he hsk
        rw [hrow, ← hplain p hp]
    · rw [if_neg (fun h => he h.2)]
      obtain ⟨p, hp, hrow⟩ := t4 he g3
      rw [hrow, ← hplain p hp]

/-! ## Concrete cases -/

/-- A 2×2 ground truth whose pixel (0,0) carries the first class, a 4×4 prediction, a 2×2 label map. -/
def exPics : Pictures where
  rgb p := if p = ['e'] then some ⟨2, 2, fun _ _ => 0, fun _ _ => 0, fun i j => if i = 0 ∧ j = 0 then 1 else 0⟩ else none
  gray p := if p = ['p'] then some ⟨4, 4, fun i j => 20 * i + j⟩
    else if p = ['s'] then some ⟨2, 2, fun i j => i + j⟩ else none
  mat _ := .error .assertionError

theorem exPics_nonempty : NoEmptyPictures exPics := by
  constructor
  · intro p E h
    simp only [exPics] at h
    split at h
    · cases h; exact ⟨by decide, by decide⟩
    · cases h
  · intro p P h
    simp only [exPics] at h
    split at h
    · cases h; exact ⟨by decide, by decide⟩
    · split at h
      · cases h; exact ⟨by decide, by decide⟩
      · cases h

/-- A sample of the first category. -/
def exSample : Sample :=
  { name := ['x'], category := 1, edgePath := some ['e'], segPath := some ['s'], instPath := none, predPath := ['p']
    params := { scale := 1, thinning := false, nms := false, maxDist := 1 / 50, killInternal := some true,
                skipIfNonexistent := some false, radius := none } }

/-- The ground truth of `exSample` has one edge pixel, and the evaluation returns. -/
example : ∃ F rows, (∀ fuel, F ≤ fuel → multiLabelSingle ⟨exPics, refLib 1, id, fun _ _ => 0, fuel⟩
      .cityscapes (.list [1 / 4, 1 / 2]) exSample (fun _ _ _ => 1 / 2) = .ok (some rows)) ∧ Spec.Sane 2 (toCounts rows) ∧
      (rowAt rows 0).sumR = 1 := by
  obtain ⟨E, P, S, x, F, rows, e1, -, -, -, h, h1, h2, h3⟩ := C49_single ⟨exPics, refLib 1, id, fun _ _ => 0, 0⟩
    exPics_nonempty (fun _ => ⟨rfl, rfl⟩) .cityscapes (Or.inl rfl) (.list [1 / 4, 1 / 2]) [1 / 4, 1 / 2] (by decide +kernel)
    (fun _ _ _ => 1 / 2) (fun _ _ _ => by norm_num) exSample ['e'] ['s'] true false rfl rfl rfl rfl
    (by norm_num [exSample]) 1 rfl (by decide) (by decide) (by norm_num [exSample])
    ⟨_, rfl, by norm_num [exSample], by norm_num [exSample]⟩ ⟨_, rfl⟩ fun _ => ⟨_, rfl⟩
  refine ⟨F, rows, h1, h2, ?_⟩
  rw [(h3 0 (by decide)).1]
  have e1' : E = ⟨2, 2, fun _ _ => 0, fun _ _ => 0, fun i j => if i = 0 ∧ j = 0 then 1 else 0⟩ := by
    simp only [exPics, if_true] at e1; exact (Option.some.inj e1).symm
  subst e1'
  have one : ∀ {b : Nat}, RoundsTo (((2 : Nat) : ℚ) * exSample.params.scale) b → b = 2 := by
    rintro b ⟨p1, p2⟩
    norm_num [exSample] at p1 p2
    have h1 : b < 3 := by exact_mod_cast (by linarith : (b : ℚ) < 3)
    have h2 : 1 < b := by exact_mod_cast (by linarith : (1 : ℚ) < b)
    omega
  have hr := one h.height
  have hc := one h.width
  have hp : edgePixels x.gt = {(0, 0)} := by
    ext ⟨i, j⟩
    simp only [edgePixels, hr, hc, Finset.mem_filter, Finset.mem_product, Finset.mem_range, Finset.mem_singleton,
      Prod.mk.injEq]
    constructor
    · rintro ⟨⟨hi, hj⟩, hv⟩
      obtain ⟨p, q, c1, c2, hv'⟩ := h.gt i (by omega) j (by omega)
      rw [hr] at c1
      rw [hc] at c2
      obtain rfl := cell_unique c1 (cell_same hi)
      obtain rfl := cell_unique c2 (cell_same hj)
      rw [hv'] at hv
      by_contra hcon
      apply hv
      rw [if_neg]
      simp [colourBit, hcon]
    · rintro ⟨rfl, rfl⟩
      obtain ⟨p, q, c1, c2, hv'⟩ := h.gt 0 (by omega) 0 (by omega)
      rw [hr] at c1
      rw [hc] at c2
      obtain rfl := cell_unique c1 (cell_same (by decide))
      obtain rfl := cell_unique c2 (cell_same (by decide))
      refine ⟨by decide, ?_⟩
      rw [hv']
      decide +kernel
  rw [hp]
  rfl

/-- At scale 1/2 a 2×2 picture becomes the single pixel (1,1): the only edge pixel (0,0) is lost. -/
example : ∃ x, precomputedInputs exPics false 19 { exSample with params := { exSample.params with scale := 1 / 2 } } = .ok x ∧
    x.gt.rows = 1 ∧ x.gt.cols = 1 ∧ x.gt.at_ 0 0 = 0 := by
  obtain ⟨a, b⟩ := C49_precomputed_inputs exPics exPics_nonempty false 19 (by decide)
    { exSample with params := { exSample.params with scale := 1 / 2 } } ['e'] ['s'] true rfl rfl rfl 1 rfl (by decide)
    (by decide) (by norm_num)
  obtain ⟨x, hx⟩ := a.2 ⟨⟨_, rfl, by norm_num, by norm_num⟩, ⟨_, rfl⟩, fun _ => ⟨_, rfl⟩⟩
  obtain ⟨E, P, S, e1, e2, -, -, h⟩ := b x hx
  have e1' : E = ⟨2, 2, fun _ _ => 0, fun _ _ => 0, fun i j => if i = 0 ∧ j = 0 then 1 else 0⟩ := by
    simp only [exPics, if_true] at e1; exact (Option.some.inj e1).symm
  subst e1'
  have hr : x.gt.rows = 1 := by
    obtain ⟨p1, p2⟩ := h.height
    norm_num at p1 p2
    have : x.gt.rows < 2 := by exact_mod_cast (by linarith : (x.gt.rows : ℚ) < 2)
    have := h.pos.1
    omega
  have hc : x.gt.cols = 1 := by
    obtain ⟨p1, p2⟩ := h.width
    norm_num at p1 p2
    have : x.gt.cols < 2 := by exact_mod_cast (by linarith : (x.gt.cols : ℚ) < 2)
    have := h.pos.2
    omega
  refine ⟨x, hx, hr, hc, ?_⟩
  obtain ⟨p, q, c1, c2, hv⟩ := h.gt 0 (by omega) 0 (by omega)
  rw [hr] at c1
  rw [hc] at c2
  obtain rfl := cell_unique c1 (C49_half_scale 1 0 (by decide))
  obtain rfl := cell_unique c2 (C49_half_scale 1 0 (by decide))
  rw [hv]
  decide +kernel

end EdgeEval.Props
