import Verif.Props.Mask2Edge

/-!
# C28, C30: float32 and float64 distance transforms; transforms that are undefined on full images
-/

namespace EdgeEval.Props

open EdgeEval.Spec

/-- C28, C30: OpenCV's float32 transform. If, at every pixel, `cv2.distanceTransform` returns 0 or the binary32 number
nearest to the true distance and the two results are added in binary32, then the theorems about edges (whose hypothesis
is `SoundDT`) apply for every radius up to 31: rounding changes no edge pixel. -/
theorem C28_binary32 (lib : DTLib) (quality : Int) (R : ℝ) (h0 : 0 ≤ R) (hR : R ≤ 31) (fl : ℝ → ℝ)
    (hfl : NearestIn IsF32 fl) (hadd : ∀ x y, lib.add32 x y = fl (x + y))
    (hzero : ∀ rows cols f i j, i < rows → j < cols → f i j = false → lib.cv2 quality rows cols f i j = 0)
    (hleast : ∀ rows cols f i j m, i < rows → j < cols → f i j = true → IsLeastDist rows cols f (i, j) m →
      lib.cv2 quality rows cols f i j = fl m)
    (hfar : ∀ rows cols f i j, i < rows → j < cols → f i j = true → (∀ q ∈ pxSet rows cols, f q.1 q.2 = true) →
      R + 1 ≤ lib.cv2 quality rows cols f i j) :
    SoundDT lib true quality R :=
  ⟨fl, 1 / 2 ^ 24, hfl.f32 h0 hR, hadd, hzero, hleast, hfar⟩

/-- C28, C30: the same for SciPy's float64 transform, for every radius up to 4800. -/
theorem C28_binary64 (lib : DTLib) (quality : Int) (R : ℝ) (h0 : 0 ≤ R) (hR : R ≤ 4800) (fl : ℝ → ℝ)
    (hfl : NearestIn IsF64 fl) (hadd : ∀ x y, lib.add64 x y = fl (x + y))
    (hzero : ∀ rows cols f i j, i < rows → j < cols → f i j = false → lib.scipy rows cols f i j = 0)
    (hleast : ∀ rows cols f i j m, i < rows → j < cols → f i j = true → IsLeastDist rows cols f (i, j) m →
      lib.scipy rows cols f i j = fl m)
    (hfar : ∀ rows cols f i j, i < rows → j < cols → f i j = true → (∀ q ∈ pxSet rows cols, f q.1 q.2 = true) →
      R + 1 ≤ lib.scipy rows cols f i j) :
    SoundDT lib false quality R :=
  ⟨fl, 1 / 2 ^ 53, hfl.f64 h0 hR, hadd, hzero, hleast, hfar⟩

/-- The binary32 library: exact distances rounded to nearest (full images: `R + 1`). -/
noncomputable def lib32 : DTLib :=
  ⟨fun _ rows cols f i j => nearestR (refDT 31 rows cols f i j), refDT 31, fun x y => nearestR (x + y), (· + ·)⟩

/-- It meets the hypotheses of `C28_binary32`, and √2 is really rounded. -/
example : SoundDT lib32 true 0 31 ∧ nearestR (Real.sqrt 2) ≠ Real.sqrt 2 := by
  have h31 : nearestR ((31 : ℝ) + 1) = 31 + 1 := by
    have := nearestR_rounds.exact 32 ⟨32, 0, by norm_num, by norm_num, by norm_num⟩
    push_cast at this
    rw [show (31 : ℝ) + 1 = 32 by norm_num]
    exact this
  have h0 : nearestR 0 = 0 := by
    have := nearestR_rounds.exact 0 ⟨0, 0, by norm_num, by norm_num, by norm_num⟩
    simpa using this
  refine ⟨C28_binary32 lib32 0 31 (by norm_num) le_rfl nearestR nearestR_rounds (fun _ _ => rfl) ?_ ?_ ?_, ?_⟩
  · intro rows cols f i j _ _ hf
    show nearestR (refDT 31 rows cols f i j) = 0
    rw [refDT_zero 31 rows cols f i j hf, h0]
  · intro rows cols f i j m _ _ hf hm
    show nearestR (refDT 31 rows cols f i j) = nearestR m
    rw [refDT_least 31 rows cols f i j m hf hm]
  · intro rows cols f i j _ _ hf hall
    show _ ≤ nearestR (refDT 31 rows cols f i j)
    rw [refDT_far 31 rows cols f i j hf hall, h31]
  · intro h
    obtain ⟨q, -, hq⟩ := nearestR_rounds.rep (Real.sqrt 2)
    exact irrational_sqrt_two ⟨q, by rw [← hq, h]⟩

/-! ## No assumption about full images -/

/-- Like `SoundDT`, without any assumption about images that have no unset pixel (SciPy: "result undefined"). -/
def PartialDT (lib : DTLib) (useCv2 : Bool) (quality : Int) (R : ℝ) : Prop :=
  ∃ fl u, RoundsFine fl u R ∧
    (∀ x y, usedAdd lib useCv2 x y = fl (x + y)) ∧
    (∀ rows cols f i j, i < rows → j < cols → f i j = false → usedDT lib useCv2 quality rows cols f i j = 0) ∧
    (∀ rows cols f i j m, i < rows → j < cols → f i j = true → IsLeastDist rows cols f (i, j) m →
      usedDT lib useCv2 quality rows cols f i j = fl m)

open Classical in
/-- The transform with its value on full images replaced. -/
noncomputable def patch (R : ℝ) (dt : DT) : DT := fun rows cols f i j =>
  if ∃ q ∈ pxSet rows cols, f q.1 q.2 = false then dt rows cols f i j else R + 1

/-- The library with patched transforms. -/
noncomputable def patchLib (R : ℝ) (lib : DTLib) : DTLib :=
  { lib with cv2 := fun q => patch R (lib.cv2 q), scipy := patch R lib.scipy }

theorem usedDT_patch (R : ℝ) (lib : DTLib) (c : Bool) (q : Int) : usedDT (patchLib R lib) c q = patch R (usedDT lib c q) := by
  cases c <;> rfl

theorem patch_sound (R : ℝ) (lib : DTLib) (c : Bool) (q : Int) (H : PartialDT lib c q R) : SoundDT (patchLib R lib) c q R := by
  obtain ⟨fl, u, hfl, hadd, hz, hl⟩ := H
  refine ⟨fl, u, hfl, hadd, ?_, ?_, ?_⟩
  · intro rows cols f i j hi hj hf
    rw [usedDT_patch, patch, if_pos ⟨(i, j), ⟨hi, hj⟩, hf⟩]
    exact hz rows cols f i j hi hj hf
  · intro rows cols f i j m hi hj hf hm
    have hex : ∃ q ∈ pxSet rows cols, f q.1 q.2 = false := by
      obtain ⟨⟨q, hq, hfq, -⟩, -⟩ := hm
      exact ⟨q, hq, hfq⟩
    rw [usedDT_patch, patch, if_pos hex]
    exact hl rows cols f i j m hi hj hf hm
  · intro rows cols f i j hi hj hf hall
    rw [usedDT_patch, patch, if_neg]
    rintro ⟨q, hq, hfq⟩
    rw [hall q hq] at hfq
    cases hfq

theorem mask2Bdry_patch (lib : DTLib) (o : BdryOpts) (R : ℝ) (rows cols : Nat) (m : Nat → Nat → Bool)
    (ign : Nat → Nat → Nat) (hm : ∃ q ∈ pxSet rows cols, m q.1 q.2 = true)
    (hu : ∃ q ∈ pxSet rows cols, unionMask m ign q.1 q.2 = false) :
    mask2Bdry (patchLib R lib) o rows cols m ign = mask2Bdry lib o rows cols m ign := by
  have hc : ∃ q ∈ pxSet rows cols, complMask m q.1 q.2 = false := by
    obtain ⟨q, hq, h⟩ := hm
    exact ⟨q, hq, by rw [complMask_eq, h]; rfl⟩
  have e1 : ∀ dt : DT, patch R dt rows cols (complMask m) = dt rows cols (complMask m) := by
    intro dt; funext i j; rw [patch, if_pos hc]
  have e2 : ∀ dt : DT, patch R dt rows cols (unionMask m ign) = dt rows cols (unionMask m ign) := by
    intro dt; funext i j; rw [patch, if_pos hu]
  unfold mask2Bdry mask2Internal cv2Mask2Bdry scipyMask2Bdry patchLib
  simp only [e1, e2]

/-- C28: semantic edges without any assumption about the transform of a full image: it is enough that every class that
occurs leaves a pixel that is neither in it nor ignored. -/
theorem C28_no_full_image (lib : DTLib) (o : BdryOpts) (hint : o.internalOnly = false)
    (H : PartialDT lib o.useCv2 o.quality o.radius) (hr : 0 ≤ o.radius) (fuel : Nat) (mask : MLEdges)
    (ignore : List Int) (hig : ∀ k ∈ ignore, 0 ≤ k ∧ k < mask.n) (hlen : ignore.length < 255)
    (hrest : ∀ k < mask.n, (k : Int) ∉ ignore → (classPx mask k).Nonempty →
      ∃ q ∈ allPx mask, q ∉ classPx mask k ∧ q ∉ ignoredPx mask ignore) :
    ∃ out, loopMask2Edge lib o fuel false mask ignore = .ok (some out) ∧
      out.n = mask.n ∧ out.h = mask.h ∧ out.w = mask.w ∧
      ∀ k i j, k < mask.n → i < mask.h → j < mask.w →
        (out.at_ k i j = true ↔ (k : Int) ∉ ignore ∧
          IsBoundary o.radius (allPx mask) (classPx mask k) (ignoredPx mask ignore) (i, j)) := by
  obtain ⟨ign, hign, -⟩ := ignoreMask_ok mask ignore hig
  obtain ⟨out', g1, -, -, -, g5⟩ := C28_semantic_edges (patchLib o.radius lib) o hint (patch_sound _ lib _ _ H) hr fuel mask
    ignore hig hlen
  obtain ⟨out'', k1, -, -, -, k5⟩ := loop_ok (patchLib o.radius lib) o fuel mask ignore ign hign
  rw [g1] at k1
  obtain rfl : out' = out'' := by simpa using k1
  obtain ⟨out, h1, h2, h3, h4, h5⟩ := loop_ok lib o fuel mask ignore ign hign
  refine ⟨out, h1, h2, h3, h4, ?_⟩
  intro k i j hk hi hj
  rw [← g5 k i j hk hi hj, h5 k hk, k5 k hk]
  unfold chanOf
  by_cases hc : (k : Int) ∈ ignore ∨ anySet mask.h mask.w (mask.at_ k) = false
  · rw [if_pos hc, if_pos hc]
  · rw [if_neg hc, if_neg hc]
    push Not at hc
    have hany : anySet mask.h mask.w (mask.at_ k) = true := by simpa using hc.2
    obtain ⟨p, hp, hpm⟩ := (anySet_iff _ _ _).mp hany
    obtain ⟨q, hq, hq1, hq2⟩ := hrest k hk hc.1 ⟨p, hp, hpm⟩
    rw [mask2Bdry_patch lib o o.radius mask.h mask.w (mask.at_ k) ign ⟨p, hp, hpm⟩ ⟨q, hq, ?_⟩]
    rw [Bool.eq_false_iff, ne_eq, unionMask_ignored mask ignore hig hlen ign hign _ q hq]
    rintro (h | h)
    · exact hq1 ⟨hq, h⟩
    · exact hq2 h

/-- The hypotheses of `C28_no_full_image` hold for a transform that is negative on full images, on the 1×3 image with
the classes 0, 1, 1. -/
example : PartialDT ⟨fun _ => refDT (-9), refDT (-9), (· + ·), (· + ·)⟩ true 0 1 ∧
    (∀ k < exMask.n, (k : Int) ∉ ([] : List Int) → (classPx exMask k).Nonempty →
      ∃ q ∈ allPx exMask, q ∉ classPx exMask k ∧ q ∉ ignoredPx exMask []) := by
  refine ⟨⟨fun x => x, 0, RoundsFine.id _, fun _ _ => rfl, ?_, ?_⟩, ?_⟩
  · intro rows cols f i j _ _ hf; exact refDT_zero _ rows cols f i j hf
  · intro rows cols f i j m _ _ hf hm; exact refDT_least _ rows cols f i j m hf hm
  · intro k hk _ _
    have h2 : k < 2 := hk
    have hI : ∀ q : Px, q ∉ ignoredPx exMask [] := by rintro q ⟨-, k, h, -⟩; simp at h
    rcases (by omega : k = 0 ∨ k = 1) with rfl | rfl
    · refine ⟨(0, 1), ⟨by decide, by decide⟩, ?_, hI _⟩
      rintro ⟨-, h⟩; simp [exMask] at h
    · refine ⟨(0, 0), ⟨by decide, by decide⟩, ?_, hI _⟩
      rintro ⟨-, h⟩; simp [exMask] at h

/-- C28: what happens to a class that covers the whole image: its channel is whatever the transform of the full image
makes of it, so a transform that returns small positive values there produces edges where there is no boundary. -/
theorem C28_full_image (lib : DTLib) (o : BdryOpts) (hint : o.internalOnly = false)
    (H : PartialDT lib o.useCv2 o.quality o.radius) (fuel : Nat) (mask : MLEdges) (k : Nat) (hk : k < mask.n)
    (hall : ∀ i j, mask.at_ k i j = true) :
    ∃ out fl u, RoundsFine fl u o.radius ∧ loopMask2Edge lib o fuel false mask [] = .ok (some out) ∧
      ∀ i j, i < mask.h → j < mask.w →
        (out.at_ k i j = true ↔
          0 < fl (usedDT lib o.useCv2 o.quality mask.h mask.w (fun _ _ => true) i j) ∧
          fl (usedDT lib o.useCv2 o.quality mask.h mask.w (fun _ _ => true) i j) ≤ o.radius) := by
  obtain ⟨out, h1, -, -, -, h5⟩ := loop_ok lib o fuel mask [] (fun _ _ => 0) rfl
  obtain ⟨fl, u, hfl, hadd, hz, -⟩ := H
  refine ⟨out, fl, u, hfl, h1, ?_⟩
  intro i j hi hj
  have hany : anySet mask.h mask.w (mask.at_ k) = true := (anySet_iff _ _ _).mpr ⟨(i, j), ⟨hi, hj⟩, hall i j⟩
  have hm : mask.at_ k = fun _ _ => true := by funext a b; exact hall a b
  have eU : unionMask (fun _ _ => true) (fun _ _ => 0) = fun _ _ => true := by funext a b; rfl
  have eC : complMask (fun _ _ => true) i j = false := by rw [complMask_eq]; rfl
  have heq : mask2Bdry lib o mask.h mask.w (fun _ _ => true) (fun _ _ => 0) i j =
      cutRadius o.radius (usedAdd lib o.useCv2 (usedDT lib o.useCv2 o.quality mask.h mask.w (complMask fun _ _ => true) i j)
        (usedDT lib o.useCv2 o.quality mask.h mask.w (unionMask (fun _ _ => true) fun _ _ => 0) i j)) := by
    unfold mask2Bdry usedDT usedAdd
    rw [hint]
    cases o.useCv2 <;> rfl
  rw [h5 k hk]
  unfold chanOf
  rw [if_neg (by simp [hany]), hm, heq, cutRadius_iff, hz _ _ _ _ _ hi hj eC, hadd, zero_add, eU]

/-- A transform that returns 1 on full images marks every pixel of a one-class image. -/
example : ∃ out, loopMask2Edge ⟨fun _ => refDT 0, refDT 0, (· + ·), (· + ·)⟩ { radius := 1 } 0 false (uniMask 6 5) [] =
    .ok (some out) ∧ out.at_ 5 0 0 = true := by
  obtain ⟨out, h1, -, -, -, h5⟩ := loop_ok ⟨fun _ => refDT 0, refDT 0, (· + ·), (· + ·)⟩ { radius := 1 } 0 (uniMask 6 5) []
    (fun _ _ => 0) rfl
  refine ⟨out, h1, ?_⟩
  have hm : (uniMask 6 5).at_ 5 = fun _ _ => true := by funext a b; rfl
  have eU : unionMask (fun _ _ => true) (fun _ _ => 0) = fun _ _ => true := by funext a b; rfl
  have hany : anySet (uniMask 6 5).h (uniMask 6 5).w ((uniMask 6 5).at_ 5) = true := by decide
  rw [h5 5 (by decide)]
  unfold chanOf
  rw [if_neg (by simp [hany]), hm]
  show cutRadius 1 (refDT 0 1 2 (complMask fun _ _ => true) 0 0 + refDT 0 1 2 (unionMask (fun _ _ => true) fun _ _ => 0) 0 0) = true
  rw [cutRadius_iff, eU, refDT_zero 0 _ _ _ 0 0 (by rw [complMask_eq]; rfl), refDT_far 0 _ _ _ 0 0 rfl (fun _ _ => rfl)]
  norm_num

/-- C30: instance edges without any assumption about the transform of a full image: every class that occurs and every
instance must leave a pixel that is neither in it nor ignored. -/
theorem C30_no_full_image (lib : DTLib) (o : BdryOpts) (hint : o.internalOnly = false)
    (H : PartialDT lib o.useCv2 o.quality o.radius) (hr : 0 ≤ o.radius) (fuel : Nat) (mask : MLEdges)
    (im : Img Nat) (hshape : im.rows = mask.h ∧ im.cols = mask.w) (ids : List Nat) (l0 : Nat) (hl0 : l0 ∈ ids)
    (hmin : ∀ l ∈ ids, l0 ≤ l) (ignore : List Int) (hig : ∀ k ∈ ignore, 0 ≤ k ∧ k < mask.n) (hlen : ignore.length < 255)
    (h5 : ∀ i j, i < im.rows → j < im.cols → im.at_ i j < 100000)
    (hrest : ∀ k < mask.n, (k : Int) ∉ ignore → (classPx mask k).Nonempty →
      ∃ q ∈ allPx mask, q ∉ classPx mask k ∧ q ∉ ignoredPx mask ignore)
    (hinst : ∀ v, ∃ q ∈ allPx mask, q ∉ instPx mask im v ∧ q ∉ ignoredPx mask ignore) :
    ∃ out, loopInstMask2Edge lib o fuel false mask im ids ignore = .ok (some out) ∧
      out.n = mask.n ∧ out.h = mask.h ∧ out.w = mask.w ∧
      ∀ k i j, k < mask.n → i < mask.h → j < mask.w →
        (out.at_ k i j = true ↔ (k : Int) ∉ ignore ∧ (classPx mask k).Nonempty ∧
          (IsBoundary o.radius (allPx mask) (classPx mask k) (ignoredPx mask ignore) (i, j) ∨
           ∃ v, (instPx mask im v).Nonempty ∧ v / 1000 = k ∧ l0 ≤ k ∧
            IsBoundary o.radius (allPx mask) (instPx mask im v) (ignoredPx mask ignore) (i, j))) := by
  obtain ⟨ign, hign, -⟩ := ignoreMask_ok mask ignore hig
  have hne : ids ≠ [] := by rintro rfl; cases hl0
  obtain ⟨l0', hl0', -, -⟩ := minLabel_spec ids hne
  obtain ⟨out', g1, -, -, -, g5⟩ := C30_instance_edges (patchLib o.radius lib) o hint (patch_sound _ lib _ _ H) hr fuel mask
    im hshape ids l0 hl0 hmin ignore hig hlen h5
  obtain ⟨out'', k1, -, -, -, k5⟩ := instLoop_ok (patchLib o.radius lib) o fuel mask im ids ignore ign hign l0' hl0'
    (instTable im (l0' * 10 ^ (5 - 2))) (labelInst_loop im _ h5)
  rw [g1] at k1
  obtain rfl : out' = out'' := by simpa using k1
  obtain ⟨out, h1, h2, h3, h4, h6⟩ := instLoop_ok lib o fuel mask im ids ignore ign hign l0' hl0'
    (instTable im (l0' * 10 ^ (5 - 2))) (labelInst_loop im _ h5)
  refine ⟨out, h1, h2, h3, h4, ?_⟩
  intro k i j hk hi hj
  rw [← g5 k i j hk hi hj, h6 k hk, k5 k hk]
  unfold chanOf
  by_cases hc : (k : Int) ∈ ignore ∨ anySet mask.h mask.w (mask.at_ k) = false
  · rw [if_pos hc, if_pos hc]
  · rw [if_neg hc, if_neg hc]
    push Not at hc
    have hany : anySet mask.h mask.w (mask.at_ k) = true := by simpa using hc.2
    obtain ⟨p, hp, hpm⟩ := (anySet_iff _ _ _).mp hany
    have pat : ∀ m : Nat → Nat → Bool, (∃ q ∈ pxSet mask.h mask.w, m q.1 q.2 = true) →
        (∃ q ∈ allPx mask, m q.1 q.2 = false ∧ q ∉ ignoredPx mask ignore) →
        mask2Bdry (patchLib o.radius lib) o mask.h mask.w m ign = mask2Bdry lib o mask.h mask.w m ign := by
      intro m hm ⟨q, hq, hq1, hq2⟩
      refine mask2Bdry_patch lib o o.radius mask.h mask.w m ign hm ⟨q, hq, ?_⟩
      rw [Bool.eq_false_iff, ne_eq, unionMask_ignored mask ignore hig hlen ign hign _ q hq]
      rintro (h | h)
      · rw [hq1] at h; cases h
      · exact hq2 h
    rw [instBdry_iff, instBdry_iff, pat (mask.at_ k) ⟨p, hp, hpm⟩ ?_]
    · apply or_congr Iff.rfl
      apply exists_congr
      intro v
      refine and_congr_right fun hv => ?_
      obtain ⟨a, b, ha, hb, hv'⟩ := (mem_uniqueVals im v).mp hv
      rw [pat]
      · exact ⟨(a, b), ⟨by rw [← hshape.1]; exact ha, by rw [← hshape.2]; exact hb⟩, by simpa using hv'⟩
      · obtain ⟨q, hq, hq1, hq2⟩ := hinst v
        refine ⟨q, hq, ?_, hq2⟩
        by_contra hcon
        exact hq1 ⟨hq, by simpa using hcon⟩
    · obtain ⟨q, hq, hq1, hq2⟩ := hrest k hk hc.1 ⟨p, hp, hpm⟩
      refine ⟨q, hq, ?_, hq2⟩
      by_contra hcon
      exact hq1 ⟨hq, by simpa using hcon⟩

/-- The two extra hypotheses of `C30_no_full_image` on the 1×3 image with classes 0, 1, 1 and instances 0, 1000, 1001. -/
example : (∀ k < exMask.n, (k : Int) ∉ ([] : List Int) → (classPx exMask k).Nonempty →
      ∃ q ∈ allPx exMask, q ∉ classPx exMask k ∧ q ∉ ignoredPx exMask []) ∧
    ∀ v, ∃ q ∈ allPx exMask, q ∉ instPx exMask ⟨1, 3, fun _ j => if j = 0 then 0 else 999 + j⟩ v ∧ q ∉ ignoredPx exMask [] := by
  have hI : ∀ q : Px, q ∉ ignoredPx exMask [] := by rintro q ⟨-, k, h, -⟩; simp at h
  constructor
  · intro k hk _ _
    have h2 : k < 2 := hk
    rcases (by omega : k = 0 ∨ k = 1) with rfl | rfl
    · refine ⟨(0, 1), ⟨by decide, by decide⟩, ?_, hI _⟩
      rintro ⟨-, h⟩; simp [exMask] at h
    · refine ⟨(0, 0), ⟨by decide, by decide⟩, ?_, hI _⟩
      rintro ⟨-, h⟩; simp [exMask] at h
  · intro v
    by_cases hv : v = 0
    · refine ⟨(0, 1), ⟨by decide, by decide⟩, ?_, hI _⟩
      rintro ⟨-, h⟩; subst hv; simp at h
    · refine ⟨(0, 0), ⟨by decide, by decide⟩, ?_, hI _⟩
      rintro ⟨-, h⟩; simp at h; omega

end EdgeEval.Props
