import Verif.Lemmas.Boundary
import Verif.Props.Thin
import Verif.Props.Labels

/-!
# C28, C29, C30: edge generation from segmentation masks
-/

namespace EdgeEval.Props

open EdgeEval.Spec

/-! ## What the loops store -/

/-- The channel stored for a label by both loops when thinning is off. -/
noncomputable def chanOf (mask : MLEdges) (ignore : List Int) (label : Nat) (bdry : Nat → Nat → Bool) :
    Nat → Nat → Bool :=
  if (label : Int) ∈ ignore ∨ anySet mask.h mask.w (mask.at_ label) = false then fun _ _ => false else bdry

theorem loop_ok (lib : DTLib) (o : BdryOpts) (fuel : Nat) (mask : MLEdges) (ignore : List Int)
    (ign : Nat → Nat → Nat) (hign : ignoreMask mask ignore = .ok ign) :
    ∃ out, loopMask2Edge lib o fuel false mask ignore = .ok (some out) ∧
      out.n = mask.n ∧ out.h = mask.h ∧ out.w = mask.w ∧
      ∀ k < mask.n, out.at_ k = chanOf mask ignore k (mask2Bdry lib o mask.h mask.w (mask.at_ k) ign) := by
  obtain ⟨out, h1, h2, h3, h4, h5, h6, -⟩ := labelLoop_ok (loopBody lib o fuel false mask ignore ign)
    (fun k => if (k : Int) ∈ ignore ∨ anySet mask.h mask.w (mask.at_ k) = false then none
      else some (mask2Bdry lib o mask.h mask.w (mask.at_ k) ign)) (List.range mask.n) (zerosLike mask)
    List.nodup_range (by
      intro l _
      unfold loopBody
      by_cases hi : (l : Int) ∈ ignore
      · simp [hi]
      · rcases ha : anySet mask.h mask.w (mask.at_ l) with _ | _ <;> simp [hi, ha, optThin])
  refine ⟨out, by rw [loopMask2Edge, hign]; exact h1, h2, h3, h4, ?_⟩
  intro k hk
  unfold chanOf
  by_cases hc : (k : Int) ∈ ignore ∨ anySet mask.h mask.w (mask.at_ k) = false
  · rw [if_pos hc, h6 k (List.mem_range.mpr hk) (by simp only [if_pos hc])]; rfl
  · rw [if_neg hc, h5 k (List.mem_range.mpr hk) _ (if_neg hc)]

theorem instLoop_ok (lib : DTLib) (o : BdryOpts) (fuel : Nat) (mask : MLEdges) (im : Img Nat) (instLabelIds : List Nat)
    (ignore : List Int) (ign : Nat → Nat → Nat) (hign : ignoreMask mask ignore = .ok ign) (l0 : Nat)
    (hl0 : minLabel instLabelIds = .ok l0) (li : List (Nat × Nat)) (hli : labelInst parseLoop im (l0 * 10 ^ (5 - 2)) = .ok li) :
    ∃ out, loopInstMask2Edge lib o fuel false mask im instLabelIds ignore = .ok (some out) ∧
      out.n = mask.n ∧ out.h = mask.h ∧ out.w = mask.w ∧
      ∀ k < mask.n, out.at_ k = chanOf mask ignore k (instBdry lib o mask im ign li k) := by
  obtain ⟨out, h1, h2, h3, h4, h5, h6, -⟩ := labelLoop_ok (instLoopBody lib o fuel false mask im ignore ign li)
    (fun k => if (k : Int) ∈ ignore ∨ anySet mask.h mask.w (mask.at_ k) = false then none
      else some (instBdry lib o mask im ign li k)) (List.range mask.n) (zerosLike mask)
    List.nodup_range (by
      intro l _
      unfold instLoopBody
      by_cases hi : (l : Int) ∈ ignore
      · simp [hi]
      · rcases ha : anySet mask.h mask.w (mask.at_ l) with _ | _ <;> simp [hi, ha, optThin])
  refine ⟨out, by rw [loopInstMask2Edge, hign]; simp only; rw [hl0]; simp only; rw [hli]; exact h1, h2, h3, h4, ?_⟩
  intro k hk
  unfold chanOf
  by_cases hc : (k : Int) ∈ ignore ∨ anySet mask.h mask.w (mask.at_ k) = false
  · rw [if_pos hc, h6 k (List.mem_range.mpr hk) (by simp only [if_pos hc])]; rfl
  · rw [if_neg hc, h5 k (List.mem_range.mpr hk) _ (if_neg hc)]

theorem region_class (mask : MLEdges) (k : Nat) : region mask.h mask.w (mask.at_ k) = classPx mask k := rfl

/-! ## C28 -/

/-- C28: semantic edges. With a distance transform that is exact up to rounding, valid ignore indices and radius `r ≥ 0`, channel `k` of
`mask2edge` is set exactly at the boundary pixels of class `k`, and is empty when `k` is ignored. -/
theorem C28_semantic_edges (lib : DTLib) (o : BdryOpts) (hint : o.internalOnly = false)
    (H : SoundDT lib o.useCv2 o.quality o.radius) (hr : 0 ≤ o.radius) (fuel : Nat) (mask : MLEdges)
    (ignore : List Int) (hig : ∀ k ∈ ignore, 0 ≤ k ∧ k < mask.n) (hlen : ignore.length < 255) :
    ∃ out, loopMask2Edge lib o fuel false mask ignore = .ok (some out) ∧
      out.n = mask.n ∧ out.h = mask.h ∧ out.w = mask.w ∧
      ∀ k i j, k < mask.n → i < mask.h → j < mask.w →
        (out.at_ k i j = true ↔ (k : Int) ∉ ignore ∧
          IsBoundary o.radius (allPx mask) (classPx mask k) (ignoredPx mask ignore) (i, j)) := by
  obtain ⟨ign, hign, -⟩ := ignoreMask_ok mask ignore hig
  obtain ⟨out, h1, h2, h3, h4, h5⟩ := loop_ok lib o fuel mask ignore ign hign
  refine ⟨out, h1, h2, h3, h4, ?_⟩
  intro k i j hk hi hj
  rw [h5 k hk]
  unfold chanOf
  by_cases hk' : (k : Int) ∈ ignore
  · simp [hk']
  · have hb := mask2Bdry_iff lib o hint H hr mask.h mask.w (mask.at_ k) ign (ignoredPx mask ignore)
      (fun q hq => unionMask_ignored mask ignore hig hlen ign hign _ q hq) (i, j) ⟨hi, hj⟩
    simp only at hb
    rw [region_class] at hb
    by_cases ha : anySet mask.h mask.w (mask.at_ k) = false
    · simp only [ha, or_true, if_true, Bool.false_eq_true, hk', not_false_eq_true, true_and, false_iff]
      have hemp : ∀ p, p ∉ classPx mask k := by
        intro p hp
        have : anySet mask.h mask.w (mask.at_ k) = true := (anySet_iff _ _ _).mpr ⟨p, hp.1, hp.2⟩
        rw [ha] at this; cases this
      rintro (⟨h, -⟩ | ⟨-, -, q, h, -⟩ | ⟨-, -, q, -, -, -, q', h, -⟩) <;> exact hemp _ h
    · rw [if_neg (not_or.mpr ⟨hk', ha⟩), hb]
      simp only [hk', not_false_eq_true, true_and]
      rfl

/-- C28: with `internal_only`, channel `k` (not ignored and not empty) is set exactly at the pixels of the class *or
of the ignored classes* that lie within `r` of the rest of the image. -/
theorem C28_internal_only (lib : DTLib) (o : BdryOpts) (hint : o.internalOnly = true)
    (H : SoundDT lib o.useCv2 o.quality o.radius) (hr : 0 ≤ o.radius) (fuel : Nat) (mask : MLEdges)
    (ignore : List Int) (hig : ∀ k ∈ ignore, 0 ≤ k ∧ k < mask.n) (hlen : ignore.length < 255) :
    ∃ out, loopMask2Edge lib o fuel false mask ignore = .ok (some out) ∧
      out.n = mask.n ∧ out.h = mask.h ∧ out.w = mask.w ∧
      ∀ k i j, k < mask.n → i < mask.h → j < mask.w →
        (out.at_ k i j = true ↔ (k : Int) ∉ ignore ∧ (classPx mask k).Nonempty ∧
          ((i, j) ∈ classPx mask k ∨ (i, j) ∈ ignoredPx mask ignore) ∧
          ∃ q ∈ allPx mask, q ∉ classPx mask k ∧ q ∉ ignoredPx mask ignore ∧ pdist (i, j) q ≤ o.radius) := by
  obtain ⟨ign, hign, -⟩ := ignoreMask_ok mask ignore hig
  obtain ⟨out, h1, h2, h3, h4, h5⟩ := loop_ok lib o fuel mask ignore ign hign
  refine ⟨out, h1, h2, h3, h4, ?_⟩
  intro k i j hk hi hj
  rw [h5 k hk]
  unfold chanOf
  by_cases hk' : (k : Int) ∈ ignore
  · simp [hk']
  · have hb := mask2Internal_iff lib o hint H hr mask.h mask.w (mask.at_ k) ign (ignoredPx mask ignore)
      (fun q hq => unionMask_ignored mask ignore hig hlen ign hign _ q hq) (i, j) ⟨hi, hj⟩
    simp only at hb
    rw [region_class] at hb
    have hne : (classPx mask k).Nonempty ↔ ¬ anySet mask.h mask.w (mask.at_ k) = false := by
      rw [Bool.not_eq_false, anySet_iff]; rfl
    by_cases ha : anySet mask.h mask.w (mask.at_ k) = false
    · simp [hne, ha]
    · rw [if_neg (not_or.mpr ⟨hk', ha⟩), hb, hne]
      simp only [hk', ha, not_false_eq_true, true_and, reduceCtorEq]
      rfl

/-- C28: the edges of a class depend only on its own mask and on the set of ignored pixels: changing the other
classes changes nothing (any distance transform). -/
theorem C28_depends_on_own_mask (lib : DTLib) (o : BdryOpts) (fuel : Nat) (mask mask' : MLEdges)
    (ignore : List Int) (k : Nat) (hk : k < mask.n) (hk' : k < mask'.n) (hh : mask.h = mask'.h) (hw : mask.w = mask'.w)
    (hm : mask.at_ k = mask'.at_ k) (ign : Nat → Nat → Nat) (h1 : ignoreMask mask ignore = .ok ign)
    (h2 : ignoreMask mask' ignore = .ok ign) :
    ∃ out out', loopMask2Edge lib o fuel false mask ignore = .ok (some out) ∧
      loopMask2Edge lib o fuel false mask' ignore = .ok (some out') ∧ out.at_ k = out'.at_ k := by
  obtain ⟨out, a1, -, -, -, a5⟩ := loop_ok lib o fuel mask ignore ign h1
  obtain ⟨out', b1, -, -, -, b5⟩ := loop_ok lib o fuel mask' ignore ign h2
  refine ⟨out, out', a1, b1, ?_⟩
  rw [a5 k hk, b5 k hk']
  unfold chanOf
  rw [hh, hw, hm]

/-- C28: an image of one class only (all pixels in class `k`, nothing ignored) has no edges at all. -/
theorem C28_uniform_no_edges (lib : DTLib) (o : BdryOpts) (hint : o.internalOnly = false)
    (H : SoundDT lib o.useCv2 o.quality o.radius) (hr : 0 ≤ o.radius) (fuel : Nat) (mask : MLEdges) (k : Nat)
    (hall : ∀ i j, i < mask.h → j < mask.w → mask.at_ k i j = true)
    (hothers : ∀ l i j, l ≠ k → i < mask.h → j < mask.w → mask.at_ l i j = false) :
    ∃ out, loopMask2Edge lib o fuel false mask [] = .ok (some out) ∧
      ∀ l i j, l < mask.n → i < mask.h → j < mask.w → out.at_ l i j = false := by
  obtain ⟨out, h1, -, -, -, h5⟩ := C28_semantic_edges lib o hint H hr fuel mask [] (by simp) (by simp)
  refine ⟨out, h1, ?_⟩
  intro l i j hl hi hj
  rw [Bool.eq_false_iff, ne_eq, h5 l i j hl hi hj]
  rintro ⟨-, h⟩
  have hI : ∀ p, p ∉ ignoredPx mask [] := by rintro p ⟨_, k, h, _⟩; simp at h
  by_cases hlk : l = k
  · subst hlk
    have hM : ∀ q ∈ allPx mask, q ∈ classPx mask l := fun q hq => ⟨hq, hall _ _ hq.1 hq.2⟩
    rcases h with ⟨-, q, hq, hn, -⟩ | ⟨hn, -⟩ | ⟨-, hp, -⟩
    · exact hn (hM q hq)
    · exact hn (hM _ ⟨hi, hj⟩)
    · exact hI _ hp
  · have hM : ∀ q, q ∉ classPx mask l := by
      rintro q ⟨hq, hm⟩
      rw [hothers l _ _ hlk hq.1 hq.2] at hm; cases hm
    rcases h with ⟨hp, -⟩ | ⟨-, -, q, hq, -⟩ | ⟨-, hp, -⟩
    · exact hM _ hp
    · exact hM _ hq
    · exact hI _ hp

/-- C28: with nothing ignored, a larger radius gives a superset of edges. -/
theorem C28_radius_monotone (r r' : ℝ) (hr : r ≤ r') (U M I : Set Px) (p : Px) (h : IsBoundary r U M I p) :
    IsBoundary r' U M I p := by
  rcases h with ⟨h1, q, h2, h3, h4, h5⟩ | ⟨h1, h2, q, h3, h4⟩ | ⟨h1, h2, q, h3, h4, h5, q', h6, h7⟩
  · exact Or.inl ⟨h1, q, h2, h3, h4, h5.trans hr⟩
  · exact Or.inr (Or.inl ⟨h1, h2, q, h3, h4.trans hr⟩)
  · exact Or.inr (Or.inr ⟨h1, h2, q, h3, h4, h5, q', h6, h7.trans hr⟩)

theorem edgeSet_ncard_le (h w : Nat) (m : Nat → Nat → Bool) : (edgeSet (toImg h w m)).ncard ≤ h * w := by
  have hsub : edgeSet (toImg h w m) ⊆
      ((Finset.range h ×ˢ Finset.range w).image (fun p : Nat × Nat => ((p.1 : ℤ), (p.2 : ℤ))) : Finset Pt) := by
    intro p hp
    obtain ⟨i, j, rfl⟩ := edgeSet_nat hp
    rw [edgeSet_iff] at hp
    have h1 : i < h := hp.1
    have h2 : j < w := hp.2.1
    refine Finset.mem_coe.mpr (Finset.mem_image.mpr ⟨(i, j), ?_, rfl⟩)
    simp [h1, h2]
  refine (Set.ncard_le_ncard hsub (Finset.finite_toSet _)).trans ?_
  rw [Set.ncard_coe_finset]
  exact Finset.card_image_le.trans (by simp)

theorem toImg_thin (h w : Nat) (y : Img ℚ) (hr : y.rows = h) (hc : y.cols = w) :
    edgeSet (toImg h w fun i j => decide (y.at_ i j ≠ 0)) = edgeSet y := by
  subst hr hc
  unfold edgeSet toImg
  simp

/-- C28: with thinning on, each channel is a thinned version of the channel without thinning: a subset with the same
topology (and the call ends). -/
theorem C28_thinned (lib : DTLib) (o : BdryOpts) (fuel : Nat) (mask : MLEdges) (ignore : List Int)
    (ign : Nat → Nat → Nat) (hign : ignoreMask mask ignore = .ok ign) (hf : mask.h * mask.w + 1 ≤ fuel) :
    ∃ out thin, loopMask2Edge lib o fuel false mask ignore = .ok (some out) ∧
      loopMask2Edge lib o fuel true mask ignore = .ok (some thin) ∧
      thin.n = mask.n ∧ thin.h = mask.h ∧ thin.w = mask.w ∧
      ∀ k < mask.n,
        edgeSet (toImg mask.h mask.w (thin.at_ k)) ⊆ edgeSet (toImg mask.h mask.w (out.at_ k)) ∧
        SameTopology (edgeSet (toImg mask.h mask.w (out.at_ k))) (edgeSet (toImg mask.h mask.w (thin.at_ k))) := by
  obtain ⟨out, h1, -, -, -, h5⟩ := loop_ok lib o fuel mask ignore ign hign
  have hT : ∀ k, ∃ y, binaryThin fuel (toImg mask.h mask.w (mask2Bdry lib o mask.h mask.w (mask.at_ k) ign)) none
      = some y := by
    intro k
    apply C17_binary_thin_terminates
    have := edgeSet_ncard_le mask.h mask.w (mask2Bdry lib o mask.h mask.w (mask.at_ k) ign)
    omega
  choose T hT using hT
  obtain ⟨thin, t1, t2, t3, t4, t5, t6, -⟩ := labelLoop_ok (loopBody lib o fuel true mask ignore ign)
    (fun k => if (k : Int) ∈ ignore ∨ anySet mask.h mask.w (mask.at_ k) = false then none
      else some (fun i j => decide ((T k).at_ i j ≠ 0))) (List.range mask.n) (zerosLike mask)
    List.nodup_range (by
      intro l _
      unfold loopBody
      by_cases hi : (l : Int) ∈ ignore
      · simp [hi]
      · rcases ha : anySet mask.h mask.w (mask.at_ l) with _ | _ <;> simp [hi, ha, optThin, hT l])
  refine ⟨out, thin, h1, by rw [loopMask2Edge, hign]; exact t1, t2, t3, t4, ?_⟩
  intro k hk
  rw [h5 k hk]
  unfold chanOf
  by_cases hc : (k : Int) ∈ ignore ∨ anySet mask.h mask.w (mask.at_ k) = false
  · rw [if_pos hc, t6 k (List.mem_range.mpr hk) (by simp only [if_pos hc])]
    exact ⟨fun _ h => h, SameTopology.refl _⟩
  · rw [if_neg hc, t5 k (List.mem_range.mpr hk) _ (if_neg hc)]
    obtain ⟨r1, r2, r3, -⟩ := C17_binary_thin_subset fuel _ _ _ (hT k)
    have r4 := C19_binary_thin_topology fuel _ _ _ (hT k)
    rw [toImg_thin mask.h mask.w (T k) r1 r2]
    exact ⟨r3, r4⟩

/-- C28: an ignore index outside the label range raises (negative Python indices down to `-n` are accepted). -/
theorem C28_bad_ignore_index (lib : DTLib) (o : BdryOpts) (fuel : Nat) (thin : Bool) (mask : MLEdges)
    (k : Int) (rest : List Int) (hk : k < -(mask.n : Int) ∨ (mask.n : Int) ≤ k) :
    loopMask2Edge lib o fuel thin mask (k :: rest) = .error .indexError := by
  have : pyIndex mask.n k = .error .indexError := by
    unfold pyIndex; rw [if_neg (by omega), if_neg (by omega)]
  unfold loopMask2Edge ignoreMask
  rw [List.foldlM_cons, this]
  rfl

/-! ### The transform classes -/

/-- C28: `Mask2Edge(labelIds, ignore_indices, radius)(mask)` without label table: channel `k` is set exactly at the
boundary pixels of `{mask = labelIds[k]}`, with the pixels of the ignored labels ignored; the mask is returned. -/
theorem C28_transform (lib : DTLib) (labelIds ignore : List Int) (radius : Int) (useCv2 : Bool) (quality : Int)
    (H : SoundDT lib useCv2 quality radius) (mask : Img Int) (hne : labelIds ≠ []) (hrad : 1 ≤ radius)
    (hrows : labelIds.length ≤ mask.rows) (hig : ∀ k ∈ ignore, 0 ≤ k ∧ k < labelIds.length)
    (hlen : ignore.length < 255) :
    ∃ t edge, M2E.init labelIds ignore none radius useCv2 quality = .ok t ∧
      t.call lib mask = .ok (some (edge, mask)) ∧
      edge.n = labelIds.length ∧ edge.h = mask.rows ∧ edge.w = mask.cols ∧
      ∀ k i j, ∀ hk : k < labelIds.length, i < mask.rows → j < mask.cols →
        (edge.at_ k i j = true ↔ (k : Int) ∉ ignore ∧
          IsBoundary radius (pxSet mask.rows mask.cols)
            {p | p ∈ pxSet mask.rows mask.cols ∧ mask.at_ p.1 p.2 = labelIds[k]}
            {p | p ∈ pxSet mask.rows mask.cols ∧ ∃ l : Nat, (l : Int) ∈ ignore ∧
              labelIds[l]? = some (mask.at_ p.1 p.2)} (i, j)) := by
  have hpos : 0 < labelIds.length := List.length_pos_iff.mpr hne
  refine ⟨⟨labelIds, ignore, none, radius, useCv2, quality⟩, ?_⟩
  have hone : mask2onehot mask labelIds = .ok ⟨labelIds.length, mask.rows, mask.cols,
      fun k i j => decide (labelIds[k]? = some (mask.at_ i j))⟩ := by
    unfold mask2onehot; rw [if_neg (by omega), if_neg (by omega)]
  obtain ⟨out, h1, h2, h3, h4, h5⟩ := C28_semantic_edges lib { radius, useCv2, quality } rfl H (by simp; omega) 0
    ⟨labelIds.length, mask.rows, mask.cols, fun k i j => decide (labelIds[k]? = some (mask.at_ i j))⟩ ignore hig hlen
  refine ⟨out, by unfold M2E.init; rw [if_neg (by omega), if_neg (by omega)], ?_, h2, h3, h4, ?_⟩
  · unfold M2E.call
    rw [hone]
    simp only
    rw [h1]
    rfl
  · intro k i j hk hi hj
    rw [h5 k i j hk hi hj]
    have e1 : classPx ⟨labelIds.length, mask.rows, mask.cols, fun k i j => decide (labelIds[k]? = some (mask.at_ i j))⟩ k
        = {p | p ∈ pxSet mask.rows mask.cols ∧ mask.at_ p.1 p.2 = labelIds[k]} := by
      ext p
      simp [classPx, List.getElem?_eq_getElem hk, eq_comm]
    have e2 : ignoredPx ⟨labelIds.length, mask.rows, mask.cols,
          fun k i j => decide (labelIds[k]? = some (mask.at_ i j))⟩ ignore
        = {p | p ∈ pxSet mask.rows mask.cols ∧ ∃ l : Nat, (l : Int) ∈ ignore ∧
              labelIds[l]? = some (mask.at_ p.1 p.2)} := by
      ext p
      simp [ignoredPx]
    rw [e1, e2]
    rfl

/-- C28: the constructor rejects an empty label list and radii below 1; the call rejects masks with fewer rows than
labels. -/
theorem C28_transform_rejects (lib : DTLib) (labelIds ignore : List Int) (l2t : Option (List (Int × Int)))
    (radius : Int) (useCv2 : Bool) (quality : Int) :
    ((labelIds = [] ∨ radius < 1) → M2E.init labelIds ignore l2t radius useCv2 quality = .error .assertionError) ∧
    (∀ t mask, M2E.init labelIds ignore l2t radius useCv2 quality = .ok t → mask.rows < labelIds.length →
      t.call lib mask = .error .assertionError) := by
  constructor
  · rintro (h | h)
    · subst h; rfl
    · unfold M2E.init
      split
      · rfl
      · rw [if_pos (by omega)]
  · intro t mask ht hrows
    unfold M2E.init at ht
    split at ht
    · cases ht
    split at ht
    · cases ht
    cases ht
    unfold M2E.call
    rw [(C24_onehot mask labelIds).1 (Or.inr hrows)]

/-! ### Witnesses -/

/-- The libraries given by the reference transform. -/
noncomputable def refLib (R : ℝ) : DTLib := ⟨fun _ => refDT R, refDT R, (· + ·), (· + ·)⟩

theorem refLib_exact (R : ℝ) (c : Bool) (q : Int) : SoundDT (refLib R) c q R := by
  refine ⟨fun x => x, 0, RoundsFine.id R, ?_, ?_, ?_, ?_⟩
  · intro x y; cases c <;> rfl
  · intro rows cols f i j _ _ hf; cases c <;> exact refDT_zero R rows cols f i j hf
  · intro rows cols f i j m _ _ hf hm; cases c <;> exact refDT_least R rows cols f i j m hf hm
  · intro rows cols f i j _ _ hf hall; cases c <;> exact (refDT_far R rows cols f i j hf hall).ge

/-- A 1×3 image: class 0, class 1, class 1. -/
def exMask : MLEdges := ⟨2, 1, 3, fun k _ j => if j = 0 then k == 0 else k == 1⟩

/-- With radius 1 the pixel `(0, 0)` is an edge pixel of class 1 (its neighbour is in class 1) and pixel `(0, 2)` is
not (it is at distance 2 of the outside). -/
example : ∃ out, loopMask2Edge (refLib 1) { radius := 1 } 0 false exMask [] = .ok (some out) ∧
    out.at_ 1 0 0 = true ∧ out.at_ 1 0 2 = false := by
  obtain ⟨out, h1, -, -, -, h5⟩ := C28_semantic_edges (refLib 1) { radius := 1 } rfl
    (by simpa using refLib_exact 1 true 0) (by decide) 0 exMask [] (by simp) (by simp)
  refine ⟨out, h1, ?_, ?_⟩
  · rw [h5 1 0 0 (by decide) (by decide) (by decide)]
    refine ⟨by simp, Or.inr (Or.inl ⟨?_, ?_, (0, 1), ⟨⟨by decide, by decide⟩, by decide⟩, ?_⟩)⟩
    · rintro ⟨-, h⟩; simp [exMask] at h
    · rintro ⟨-, k, h, -⟩; simp at h
    · simp [pdist]
  · rw [Bool.eq_false_iff, ne_eq, h5 1 0 2 (by decide) (by decide) (by decide)]
    rintro ⟨-, h⟩
    rcases h with ⟨-, q, ⟨hq1, hq2⟩, hn, -, hd⟩ | ⟨hn, -⟩ | ⟨-, ⟨-, k, h, -⟩, -⟩
    · have : q.2 = 0 := by
        by_contra h0
        exact hn ⟨⟨hq1, hq2⟩, by simp [exMask, h0]⟩
      have h0 : q.1 = 0 := by simp [exMask] at hq1; omega
      simp only [pdist, h0, this] at hd
      norm_num at hd
    · exact hn ⟨⟨by decide, by decide⟩, by decide⟩
    · simp at h

example : (∃ t edge, M2E.init [7, 8] [] none 1 true 0 = .ok t ∧
    t.call (refLib 1) ⟨4, 4, fun i _ => if i < 2 then 7 else 8⟩ = .ok (some (edge, ⟨4, 4, fun i _ => if i < 2 then 7 else 8⟩))) := by
  obtain ⟨t, e, h1, h2, -⟩ := C28_transform (refLib 1) [7, 8] [] 1 true 0 (by simpa using refLib_exact 1 true 0)
    ⟨4, 4, fun i _ => if i < 2 then 7 else 8⟩ (by decide) (by decide) (by decide) (by simp) (by simp)
  exact ⟨t, e, h1, h2⟩

/-! ## C29 -/

theorem applyAll_at (k i j : Nat) : ∀ (l : List Write) (e : MLEdges),
    (∀ x ∈ l, ∀ y ∈ l, x.label = k → x.i = i → x.j = j → y.label = k → y.i = i → y.j = j → x.val = y.val) →
    (l.foldl Write.apply e).n = e.n ∧ (l.foldl Write.apply e).h = e.h ∧ (l.foldl Write.apply e).w = e.w ∧
    (∀ x ∈ l, x.label = k → x.i = i → x.j = j → (l.foldl Write.apply e).at_ k i j = x.val) ∧
    ((∀ x ∈ l, ¬ (x.label = k ∧ x.i = i ∧ x.j = j)) → (l.foldl Write.apply e).at_ k i j = e.at_ k i j) := by
  intro l
  induction l using List.reverseRecOn with
  | nil => intro e _; simp
  | append_singleton l x ih =>
    intro e hval
    obtain ⟨h1, h2, h3, h4, h5⟩ := ih e (fun a ha b hb => hval a (List.mem_append_left _ ha) b (List.mem_append_left _ hb))
    rw [List.foldl_append, List.foldl_cons, List.foldl_nil]
    refine ⟨h1, h2, h3, ?_, ?_⟩
    · intro y hy e1 e2 e3
      by_cases hx : k = x.label ∧ i = x.i ∧ j = x.j
      · simp only [Write.apply, if_pos hx]
        exact hval x (by simp) y hy hx.1.symm hx.2.1.symm hx.2.2.symm e1 e2 e3
      · simp only [Write.apply, if_neg hx]
        rcases List.mem_append.mp hy with h | h
        · exact h4 y h e1 e2 e3
        · rw [List.mem_singleton] at h
          subst h
          exact absurd ⟨e1.symm, e2.symm, e3.symm⟩ hx
    · intro hno
      have hx : ¬ (k = x.label ∧ i = x.i ∧ j = x.j) := fun h => hno x (by simp) ⟨h.1.symm, h.2.1.symm, h.2.2.symm⟩
      simp only [Write.apply, if_neg hx]
      exact h5 (fun y hy => hno y (List.mem_append_left _ hy))

theorem mem_writesOf (h w label : Nat) (arr : Nat → Nat → Bool) (x : Write) :
    x ∈ writesOf h w label arr ↔ x.label = label ∧ x.i < h ∧ x.j < w ∧ x.val = arr x.i x.j := by
  unfold writesOf
  simp only [List.mem_flatMap, List.mem_map, List.mem_range]
  constructor
  · rintro ⟨i, hi, j, hj, rfl⟩; exact ⟨rfl, hi, hj, rfl⟩
  · rintro ⟨h1, h2, h3, h4⟩
    exact ⟨x.i, h2, x.j, h3, by cases x; simp_all⟩

/-- The outcome of the pool does not depend on the schedule. -/
theorem pool_outcome (mask : MLEdges) (ignore : List Int) (bdry : Nat → Nat → Nat → Bool)
    (worker : Nat → List Write)
    (hw : ∀ l, worker l = if (l : Int) ∈ ignore ∨ anySet mask.h mask.w (mask.at_ l) = false then []
      else writesOf mask.h mask.w l (bdry l)) (out : MLEdges) (h : PoolRun mask worker out) :
    out.n = mask.n ∧ out.h = mask.h ∧ out.w = mask.w ∧
      ∀ k i j, k < mask.n → i < mask.h → j < mask.w → out.at_ k i j = chanOf mask ignore k (bdry k) i j := by
  obtain ⟨sched, hperm, rfl⟩ := h
  have hmem : ∀ x, x ∈ sched ↔ x.label < mask.n ∧ ¬ ((x.label : Int) ∈ ignore ∨
      anySet mask.h mask.w (mask.at_ x.label) = false) ∧ x.i < mask.h ∧ x.j < mask.w ∧ x.val = bdry x.label x.i x.j := by
    intro x
    rw [hperm.mem_iff, List.mem_flatMap]
    constructor
    · rintro ⟨l, hl, hx⟩
      rw [hw] at hx
      split at hx
      · cases hx
      · next hc =>
        rw [mem_writesOf] at hx
        obtain ⟨rfl, h1, h2, h3⟩ := hx
        exact ⟨List.mem_range.mp hl, hc, h1, h2, h3⟩
    · rintro ⟨h0, hc, h1, h2, h3⟩
      refine ⟨x.label, List.mem_range.mpr h0, ?_⟩
      rw [hw, if_neg hc, mem_writesOf]
      exact ⟨rfl, h1, h2, h3⟩
  have hval : ∀ k i j, ∀ x ∈ sched, ∀ y ∈ sched, x.label = k → x.i = i → x.j = j → y.label = k → y.i = i → y.j = j →
      x.val = y.val := by
    intro k i j x hx y hy a1 a2 a3 b1 b2 b3
    rw [((hmem x).mp hx).2.2.2.2, ((hmem y).mp hy).2.2.2.2, a1, a2, a3, b1, b2, b3]
  refine ⟨(applyAll_at 0 0 0 sched _ (hval 0 0 0)).1, (applyAll_at 0 0 0 sched _ (hval 0 0 0)).2.1,
    (applyAll_at 0 0 0 sched _ (hval 0 0 0)).2.2.1, ?_⟩
  intro k i j hk hi hj
  obtain ⟨-, -, -, h4, h5⟩ := applyAll_at k i j sched (zerosLike mask) (hval k i j)
  unfold chanOf
  by_cases hc : (k : Int) ∈ ignore ∨ anySet mask.h mask.w (mask.at_ k) = false
  · rw [if_pos hc, h5]
    · rfl
    · rintro x hx ⟨rfl, -, -⟩
      exact ((hmem x).mp hx).2.1 hc
  · rw [if_neg hc, h4 ⟨k, i, j, bdry k i j⟩ ((hmem _).mpr ⟨hk, hc, hi, hj, rfl⟩) rfl rfl rfl]

theorem mpWorker_eq (lib : DTLib) (o : BdryOpts) (mask : MLEdges) (ignore : List Int) (ign : Nat → Nat → Nat) (l : Nat) :
    mpWorker lib o mask ignore ign l = if (l : Int) ∈ ignore ∨ anySet mask.h mask.w (mask.at_ l) = false then []
      else writesOf mask.h mask.w l (mask2Bdry lib o mask.h mask.w (mask.at_ l) ign) := by
  unfold mpWorker
  by_cases h1 : (l : Int) ∈ ignore
  · simp [h1]
  · rcases h2 : anySet mask.h mask.w (mask.at_ l) with _ | _ <;> simp [h1, h2]

theorem mpInstWorker_eq (lib : DTLib) (o : BdryOpts) (mask : MLEdges) (im : Img Nat) (ignore : List Int)
    (ign : Nat → Nat → Nat) (li : List (Nat × Nat)) (l : Nat) :
    mpInstWorker lib o mask im ignore ign li l = if (l : Int) ∈ ignore ∨ anySet mask.h mask.w (mask.at_ l) = false then []
      else writesOf mask.h mask.w l (instBdry lib o mask im ign li l) := by
  unfold mpInstWorker
  by_cases h1 : (l : Int) ∈ ignore
  · simp [h1]
  · rcases h2 : anySet mask.h mask.w (mask.at_ l) with _ | _ <;> simp [h1, h2]

/-- C29: whatever the schedule of the worker processes, `mp_mask2edge` ends like `loop_mask2edge` without thinning:
with the same edges, or with the same exception; and at least one outcome is possible. -/
theorem C29_mp_eq_loop (lib : DTLib) (radius quality : Int) (useCv2 : Bool) (fuel : Nat) (mask : MLEdges) (ignore : List Int) :
    (∀ out, MpMask2Edge lib radius quality useCv2 false mask ignore out →
      match loopMask2Edge lib { radius, useCv2, quality } fuel false mask ignore with
      | .error e => out = .error e
      | .ok none => False
      | .ok (some e) => ∃ e', out = .ok e' ∧ SameEdges e' e) ∧
    (∃ out, MpMask2Edge lib radius quality useCv2 false mask ignore out) := by
  rcases hign : ignoreMask mask ignore with er | ign
  · constructor
    · intro out h
      unfold MpMask2Edge at h
      rw [hign] at h
      unfold loopMask2Edge
      rw [hign]
      simpa using h
    · refine ⟨.error er, ?_⟩
      unfold MpMask2Edge; rw [hign]; simp
  · constructor
    · intro out h
      unfold MpMask2Edge at h
      rw [hign] at h
      simp only [Bool.false_eq_true, if_false] at h
      obtain ⟨r, rfl, hrun⟩ := h
      obtain ⟨e, h1, h2, h3, h4, h5⟩ := loop_ok lib { radius, useCv2, quality } fuel mask ignore ign hign
      rw [h1]
      obtain ⟨a1, a2, a3, a4⟩ := pool_outcome mask ignore _ _ (mpWorker_eq lib _ mask ignore ign) r hrun
      refine ⟨r, rfl, by rw [a1, h2], by rw [a2, h3], by rw [a3, h4], ?_⟩
      intro k i j hk hi hj
      rw [a1] at hk; rw [a2] at hi; rw [a3] at hj
      rw [a4 k i j hk hi hj, h5 k hk]
    · unfold MpMask2Edge
      rw [hign]
      exact ⟨_, _, rfl, _, List.Perm.refl _, rfl⟩

/-- C29: the multiprocess versions refuse `thin=True`, whatever the other arguments. -/
theorem C29_mp_refuses_thin (lib : DTLib) (radius quality : Int) (useCv2 : Bool) (mask : MLEdges) (im : Img Nat)
    (ids : List Nat) (ignore : List Int) (out : Except PyErr MLEdges) :
    (MpMask2Edge lib radius quality useCv2 true mask ignore out ↔ out = .error .notImplementedError) ∧
    (MpInstMask2Edge lib radius quality useCv2 true mask im ids ignore out ↔ out = .error .notImplementedError) := by
  constructor
  · unfold MpMask2Edge; simp
  · unfold MpInstMask2Edge; simp

/-- C29: the single-label version is the channel of the loop version. -/
theorem C29_one_label (lib : DTLib) (radius quality : Int) (useCv2 : Bool) (fuel : Nat) (mask : MLEdges)
    (ignore : List Int) (label : Nat) (hl : label < mask.n) :
    match loopMask2Edge lib { radius, useCv2, quality } fuel false mask ignore with
    | .error e => oneLabelMask2Edge lib radius quality useCv2 label mask ignore = .error e
    | .ok none => False
    | .ok (some e) => oneLabelMask2Edge lib radius quality useCv2 label mask ignore =
        .ok ⟨mask.h, mask.w, e.at_ label⟩ := by
  unfold oneLabelMask2Edge
  rw [if_neg (not_not.mpr hl)]
  rcases hign : ignoreMask mask ignore with er | ign
  · unfold loopMask2Edge; rw [hign]
  · obtain ⟨e, h1, -, -, -, h5⟩ := loop_ok lib { radius, useCv2, quality } fuel mask ignore ign hign
    rw [h1]
    simp only
    rw [h5 label hl]
    unfold chanOf
    by_cases hi : (label : Int) ∈ ignore
    · simp [hi]
    · rcases ha : anySet mask.h mask.w (mask.at_ label) with _ | _ <;> simp [hi, ha]

/-- C29: a label that is not a channel is refused. -/
theorem C29_one_label_range (lib : DTLib) (radius quality : Int) (useCv2 : Bool) (mask : MLEdges) (im : Img Nat)
    (ids : List Nat) (ignore : List Int) (label : Nat) (hl : mask.n ≤ label) :
    oneLabelMask2Edge lib radius quality useCv2 label mask ignore = .error .assertionError ∧
    oneLabelInstMask2Edge lib radius quality useCv2 label mask im ids ignore = .error .assertionError := by
  unfold oneLabelMask2Edge oneLabelInstMask2Edge
  rw [if_pos (by omega), if_pos (by omega)]
  exact ⟨rfl, rfl⟩

/-- C29: the dispatcher selects the four implementations by run type and instance sensitivity and rejects every other
run type. -/
theorem C29_dispatch (rt : String) (b : Bool) :
    dispatch "loop" b = .ok (if b then .loopInst else .loop) ∧ dispatch "mp" b = .ok (if b then .mpInst else .mp) ∧
    (rt ≠ "loop" → rt ≠ "mp" → dispatch rt b = .error .valueError) := by
  refine ⟨rfl, rfl, ?_⟩
  intro h1 h2
  unfold dispatch
  rw [if_neg h1, if_neg h2]

/-! ### Instance-sensitive versions -/

theorem mem_uniqueVals (im : Img Nat) (v : Nat) :
    v ∈ uniqueVals im ↔ ∃ i j, i < im.rows ∧ j < im.cols ∧ im.at_ i j = v := by
  unfold uniqueVals
  rw [Finset.mem_sort, Finset.mem_image]
  constructor
  · rintro ⟨⟨i, j⟩, h, rfl⟩
    rw [Finset.mem_product, Finset.mem_range, Finset.mem_range] at h
    exact ⟨i, j, h.1, h.2, rfl⟩
  · rintro ⟨i, j, hi, hj, rfl⟩
    exact ⟨(i, j), by rw [Finset.mem_product, Finset.mem_range, Finset.mem_range]; exact ⟨hi, hj⟩, rfl⟩

theorem mapM_ok {α β : Type} (f : α → Except PyErr β) (g : α → β) : ∀ (l : List α),
    (∀ a ∈ l, f a = .ok (g a)) → l.mapM f = .ok (l.map g) := by
  intro l
  induction l with
  | nil => intro _; rfl
  | cons a l ih =>
    intro h
    rw [List.mapM_cons, h a List.mem_cons_self, ih (fun b hb => h b (List.mem_cons_of_mem _ hb))]
    rfl

/-- The lookup table when all ids are read as quotient and remainder by 1000. -/
noncomputable def instTable (im : Img Nat) (minId : Nat) : List (Nat × Nat) :=
  ((uniqueVals im).filter fun (v : Nat) => !decide (v < minId)).map fun (v : Nat) => (v / 1000, v % 1000)

theorem labelInst_loop (im : Img Nat) (minId : Nat) (hids : ∀ i j, i < im.rows → j < im.cols → im.at_ i j < 100000) :
    labelInst parseLoop im minId = .ok (instTable im minId) := by
  apply mapM_ok
  intro v hv
  obtain ⟨i, j, hi, hj, rfl⟩ := (mem_uniqueVals im v).mp (List.mem_filter.mp hv).1
  exact parseLoop_eq _ (hids i j hi hj)

theorem labelInst_mp (im : Img Nat) (minId : Nat) (hids : ∀ i j, i < im.rows → j < im.cols → im.at_ i j < 100000)
    (hmin : 10000 ≤ minId) : labelInst parseMp im minId = .ok (instTable im minId) := by
  apply mapM_ok
  intro v hv
  obtain ⟨i, j, hi, hj, rfl⟩ := (mem_uniqueVals im v).mp (List.mem_filter.mp hv).1
  have h := (List.mem_filter.mp hv).2
  simp only [Bool.not_eq_true', decide_eq_false_iff_not, not_lt] at h
  exact parseMp_eq _ (hids i j hi hj) (by omega)

theorem minLabel_spec (ids : List Nat) (hne : ids ≠ []) : ∃ l0, minLabel ids = .ok l0 ∧ l0 ∈ ids ∧ ∀ l ∈ ids, l0 ≤ l := by
  unfold minLabel
  have hp := List.mergeSort_perm ids (fun a b => decide (a ≤ b))
  have hs : (ids.mergeSort (fun a b => decide (a ≤ b))).Pairwise (fun a b => decide (a ≤ b) = true) :=
    List.pairwise_mergeSort (by intro a b c h1 h2; simp at *; omega) (by intro a b; simp; omega) ids
  rcases h : ids.mergeSort (fun a b => decide (a ≤ b)) with _ | ⟨x, xs⟩
  · rw [h] at hp
    exact absurd hp.symm.eq_nil hne
  · refine ⟨x, rfl, hp.mem_iff.mp (by rw [h]; simp), ?_⟩
    intro l hl
    have hl' := hp.mem_iff.mpr hl
    rw [h] at hl' hs
    rcases List.mem_cons.mp hl' with rfl | h'
    · exact le_rfl
    · have := (List.pairwise_cons.mp hs).1 l h'
      simpa using this

theorem instBdry_iff (lib : DTLib) (o : BdryOpts) (mask : MLEdges) (im : Img Nat) (ign : Nat → Nat → Nat)
    (minId label : Nat) (i j : Nat) :
    instBdry lib o mask im ign (instTable im minId) label i j = true ↔
      mask2Bdry lib o mask.h mask.w (mask.at_ label) ign i j = true ∨
      ∃ v ∈ uniqueVals im, minId ≤ v ∧ v / 1000 = label ∧
        mask2Bdry lib o mask.h mask.w (fun a b => im.at_ a b == v) ign i j = true := by
  have fold : ∀ (l : List Nat) (d : Nat → Nat → Bool) (f : Nat → Nat → Nat → Bool),
      (l.foldl (fun dist inst i j => dist i j || f inst i j) d) i j = true ↔ d i j = true ∨ ∃ k ∈ l, f k i j = true := by
    intro l
    induction l with
    | nil => intro d f; simp
    | cons a l ih =>
      intro d f
      rw [List.foldl_cons, ih]
      simp only [Bool.or_eq_true, List.mem_cons, exists_eq_or_imp]
      tauto
  unfold instBdry
  rw [fold]
  apply or_congr Iff.rfl
  unfold instTable
  simp only [List.mem_map, List.mem_filter, decide_eq_true_eq, Bool.not_eq_true', decide_eq_false_iff_not, not_lt]
  constructor
  · rintro ⟨k, ⟨⟨l, k'⟩, ⟨⟨v, ⟨hv, hm⟩, he⟩, hl⟩, rfl⟩, hb⟩
    simp only [Prod.mk.injEq] at he
    obtain ⟨e1, e2⟩ := he
    simp only at hl
    subst hl
    refine ⟨v, hv, hm, e1, ?_⟩
    have : iidOf l k' = v := by rw [iidOf_eq l k' (by omega)]; omega
    rw [this] at hb
    exact hb
  · rintro ⟨v, hv, hm, hl, hb⟩
    refine ⟨v % 1000, ⟨(v / 1000, v % 1000), ⟨⟨v, ⟨hv, hm⟩, rfl⟩, hl⟩, rfl⟩, ?_⟩
    have : iidOf label (v % 1000) = v := by rw [iidOf_eq _ _ (by omega)]; omega
    rw [this]
    exact hb

/-- C29: the multiprocess instance-sensitive version agrees with the loop version for every schedule when the instance
labels are at least 10 and the ids have at most five digits (Cityscapes ids). -/
theorem C29_mp_eq_loop_instances (lib : DTLib) (radius quality : Int) (useCv2 : Bool) (fuel : Nat) (mask : MLEdges)
    (im : Img Nat) (ids : List Nat) (ignore : List Int) (hids : ids ≠ []) (h10 : ∀ l ∈ ids, 10 ≤ l)
    (h5 : ∀ i j, i < im.rows → j < im.cols → im.at_ i j < 100000) (out : Except PyErr MLEdges)
    (h : MpInstMask2Edge lib radius quality useCv2 false mask im ids ignore out) :
    match loopInstMask2Edge lib { radius, useCv2, quality } fuel false mask im ids ignore with
    | .error e => out = .error e
    | .ok none => False
    | .ok (some e) => ∃ e', out = .ok e' ∧ SameEdges e' e := by
  unfold MpInstMask2Edge at h
  rcases hign : ignoreMask mask ignore with er | ign
  · rw [hign] at h
    unfold loopInstMask2Edge
    rw [hign]
    simpa using h
  · rw [hign] at h
    obtain ⟨l0, hl0, hmem, -⟩ := minLabel_spec ids hids
    have hl10 := h10 l0 hmem
    have hmp : mpLabelInst im ids = .ok (instTable im (l0 * 1000)) := by
      unfold mpLabelInst
      split
      · next he =>
        unfold instTable
        rw [he]; rfl
      · rw [hl0]; exact labelInst_mp im _ h5 (by omega)
    simp only [Bool.false_eq_true, if_false, hmp] at h
    obtain ⟨r, rfl, hrun⟩ := h
    obtain ⟨e, h1, h2, h3, h4, h5'⟩ := instLoop_ok lib { radius, useCv2, quality } fuel mask im ids ignore ign hign l0 hl0
      (instTable im (l0 * 1000)) (labelInst_loop im _ h5)
    rw [h1]
    obtain ⟨a1, a2, a3, a4⟩ := pool_outcome mask ignore _ _ (mpInstWorker_eq lib _ mask im ignore ign _) r hrun
    refine ⟨r, rfl, by rw [a1, h2], by rw [a2, h3], by rw [a3, h4], ?_⟩
    intro k i j hk hi hj
    rw [a1] at hk; rw [a2] at hi; rw [a3] at hj
    rw [a4 k i j hk hi hj, h5' k hk]

/-- C29: under the same conditions the single-label instance-sensitive version is the channel of the loop version. -/
theorem C29_one_label_instances (lib : DTLib) (radius quality : Int) (useCv2 : Bool) (fuel : Nat) (mask : MLEdges)
    (im : Img Nat) (ids : List Nat) (ignore : List Int) (hids : ids ≠ []) (h10 : ∀ l ∈ ids, 10 ≤ l)
    (h5 : ∀ i j, i < im.rows → j < im.cols → im.at_ i j < 100000) (label : Nat) (hl : label < mask.n) :
    match loopInstMask2Edge lib { radius, useCv2, quality } fuel false mask im ids ignore with
    | .error e => oneLabelInstMask2Edge lib radius quality useCv2 label mask im ids ignore = .error e
    | .ok none => False
    | .ok (some e) => oneLabelInstMask2Edge lib radius quality useCv2 label mask im ids ignore =
        .ok ⟨mask.h, mask.w, e.at_ label⟩ := by
  unfold oneLabelInstMask2Edge
  rw [if_neg (not_not.mpr hl)]
  rcases hign : ignoreMask mask ignore with er | ign
  · unfold loopInstMask2Edge; rw [hign]
  · obtain ⟨l0, hl0, hmem, -⟩ := minLabel_spec ids hids
    have hl10 := h10 l0 hmem
    have hmp : mpLabelInst im ids = .ok (instTable im (l0 * 1000)) := by
      unfold mpLabelInst
      split
      · next he =>
        unfold instTable
        rw [he]; rfl
      · rw [hl0]; exact labelInst_mp im _ h5 (by omega)
    obtain ⟨e, h1, -, -, -, h5'⟩ := instLoop_ok lib { radius, useCv2, quality } fuel mask im ids ignore ign hign l0 hl0
      (instTable im (l0 * 1000)) (labelInst_loop im _ h5)
    rw [h1]
    simp only [hmp]
    rw [h5' label hl]
    unfold chanOf
    by_cases hi : (label : Int) ∈ ignore
    · simp [hi]
    · rcases ha : anySet mask.h mask.w (mask.at_ label) with _ | _ <;> simp [hi, ha]

/-! ## C30 -/

/-- C30: instance-sensitive edges. With an exact distance transform and ids of at most five digits, channel `k` is set
exactly at the boundary pixels of class `k` or of an instance of class `k` that occurs in the instance mask (an id `v`
with `v / 1000 = k`, at or above the smallest instance label); a class that is ignored or absent has no edges. -/
theorem C30_instance_edges (lib : DTLib) (o : BdryOpts) (hint : o.internalOnly = false)
    (H : SoundDT lib o.useCv2 o.quality o.radius) (hr : 0 ≤ o.radius) (fuel : Nat) (mask : MLEdges)
    (im : Img Nat) (hshape : im.rows = mask.h ∧ im.cols = mask.w) (ids : List Nat) (l0 : Nat) (hl0 : l0 ∈ ids)
    (hmin : ∀ l ∈ ids, l0 ≤ l) (ignore : List Int) (hig : ∀ k ∈ ignore, 0 ≤ k ∧ k < mask.n) (hlen : ignore.length < 255)
    (h5 : ∀ i j, i < im.rows → j < im.cols → im.at_ i j < 100000) :
    ∃ out, loopInstMask2Edge lib o fuel false mask im ids ignore = .ok (some out) ∧
      out.n = mask.n ∧ out.h = mask.h ∧ out.w = mask.w ∧
      ∀ k i j, k < mask.n → i < mask.h → j < mask.w →
        (out.at_ k i j = true ↔ (k : Int) ∉ ignore ∧ (classPx mask k).Nonempty ∧
          (IsBoundary o.radius (allPx mask) (classPx mask k) (ignoredPx mask ignore) (i, j) ∨
           ∃ v, (instPx mask im v).Nonempty ∧ v / 1000 = k ∧ l0 ≤ k ∧
            IsBoundary o.radius (allPx mask) (instPx mask im v) (ignoredPx mask ignore) (i, j))) := by
  obtain ⟨ign, hign, -⟩ := ignoreMask_ok mask ignore hig
  have hne : ids ≠ [] := by rintro rfl; cases hl0
  obtain ⟨l0', hl0', hmem', hmin'⟩ := minLabel_spec ids hne
  have : l0' = l0 := le_antisymm (hmin' l0 hl0) (hmin l0' hmem')
  subst this
  obtain ⟨out, h1, h2, h3, h4, h5'⟩ := instLoop_ok lib o fuel mask im ids ignore ign hign l0' hl0'
    (instTable im (l0' * 10 ^ (5 - 2))) (labelInst_loop im _ h5)
  refine ⟨out, h1, h2, h3, h4, ?_⟩
  intro k i j hk hi hj
  rw [h5' k hk]
  unfold chanOf
  by_cases hk' : (k : Int) ∈ ignore
  · simp [hk']
  · have hne : (classPx mask k).Nonempty ↔ ¬ anySet mask.h mask.w (mask.at_ k) = false := by
      rw [Bool.not_eq_false, anySet_iff]; rfl
    by_cases ha : anySet mask.h mask.w (mask.at_ k) = false
    · simp [hne, ha]
    · rw [if_neg (not_or.mpr ⟨hk', ha⟩), instBdry_iff]
      have hb : ∀ m, mask2Bdry lib o mask.h mask.w m ign i j = true ↔
          IsBoundary o.radius (allPx mask) (region mask.h mask.w m) (ignoredPx mask ignore) (i, j) := fun m =>
        mask2Bdry_iff lib o hint H hr mask.h mask.w m ign (ignoredPx mask ignore)
          (fun q hq => unionMask_ignored mask ignore hig hlen ign hign _ q hq) (i, j) ⟨hi, hj⟩
      have hreg : ∀ v, region mask.h mask.w (fun a b => im.at_ a b == v) = instPx mask im v := by
        intro v; ext p; simp [region, instPx]
      simp only [hb, hreg, hne, ha, hk', not_false_eq_true, true_and, reduceCtorEq]
      rw [region_class]
      apply or_congr Iff.rfl
      constructor
      · rintro ⟨v, hv, hm, hl, hbd⟩
        obtain ⟨a, b, ha', hb', hv'⟩ := (mem_uniqueVals im v).mp hv
        refine ⟨v, ⟨(a, b), ⟨by rw [← hshape.1]; exact ha', by rw [← hshape.2]; exact hb'⟩, hv'⟩, hl, ?_, hbd⟩
        have : l0' * 1000 ≤ v := by simpa using hm
        omega
      · rintro ⟨v, ⟨⟨a, b⟩, ⟨ha', hb'⟩, hv'⟩, hl, hle, hbd⟩
        refine ⟨v, (mem_uniqueVals im v).mpr ⟨a, b, by rw [hshape.1]; exact ha', by rw [hshape.2]; exact hb', hv'⟩, ?_, hl, hbd⟩
        have : l0' * 1000 ≤ v := by omega
        simpa using this

/-- C30: the instance-sensitive edges contain the semantic edges, for every distance transform and option. -/
theorem C30_contains_semantic (lib : DTLib) (o : BdryOpts) (fuel : Nat) (mask : MLEdges)
    (im : Img Nat) (ids : List Nat) (ignore : List Int) (hids : ids ≠ [])
    (h5 : ∀ i j, i < im.rows → j < im.cols → im.at_ i j < 100000) (ign : Nat → Nat → Nat)
    (hign : ignoreMask mask ignore = .ok ign) :
    ∃ sem out, loopMask2Edge lib o fuel false mask ignore = .ok (some sem) ∧
      loopInstMask2Edge lib o fuel false mask im ids ignore = .ok (some out) ∧
      ∀ k i j, k < mask.n → sem.at_ k i j = true → out.at_ k i j = true := by
  obtain ⟨l0, hl0, -, -⟩ := minLabel_spec ids hids
  obtain ⟨sem, s1, -, -, -, s5⟩ := loop_ok lib o fuel mask ignore ign hign
  obtain ⟨out, h1, -, -, -, h5'⟩ := instLoop_ok lib o fuel mask im ids ignore ign hign l0 hl0
    (instTable im (l0 * 10 ^ (5 - 2))) (labelInst_loop im _ h5)
  refine ⟨sem, out, s1, h1, ?_⟩
  intro k i j hk hs
  rw [s5 k hk] at hs
  rw [h5' k hk]
  unfold chanOf at *
  split at hs
  · cases hs
  · next hc =>
    rw [if_neg hc, instBdry_iff]
    exact Or.inl hs

/-- C30: with thinning on, each channel is a thinned version of the instance-sensitive channel without thinning: a
subset with the same topology (and the call ends). -/
theorem C30_thinned (lib : DTLib) (o : BdryOpts) (fuel : Nat) (mask : MLEdges)
    (im : Img Nat) (ids : List Nat) (ignore : List Int) (hids : ids ≠ [])
    (h5 : ∀ i j, i < im.rows → j < im.cols → im.at_ i j < 100000) (ign : Nat → Nat → Nat)
    (hign : ignoreMask mask ignore = .ok ign) (hf : mask.h * mask.w + 1 ≤ fuel) :
    ∃ out thin, loopInstMask2Edge lib o fuel false mask im ids ignore = .ok (some out) ∧
      loopInstMask2Edge lib o fuel true mask im ids ignore = .ok (some thin) ∧
      thin.n = mask.n ∧ thin.h = mask.h ∧ thin.w = mask.w ∧
      ∀ k < mask.n,
        edgeSet (toImg mask.h mask.w (thin.at_ k)) ⊆ edgeSet (toImg mask.h mask.w (out.at_ k)) ∧
        SameTopology (edgeSet (toImg mask.h mask.w (out.at_ k))) (edgeSet (toImg mask.h mask.w (thin.at_ k))) := by
  obtain ⟨l0, hl0, -, -⟩ := minLabel_spec ids hids
  set li := instTable im (l0 * 10 ^ (5 - 2)) with hli
  obtain ⟨out, h1, -, -, -, h5'⟩ := instLoop_ok lib o fuel mask im ids ignore ign hign l0 hl0
    li (labelInst_loop im _ h5)
  have hT : ∀ k, ∃ y, binaryThin fuel (toImg mask.h mask.w (instBdry lib o mask im ign li k)) none = some y := by
    intro k
    apply C17_binary_thin_terminates
    have := edgeSet_ncard_le mask.h mask.w (instBdry lib o mask im ign li k)
    omega
  choose T hT using hT
  obtain ⟨thin, t1, t2, t3, t4, t5, t6, -⟩ := labelLoop_ok (instLoopBody lib o fuel true mask im ignore ign li)
    (fun k => if (k : Int) ∈ ignore ∨ anySet mask.h mask.w (mask.at_ k) = false then none
      else some (fun i j => decide ((T k).at_ i j ≠ 0))) (List.range mask.n) (zerosLike mask)
    List.nodup_range (by
      intro l _
      unfold instLoopBody
      by_cases hi : (l : Int) ∈ ignore
      · simp [hi]
      · rcases ha : anySet mask.h mask.w (mask.at_ l) with _ | _ <;> simp [hi, ha, optThin, hT l])
  refine ⟨out, thin, h1, by simp only [loopInstMask2Edge, hign, hl0]; rw [labelInst_loop im _ h5]; exact t1, t2, t3, t4, ?_⟩
  intro k hk
  rw [h5' k hk]
  unfold chanOf
  by_cases hc : (k : Int) ∈ ignore ∨ anySet mask.h mask.w (mask.at_ k) = false
  · rw [if_pos hc, t6 k (List.mem_range.mpr hk) (by simp only [if_pos hc])]
    exact ⟨fun _ h => h, SameTopology.refl _⟩
  · rw [if_neg hc, t5 k (List.mem_range.mpr hk) _ (if_neg hc)]
    obtain ⟨r1, r2, r3, -⟩ := C17_binary_thin_subset fuel _ _ _ (hT k)
    have r4 := C19_binary_thin_topology fuel _ _ _ (hT k)
    rw [toImg_thin mask.h mask.w (T k) r1 r2]
    exact ⟨r3, r4⟩

/-- C30: a class without instances in the instance mask gets exactly the semantic edges. -/
theorem C30_no_instances (lib : DTLib) (o : BdryOpts) (fuel : Nat) (mask : MLEdges)
    (im : Img Nat) (ids : List Nat) (ignore : List Int) (hids : ids ≠ [])
    (h5 : ∀ i j, i < im.rows → j < im.cols → im.at_ i j < 100000) (ign : Nat → Nat → Nat)
    (hign : ignoreMask mask ignore = .ok ign) (k : Nat) (hk : k < mask.n)
    (hno : ∀ i j, i < im.rows → j < im.cols → im.at_ i j / 1000 ≠ k) :
    ∃ sem out, loopMask2Edge lib o fuel false mask ignore = .ok (some sem) ∧
      loopInstMask2Edge lib o fuel false mask im ids ignore = .ok (some out) ∧ sem.at_ k = out.at_ k := by
  obtain ⟨l0, hl0, -, -⟩ := minLabel_spec ids hids
  obtain ⟨sem, s1, -, -, -, s5⟩ := loop_ok lib o fuel mask ignore ign hign
  obtain ⟨out, h1, -, -, -, h5'⟩ := instLoop_ok lib o fuel mask im ids ignore ign hign l0 hl0
    (instTable im (l0 * 10 ^ (5 - 2))) (labelInst_loop im _ h5)
  refine ⟨sem, out, s1, h1, ?_⟩
  rw [s5 k hk, h5' k hk]
  unfold chanOf
  split
  · rfl
  · funext i j
    rw [Bool.eq_iff_iff, instBdry_iff]
    constructor
    · exact Or.inl
    · rintro (h | ⟨v, hv, -, hl, -⟩)
      · exact h
      · obtain ⟨a, b, ha, hb, rfl⟩ := (mem_uniqueVals im v).mp hv
        exact absurd hl (hno a b ha hb)

/-! ### Witnesses and a defect -/

/-- A 1×2 image of class `c` only, with `n` classes. -/
def uniMask (n c : Nat) : MLEdges := ⟨n, 1, 2, fun k _ _ => k == c⟩

/-- Two instances of class `c`, one pixel each. -/
def twoInst (c : Nat) : Img Nat := ⟨1, 2, fun _ j => c * 1000 + j⟩

theorem twoInst_loop (n c : Nat) (hc : c < n) (hc' : c < 99) :
    ∃ out, loopInstMask2Edge (refLib 1) { radius := 1 } 0 false (uniMask n c) (twoInst c) [c] [] = .ok (some out) ∧
      out.at_ c 0 0 = true := by
  obtain ⟨out, h1, -, -, -, h5⟩ := C30_instance_edges (refLib 1) { radius := 1 } rfl
    (by simpa using refLib_exact 1 true 0) (by decide) 0 (uniMask n c) (twoInst c) ⟨rfl, rfl⟩ [c] c (by simp) (by simp)
    [] (by simp) (by simp) (by intro i j _ hj; have : j < 2 := hj; show c * 1000 + j < 100000; omega)
  refine ⟨out, h1, ?_⟩
  rw [h5 c 0 0 hc (by show 0 < 1; omega) (by show 0 < 2; omega)]
  refine ⟨by simp, ⟨(0, 0), ⟨by simp [uniMask], by simp [uniMask]⟩, by simp [uniMask]⟩, Or.inr ⟨c * 1000, ?_, by omega, le_rfl, Or.inl ⟨?_, (0, 1), ?_, ?_, ?_, ?_⟩⟩⟩
  · exact ⟨(0, 0), ⟨by simp [uniMask], by simp [uniMask]⟩, by simp [twoInst]⟩
  · exact ⟨⟨by simp [uniMask], by simp [uniMask]⟩, by simp [twoInst]⟩
  · exact ⟨by simp [uniMask], by simp [uniMask]⟩
  · rintro ⟨-, h⟩; simp [twoInst] at h
  · rintro ⟨-, k, h, -⟩; simp at h
  · simp [pdist]

/-- For Cityscapes class 24 the hypotheses of `C29_mp_eq_loop_instances` and `C30_instance_edges` are met. -/
example : (∃ out, loopInstMask2Edge (refLib 1) { radius := 1 } 0 false (uniMask 34 24) (twoInst 24) [24] [] = .ok (some out) ∧
    out.at_ 24 0 0 = true) ∧ (∀ l ∈ [24], 10 ≤ l) ∧
    (∀ i j, i < (twoInst 24).rows → j < (twoInst 24).cols → (twoInst 24).at_ i j < 100000) := by
  refine ⟨twoInst_loop 34 24 (by decide) (by decide), by decide, ?_⟩
  intro i j _ hj
  have : j < 2 := hj
  show 24 * 1000 + j < 100000
  omega

/-- C29 (defect): for instance labels below 10 the two implementations differ. On a 1×2 image of class 5 with two
instances, the loop implementation marks the boundary between the instances and the multiprocess one, under every
schedule, does not. -/
theorem C29_mp_differs_for_small_labels :
    (∃ out, loopInstMask2Edge (refLib 1) { radius := 1 } 0 false (uniMask 6 5) (twoInst 5) [5] [] = .ok (some out) ∧
      out.at_ 5 0 0 = true) ∧
    (∀ out, MpInstMask2Edge (refLib 1) 1 0 true false (uniMask 6 5) (twoInst 5) [5] [] out →
      ∃ r, out = .ok r ∧ r.at_ 5 0 0 = false) := by
  refine ⟨twoInst_loop 6 5 (by decide) (by decide), ?_⟩
  intro out h
  obtain ⟨ign, hign, -⟩ := ignoreMask_ok (uniMask 6 5) [] (by simp)
  have hvals : ∀ v ∈ uniqueVals (twoInst 5), v = 5000 ∨ v = 5001 := by
    intro v hv
    obtain ⟨i, j, -, hj, hv'⟩ := (mem_uniqueVals _ v).mp hv
    have h2 : j < 2 := hj
    have h3 : 5 * 1000 + j = v := hv'
    omega
  have hne : uniqueVals (twoInst 5) ≠ [] := by
    intro h0
    have : 5000 ∈ uniqueVals (twoInst 5) := (mem_uniqueVals _ _).mpr ⟨0, 0, by decide, by decide, rfl⟩
    rw [h0] at this; cases this
  have hli : mpLabelInst (twoInst 5) [5] =
      .ok (((uniqueVals (twoInst 5)).filter fun (v : Nat) => !decide (v < 5 * 1000)).map fun (v : Nat) => (50, v - 5000)) := by
    obtain ⟨l0, hl0, hm, -⟩ := minLabel_spec [5] (by simp)
    simp only [List.mem_singleton] at hm
    subst hm
    unfold mpLabelInst
    rw [if_neg hne, hl0]
    apply mapM_ok
    intro v hv
    rcases hvals v (List.mem_filter.mp hv).1 with rfl | rfl
    · have hs : pyStr 5000 = [5, 0, 0, 0] := by simp [pyStr]
      rw [parseMp, hs]; rfl
    · have hs : pyStr 5001 = [5, 0, 0, 1] := by simp [pyStr]
      rw [parseMp, hs]; rfl
  unfold MpInstMask2Edge at h
  simp only [Bool.false_eq_true, if_false, hign, hli] at h
  obtain ⟨r, rfl, hrun⟩ := h
  refine ⟨r, rfl, ?_⟩
  obtain ⟨-, -, -, a4⟩ := pool_outcome (uniMask 6 5) [] _ _ (mpInstWorker_eq (refLib 1) _ (uniMask 6 5) (twoInst 5) [] ign _) r hrun
  rw [a4 5 0 0 (by decide) (by decide) (by decide)]
  unfold chanOf
  split
  · rfl
  · have hfil : ∀ l : List Nat, ((l.map fun (v : Nat) => (50, v - 5000)).filter fun (p : Nat × Nat) => p.1 = 5) = [] := by
      intro l; rw [List.filter_eq_nil_iff]; intro p hp
      obtain ⟨v, -, rfl⟩ := List.mem_map.mp hp
      simp
    unfold instBdry
    rw [hfil]
    show mask2Bdry _ _ _ _ _ _ 0 0 = false
    rw [Bool.eq_false_iff, ne_eq, mask2Bdry_iff (refLib 1) { radius := 1, useCv2 := true, quality := 0 } rfl
      (by simpa using refLib_exact 1 true 0) (by decide) (uniMask 6 5).h (uniMask 6 5).w ((uniMask 6 5).at_ 5) ign
      (ignoredPx (uniMask 6 5) []) (fun q hq => unionMask_ignored (uniMask 6 5) [] (by simp) (by simp) ign hign _ q hq)
      (0, 0) ⟨by decide, by decide⟩]
    have hM : ∀ q ∈ pxSet (uniMask 6 5).h (uniMask 6 5).w, q ∈ region (uniMask 6 5).h (uniMask 6 5).w ((uniMask 6 5).at_ 5) :=
      fun q hq => ⟨hq, by simp [uniMask]⟩
    rintro (⟨-, q, hq, hn, -⟩ | ⟨hn, -⟩ | ⟨hn, -⟩)
    · exact hn (hM q hq)
    · exact hn (hM _ ⟨by decide, by decide⟩)
    · exact hn (hM _ ⟨by decide, by decide⟩)

example : ∃ out, loopMask2Edge (refLib 1) { radius := 1 } 0 false (uniMask 6 5) [] = .ok (some out) ∧
    ∀ l i j, l < 6 → i < 1 → j < 2 → out.at_ l i j = false :=
  C28_uniform_no_edges (refLib 1) { radius := 1 } rfl (by simpa using refLib_exact 1 true 0) (by decide) 0 (uniMask 6 5) 5
    (by intro i j _ _; rfl) (by intro l i j hl _ _; simp [uniMask, hl])

/-- `internal_only` on the 1×3 image: of the two pixels of class 1 only the one next to class 0 is marked. -/
example : ∃ out, loopMask2Edge (refLib 1) { radius := 1, internalOnly := true } 0 false exMask [] = .ok (some out) ∧
    out.at_ 1 0 1 = true ∧ out.at_ 1 0 0 = false := by
  obtain ⟨out, h1, -, -, -, h5⟩ := C28_internal_only (refLib 1) { radius := 1, internalOnly := true } rfl
    (by simpa using refLib_exact 1 true 0) (by decide) 0 exMask [] (by simp) (by simp)
  refine ⟨out, h1, ?_, ?_⟩
  · rw [h5 1 0 1 (by decide) (by decide) (by decide)]
    refine ⟨by simp, ⟨(0, 1), ⟨by decide, by decide⟩, by decide⟩, Or.inl ⟨⟨by decide, by decide⟩, by decide⟩,
      (0, 0), ⟨by decide, by decide⟩, ?_, ?_, ?_⟩
    · rintro ⟨-, h⟩; simp [exMask] at h
    · rintro ⟨-, k, h, -⟩; simp at h
    · simp [pdist]
  · rw [Bool.eq_false_iff, ne_eq, h5 1 0 0 (by decide) (by decide) (by decide)]
    rintro ⟨-, -, h, -⟩
    rcases h with ⟨-, h⟩ | ⟨-, k, h, -⟩
    · simp [exMask] at h
    · simp at h

/-- C30: `InstanceMask2Edge(...)(mask, inst_mask)` without label table: channel `k` is set exactly at the boundary pixels of
`{mask = labelIds[k]}` or of an instance with id `v`, `v / 1000 = k`, provided the label occurs in the mask and is not
ignored. -/
theorem C30_transform (lib : DTLib) (labelIds ignore : List Int) (ids : List Nat) (l0 : Nat) (hl0 : l0 ∈ ids)
    (hmin : ∀ l ∈ ids, l0 ≤ l) (radius : Int) (useCv2 : Bool) (quality : Int)
    (H : SoundDT lib useCv2 quality radius) (mask : Img Int) (im : Img Nat)
    (hshape : mask.rows = im.rows ∧ mask.cols = im.cols) (hne : labelIds ≠ []) (hrad : 1 ≤ radius)
    (hrows : labelIds.length ≤ mask.rows) (hig : ∀ k ∈ ignore, 0 ≤ k ∧ k < labelIds.length)
    (hlen : ignore.length < 255) (h5 : ∀ i j, i < im.rows → j < im.cols → im.at_ i j < 100000) :
    ∃ t edge, M2E.init labelIds ignore none radius useCv2 quality = .ok t ∧
      t.callInst lib ids mask im = .ok (some (edge, mask)) ∧
      edge.n = labelIds.length ∧ edge.h = mask.rows ∧ edge.w = mask.cols ∧
      let U := pxSet mask.rows mask.cols
      let I : Set Px := {p | p ∈ U ∧ ∃ l : Nat, (l : Int) ∈ ignore ∧ labelIds[l]? = some (mask.at_ p.1 p.2)}
      ∀ k i j, ∀ hk : k < labelIds.length, i < mask.rows → j < mask.cols →
        (edge.at_ k i j = true ↔ (k : Int) ∉ ignore ∧ (∃ p ∈ U, mask.at_ p.1 p.2 = labelIds[k]) ∧
          (IsBoundary radius U {p | p ∈ U ∧ mask.at_ p.1 p.2 = labelIds[k]} I (i, j) ∨
           ∃ v, (∃ p ∈ U, im.at_ p.1 p.2 = v) ∧ v / 1000 = k ∧ l0 ≤ k ∧
            IsBoundary radius U {p | p ∈ U ∧ im.at_ p.1 p.2 = v} I (i, j))) := by
  have hpos : 0 < labelIds.length := List.length_pos_iff.mpr hne
  refine ⟨⟨labelIds, ignore, none, radius, useCv2, quality⟩, ?_⟩
  have hone : mask2onehot mask labelIds = .ok ⟨labelIds.length, mask.rows, mask.cols,
      fun k i j => decide (labelIds[k]? = some (mask.at_ i j))⟩ := by
    unfold mask2onehot; rw [if_neg (by omega), if_neg (by omega)]
  obtain ⟨out, h1, h2, h3, h4, h6⟩ := C30_instance_edges lib { radius, useCv2, quality } rfl H (by simp; omega) 0
    ⟨labelIds.length, mask.rows, mask.cols, fun k i j => decide (labelIds[k]? = some (mask.at_ i j))⟩ im
    ⟨hshape.1.symm, hshape.2.symm⟩ ids l0 hl0 hmin ignore hig hlen h5
  refine ⟨out, by unfold M2E.init; rw [if_neg (by omega), if_neg (by omega)], ?_, h2, h3, h4, ?_⟩
  · unfold M2E.callInst
    rw [if_neg (not_not.mpr hshape), hone]
    simp only
    rw [h1]
    rfl
  · intro U I k i j hk hi hj
    rw [h6 k i j hk hi hj]
    have e1 : classPx ⟨labelIds.length, mask.rows, mask.cols, fun k i j => decide (labelIds[k]? = some (mask.at_ i j))⟩ k
        = {p | p ∈ U ∧ mask.at_ p.1 p.2 = labelIds[k]} := by
      ext p
      simp [classPx, List.getElem?_eq_getElem hk, eq_comm, U]
    have e2 : ignoredPx ⟨labelIds.length, mask.rows, mask.cols,
          fun k i j => decide (labelIds[k]? = some (mask.at_ i j))⟩ ignore = I := by
      ext p
      simp [ignoredPx, I, U]
    rw [e1, e2]
    rfl

/-- C30: masks of different shapes are rejected. -/
theorem C30_transform_shape (lib : DTLib) (t : M2E) (ids : List Nat) (mask : Img Int) (im : Img Nat)
    (h : ¬ (mask.rows = im.rows ∧ mask.cols = im.cols)) : t.callInst lib ids mask im = .error .assertionError := by
  unfold M2E.callInst; rw [if_pos h]

end EdgeEval.Props
