import Verif.Props.Datasets

/-!
# C49: ground truth made on the fly, and BSDS samples
-/

namespace EdgeEval.Props

open Spec Text Evaluators Samples Datasets

/-- `b` is the picture `a` resampled to its size. -/
def Resampled {α : Type} (a b : Img α) : Prop :=
  ∀ i < b.rows, ∀ j < b.cols, ∃ p q, CellOf a.rows b.rows i p ∧ CellOf a.cols b.cols j q ∧ b.at_ i j = a.at_ p q

/-- The pixels of a label map with a given value. -/
def valuePx (L : Img Nat) (v : Nat) : Set Px := {p | p ∈ pxSet L.rows L.cols ∧ L.at_ p.1 p.2 = v}

/-- The pixels of a label map that Cityscapes ignores in boundaries: labels 2 (rectification border) and 3 (out of
the region of interest). -/
def cityIgnored (L : Img Nat) : Set Px := {p | p ∈ pxSet L.rows L.cols ∧ (L.at_ p.1 p.2 = 2 ∨ L.at_ p.1 p.2 = 3)}

theorem trainId2label_ok : ∀ c : Nat, 1 ≤ c → c ≤ 19 → ∃ l : Nat, trainId2label ((c : Int) - 1) = .ok (l : Int) ∧
    ((l : Int), (c : Int) - 1) ∈ cityscapesLabel2TrainId ∧ 7 ≤ l ∧ l < 34 ∧
    (∀ l' : Int, (l', (c : Int) - 1) ∈ cityscapesLabel2TrainId → l' = l) := by
  intro c h1 h2
  interval_cases c
  · exact ⟨7, by decide +kernel, by decide, by decide, by decide, by simp [cityscapesLabel2TrainId]⟩
  · exact ⟨8, by decide +kernel, by decide, by decide, by decide, by simp [cityscapesLabel2TrainId]⟩
  · exact ⟨11, by decide +kernel, by decide, by decide, by decide, by simp [cityscapesLabel2TrainId]⟩
  · exact ⟨12, by decide +kernel, by decide, by decide, by decide, by simp [cityscapesLabel2TrainId]⟩
  · exact ⟨13, by decide +kernel, by decide, by decide, by decide, by simp [cityscapesLabel2TrainId]⟩
  · exact ⟨17, by decide +kernel, by decide, by decide, by decide, by simp [cityscapesLabel2TrainId]⟩
  · exact ⟨19, by decide +kernel, by decide, by decide, by decide, by simp [cityscapesLabel2TrainId]⟩
  · exact ⟨20, by decide +kernel, by decide, by decide, by decide, by simp [cityscapesLabel2TrainId]⟩
  · exact ⟨21, by decide +kernel, by decide, by decide, by decide, by simp [cityscapesLabel2TrainId]⟩
  · exact ⟨22, by decide +kernel, by decide, by decide, by decide, by simp [cityscapesLabel2TrainId]⟩
  · exact ⟨23, by decide +kernel, by decide, by decide, by decide, by simp [cityscapesLabel2TrainId]⟩
  · exact ⟨24, by decide +kernel, by decide, by decide, by decide, by simp [cityscapesLabel2TrainId]⟩
  · exact ⟨25, by decide +kernel, by decide, by decide, by decide, by simp [cityscapesLabel2TrainId]⟩
  · exact ⟨26, by decide +kernel, by decide, by decide, by decide, by simp [cityscapesLabel2TrainId]⟩
  · exact ⟨27, by decide +kernel, by decide, by decide, by decide, by simp [cityscapesLabel2TrainId]⟩
  · exact ⟨28, by decide +kernel, by decide, by decide, by decide, by simp [cityscapesLabel2TrainId]⟩
  · exact ⟨31, by decide +kernel, by decide, by decide, by decide, by simp [cityscapesLabel2TrainId]⟩
  · exact ⟨32, by decide +kernel, by decide, by decide, by decide, by simp [cityscapesLabel2TrainId]⟩
  · exact ⟨33, by decide +kernel, by decide, by decide, by decide, by simp [cityscapesLabel2TrainId]⟩

theorem resize_resampled {α : Type} {a : Img α} {h w : Nat} (h1 : 0 < a.rows) (h2 : 0 < a.cols) :
    Resampled a ⟨h, w, fun i j => a.at_ (srcIdx a.rows h i) (srcIdx a.cols w j)⟩ :=
  fun _ hi _ hj => ⟨_, _, srcIdx_cell h1 hi, srcIdx_cell h2 hj, rfl⟩

/-- The one-hot mask of a Cityscapes label map. -/
theorem onehot_city (L : Img Nat) (hrows : 34 ≤ L.rows) :
    ∃ e, mask2onehot ⟨L.rows, L.cols, fun i j => (L.at_ i j : Int)⟩ cityscapesLabelIds = .ok e ∧ e.n = 34 ∧
      e.h = L.rows ∧ e.w = L.cols ∧ (∀ k < 34, ∀ i j, e.at_ k i j = true ↔ L.at_ i j = k) := by
  have hlen : cityscapesLabelIds.length = 34 := by decide
  obtain ⟨e, he, en, eh, ew, ea⟩ := (C24_onehot ⟨L.rows, L.cols, fun i j => (L.at_ i j : Int)⟩ cityscapesLabelIds).2
    (by decide) (by rw [hlen]; exact hrows)
  refine ⟨e, he, by rw [en, hlen], eh, ew, ?_⟩
  intro k hk i j
  rw [ea k i j (by rw [hlen]; exact hk)]
  have : cityscapesLabelIds[k]'(by rw [hlen]; exact hk) = (k : Int) := by
    simp [cityscapesLabelIds]
  rw [this]
  show (L.at_ i j : Int) = k ↔ _
  norm_cast

theorem classPx_city {L : Img Nat} {e : MLEdges} (eh : e.h = L.rows) (ew : e.w = L.cols)
    (ea : ∀ k < 34, ∀ i j, e.at_ k i j = true ↔ L.at_ i j = k) {k : Nat} (hk : k < 34) :
    classPx e k = valuePx L k := by
  unfold classPx valuePx
  ext p
  simp only [Set.mem_ofPred_eq, eh, ew, ea k hk]

theorem ignoredPx_city {L : Img Nat} {e : MLEdges} (eh : e.h = L.rows) (ew : e.w = L.cols)
    (ea : ∀ k < 34, ∀ i j, e.at_ k i j = true ↔ L.at_ i j = k) : ignoredPx e [2, 3] = cityIgnored L := by
  unfold ignoredPx cityIgnored
  ext p
  simp only [Set.mem_ofPred_eq, eh, ew]
  constructor
  · rintro ⟨h, k, hk, h2⟩
    refine ⟨h, ?_⟩
    simp only [List.mem_cons, List.not_mem_nil, or_false] at hk
    rcases hk with hk | hk
    · have : k = 2 := by exact_mod_cast hk
      subst this; exact Or.inl ((ea 2 (by decide) _ _).1 h2)
    · have : k = 3 := by exact_mod_cast hk
      subst this; exact Or.inr ((ea 3 (by decide) _ _).1 h2)
  · rintro ⟨h, h2 | h2⟩
    · exact ⟨h, 2, by simp, (ea 2 (by decide) _ _).2 h2⟩
    · exact ⟨h, 3, by simp, (ea 3 (by decide) _ _).2 h2⟩

theorem trainMask {L : Img Nat} {c l : Nat} (h1 : 1 ≤ c) (h2 : c ≤ 19)
    (hl : ((l : Int), (c : Int) - 1) ∈ cityscapesLabel2TrainId)
    (huniq : ∀ l' : Int, (l', (c : Int) - 1) ∈ cityscapesLabel2TrainId → l' = l) (i j : Nat) :
    (maskToTrainId ⟨L.rows, L.cols, fun i j => (L.at_ i j : Int)⟩ cityscapesLabel2TrainId).at_ i j = (c : Int) - 1 ↔
      L.at_ i j = l := by
  obtain ⟨-, -, mt, mo⟩ := C24_mask_trainId ⟨L.rows, L.cols, fun i j => (L.at_ i j : Int)⟩ cityscapesLabel2TrainId
    (by decide)
  constructor
  · intro h
    by_cases hex : ∃ t, ((L.at_ i j : Int), t) ∈ cityscapesLabel2TrainId
    · obtain ⟨t, ht⟩ := hex
      rw [mt i j _ t ht rfl] at h
      have hrange : ∀ kv ∈ cityscapesLabel2TrainId, kv.2 % 256 = kv.2 := by decide
      have := hrange _ ht
      simp only at this
      rw [this] at h
      subst h
      have := huniq _ ht
      exact_mod_cast this
    · push Not at hex
      rw [mo i j hex] at h
      omega
  · intro h
    rw [mt i j l _ hl (by simp [h])]
    omega

/-- The documented on-the-fly ground truth pixel: `L` is the resampled label map, `I` the resampled instance map when
instances are distinguished. -/
def OtfEdge (r : ℝ) (L : Img Nat) (I : Option (Img Nat)) (l : Nat) (p : Px) : Prop :=
  (valuePx L l).Nonempty ∧
  (IsBoundary r (pxSet L.rows L.cols) (valuePx L l) (cityIgnored L) p ∨
    ∃ im v, I = some im ∧ v / 1000 = l ∧ 24 ≤ l ∧ (valuePx im v).Nonempty ∧
      IsBoundary r (pxSet L.rows L.cols) (valuePx im v) (cityIgnored L) p)

/-- C49: the on-the-fly evaluator. With an exact distance transform, existing files and a scaled height of at least
34, the ground truth of category `c` marks exactly the boundary pixels of its label in the resampled label map (and of
its instances, if an instance map is given), ignoring labels 2 and 3; the prediction is the resampled response;
the mask for removing internal predictions is the region of the label itself. -/
theorem C49_otf_inputs (lib : DTLib) (pics : Pictures) (hne : NoEmptyPictures pics) (s : Sample) (sp : Str)
    (kill : Bool) (radius c : Nat) (h1 : s.segPath = some sp) (h2 : s.params.killInternal = some kill)
    (h3 : s.params.radius = some radius) (hc : s.category = c) (hc1 : 1 ≤ c) (hc2 : c ≤ 19)
    (hs : 0 ≤ s.params.scale) (H : SoundDT lib true 0 radius) (L0 P : Img Nat)
    (hL : pics.gray sp = some L0) (hP : pics.gray s.predPath = some P)
    (hip : s.instPath ≠ some [])
    (hI : ∀ ip, s.instPath = some ip → ∃ I0, pics.gray ip = some I0 ∧ ∀ i j, i < I0.rows → j < I0.cols → I0.at_ i j < 100000)
    (h w : Nat) (hh : RoundsTo (L0.rows * s.params.scale) h) (hw : RoundsTo (L0.cols * s.params.scale) w)
    (h34 : 34 ≤ h) (hw1 : 1 ≤ w) :
    ∃ (l : Nat) (x : Inputs) (L : Img Nat) (I : Option (Img Nat)), ((l : Int), (c : Int) - 1) ∈ cityscapesLabel2TrainId ∧ otfInputs lib pics s = .ok x ∧
      (L.rows = h ∧ L.cols = w ∧ Resampled L0 L) ∧
      (s.instPath = none → I = none) ∧
      (∀ ip, s.instPath = some ip → ∃ I0 im, pics.gray ip = some I0 ∧ I = some im ∧ im.rows = h ∧ im.cols = w ∧
        Resampled I0 im) ∧
      x.gt.rows = h ∧ x.gt.cols = w ∧
      (∀ i < h, ∀ j < w, (OtfEdge radius L I l (i, j) → x.gt.at_ i j = 1) ∧
        (¬ OtfEdge radius L I l (i, j) → x.gt.at_ i j = 0)) ∧
      x.pred.rows = h ∧ x.pred.cols = w ∧
      (∀ i < h, ∀ j < w, ∃ p q, CellOf P.rows h i p ∧ CellOf P.cols w j q ∧ x.pred.at_ i j = (P.at_ p q : ℚ) / 255) ∧
      (kill = false → x.seg = none) ∧
      (kill = true → ∃ m, x.seg = some m ∧ m.isBool = true ∧ m.img.rows = h ∧ m.img.cols = w ∧
        ∀ i j, m.img.at_ i j = if L.at_ i j = l then 1 else 0) := by
  obtain ⟨l, hl, hmem, l7, l34, huniq⟩ := trainId2label_ok c hc1 hc2
  obtain ⟨lr, lc⟩ := hne.2 _ _ hL
  obtain ⟨pr, pc⟩ := hne.2 _ _ hP
  have round_unique : ∀ {x : ℚ} {a b : Nat}, RoundsTo x a → RoundsTo x b → a = b := by
    rintro x a b ⟨p1, p2⟩ ⟨q1, q2⟩
    have : a < b + 1 := by exact_mod_cast (by linarith : (a : ℚ) < b + 1)
    have : b < a + 1 := by exact_mod_cast (by linarith : (b : ℚ) < a + 1)
    omega
  obtain ⟨h', eh, rh', -, -⟩ := C49_scaled_size L0.rows s.params.scale hs
  obtain ⟨w', ew, rw'', -, -⟩ := C49_scaled_size L0.cols s.params.scale hs
  obtain rfl := round_unique hh rh'
  obtain rfl := round_unique hw rw''
  set L : Img Nat := ⟨h, w, fun i j => L0.at_ (srcIdx L0.rows h i) (srcIdx L0.cols w j)⟩ with hLdef
  obtain ⟨e, he, en, eh', ew', ea⟩ := onehot_city L (show 34 ≤ L.rows from h34)
  have e1 : resize L0 (h : Int) (w : Int) = .ok L := resize_ok.2 ⟨by omega, by omega, rfl⟩
  have e2 : resize P (h : Int) (w : Int) = .ok ⟨h, w, fun i j => P.at_ (srcIdx P.rows h i) (srcIdx P.cols w j)⟩ :=
    resize_ok.2 ⟨by omega, by omega, rfl⟩
  have hig : ∀ k ∈ ([2, 3] : List Int), 0 ≤ k ∧ k < (e.n : Int) := by
    intro k hk; rw [en]
    simp only [List.mem_cons, List.not_mem_nil, or_false] at hk
    rcases hk with rfl | rfl <;> decide
  have hlig : ((l : Nat) : Int) ∉ ([2, 3] : List Int) := by
    simp only [List.mem_cons, List.not_mem_nil, or_false]; omega
  have hcl : classPx e l = valuePx L l := classPx_city eh' ew' ea l34
  have hgn : ignoredPx e [2, 3] = cityIgnored L := ignoredPx_city eh' ew' ea
  have hall : allPx e = pxSet L.rows L.cols := by unfold allPx; rw [eh', ew']
  have hrad : (((radius : Int) : ℝ)) = (radius : ℝ) := by push_cast; rfl
  -- the edge channel
  have hedge : ∃ I : Option (Img Nat), ∃ edge : Img Bool, (s.instPath = none → I = none) ∧
      (∀ ip, s.instPath = some ip → ∃ I0 im, pics.gray ip = some I0 ∧ I = some im ∧ im.rows = h ∧ im.cols = w ∧
        Resampled I0 im) ∧
      otfEdge lib pics s radius h w l e = .ok edge ∧
      edge.rows = h ∧ edge.cols = w ∧
      ∀ i < h, ∀ j < w, (edge.at_ i j = true ↔ OtfEdge radius L I l (i, j)) := by
    cases hinst : s.instPath with
    | none =>
      obtain ⟨out, o1, o2, o3, o4, o5⟩ := C28_semantic_edges lib { radius := radius, useCv2 := true, quality := 0 } rfl H
        (Int.natCast_nonneg _) 0 e [2, 3] hig (by decide)
      have hone := C29_one_label lib radius 0 true 0 e [2, 3] l (by rw [en]; exact l34)
      rw [o1] at hone
      refine ⟨none, _, fun _ => rfl, by simp, by unfold otfEdge; rw [hinst]; exact hone, eh', ew', ?_⟩
      intro i hi j hj
      simp only
      rw [o5 l i j (by rw [en]; exact l34) (by rw [eh']; exact hi) (by rw [ew']; exact hj), hcl, hgn, hall]
      simp only [hrad]
      unfold OtfEdge
      constructor
      · rintro ⟨-, hb⟩
        refine ⟨?_, Or.inl hb⟩
        rcases hb with ⟨hm, -⟩ | ⟨-, -, q, hq, -⟩ | ⟨-, -, q, -, -, -, q', hq', -⟩
        exacts [⟨_, hm⟩, ⟨_, hq⟩, ⟨_, hq'⟩]
      · rintro ⟨-, hb | ⟨im, v, hcontra, -⟩⟩
        · exact ⟨hlig, hb⟩
        · cases hcontra
    | some ip =>
      have hipne : ip ≠ [] := by rintro rfl; exact hip hinst
      obtain ⟨I0, hI0, h5⟩ := hI ip hinst
      obtain ⟨ir, ic⟩ := hne.2 _ _ hI0
      set im : Img Nat := ⟨h, w, fun i j => I0.at_ (srcIdx I0.rows h i) (srcIdx I0.cols w j)⟩ with himdef
      have e3 : resize I0 (h : Int) (w : Int) = .ok im := resize_ok.2 ⟨by omega, by omega, rfl⟩
      have h5' : ∀ i j, i < im.rows → j < im.cols → im.at_ i j < 100000 := fun i j hi hj =>
        h5 _ _ (srcIdx_cell ir hi).1 (srcIdx_cell ic hj).1
      obtain ⟨out, o1, o2, o3, o4, o5⟩ := C30_instance_edges lib { radius := radius, useCv2 := true, quality := 0 } rfl H
        (Int.natCast_nonneg _) 0 e im ⟨eh'.symm, ew'.symm⟩ cityscapesInstLabelIds 24 (by decide) (by decide) [2, 3] hig
        (by decide) h5'
      have hone := C29_one_label_instances lib radius 0 true 0 e im cityscapesInstLabelIds [2, 3] (by decide) (by decide)
        h5' l (by rw [en]; exact l34)
      rw [o1] at hone
      refine ⟨some im, ⟨e.h, e.w, out.at_ l⟩, by simp, ?_, ?_, eh', ew', ?_⟩
      · rintro _ ⟨⟩
        exact ⟨I0, im, hI0, rfl, rfl, rfl, resize_resampled ir ic⟩
      · have : (some ip).filter (· ≠ []) = some ip := by simp [Option.filter, hipne]
        unfold otfEdge
        rw [hinst, this]
        simp only [hI0, load, bind, Except.bind, e3]
        exact hone
      · intro i hi j hj
        simp only
        rw [o5 l i j (by rw [en]; exact l34) (by rw [eh']; exact hi) (by rw [ew']; exact hj), hcl, hgn, hall]
        simp only [hrad]
        have hinstpx : ∀ v, instPx e im v = valuePx im v := by
          intro v; unfold instPx valuePx; rw [eh', ew']
        unfold OtfEdge
        constructor
        · rintro ⟨-, hn, hb | ⟨v, hv1, hv2, hv3, hv4⟩⟩
          · exact ⟨hn, Or.inl hb⟩
          · rw [hinstpx] at hv1 hv4
            exact ⟨hn, Or.inr ⟨im, v, rfl, hv2, hv3, hv1, hv4⟩⟩
        · rintro ⟨hn, hb | ⟨im', v, him, hv2, hv3, hv1, hv4⟩⟩
          · exact ⟨hlig, hn, Or.inl hb⟩
          · cases him
            exact ⟨hlig, hn, Or.inr ⟨v, by rw [hinstpx]; exact hv1, hv2, hv3, by rw [hinstpx]; exact hv4⟩⟩
  obtain ⟨I, edge, hi1, hi2, hrun, er, ec, hv⟩ := hedge
  have hgt : ∀ i < h, ∀ j < w, (OtfEdge radius L I l (i, j) → (toImg edge.rows edge.cols edge.at_).at_ i j = 1) ∧
        (¬ OtfEdge radius L I l (i, j) → (toImg edge.rows edge.cols edge.at_).at_ i j = 0) := by
    intro i hi j hj
    show (_ → (if edge.at_ i j then (1 : ℚ) else 0) = 1) ∧ (_ → (if edge.at_ i j then (1 : ℚ) else 0) = 0)
    rw [← hv i hi j hj]
    constructor
    · intro h; rw [if_pos h]
    · intro h; rw [if_neg h]
  have hpred : ∀ i < h, ∀ j < w, ∃ p q, CellOf P.rows h i p ∧ CellOf P.cols w j q ∧
      (P.at_ (srcIdx P.rows h i) (srcIdx P.cols w j) : ℚ) / 255 = (P.at_ p q : ℚ) / 255 :=
    fun i hi j hj => ⟨_, _, srcIdx_cell pr hi, srcIdx_cell pc hj, rfl⟩
  have hin : otfInputs lib pics s =
      if kill = true then
        (do assert (edge.rows = h ∧ edge.cols = w)
            .ok ⟨⟨h, w, fun i j => (P.at_ (srcIdx P.rows h i) (srcIdx P.cols w j) : ℚ) / 255⟩,
              toImg edge.rows edge.cols edge.at_, some ⟨⟨h, w, fun i j =>
                if (maskToTrainId ⟨L.rows, L.cols, fun i j => (L.at_ i j : Int)⟩ cityscapesLabel2TrainId).at_ i j =
                  (c : Int) - 1 then 1 else 0⟩, true⟩⟩)
      else .ok ⟨⟨h, w, fun i j => (P.at_ (srcIdx P.rows h i) (srcIdx P.cols w j) : ℚ) / 255⟩,
        toImg edge.rows edge.cols edge.at_, none⟩ := by
    unfold otfInputs
    simp only [h1, h2, h3, hc, kw, hl, hL, hP, load, eh, ew, e1, e2, he, bind, Except.bind, Int.toNat_natCast]
    rw [hrun]
    rfl
  cases hkill : kill with
  | false =>
    rw [hkill, if_neg (by simp)] at hin
    refine ⟨l, _, L, I, hmem, hin, ⟨rfl, rfl, resize_resampled lr lc⟩, hi1, hi2, er, ec, hgt, rfl, rfl, hpred,
      fun _ => rfl, by simp⟩
  | true =>
    rw [hkill, if_pos rfl] at hin
    have : assert (decide (edge.rows = h ∧ edge.cols = w)) = .ok () := assert_ok.2 (by simp [er, ec])
    rw [this] at hin
    refine ⟨l, _, L, I, hmem, hin, ⟨rfl, rfl, resize_resampled lr lc⟩, hi1, hi2, er, ec, hgt, rfl, rfl, hpred,
      by simp, fun _ => ⟨_, rfl, rfl, rfl, rfl, ?_⟩⟩
    intro i j
    simp only [trainMask (L := L) hc1 hc2 hmem huniq i j]

/-- C49 (limit): the on-the-fly evaluator refuses every label map whose scaled height is below 34, the number of
labels (the check in `mask2onehot` compares it with the height). -/
theorem C49_otf_rejects_small (lib : DTLib) (pics : Pictures) (s : Sample) (sp : Str)
    (kill : Bool) (radius c : Nat) (h1 : s.segPath = some sp) (h2 : s.params.killInternal = some kill)
    (h3 : s.params.radius = some radius) (hc : s.category = c) (hc1 : 1 ≤ c) (hc2 : c ≤ 19)
    (hs : 0 ≤ s.params.scale) (L0 P : Img Nat)
    (hL : pics.gray sp = some L0) (hP : pics.gray s.predPath = some P)
    (h w : Nat) (hh : RoundsTo (L0.rows * s.params.scale) h) (hw : RoundsTo (L0.cols * s.params.scale) w)
    (h34 : h < 34) (h0 : 1 ≤ h) (hw1 : 1 ≤ w) : otfInputs lib pics s = .error .assertionError := by
  obtain ⟨l, hl, -⟩ := trainId2label_ok c hc1 hc2
  have round_unique : ∀ {x : ℚ} {a b : Nat}, RoundsTo x a → RoundsTo x b → a = b := by
    rintro x a b ⟨p1, p2⟩ ⟨q1, q2⟩
    have : a < b + 1 := by exact_mod_cast (by linarith : (a : ℚ) < b + 1)
    have : b < a + 1 := by exact_mod_cast (by linarith : (b : ℚ) < a + 1)
    omega
  obtain ⟨h', eh, rh', -, -⟩ := C49_scaled_size L0.rows s.params.scale hs
  obtain ⟨w', ew, rw'', -, -⟩ := C49_scaled_size L0.cols s.params.scale hs
  obtain rfl := round_unique hh rh'
  obtain rfl := round_unique hw rw''
  have e1 : resize L0 (h : Int) (w : Int) = .ok ⟨h, w, fun i j => L0.at_ (srcIdx L0.rows h i) (srcIdx L0.cols w j)⟩ :=
    resize_ok.2 ⟨by omega, by omega, rfl⟩
  have e2 : resize P (h : Int) (w : Int) = .ok ⟨h, w, fun i j => P.at_ (srcIdx P.rows h i) (srcIdx P.cols w j)⟩ :=
    resize_ok.2 ⟨by omega, by omega, rfl⟩
  have e3 := (C24_onehot ⟨h, w, fun i j => (L0.at_ (srcIdx L0.rows h i) (srcIdx L0.cols w j) : Int)⟩ cityscapesLabelIds).1
    (Or.inr (by show h < cityscapesLabelIds.length; exact h34))
  unfold otfInputs
  simp only [h1, h2, h3, hc, kw, hl, hL, hP, load, eh, ew, e1, e2, e3, bind, Except.bind]

/-- The inputs of an on-the-fly sample, as documented: `L0` is the label map, `I0` the instance map (if instances are
distinguished), `P` the prediction. -/
def OtfInputsOk (L0 P : Img Nat) (I0 : Option (Img Nat)) (scale : ℚ) (radius c : Nat) (kill : Bool) (x : Inputs) : Prop :=
  ∃ (l : Nat) (L : Img Nat) (I : Option (Img Nat)), ((l : Int), (c : Int) - 1) ∈ cityscapesLabel2TrainId ∧
    RoundsTo (L0.rows * scale) x.gt.rows ∧ RoundsTo (L0.cols * scale) x.gt.cols ∧
    (L.rows = x.gt.rows ∧ L.cols = x.gt.cols ∧ Resampled L0 L) ∧
    (I0 = none → I = none) ∧
    (∀ i0, I0 = some i0 → ∃ im, I = some im ∧ im.rows = x.gt.rows ∧ im.cols = x.gt.cols ∧ Resampled i0 im) ∧
    (∀ i < x.gt.rows, ∀ j < x.gt.cols, (OtfEdge radius L I l (i, j) → x.gt.at_ i j = 1) ∧
      (¬ OtfEdge radius L I l (i, j) → x.gt.at_ i j = 0)) ∧
    x.pred.rows = x.gt.rows ∧ x.pred.cols = x.gt.cols ∧
    (∀ i < x.gt.rows, ∀ j < x.gt.cols, ∃ p q, CellOf P.rows x.gt.rows i p ∧ CellOf P.cols x.gt.cols j q ∧
      x.pred.at_ i j = (P.at_ p q : ℚ) / 255) ∧
    (kill = false → x.seg = none) ∧
    (kill = true → ∃ m, x.seg = some m ∧ m.isBool = true ∧ m.img.rows = x.gt.rows ∧ m.img.cols = x.gt.cols ∧
      ∀ i j, m.img.at_ i j = if L.at_ i j = l then 1 else 0)

/-- C49: one sample of the on-the-fly evaluator: the sub-routine returns consistent counts, `sum_r` being the number of
ground-truth pixels made on the fly. -/
theorem C49_otf_single (env : Env) (hne : NoEmptyPictures env.pics) (hnms : KeepsShape env.nms) (arg : ThresholdArg)
    (ths : List ℚ) (hth : checkThresholds arg = .ok ths) (rnd : Nat → Nat → Nat → ℚ) (hx : UnitStreams rnd) (s : Sample)
    (sp : Str) (kill skip : Bool) (radius c : Nat) (h1 : s.segPath = some sp) (h2 : s.params.killInternal = some kill)
    (h4 : s.params.skipIfNonexistent = some skip) (h3 : s.params.radius = some radius) (hd : 0 < s.params.maxDist)
    (hc : s.category = c) (hc1 : 1 ≤ c) (hc2 : c ≤ 19) (hs : 0 ≤ s.params.scale)
    (H : SoundDT env.lib true 0 radius) (L0 P : Img Nat) (I0 : Option (Img Nat))
    (hL : env.pics.gray sp = some L0) (hP : env.pics.gray s.predPath = some P)
    (hip : s.instPath ≠ some []) (hI : ∀ ip, s.instPath = some ip → ∃ i0, I0 = some i0 ∧ env.pics.gray ip = some i0 ∧
      ∀ i j, i < i0.rows → j < i0.cols → i0.at_ i j < 100000) (hI' : s.instPath = none → I0 = none)
    (hh : 67 / 2 ≤ L0.rows * s.params.scale) (hw : 1 / 2 ≤ L0.cols * s.params.scale) :
    ∃ x F rows, OtfInputsOk L0 P I0 s.params.scale radius c kill x ∧
      (∀ fuel, F ≤ fuel → multiLabelSingle { env with fuel := fuel } .otf arg s rnd = .ok (some rows)) ∧
      Spec.Sane ths.length (toCounts rows) ∧
      ∀ i < ths.length, (rowAt rows i).sumR = (edgePixels x.gt).card ∧
        (s.params.nms = false → s.params.thinning = false → kill = false →
          (rowAt rows i).sumP = if skip = true ∧ edgePixels x.gt = ∅ then 0 else
            (((Finset.range x.gt.rows ×ˢ Finset.range x.gt.cols).filter fun q =>
              ths.getD i 0 ≤ x.pred.at_ q.1 q.2).card : ℚ)) := by
  obtain ⟨h, -, hrh, -, -⟩ := C49_scaled_size L0.rows s.params.scale hs
  obtain ⟨w, -, hrw, -, -⟩ := C49_scaled_size L0.cols s.params.scale hs
  have h34 : 34 ≤ h := by
    have : (33 : ℚ) < h := by linarith [hrh.2]
    have : 33 < h := by exact_mod_cast this
    omega
  have hw1 : 1 ≤ w := by
    have : (0 : ℚ) < w := by linarith [hrw.2]
    have : 0 < w := by exact_mod_cast this
    omega
  obtain ⟨l, x, L, I, a1, a2, a3, a4, a5, a6, a7, a8, a9, a10, a11, a12, a13⟩ := C49_otf_inputs env.lib env.pics hne s sp kill
    radius c h1 h2 h3 hc hc1 hc2 hs H L0 P hL hP hip
    (fun ip h => by obtain ⟨i0, -, b, d⟩ := hI ip h; exact ⟨i0, b, d⟩) h w hrh hrw h34 hw1
  subst a6 a7
  have hok : OtfInputsOk L0 P I0 s.params.scale radius c kill x := by
    refine ⟨l, L, I, a1, hrh, hrw, a3, ?_, ?_, a8, a9, a10, a11, a12, a13⟩
    · intro h0
      apply a4
      cases hip' : s.instPath with
      | none => rfl
      | some ip =>
        obtain ⟨i0, e0, -⟩ := hI ip hip'
        rw [h0] at e0; cases e0
    · intro i0 e0
      cases hip' : s.instPath with
      | none => rw [hI' hip'] at e0; cases e0
      | some ip =>
        obtain ⟨i0', e1, e2, -⟩ := hI ip hip'
        rw [e0] at e1; cases e1
        obtain ⟨I0', im, e3, e4, e5, e6, e7⟩ := a5 ip hip'
        rw [e2] at e3; cases e3
        exact ⟨im, e4, e5, e6, e7⟩
  have hbin : ∀ i j, i < x.gt.rows → j < x.gt.cols → x.gt.at_ i j = 0 ∨ x.gt.at_ i j = 1 := by
    intro i j hi hj
    by_cases ho : OtfEdge radius L I l (i, j)
    · exact Or.inr ((a8 i hi j hj).1 ho)
    · exact Or.inl ((a8 i hi j hj).2 ho)
  have hshape : (preNms (options env s.params kill skip).nms x.pred).rows = x.gt.rows ∧
      (preNms (options env s.params kill skip).nms x.pred).cols = x.gt.cols := by
    unfold options preNms
    cases s.params.nms
    · exact ⟨a9, a10⟩
    · exact ⟨(hnms _).1.trans a9, (hnms _).2.trans a10⟩
  obtain ⟨F, rows, hF⟩ := C10_multi_label_total ths x.pred x.gt x.seg (options env s.params kill skip) rnd hx hd hshape
    (fun hkill => by
      obtain ⟨m, m1, -, m3, m4, -⟩ := a13 hkill
      exact ⟨m, m1, m3, m4⟩)
  have hrun : ∀ fuel, F ≤ fuel → multiLabelSingle { env with fuel := fuel } .otf arg s rnd = .ok (some rows) := by
    intro fuel hf
    unfold multiLabelSingle
    simp only [if_true, a2, h2, h4, hth, kw]
    exact hF fuel hf
  have hseg : SegOk x.seg := by
    intro m hm hb
    cases hkill : kill with
    | false => rw [a12 hkill] at hm; cases hm
    | true =>
      obtain ⟨m', m1, m2, -⟩ := a13 hkill
      rw [m1] at hm; cases hm
      rw [m2] at hb; cases hb
  refine ⟨x, F, rows, hok, hrun, ?_, ?_⟩
  · exact C10_multi_label_counts F ths x.pred x.gt x.seg _ rnd rows hx hseg
      (fun i j hi hj => (hbin i j hi hj).imp_right fun e => e.ge) (hF F le_rfl)
  · intro i hi
    obtain ⟨t1, t2, t3, t4⟩ := C10_multi_label_totals F ths x.pred x.gt x.seg _ rnd rows hx hseg hbin (hF F le_rfl) i hi
    refine ⟨t1, ?_⟩
    intro g1 g2 g3
    have hpn : preNms (options env s.params kill skip).nms x.pred = x.pred := by
      unfold options preNms
      rw [g1]; rfl
    rw [hpn] at t3 t4
    have hplain : ∀ p, Processed F (options env s.params kill skip).thin x.pred (ths.getD i 0) p →
        edgePixels p = (Finset.range x.gt.rows ×ˢ Finset.range x.gt.cols).filter fun q =>
          ths.getD i 0 ≤ x.pred.at_ q.1 q.2 := by
      intro p hp
      rw [hp.plain g2, a9, a10]
    by_cases he : edgePixels x.gt = ∅
    · cases hsk : skip with
      | true =>
        rw [if_pos ⟨rfl, he⟩, t2 he hsk]
      | false =>
        rw [if_neg (by simp)]
        obtain ⟨p, hp, hrow⟩ := t3 he hsk
        rw [hrow, ← hplain p hp]
    · rw [if_neg (fun h => he h.2)]
      obtain ⟨p, hp, hrow⟩ := t4 he g3
      rw [hrow, ← hplain p hp]

/-! ## BSDS -/

/-- C49: one BSDS sample. When the `.mat` file and the prediction exist and every annotation has the prediction's
size, the sub-routine returns consistent counts: `sum_r` adds up the boundary pixels of all annotators, and
without NMS and thinning `sum_p` counts the responses (file value over 255) reaching the threshold. The scale plays
no role. -/
theorem C49_bsds_single (env : Env) (hne : NoEmptyPictures env.pics) (hnms : KeepsShape env.nms) (arg : ThresholdArg)
    (ths : List ℚ) (hth : checkThresholds arg = .ok ths) (rnd : Nat → Nat → Nat → ℚ) (hx : UnitStreams rnd) (s : Sample)
    (gp : Str) (h1 : s.edgePath = some gp) (hd : 0 < s.params.maxDist) (P : Img Nat) (G : List (Img Nat))
    (hP : env.pics.gray s.predPath = some P) (hG : env.pics.mat gp = .ok G)
    (hsize : ∀ g ∈ G, g.rows = P.rows ∧ g.cols = P.cols)
    (hbin : ∀ g ∈ G, ∀ i j, i < g.rows → j < g.cols → g.at_ i j = 0 ∨ g.at_ i j = 1) :
    ∃ F rows, (∀ fuel, F ≤ fuel → ∀ scale, bsdsSingle { env with fuel := fuel } arg
        { s with params := { s.params with scale := scale } } rnd = .ok (some rows)) ∧
      Spec.Sane ths.length (toCounts rows) ∧
      ∀ k < ths.length,
        (rowAt rows k).sumR = ((G.map fun g => ((Finset.range P.rows ×ˢ Finset.range P.cols).filter fun q =>
          g.at_ q.1 q.2 = 1).card).sum : Nat) ∧
        (s.params.nms = false → s.params.thinning = false →
          (rowAt rows k).sumP = (((Finset.range P.rows ×ˢ Finset.range P.cols).filter fun q =>
              ths.getD k 0 ≤ (P.at_ q.1 q.2 : ℚ) / 255).card : ℚ)) := by
  set pred : Img ℚ := ⟨P.rows, P.cols, fun i j => (P.at_ i j : ℚ) / 255⟩ with hpred
  set gts : List (Img ℚ) := G.map fun g => ⟨g.rows, g.cols, fun i j => (g.at_ i j : ℚ)⟩ with hgts
  set nms : Option (Img ℚ → Img ℚ) := if s.params.nms then some env.nms else none with hn
  have hshape : (preNms nms pred).rows = P.rows ∧ (preNms nms pred).cols = P.cols := by
    unfold preNms
    rw [hn]
    cases s.params.nms
    · exact ⟨rfl, rfl⟩
    · exact ⟨(hnms pred).1, (hnms pred).2⟩
  obtain ⟨pr, pc⟩ := hne.2 _ _ hP
  obtain ⟨F, rows, hF⟩ := C10_multiple_gts_total ths pred gts s.params.maxDist s.params.thinning nms rnd hx hd
    (by
      intro gt hg
      obtain ⟨g, hg', rfl⟩ := List.mem_map.1 hg
      exact ⟨hshape.1.trans (hsize g hg').1.symm, hshape.2.trans (hsize g hg').2.symm⟩)
    (by rw [hshape.1, hshape.2]; exact ⟨pr, pc⟩)
  have hb : ∀ gt ∈ gts, ∀ i j, i < gt.rows → j < gt.cols → gt.at_ i j = 0 ∨ gt.at_ i j = 1 := by
    intro gt hg i j hi hj
    obtain ⟨g, hg', rfl⟩ := List.mem_map.1 hg
    rcases hbin g hg' i j hi hj with e | e
    · left; show ((g.at_ i j : Nat) : ℚ) = 0; rw [e]; rfl
    · right; show ((g.at_ i j : Nat) : ℚ) = 1; rw [e]; rfl
  refine ⟨F, rows, ?_, ?_, ?_⟩
  · intro fuel hf scale
    unfold bsdsSingle bsdsPred bsdsGts
    simp only [h1, kw, hth, hP, hG, load, bind, Except.bind]
    exact hF fuel hf
  · exact C10_multiple_gts_counts F ths pred gts _ _ _ rnd rows hx
      (fun gt hg i j hi hj => (hb gt hg i j hi hj).imp_right fun e => e.ge) (hF F le_rfl)
  · intro k hk
    obtain ⟨p, hp, t1, t2⟩ := C10_multiple_gts_totals F ths pred gts _ _ _ rnd rows hx hb (hF F le_rfl) k hk
    constructor
    · rw [t1, hgts, List.map_map]
      congr 2
      apply List.map_congr_left
      intro g hg
      show (edgePixels _).card = _
      congr 1
      ext ⟨i, j⟩
      simp only [edgePixels, (hsize g hg).1, (hsize g hg).2, Finset.mem_filter, Finset.mem_product, Finset.mem_range]
      constructor
      · rintro ⟨⟨hi, hj⟩, hv⟩
        refine ⟨⟨hi, hj⟩, ?_⟩
        rcases hbin g hg i j (by rw [(hsize g hg).1]; exact hi) (by rw [(hsize g hg).2]; exact hj) with e | e
        · rw [e] at hv; exact absurd rfl hv
        · exact e
      · rintro ⟨hij, hv⟩
        exact ⟨hij, by rw [hv]; norm_num⟩
    · intro g1 g2
      rw [t2]
      have hnn : nms = none := by rw [hn, g1]; rfl
      rw [hnn, g2] at hp
      rw [hp.plain rfl]
      rfl

/-- C49, finding: the generic binary dataset cannot evaluate anything. With both files present and at least one threshold the call raises
`AttributeError` whatever the pictures are (the annotations are a list, the routine wants one array). -/
theorem C49_generic_binary_fails (env : Env) (arg : ThresholdArg) (ths : List ℚ) (hth : checkThresholds arg = .ok ths)
    (hne : ths ≠ []) (s : Sample) (gp : Str) (h1 : s.edgePath = some gp) (P : Img Nat) (G : List (Img Nat))
    (hP : env.pics.gray s.predPath = some P) (hG : env.pics.mat gp = .ok G) :
    ∃ F, ∀ fuel, F ≤ fuel → genericSingle { env with fuel := fuel } arg s = .error .attributeError := by
  cases ths with
  | nil => exact absurd rfl hne
  | cons t ts =>
    obtain ⟨F, p, hF⟩ := processPred_total s.params.thinning
      (preNms (if s.params.nms then some env.nms else none) ⟨P.rows, P.cols, fun i j => (P.at_ i j : ℚ) / 255⟩) t
    refine ⟨F, fun fuel hf => ?_⟩
    unfold genericSingle bsdsPred bsdsGts
    simp only [h1, kw, hth, hP, hG, load, bind, Except.bind]
    unfold overThresholds
    rw [hF fuel hf]
    rfl

/-! ## Concrete cases -/

/-- A 34×2 label map: 17 rows of road (label 7) above 17 rows of sidewalk (label 8); a prediction; two annotations. -/
def exOtf : Pictures where
  rgb _ := none
  gray p := if p = ['l'] then some ⟨34, 2, fun i _ => if i < 17 then 7 else 8⟩
    else if p = ['p'] then some ⟨34, 2, fun i _ => if i = 16 then 255 else 0⟩ else none
  mat p := if p = ['m'] then .ok [⟨34, 2, fun i _ => if i = 16 then 1 else 0⟩, ⟨34, 2, fun i _ => if i = 17 then 1 else 0⟩]
    else .error .assertionError

theorem exOtf_nonempty : NoEmptyPictures exOtf := by
  constructor
  · intro p E h; cases h
  · intro p P h
    simp only [exOtf] at h
    split at h
    · cases h; exact ⟨by decide, by decide⟩
    · split at h
      · cases h; exact ⟨by decide, by decide⟩
      · cases h

/-- A sample of the category "road". -/
def exOtfSample : Sample :=
  { name := ['x'], category := 1, edgePath := some ['m'], segPath := some ['l'], instPath := none, predPath := ['p']
    params := { scale := 1, thinning := false, nms := false, maxDist := 1 / 50, killInternal := some true,
                skipIfNonexistent := some false, radius := some 1 } }

/-- The ground truth made on the fly marks the road pixel next to the sidewalk, and not the top of the road. -/
example : ∃ x, otfInputs (refLib 1) exOtf exOtfSample = .ok x ∧ x.gt.at_ 16 0 = 1 ∧ x.gt.at_ 0 0 = 0 := by
  obtain ⟨l, x, L, I, hl, hx, ⟨hr, hc, hL⟩, hI, -, -, -, hgt, -⟩ := C49_otf_inputs (refLib 1) exOtf exOtf_nonempty exOtfSample
    ['l'] true 1 1 rfl rfl rfl rfl (by decide) (by decide) (by norm_num [exOtfSample]) (by simpa using refLib_exact 1 true 0)
    _ _ rfl rfl (by simp [exOtfSample]) (by intro ip h; cases h) 34 2
    (by constructor <;> norm_num [exOtfSample]) (by constructor <;> norm_num [exOtfSample]) (by decide) (by decide)
  have hl7 : l = 7 := by
    have : ∀ kv ∈ cityscapesLabel2TrainId, kv.2 = 0 → kv.1 = 7 := by decide
    have h7 : (l : Int) = 7 := this _ hl rfl
    exact_mod_cast h7
  subst hl7
  have hv : ∀ i < 34, ∀ j < 2, L.at_ i j = if i < 17 then 7 else 8 := by
    intro i hi j hj
    obtain ⟨p, q, c1, c2, e⟩ := hL i (by omega) j (by omega)
    rw [hr] at c1
    rw [hc] at c2
    obtain rfl := cell_unique c1 (cell_same hi)
    rw [e]
  have hmem : ∀ i < 34, ∀ j < 2, ((i, j) ∈ valuePx L 7 ↔ i < 17) := by
    intro i hi j hj
    show (_ ∧ L.at_ i j = 7) ↔ _
    rw [hv i hi j hj]
    refine ⟨fun h => by by_contra hcon; rw [if_neg hcon] at h; simp at h, fun h => ⟨?_, if_pos h⟩⟩
    exact ⟨by rw [hr]; exact hi, by rw [hc]; exact hj⟩
  have hnoig : ∀ q : Px, q ∉ cityIgnored L := by
    rintro ⟨i, j⟩ ⟨hq, h⟩
    have h1 : i < 34 := by rw [← hr]; exact hq.1
    have h2 : j < 2 := by rw [← hc]; exact hq.2
    simp only [hv i h1 j h2] at h
    split at h <;> omega
  have hI0 : I = none := hI rfl
  have dist : ∀ p q : Px, pdist p q ≤ 1 → p.1 ≤ q.1 + 1 ∧ q.1 ≤ p.1 + 1 := by
    intro p q h
    unfold pdist at h
    rw [Real.sqrt_le_left (by norm_num), one_pow] at h
    have h2 : ((p.1 : ℝ) - q.1) ^ 2 ≤ 1 := by nlinarith [sq_nonneg ((p.2 : ℝ) - q.2)]
    have h3 := abs_le_one_iff_mul_self_le_one.2 (by nlinarith : ((p.1 : ℝ) - q.1) * ((p.1 : ℝ) - q.1) ≤ 1)
    obtain ⟨a, b⟩ := abs_le.1 h3
    exact ⟨by exact_mod_cast (by linarith : (p.1 : ℝ) ≤ q.1 + 1), by exact_mod_cast (by linarith : (q.1 : ℝ) ≤ p.1 + 1)⟩
  refine ⟨x, hx, (hgt 16 (by decide) 0 (by decide)).1 ?_, (hgt 0 (by decide) 0 (by decide)).2 ?_⟩
  · refine ⟨⟨(16, 0), (hmem 16 (by decide) 0 (by decide)).2 (by decide)⟩, Or.inl (Or.inl ⟨(hmem 16 (by decide) 0 (by decide)).2
      (by decide), (17, 0), ⟨by rw [hr]; decide, by rw [hc]; decide⟩, fun h => ?_, hnoig _, ?_⟩)⟩
    · exact absurd ((hmem 17 (by decide) 0 (by decide)).1 h) (by decide)
    · simp only [pdist]; norm_num
  · rintro ⟨-, hb | ⟨im, v, h, -⟩⟩
    · rcases hb with ⟨-, ⟨i, j⟩, hq, hn, -, hd⟩ | ⟨hn, -⟩ | ⟨hn, -⟩
      · have h1 := dist _ _ (by exact_mod_cast hd)
        have hi : i < 34 := by rw [← hr]; exact hq.1
        have hj : j < 2 := by rw [← hc]; exact hq.2
        exact hn ((hmem i hi j hj).2 (by have := h1.2; simp at this; omega))
      · exact hn ((hmem 0 (by decide) 0 (by decide)).2 (by decide))
      · exact hn ((hmem 0 (by decide) 0 (by decide)).2 (by decide))
    · rw [hI0] at h; cases h

/-- The same files at half the scale are refused: 17 rows are fewer than 34. -/
example : otfInputs (refLib 1) exOtf { exOtfSample with params := { exOtfSample.params with scale := 1 / 2 } } =
    .error .assertionError :=
  C49_otf_rejects_small (refLib 1) exOtf _ ['l'] true 1 1 rfl rfl rfl rfl (by decide) (by decide) (by norm_num) _ _ rfl rfl
    17 1 (by constructor <;> norm_num) (by constructor <;> norm_num) (by decide) (by decide) (by decide)

/-- A BSDS sample with two annotators. -/
example : ∃ F rows, (∀ fuel, F ≤ fuel → bsdsSingle ⟨exOtf, refLib 1, id, fun _ _ => 0, fuel⟩ (.list [1 / 2]) exOtfSample
    (fun _ _ _ => 1 / 2) = .ok (some rows)) ∧ (rowAt rows 0).sumR = 4 ∧ (rowAt rows 0).sumP = 2 := by
  obtain ⟨F, rows, h1, -, h3⟩ := C49_bsds_single ⟨exOtf, refLib 1, id, fun _ _ => 0, 0⟩ exOtf_nonempty (fun _ => ⟨rfl, rfl⟩)
    (.list [1 / 2]) [1 / 2] rfl (fun _ _ _ => 1 / 2) (fun _ _ _ => by norm_num) exOtfSample ['m'] rfl
    (by norm_num [exOtfSample]) _ _ rfl rfl (by
      intro g hg
      simp only [List.mem_cons, List.not_mem_nil, or_false] at hg
      rcases hg with rfl | rfl <;> exact ⟨rfl, rfl⟩) (by
      intro g hg i j _ _
      simp only [List.mem_cons, List.not_mem_nil, or_false] at hg
      rcases hg with rfl | rfl <;> (simp only; split <;> simp))
  refine ⟨F, rows, fun fuel hf => h1 fuel hf 1, ?_, ?_⟩
  · rw [(h3 0 (by decide)).1]; decide +kernel
  · rw [(h3 0 (by decide)).2 rfl rfl]
    decide +kernel

/-- The generic binary dataset on the same sample. -/
example : ∃ F, ∀ fuel, F ≤ fuel → genericSingle ⟨exOtf, refLib 1, id, fun _ _ => 0, fuel⟩ (.list [1 / 2])
    { exOtfSample with edgePath := some ['m'] } = .error .attributeError :=
  C49_generic_binary_fails ⟨exOtf, refLib 1, id, fun _ _ => 0, 0⟩ (.list [1 / 2]) [1 / 2] rfl (by simp)
    { exOtfSample with edgePath := some ['m'] } ['m'] rfl _ _ rfl rfl

end EdgeEval.Props
