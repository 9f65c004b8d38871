import Verif.Props.Otf
import Verif.Model.Convert

/-!
# C52: the ground truth made by the Cityscapes converter
-/

namespace EdgeEval.Props

open Spec Text Evaluators Samples Datasets EdgeEval.Convert

/-! ## Specification -/

/-- Resampling with OpenCV's nearest neighbour: both rows of pixels are drawn on the unit interval, and the *start* of
the new pixel `x` lies in the old pixel `p`. -/
def StartCell (n m x p : Nat) : Prop :=
  p < n ∧ (p : ℚ) / n ≤ (x : ℚ) / m ∧ (x : ℚ) / m < ((p : ℚ) + 1) / n

/-- The picture the edges are computed from: the file itself, or the file resampled to the scaled size of the label
map `L0` when `scaled`. -/
def Source (scaled : Prop) (scale : ℚ) (L0 F L : Img Nat) : Prop :=
  (¬ scaled → L = F) ∧
  (scaled → RoundsTo (L0.rows * scale) L.rows ∧ RoundsTo (L0.cols * scale) L.cols ∧ Resampled F L)

/-- The edges of label `l` (trainId `t`) in a stack of class maps are the documented boundary pixels. -/
def Documented (r : ℝ) (L : Img Nat) (I : Option (Img Nat)) (e : MLEdges) : Prop :=
  e.n = 19 ∧ e.h = L.rows ∧ e.w = L.cols ∧
    ∀ l t : Nat, ((l : Int), (t : Int)) ∈ cityscapesLabel2TrainId → ∀ i < L.rows, ∀ j < L.cols,
      (e.at_ t i j = true ↔ OtfEdge r L I l (i, j))

/-- The size of an encoded picture. -/
def encSize : Encoded → Nat × Nat
  | .png im => (im.h, im.w)
  | .tif im => (im.rows, im.cols)

/-- Bit `t` of an encoded pixel: of the 24-bit colour, or of the 32-bit word. -/
def encBit : Encoded → Nat → Nat → Nat → Bool
  | .png im, t, i, j => colourBit im i j t
  | .tif im, t, i, j => (im.at_ i j).testBit t

/-- The picture matches the extension. -/
def EncodedAs (ext : Str) : Encoded → Prop
  | .png _ => ext = ".png".toList
  | .tif _ => ext = ".tif".toList

/-- The files of one sample: the label map `L0`, and the instance map `I0` of the same size with five-digit ids when
instances are distinguished. -/
structure SampleFiles (pics : Pictures) (o : ConvOpts) (f : Str) (L0 : Img Nat) (I0 : Option (Img Nat)) : Prop where
  label : pics.gray f = some L0
  inst : o.inst = true → ∃ im, I0 = some im ∧ pics.gray (instFile o f) = some im ∧ im.rows = L0.rows ∧
    im.cols = L0.cols ∧ ∀ i < im.rows, ∀ j < im.cols, im.at_ i j < 100000
  noInst : o.inst = false → I0 = none

/-! ## Lemmas -/

/-- convert_cityscapes.py:140-155 without the file accesses. -/
noncomputable def edgesRun (lib : DTLib) (fuel : Nat) (radius : Int) (thin : Bool) (m : MLEdges) :
    Option (Img Nat) → Run MLEdges
  | some im => loopInstMask2Edge lib { radius := radius } fuel thin m im cityscapesInstLabelIds [2, 3]
  | none => loopMask2Edge lib { radius := radius } fuel thin m [2, 3]

theorem city_ignore {e : MLEdges} (en : e.n = 34) : ∀ k ∈ ([2, 3] : List Int), 0 ≤ k ∧ k < (e.n : Int) := by
  intro k hk; rw [en]
  simp only [List.mem_cons, List.not_mem_nil, or_false] at hk
  rcases hk with rfl | rfl <;> decide

theorem city_table : (∀ kv ∈ cityscapesLabel2TrainId, 7 ≤ kv.1 ∧ kv.1 < 34 ∧ 0 ≤ kv.2 ∧ kv.2 < 19) ∧
    (cityscapesLabel2TrainId.map Prod.snd).Nodup ∧ cityscapesLabel2TrainId.length = 19 := by
  refine ⟨?_, ?_, ?_⟩ <;> decide

/-- The class maps by trainId of a finished loop. -/
theorem train_channels {ids : MLEdges} (hn : ids.n = 34) : ∃ e, edgeToTrainId ids cityscapesLabel2TrainId = .ok e ∧
    e.n = 19 ∧ e.h = ids.h ∧ e.w = ids.w ∧
    ∀ l t : Nat, ((l : Int), (t : Int)) ∈ cityscapesLabel2TrainId → ∀ i j, e.at_ t i j = ids.at_ l i j := by
  obtain ⟨h1, h2, h3⟩ := city_table
  obtain ⟨e, a1, a2, a3, a4, a5⟩ := C24_edge_trainId ids cityscapesLabel2TrainId (by
    intro kv hkv
    obtain ⟨b1, b2, b3, b4⟩ := h1 kv hkv
    rw [hn, h3]
    exact ⟨by omega, by exact_mod_cast b2, b3, by exact_mod_cast b4⟩) h2
  refine ⟨e, a1, by rw [a2, h3], a3, a4, ?_⟩
  intro l t hlt i j
  simpa using a5 _ _ hlt i j

/-- Without thinning: the class maps are the documented ones. -/
theorem city_edges (lib : DTLib) (fuel r : Nat) (H : SoundDT lib true 0 r) (L : Img Nat) (I : Option (Img Nat))
    (hrows : 34 ≤ L.rows)
    (hI : ∀ im, I = some im → im.rows = L.rows ∧ im.cols = L.cols ∧ ∀ i < im.rows, ∀ j < im.cols, im.at_ i j < 100000) :
    ∃ m ids e, mask2onehot ⟨L.rows, L.cols, fun i j => (L.at_ i j : Int)⟩ cityscapesLabelIds = .ok m ∧
      m.n = 34 ∧ m.h = L.rows ∧ m.w = L.cols ∧
      edgesRun lib fuel r false m I = .ok (some ids) ∧ ids.n = 34 ∧ ids.h = L.rows ∧ ids.w = L.cols ∧
      edgeToTrainId ids cityscapesLabel2TrainId = .ok e ∧ Documented r L I e := by
  obtain ⟨m, hm, en, eh, ew, ea⟩ := onehot_city L hrows
  have hig := city_ignore en
  have hgn : ignoredPx m [2, 3] = cityIgnored L := ignoredPx_city eh ew ea
  have hall : allPx m = pxSet L.rows L.cols := by unfold allPx; rw [eh, ew]
  have hrad : (((r : Int) : ℝ)) = (r : ℝ) := by push_cast; rfl
  suffices hs : ∃ ids, edgesRun lib fuel r false m I = .ok (some ids) ∧ ids.n = 34 ∧ ids.h = L.rows ∧ ids.w = L.cols ∧
      ∀ l : Nat, 7 ≤ l → l < 34 → ∀ i < L.rows, ∀ j < L.cols, (ids.at_ l i j = true ↔ OtfEdge r L I l (i, j)) by
    obtain ⟨ids, s1, s2, s3, s4, s5⟩ := hs
    obtain ⟨e, t1, t2, t3, t4, t5⟩ := train_channels s2
    refine ⟨m, ids, e, hm, en, eh, ew, s1, s2, s3, s4, t1, t2, by rw [t3, s3], by rw [t4, s4], ?_⟩
    intro l t hlt i hi j hj
    obtain ⟨b1, b2, -⟩ := city_table.1 _ hlt
    simp only at b1 b2
    rw [t5 l t hlt, s5 l (by omega) (by omega) i hi j hj]
  cases hI0 : I with
  | none =>
    obtain ⟨out, o1, o2, o3, o4, o5⟩ := C28_semantic_edges lib { radius := r } rfl H
      (Int.natCast_nonneg _) fuel m [2, 3] hig (by decide)
    refine ⟨out, o1, by rw [o2, en], by rw [o3, eh], by rw [o4, ew], ?_⟩
    intro l hl7 hl34 i hi j hj
    have hcl : classPx m l = valuePx L l := classPx_city eh ew ea hl34
    have hlig : ((l : Nat) : Int) ∉ ([2, 3] : List Int) := by
      simp only [List.mem_cons, List.not_mem_nil, or_false]; omega
    rw [o5 l i j (by rw [en]; exact hl34) (by rw [eh]; exact hi) (by rw [ew]; exact hj), hcl, hgn, hall]
    simp only [hrad]
    unfold OtfEdge
    constructor
    · rintro ⟨-, hb⟩
      refine ⟨?_, Or.inl hb⟩
      rcases hb with ⟨hm, -⟩ | ⟨-, -, q, hq, -⟩ | ⟨-, -, q, -, -, -, q', hq', -⟩
      exacts [⟨_, hm⟩, ⟨_, hq⟩, ⟨_, hq'⟩]
    · rintro ⟨-, hb | ⟨im, v, hcontra, -⟩⟩
      · exact ⟨hlig, hb⟩
      · cases hcontra
  | some im =>
    obtain ⟨ir, ic, h5⟩ := hI im hI0
    obtain ⟨out, o1, o2, o3, o4, o5⟩ := C30_instance_edges lib { radius := r } rfl H
      (Int.natCast_nonneg _) fuel m im ⟨by rw [ir, eh], by rw [ic, ew]⟩ cityscapesInstLabelIds 24 (by decide) (by decide)
      [2, 3] hig (by decide) (fun i j hi hj => h5 i hi j hj)
    refine ⟨out, o1, by rw [o2, en], by rw [o3, eh], by rw [o4, ew], ?_⟩
    intro l hl7 hl34 i hi j hj
    have hcl : classPx m l = valuePx L l := classPx_city eh ew ea hl34
    have hlig : ((l : Nat) : Int) ∉ ([2, 3] : List Int) := by
      simp only [List.mem_cons, List.not_mem_nil, or_false]; omega
    have hinstpx : ∀ v, instPx m im v = valuePx im v := by
      intro v; unfold instPx valuePx; rw [eh, ew, ir, ic]
    rw [o5 l i j (by rw [en]; exact hl34) (by rw [eh]; exact hi) (by rw [ew]; exact hj), hcl, hgn, hall]
    simp only [hrad, hinstpx]
    unfold OtfEdge
    constructor
    · rintro ⟨-, hn, hb | ⟨v, hv1, hv2, hv3, hv4⟩⟩
      · exact ⟨hn, Or.inl hb⟩
      · exact ⟨hn, Or.inr ⟨im, v, rfl, hv2, hv3, hv1, hv4⟩⟩
    · rintro ⟨hn, hb | ⟨im', v, him, hv2, hv3, hv1, hv4⟩⟩
      · exact ⟨hlig, hn, Or.inl hb⟩
      · cases him
        exact ⟨hlig, hn, Or.inr ⟨v, hv1, hv2, hv3, hv4⟩⟩

/-- With thinning: the class maps are thinned versions of the documented ones. -/
theorem city_thin (lib : DTLib) (fuel : Nat) (r : Nat) (H : SoundDT lib true 0 r) (L : Img Nat)
    (I : Option (Img Nat)) (hrows : 34 ≤ L.rows) (hf : L.rows * L.cols + 1 ≤ fuel)
    (hI : ∀ im, I = some im → im.rows = L.rows ∧ im.cols = L.cols ∧ ∀ i < im.rows, ∀ j < im.cols, im.at_ i j < 100000) :
    ∃ m thin e te, mask2onehot ⟨L.rows, L.cols, fun i j => (L.at_ i j : Int)⟩ cityscapesLabelIds = .ok m ∧
      edgesRun lib fuel r true m I = .ok (some thin) ∧
      edgeToTrainId thin cityscapesLabel2TrainId = .ok te ∧ te.n = 19 ∧ te.h = L.rows ∧ te.w = L.cols ∧
      Documented r L I e ∧
      ∀ t < 19, edgeSet (toImg L.rows L.cols (te.at_ t)) ⊆ edgeSet (toImg L.rows L.cols (e.at_ t)) ∧
        SameTopology (edgeSet (toImg L.rows L.cols (e.at_ t))) (edgeSet (toImg L.rows L.cols (te.at_ t))) := by
  obtain ⟨m, ids, e, hm, mn, mh, mw, hrun, idn, idh, idw, he, hdoc⟩ := city_edges lib fuel r H L I hrows hI
  obtain ⟨ign, hign, -⟩ := ignoreMask_ok m [2, 3] (city_ignore mn)
  have hf' : m.h * m.w + 1 ≤ fuel := by rw [mh, mw]; exact hf
  have hT : ∃ out thin, edgesRun lib fuel r false m I = .ok (some out) ∧ edgesRun lib fuel r true m I = .ok (some thin) ∧
      thin.n = m.n ∧ thin.h = m.h ∧ thin.w = m.w ∧
      ∀ k < m.n,
        edgeSet (toImg m.h m.w (thin.at_ k)) ⊆ edgeSet (toImg m.h m.w (out.at_ k)) ∧
        SameTopology (edgeSet (toImg m.h m.w (out.at_ k))) (edgeSet (toImg m.h m.w (thin.at_ k))) := by
    cases hI0 : I with
    | none => exact C28_thinned lib _ fuel m [2, 3] ign hign hf'
    | some im =>
      exact C30_thinned lib _ fuel m im cityscapesInstLabelIds [2, 3] (by decide)
        (fun i j hi hj => (hI im hI0).2.2 i hi j hj) ign hign hf'
  obtain ⟨out, thin, t1, t2, t3, t4, t5, t6⟩ := hT
  rw [hrun] at t1
  cases t1
  obtain ⟨te, u1, u2, u3, u4, u5⟩ := train_channels (ids := thin) (by rw [t3, mn])
  obtain ⟨e', v1, v2, v3, v4, v5⟩ := train_channels idn
  rw [he] at v1
  cases v1
  refine ⟨m, thin, e, te, hm, t2, u1, u2, by rw [u3, t4, mh], by rw [u4, t5, mw], hdoc, ?_⟩
  intro t ht
  obtain ⟨l, hl⟩ := trainIds_surj cityscapesLabel2TrainId (fun kv hkv => by
    rw [city_table.2.2]; obtain ⟨-, -, b3, b4⟩ := city_table.1 kv hkv; exact ⟨b3, by exact_mod_cast b4⟩)
    city_table.2.1 t (by rw [city_table.2.2]; exact ht)
  obtain ⟨l7, l34, -⟩ := city_table.1 _ hl
  simp only at l7 l34
  obtain ⟨l, rfl⟩ : ∃ n : Nat, l = n := ⟨l.toNat, by omega⟩
  have e1 : te.at_ t = thin.at_ l := by funext i j; exact u5 l t hl i j
  have e2 : e.at_ t = ids.at_ l := by funext i j; exact v5 l t hl i j
  have := t6 l (by rw [mn]; omega)
  rw [mh, mw] at this
  rw [e1, e2]
  exact this

/-- The encoded picture of a stack of at most 24 class maps. -/
theorem encode_ok {ext : Str} (hext : ext = ".png".toList ∨ ext = ".tif".toList) {e : MLEdges} (hn : e.n ≤ 24) :
    ∃ enc, encode ext e = .ok enc ∧ EncodedAs ext enc ∧ encSize enc = (e.h, e.w) ∧
      ∀ t < 24, ∀ i j, encBit enc t i j = (decide (t < e.n) && e.at_ t i j) := by
  rcases hext with rfl | rfl
  · refine ⟨.png (rgbState e e.n), ?_, rfl, rfl, ?_⟩
    · unfold encode
      rw [if_pos rfl]
      have : rgbEncode e = .ok (rgbState e e.n) := rgb_fold e e.n hn
      rw [this]
    · intro t ht i j
      simp only [encBit, colourBit, rgbState]
      split
      · next h =>
        rw [word_testBit]
        congr 1
        simp [h]
      · split
        · next h1 h2 =>
          rw [word_testBit, show 8 + (t - 8) = t by omega]
          congr 1
          rw [decide_eq_decide]
          omega
        · next h1 h2 =>
          rw [word_testBit, show 16 + (t - 16) = t by omega]
          congr 1
          rw [decide_eq_decide]
          omega
  · obtain ⟨h1, h2, h3⟩ := defaultEncode_eq e
    refine ⟨.tif (defaultEncode e), rfl, rfl, by simp [encSize, h1, h2], ?_⟩
    intro t _ i j
    simp only [encBit, h3, word_testBit]

theorem now_bind {α β : Type} (a : α) (f : α → Run β) : (now (.ok a)).bind f = f a := rfl

/-- The label edges, given the pictures. -/
theorem labelEdges_eq (lib : DTLib) (fuel : Nat) (pics : Pictures) (o : ConvOpts) (f : Str) (h w : Nat) (m : MLEdges)
    (I : Option (Img Nat)) (h0 : o.inst = false → I = none)
    (h1 : o.inst = true → ∃ i0 im, pics.gray (instFile o f) = some i0 ∧ preScaled o h w i0 = .ok im ∧ I = some im) :
    labelEdges lib fuel pics o f h w m = edgesRun lib fuel o.radius o.thin m I := by
  unfold labelEdges
  cases hi : o.inst with
  | false => rw [h0 hi]; rfl
  | true =>
    obtain ⟨i0, im, e1, e2, rfl⟩ := h1 hi
    simp only [if_true, e1, Option.isSome_some, load]
    rw [show assert true = .ok () from rfl, now_bind, now_bind, e2, now_bind]
    rfl

/-- The steps of a conversion that succeeds. -/
theorem convert_run {lib : DTLib} {fuel : Nat} {pics : Pictures} {o : ConvOpts} {f : Str} {L0 L : Img Nat}
    {I : Option (Img Nat)} {m ids e e' : MLEdges} {enc : Encoded} (hthin : o.thin = true → o.radius = 1)
    (hL : pics.gray f = some L0)
    (hext : pathExt (procFile o f) = ".png".toList ∨ pathExt (procFile o f) = ".tif".toList ∨
      pathExt (procFile o f) = ".bin".toList)
    (hpre : preScaled o L0.rows L0.cols L0 = .ok L)
    (hm : mask2onehot ⟨L.rows, L.cols, fun i j => (L.at_ i j : Int)⟩ cityscapesLabelIds = .ok m)
    (h0 : o.inst = false → I = none)
    (h1 : o.inst = true → ∃ i0 im, pics.gray (instFile o f) = some i0 ∧ preScaled o L0.rows L0.cols i0 = .ok im ∧ I = some im)
    (hids : edgesRun lib fuel o.radius o.thin m I = .ok (some ids))
    (he : edgeToTrainId ids cityscapesLabel2TrainId = .ok e) (he' : postScaled o L0.rows L0.cols e = .ok e')
    (henc : encode (pathExt (procFile o f)) e' = .ok enc) :
    convertLabel lib fuel pics o f = .ok (some (procFile o f, enc)) := by
  have a1 : assert (!o.thin || decide (o.radius = 1)) = .ok () := by
    rw [assert_ok]
    cases ht : o.thin with
    | false => rfl
    | true => simp [hthin ht]
  have a2 : assert (decide (pathExt (procFile o f) = ".png".toList ∨ pathExt (procFile o f) = ".tif".toList ∨
      pathExt (procFile o f) = ".bin".toList)) = .ok () := by rw [assert_ok]; simpa using hext
  have a3 : assert (pics.gray f).isSome = .ok () := by rw [assert_ok, hL]; rfl
  have a4 : load (pics.gray f) = .ok L0 := load_ok.2 hL
  unfold convertLabel
  simp only [a1, a2, a3, a4, now_bind, hpre, hm]
  rw [labelEdges_eq lib fuel pics o f _ _ m I h0 h1, hids]
  show (now (edgeToTrainId ids cityscapesLabel2TrainId)).bind _ = _
  rw [he, now_bind, he', now_bind, henc, now_bind]

theorem source_same {o : ConvOpts} (h : ¬ (o.scale < 1 ∧ (o.sealed = false ∨ o.thin = true))) (a b : Nat) (im : Img Nat) :
    preScaled o a b im = .ok im := by
  unfold preScaled
  rw [if_neg h]

theorem source_scaled {o : ConvOpts} (h : o.scale < 1 ∧ (o.sealed = false ∨ o.thin = true)) (hs : 0 ≤ o.scale)
    {L0 : Img Nat} (h1 : 1 / 2 ≤ L0.rows * o.scale) (h2 : 1 / 2 ≤ L0.cols * o.scale) :
    ∃ hh ww : Nat, RoundsTo (L0.rows * o.scale) hh ∧ RoundsTo (L0.cols * o.scale) ww ∧
      ∀ im : Img Nat, 0 < im.rows → 0 < im.cols → ∃ L, preScaled o L0.rows L0.cols im = .ok L ∧ L.rows = hh ∧ L.cols = ww ∧
        Resampled im L ∧ (∀ N, (∀ i < im.rows, ∀ j < im.cols, im.at_ i j < N) → ∀ i < L.rows, ∀ j < L.cols, L.at_ i j < N) := by
  obtain ⟨hh, eh, rh, -, ph⟩ := C49_scaled_size L0.rows o.scale hs
  obtain ⟨ww, ew, rw', -, pw⟩ := C49_scaled_size L0.cols o.scale hs
  have hh1 := ph.2 h1
  have ww1 := pw.2 h2
  refine ⟨hh, ww, rh, rw', ?_⟩
  intro im ir ic
  refine ⟨_, ?_, rfl, rfl, resize_resampled ir ic, ?_⟩
  · unfold preScaled
    rw [if_pos h, eh, ew]
    exact resize_ok.2 ⟨by omega, by omega, rfl⟩
  · intro N hN i hi j hj
    exact hN _ (srcIdx_cell ir hi).1 _ (srcIdx_cell ic hj).1

theorem cvIdx_cell {n m x : Nat} (hn : 0 < n) (hx : x < m) : StartCell n m x (cvIdx n m x) := by
  have hm : (0 : ℚ) < m := by exact_mod_cast (by omega : 0 < m)
  have hn' : (0 : ℚ) < n := by exact_mod_cast hn
  have h0 : (0 : ℚ) ≤ (x : ℚ) * ((n : ℚ) / m) := by positivity
  have hz := Int.floor_nonneg.2 h0
  have h1 := Int.floor_le ((x : ℚ) * ((n : ℚ) / m))
  have h2 := Int.lt_floor_add_one ((x : ℚ) * ((n : ℚ) / m))
  have e : ((⌊(x : ℚ) * ((n : ℚ) / m)⌋.toNat : Nat) : ℚ) = (⌊(x : ℚ) * ((n : ℚ) / m)⌋ : ℚ) := by
    exact_mod_cast congrArg (Int.cast (R := ℚ)) (Int.toNat_of_nonneg hz)
  have hlt : ⌊(x : ℚ) * ((n : ℚ) / m)⌋.toNat < n := by
    have : (x : ℚ) * ((n : ℚ) / m) < n := by
      rw [mul_div_assoc', div_lt_iff₀ hm, mul_comm]
      have : (x : ℚ) < m := by exact_mod_cast hx
      exact mul_lt_mul_of_pos_left this hn'
    have : ((⌊(x : ℚ) * ((n : ℚ) / m)⌋.toNat : Nat) : ℚ) < n := by rw [e]; linarith
    exact_mod_cast this
  have hc : cvIdx n m x = ⌊(x : ℚ) * ((n : ℚ) / m)⌋.toNat := by unfold cvIdx; omega
  rw [hc]
  refine ⟨hlt, ?_, ?_⟩
  · rw [e, div_le_div_iff₀ hn' hm]
    calc _ ≤ (x : ℚ) * ((n : ℚ) / m) * m := by gcongr
      _ = x * n := by field_simp
  · rw [e, div_lt_div_iff₀ hm hn']
    calc (x : ℚ) * n = (x : ℚ) * ((n : ℚ) / m) * m := by field_simp
      _ < _ := by gcongr

/-- The pictures the edges are computed from. -/
theorem sources {pics : Pictures} (hne : NoEmptyPictures pics) {o : ConvOpts} {f : Str} {L0 : Img Nat}
    {I0 : Option (Img Nat)} (hf : SampleFiles pics o f L0 I0) (hs : 0 ≤ o.scale)
    (hc : o.scale < 1 → o.sealed = false ∨ o.thin = true)
    (hbig : if o.scale < 1 then 67 / 2 ≤ L0.rows * o.scale ∧ 1 / 2 ≤ L0.cols * o.scale else 34 ≤ L0.rows) :
    ∃ L I, preScaled o L0.rows L0.cols L0 = .ok L ∧ 34 ≤ L.rows ∧ Source (o.scale < 1) o.scale L0 L0 L ∧
      (o.inst = false → I = none) ∧ (I0 = none → I = none) ∧
      (o.inst = true → ∃ i0 im, pics.gray (instFile o f) = some i0 ∧ preScaled o L0.rows L0.cols i0 = .ok im ∧ I = some im) ∧
      (∀ i0, I0 = some i0 → ∃ im, I = some im ∧ Source (o.scale < 1) o.scale L0 i0 im) ∧
      (∀ im, I = some im → im.rows = L.rows ∧ im.cols = L.cols ∧ ∀ i < im.rows, ∀ j < im.cols, im.at_ i j < 100000) := by
  obtain ⟨lr, lc⟩ := hne.2 _ _ hf.label
  by_cases hlt : o.scale < 1
  · have hcond : o.scale < 1 ∧ (o.sealed = false ∨ o.thin = true) := ⟨hlt, hc hlt⟩
    rw [if_pos hlt] at hbig
    obtain ⟨hh, ww, rh, rw', hall⟩ := source_scaled hcond hs (L0 := L0) (by linarith [hbig.1]) hbig.2
    obtain ⟨L, p1, p2, p3, p4, -⟩ := hall L0 lr lc
    have h34 : 34 ≤ L.rows := by
      rw [p2]
      have : (33 : ℚ) < hh := by linarith [rh.2, hbig.1]
      have : 33 < hh := by exact_mod_cast this
      omega
    have hS : ∀ F L : Img Nat, L.rows = hh → L.cols = ww → Resampled F L → Source (o.scale < 1) o.scale L0 F L :=
      fun F L e1 e2 e3 => ⟨fun h => absurd hlt h, fun _ => ⟨by rw [e1]; exact rh, by rw [e2]; exact rw', e3⟩⟩
    cases hi : o.inst with
    | false =>
      refine ⟨L, none, p1, h34, hS _ _ p2 p3 p4, fun _ => rfl, fun _ => rfl, by simp, ?_, by simp⟩
      intro i0 h
      rw [hf.noInst hi] at h; cases h
    | true =>
      obtain ⟨i0, q1, q2, q3, q4, q5⟩ := hf.inst hi
      obtain ⟨ir, ic⟩ := hne.2 _ _ q2
      obtain ⟨im, s1, s2, s3, s4, s5⟩ := hall i0 ir ic
      refine ⟨L, some im, p1, h34, hS _ _ p2 p3 p4, by simp, ?_, fun _ => ⟨i0, im, q2, s1, rfl⟩, ?_, ?_⟩
      · intro h; rw [q1] at h; cases h
      · intro i1 h
        rw [q1] at h; cases h
        exact ⟨im, rfl, hS _ _ s2 s3 s4⟩
      · rintro _ ⟨⟩
        exact ⟨by rw [s2, p2], by rw [s3, p3], s5 _ q5⟩
  · have hcond : ¬ (o.scale < 1 ∧ (o.sealed = false ∨ o.thin = true)) := fun h => hlt h.1
    rw [if_neg hlt] at hbig
    have hS : ∀ F : Img Nat, Source (o.scale < 1) o.scale L0 F F := fun F => ⟨fun _ => rfl, fun h => absurd h hlt⟩
    cases hi : o.inst with
    | false =>
      refine ⟨L0, none, source_same hcond _ _ _, hbig, hS _, fun _ => rfl, fun _ => rfl, by simp, ?_, by simp⟩
      intro i0 h
      rw [hf.noInst hi] at h; cases h
    | true =>
      obtain ⟨i0, q1, q2, q3, q4, q5⟩ := hf.inst hi
      refine ⟨L0, some i0, source_same hcond _ _ _, hbig, hS _, by simp, ?_,
        fun _ => ⟨i0, i0, q2, source_same hcond _ _ _, rfl⟩, ?_, ?_⟩
      · intro h; rw [q1] at h; cases h
      · intro i1 h
        rw [q1] at h; cases h
        exact ⟨i0, rfl, hS _⟩
      · rintro _ ⟨⟩
        exact ⟨q3, q4, q5⟩

/-! ## C52 -/

/-- C52: without thinning and without resampling of finished edges (scale at least 1, or `seal=False`), the converter
writes one picture, of the size of the label map (resampled before when the scale is below 1), in which bit `t` of
a pixel is set exactly when the pixel is a boundary pixel of the label with trainId `t` (or of one of its
instances, in the instance-sensitive mode); bits from 19 on are unset. -/
theorem C52_contents (lib : DTLib) (fuel r : Nat) (H : SoundDT lib true 0 r) (pics : Pictures)
    (hne : NoEmptyPictures pics) (o : ConvOpts) (f : Str) (L0 : Img Nat) (I0 : Option (Img Nat))
    (hf : SampleFiles pics o f L0 I0) (hext : pathExt (procFile o f) = ".png".toList ∨ pathExt (procFile o f) = ".tif".toList)
    (hr : o.radius = r) (hthin : o.thin = false) (hs : 0 ≤ o.scale) (hseal : 1 ≤ o.scale ∨ o.sealed = false)
    (hbig : if o.scale < 1 then 67 / 2 ≤ L0.rows * o.scale ∧ 1 / 2 ≤ L0.cols * o.scale else 34 ≤ L0.rows) :
    ∃ enc L I, convertLabel lib fuel pics o f = .ok (some (procFile o f, enc)) ∧
      EncodedAs (pathExt (procFile o f)) enc ∧
      Source (o.scale < 1) o.scale L0 L0 L ∧ (I0 = none → I = none) ∧
      (∀ i0, I0 = some i0 → ∃ im, I = some im ∧ Source (o.scale < 1) o.scale L0 i0 im) ∧
      encSize enc = (L.rows, L.cols) ∧
      ∀ i < L.rows, ∀ j < L.cols,
        (∀ l t : Nat, ((l : Int), (t : Int)) ∈ cityscapesLabel2TrainId → (encBit enc t i j = true ↔ OtfEdge r L I l (i, j))) ∧
        (∀ t, 19 ≤ t → t < 24 → encBit enc t i j = false) := by
  obtain ⟨L, I, p1, p34, p2, p3, p4, p5, p6, p7⟩ := sources hne hf hs
    (fun h => Or.inl (hseal.resolve_left (not_le.2 h))) hbig
  obtain ⟨m, ids, e, c1, c2, c3, c4, c5, c6, c7, c8, c9, d1, d2, d3, d4⟩ := city_edges lib fuel r H L I p34 p7
  have hpost : postScaled o L0.rows L0.cols e = .ok e := by
    unfold postScaled
    rw [if_neg]
    rintro ⟨h1, h2, -⟩
    rcases hseal with h | h
    · linarith
    · rw [h] at h2; cases h2
  obtain ⟨enc, f1, f2, f3, f4⟩ := encode_ok hext (e := e) (by omega)
  refine ⟨enc, L, I, ?_, f2, p2, p4, p6, by rw [f3, d2, d3], ?_⟩
  · apply convert_run (by simp [hthin]) hf.label (hext.imp_right Or.inl) p1 c1 p3 p5 ?_ c9 hpost f1
    rw [hr, hthin]
    exact c5
  · intro i hi j hj
    constructor
    · intro l t hlt
      have ht := (city_table.1 _ hlt).2.2.2
      simp only at ht
      rw [f4 t (by omega) i j, d1, ← d4 l t hlt i hi j hj]
      have : t < 19 := by omega
      simp [this]
    · intro t h1 h2
      rw [f4 t h2 i j, d1]
      simp [show ¬ t < 19 by omega]

/-- C52: with scale below 1 and `seal=True` (the default) and without thinning, the edges of the full-size label map
are computed first and resampled afterwards: bit `t` of the pixel `(i, j)` is set exactly when the full-size pixel at
which it starts is a boundary pixel. -/
theorem C52_sealed (lib : DTLib) (fuel r : Nat) (H : SoundDT lib true 0 r) (pics : Pictures)
    (hne : NoEmptyPictures pics) (o : ConvOpts) (f : Str) (L0 : Img Nat) (I0 : Option (Img Nat))
    (hf : SampleFiles pics o f L0 I0) (hext : pathExt (procFile o f) = ".png".toList ∨ pathExt (procFile o f) = ".tif".toList)
    (hr : o.radius = r) (hthin : o.thin = false) (hs : 0 ≤ o.scale) (hs1 : o.scale < 1) (hseal : o.sealed = true)
    (hbig : 34 ≤ L0.rows) (hh1 : 1 / 2 ≤ L0.rows * o.scale) (hw1 : 1 / 2 ≤ L0.cols * o.scale) :
    ∃ enc h w, convertLabel lib fuel pics o f = .ok (some (procFile o f, enc)) ∧
      EncodedAs (pathExt (procFile o f)) enc ∧ encSize enc = (h, w) ∧
      RoundsTo (L0.rows * o.scale) h ∧ RoundsTo (L0.cols * o.scale) w ∧
      ∀ i < h, ∀ j < w, ∃ p q, StartCell L0.rows h i p ∧ StartCell L0.cols w j q ∧
        (∀ l t : Nat, ((l : Int), (t : Int)) ∈ cityscapesLabel2TrainId → (encBit enc t i j = true ↔ OtfEdge r L0 I0 l (p, q))) ∧
        (∀ t, 19 ≤ t → t < 24 → encBit enc t i j = false) := by
  obtain ⟨lr, lc⟩ := hne.2 _ _ hf.label
  have hcond : ¬ (o.scale < 1 ∧ (o.sealed = false ∨ o.thin = true)) := by
    rintro ⟨-, h | h⟩
    · rw [hseal] at h; cases h
    · rw [hthin] at h; cases h
  obtain ⟨m, ids, e, c1, c2, c3, c4, c5, c6, c7, c8, c9, d1, d2, d3, d4⟩ := city_edges lib fuel r H L0 I0 hbig (by
    intro im him
    cases hi : o.inst with
    | false => rw [hf.noInst hi] at him; cases him
    | true =>
      obtain ⟨i0, q1, q2, q3, q4, q5⟩ := hf.inst hi
      rw [q1] at him; cases him
      exact ⟨q3, q4, q5⟩)
  obtain ⟨h, eh, rh, -, ph⟩ := C49_scaled_size L0.rows o.scale hs
  obtain ⟨w, ew, rw', -, pw⟩ := C49_scaled_size L0.cols o.scale hs
  have h1 := ph.2 hh1
  have w1 := pw.2 hw1
  have hpost : postScaled o L0.rows L0.cols e = .ok ⟨e.n, h, w, fun k i j => e.at_ k (cvIdx e.h h i) (cvIdx e.w w j)⟩ := by
    unfold postScaled
    rw [if_pos ⟨hs1, hseal, hthin⟩]
    simp only [eh, ew]
    rw [if_neg (by omega), if_neg (by omega)]
    simp only [Int.toNat_natCast]
  obtain ⟨enc, f1, f2, f3, f4⟩ := encode_ok hext
    (e := ⟨e.n, h, w, fun k i j => e.at_ k (cvIdx e.h h i) (cvIdx e.w w j)⟩) (by show e.n ≤ 24; omega)
  refine ⟨enc, h, w, ?_, f2, f3, rh, rw', ?_⟩
  · apply convert_run (I := I0) (by simp [hthin]) hf.label (hext.imp_right Or.inl) (source_same hcond _ _ _) c1 hf.noInst
      ?_ ?_ c9 hpost f1
    · intro hi
      obtain ⟨i0, q1, q2, -⟩ := hf.inst hi
      exact ⟨i0, i0, q2, source_same hcond _ _ _, q1⟩
    · rw [hr, hthin]
      exact c5
  · intro i hi j hj
    have s1 : StartCell L0.rows h i (cvIdx e.h h i) := by rw [d2]; exact cvIdx_cell lr hi
    have s2 : StartCell L0.cols w j (cvIdx e.w w j) := by rw [d3]; exact cvIdx_cell lc hj
    refine ⟨_, _, s1, s2, ?_, ?_⟩
    · intro l t hlt
      have ht := (city_table.1 _ hlt).2.2.2
      simp only at ht
      rw [f4 t (by omega) i j, ← d4 l t hlt _ s1.1 _ s2.1]
      simp only [d1]
      have : t < 19 := by omega
      simp [this]
    · intro t h1 h2
      rw [f4 t h2 i j]
      simp only [d1]
      simp [show ¬ t < 19 by omega]

/-- C52: with thinning (radius 1), whatever `seal`, the picture has the size of the label map (resampled before when
the scale is below 1), and the pixels with bit `t` are a thinned version of the boundary pixels of the label with
trainId `t`: a subset with the same topology. The call ends. -/
theorem C52_thin (lib : DTLib) (H : SoundDT lib true 0 1) (pics : Pictures)
    (hne : NoEmptyPictures pics) (o : ConvOpts) (f : Str) (L0 : Img Nat) (I0 : Option (Img Nat))
    (hf : SampleFiles pics o f L0 I0) (hext : pathExt (procFile o f) = ".png".toList ∨ pathExt (procFile o f) = ".tif".toList)
    (hr : o.radius = 1) (hthin : o.thin = true) (hs : 0 ≤ o.scale)
    (hbig : if o.scale < 1 then 67 / 2 ≤ L0.rows * o.scale ∧ 1 / 2 ≤ L0.cols * o.scale else 34 ≤ L0.rows) :
    ∃ L I, Source (o.scale < 1) o.scale L0 L0 L ∧ (I0 = none → I = none) ∧
      (∀ i0, I0 = some i0 → ∃ im, I = some im ∧ Source (o.scale < 1) o.scale L0 i0 im) ∧
      ∃ F, ∀ fuel, F ≤ fuel → ∃ enc, convertLabel lib fuel pics o f = .ok (some (procFile o f, enc)) ∧
      EncodedAs (pathExt (procFile o f)) enc ∧ encSize enc = (L.rows, L.cols) ∧
      ∀ l t : Nat, ((l : Int), (t : Int)) ∈ cityscapesLabel2TrainId →
        ∃ full : Nat → Nat → Bool, (∀ i < L.rows, ∀ j < L.cols, (full i j = true ↔ OtfEdge 1 L I l (i, j))) ∧
          edgeSet (toImg L.rows L.cols (encBit enc t)) ⊆ edgeSet (toImg L.rows L.cols full) ∧
          SameTopology (edgeSet (toImg L.rows L.cols full)) (edgeSet (toImg L.rows L.cols (encBit enc t))) := by
  obtain ⟨L, I, p1, p34, p2, p3, p4, p5, p6, p7⟩ := sources hne hf hs (fun _ => Or.inr hthin) hbig
  refine ⟨L, I, p2, p4, p6, L.rows * L.cols + 1, ?_⟩
  intro fuel hfuel
  obtain ⟨m, ids, e, te, c1, c2, c3, c4, c5, c6, ⟨d1, d2, d3, d4⟩, c8⟩ := city_thin lib fuel 1 (by exact_mod_cast H) L I p34 hfuel p7
  have hpost : postScaled o L0.rows L0.cols te = .ok te := by
    unfold postScaled
    rw [if_neg]
    rintro ⟨-, -, h⟩
    rw [hthin] at h; cases h
  obtain ⟨enc, f1, f2, f3, f4⟩ := encode_ok hext (e := te) (by omega)
  refine ⟨enc, ?_, f2, by rw [f3, c5, c6], ?_⟩
  · apply convert_run (fun _ => hr) hf.label (hext.imp_right Or.inl) p1 c1 p3 p5 ?_ c3 hpost f1
    rw [hr, hthin]
    exact c2
  · intro l t hlt
    have ht := (city_table.1 _ hlt).2.2.2
    simp only at ht
    have ht' : t < 19 := by omega
    have hb : encBit enc t = te.at_ t := by
      funext i j
      rw [f4 t (by omega) i j, c4]
      simp [ht']
    refine ⟨e.at_ t, ?_, ?_⟩
    · intro i hi j hj
      have := d4 l t hlt i hi j hj
      simpa using this
    · rw [hb]
      exact c8 t ht'

/-- C52 (finding): at half scale the converter's sealed edges and the evaluator's view of a full-size prediction are
taken from different pixels: the converter keeps pixel `2x`, the evaluator (PIL) keeps pixel `2x + 1`. -/
theorem C52_half_offset (n x : Nat) (hx : x < n) :
    StartCell (2 * n) n x (2 * x) ∧ CellOf (2 * n) n x (2 * x + 1) ∧
    (∀ p, StartCell (2 * n) n x p → p = 2 * x) ∧ (∀ p, CellOf (2 * n) n x p → p = 2 * x + 1) := by
  have hn : (0 : ℚ) < n := by exact_mod_cast (by omega : 0 < n)
  have hc := C49_half_scale n x hx
  have hS : StartCell (2 * n) n x (2 * x) := by
    refine ⟨by omega, ?_, ?_⟩
    · push_cast; rw [mul_div_mul_left _ _ (by norm_num)]
    · push_cast
      rw [div_lt_div_iff₀ hn (by linarith)]
      nlinarith
  refine ⟨hS, hc, ?_, fun p hp => cell_unique hp hc⟩
  rintro p ⟨-, h1, h2⟩
  push_cast at h1 h2
  rw [div_le_div_iff₀ (by linarith) hn] at h1
  rw [div_lt_div_iff₀ hn (by linarith)] at h2
  have a1 : (p : ℚ) ≤ 2 * x := by
    by_contra hcon; push Not at hcon; nlinarith
  have a2 : (2 : ℚ) * x < p + 1 := by
    by_contra hcon; push Not at hcon; nlinarith
  have b1 : p ≤ 2 * x := by exact_mod_cast a1
  have b2 : 2 * x < p + 1 := by exact_mod_cast a2
  omega

end EdgeEval.Props
