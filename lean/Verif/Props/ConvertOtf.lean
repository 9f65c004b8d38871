import Verif.Props.Convert

/-!
# C52: converted ground truth and ground truth made on the fly
-/

namespace EdgeEval.Props

open Spec Text Evaluators Samples Datasets EdgeEval.Convert

theorem srcIdx_self {n : Nat} (hn : 0 < n) (x : Nat) : srcIdx n n x = x := by
  unfold srcIdx
  have hn' : (n : ℚ) ≠ 0 := by exact_mod_cast (by omega : n ≠ 0)
  rw [div_self hn', mul_one]
  have : ⌊(x : ℚ) + 1 / 2⌋ = (x : Int) := by
    rw [Int.floor_eq_iff]
    constructor <;> push_cast <;> linarith
  rw [this]
  simp

theorem scaledSize_one (n : Nat) : scaledSize n 1 = n := by
  obtain ⟨h, e, ⟨r1, r2⟩, -, -⟩ := C49_scaled_size n 1 (by norm_num)
  rw [e]
  rw [mul_one] at r1 r2
  have a : h < n + 1 := by exact_mod_cast (by linarith : (h : ℚ) < n + 1)
  have b : n < h + 1 := by exact_mod_cast (by linarith : (n : ℚ) < h + 1)
  have : h = n := by omega
  rw [this]

theorem resize_self {α : Type} {im : Img α} (h1 : 0 < im.rows) (h2 : 0 < im.cols) :
    resize im (im.rows : Int) (im.cols : Int) = .ok im := by
  rw [resize_ok]
  refine ⟨by omega, by omega, ?_⟩
  simp only [srcIdx_self h1, srcIdx_self h2]

theorem resizeRgb_self {im : Rgb} (h1 : 0 < im.h) (h2 : 0 < im.w) : resizeRgb im (im.h : Int) (im.w : Int) = .ok im := by
  unfold resizeRgb
  rw [if_neg (by omega)]
  simp only [Int.toNat_natCast, srcIdx_self h1, srcIdx_self h2]

/-- The label edges of the converter without thinning exist and contain, channel by channel, what the on-the-fly
evaluator computes for one label. -/
theorem edges_channel (lib : DTLib) (fuel r : Nat) (m : MLEdges) (mn : m.n = 34) (I : Option (Img Nat))
    (hI : ∀ im, I = some im → ∀ i j, i < im.rows → j < im.cols → im.at_ i j < 100000) :
    ∃ ids, edgesRun lib fuel r false m I = .ok (some ids) ∧ ids.n = 34 ∧ ids.h = m.h ∧ ids.w = m.w ∧
      ∀ l < 34, (match I with
        | some im => oneLabelInstMask2Edge lib r 0 true l m im cityscapesInstLabelIds [2, 3]
        | none => oneLabelMask2Edge lib r 0 true l m [2, 3]) = .ok ⟨m.h, m.w, ids.at_ l⟩ := by
  obtain ⟨ign, hign, -⟩ := ignoreMask_ok m [2, 3] (city_ignore mn)
  cases hI0 : I with
  | none =>
    obtain ⟨ids, h1, h2, h3, h4, -⟩ := loop_ok lib { radius := r } fuel m [2, 3] ign hign
    refine ⟨ids, h1, by rw [h2, mn], h3, h4, ?_⟩
    intro l hl
    have := C29_one_label lib r 0 true fuel m [2, 3] l (by omega)
    rw [h1] at this
    exact this
  | some im =>
    obtain ⟨l0, hl0, -, -⟩ := minLabel_spec cityscapesInstLabelIds (by decide)
    obtain ⟨ids, h1, h2, h3, h4, -⟩ := instLoop_ok lib { radius := r } fuel m im cityscapesInstLabelIds [2, 3] ign hign l0 hl0
      (instTable im (l0 * 10 ^ (5 - 2))) (labelInst_loop im _ (hI im hI0))
    refine ⟨ids, h1, by rw [h2, mn], h3, h4, ?_⟩
    intro l hl
    have := C29_one_label_instances lib r 0 true fuel m im cityscapesInstLabelIds [2, 3] (by decide) (by decide)
      (hI im hI0) l (by omega)
    rw [h1] at this
    exact this

/-- C52: evaluating against converted ground truth gives exactly the result of evaluating against ground truth made on
the fly.  `f` is a label map, converted with radius `r`, without thinning, at scale 1, to the PNG picture `E`; the
ordinary sample `s` reads `E` and a segmentation with the trainIds of the label map; the on-the-fly sample reads the
label map itself (and the instance map the converter used) with the same radius.  Nothing is assumed of the distance
transform. -/
theorem C52_same_as_otf (env : Env) (hne : NoEmptyPictures env.pics) (fuel r : Nat) (o : ConvOpts) (f out : Str)
    (L0 : Img Nat) (I0 : Option (Img Nat)) (hf : SampleFiles env.pics o f L0 I0) (hinst : instFile o f ≠ [])
    (hr : o.radius = r) (hthin : o.thin = false) (hscale : o.scale = 1) (E : Rgb)
    (hconv : convertLabel env.lib fuel env.pics o f = .ok (some (out, .png E)))
    (s : Sample) (ep sp : Str) (T : Img Nat) (hep : s.edgePath = some ep) (hE : env.pics.rgb ep = some E)
    (hsp : s.segPath = some sp) (hT : env.pics.gray sp = some T) (Tr : T.rows = L0.rows) (Tc : T.cols = L0.cols)
    (hTid : ∀ l t : Nat, ((l : Int), (t : Int)) ∈ cityscapesLabel2TrainId → ∀ i j, (T.at_ i j = t ↔ L0.at_ i j = l))
    (hc1 : 1 ≤ s.category) (hc2 : s.category ≤ 19) (hs : s.params.scale = 1) (arg : ThresholdArg)
    (rnd : Nat → Nat → Nat → ℚ) :
    multiLabelSingle env .cityscapes arg s rnd =
      multiLabelSingle env .otf arg { s with
        segPath := some f, instPath := if o.inst then some (instFile o f) else none,
        params := { s.params with radius := some r } } rnd := by
  obtain ⟨lr, lc⟩ := hne.2 _ _ hf.label
  -- the conversion
  have hpre : ∀ im, preScaled o L0.rows L0.cols im = .ok im := fun im =>
    source_same (by rw [hscale]; norm_num) _ _ im
  have hpost : ∀ e, postScaled o L0.rows L0.cols e = .ok e := by
    intro e; unfold postScaled; rw [if_neg (by rw [hscale]; norm_num)]
  have h34 : 34 ≤ L0.rows := by
    by_contra hlt
    have e3 := (C24_onehot ⟨L0.rows, L0.cols, fun i j => (L0.at_ i j : Int)⟩ cityscapesLabelIds).1
      (Or.inr (by show L0.rows < cityscapesLabelIds.length; exact not_le.1 hlt))
    unfold convertLabel at hconv
    rw [show assert (!o.thin || decide (o.radius = 1)) = .ok () by rw [hthin]; rfl, now_bind] at hconv
    simp only [hf.label, Option.isSome_some, load] at hconv
    rw [show assert true = .ok () from rfl, now_bind] at hconv
    rcases ha : assert (decide (pathExt (procFile o f) = ".png".toList ∨ pathExt (procFile o f) = ".tif".toList ∨
      pathExt (procFile o f) = ".bin".toList)) with er | u
    · rw [ha] at hconv; cases hconv
    · rw [ha, now_bind, now_bind, hpre, now_bind, e3] at hconv; cases hconv
  obtain ⟨m, hm, mn, mh, mw, ma⟩ := onehot_city L0 h34
  have hI5 : ∀ im, I0 = some im → ∀ i j, i < im.rows → j < im.cols → im.at_ i j < 100000 := by
    intro im him i j hi hj
    cases hi' : o.inst with
    | false => rw [hf.noInst hi'] at him; cases him
    | true =>
      obtain ⟨i0, q1, q2, q3, q4, q5⟩ := hf.inst hi'
      rw [q1] at him; cases him
      exact q5 i hi j hj
  obtain ⟨ids, d1, d2, d3, d4, d5⟩ := edges_channel env.lib fuel r m mn I0 hI5
  obtain ⟨e, t1, t2, t3, t4, t5⟩ := train_channels d2
  have hEe : E = rgbState e e.n := by
    have hI1 : o.inst = true → ∃ i0 im, env.pics.gray (instFile o f) = some i0 ∧ preScaled o L0.rows L0.cols i0 = .ok im ∧
        I0 = some im := by
      intro hi
      obtain ⟨i0, q1, q2, -⟩ := hf.inst hi
      exact ⟨i0, i0, q2, hpre _, q1⟩
    by_cases hx : pathExt (procFile o f) = ".png".toList
    · have henc : encode (pathExt (procFile o f)) e = .ok (.png (rgbState e e.n)) := by
        rw [hx]; unfold encode; rw [if_pos rfl]
        have : rgbEncode e = .ok (rgbState e e.n) := rgb_fold e e.n (by omega)
        rw [this]
      have := convert_run (by simp [hthin]) hf.label (Or.inl hx) (hpre _) hm hf.noInst hI1
        (by rw [hr, hthin]; exact d1) t1 (hpost _) henc
      rw [this] at hconv
      injection hconv with h; injection h with h; injection h with _ h; injection h with h
      exact h.symm
    · -- another extension does not give a PNG picture
      exfalso
      by_cases hx2 : pathExt (procFile o f) = ".tif".toList
      · have henc : encode (pathExt (procFile o f)) e = .ok (.tif (defaultEncode e)) := by rw [hx2]; rfl
        have := convert_run (by simp [hthin]) hf.label (Or.inr (Or.inl hx2)) (hpre _) hm hf.noInst hI1
          (by rw [hr, hthin]; exact d1) t1 (hpost _) henc
        rw [this] at hconv
        injection hconv with h; injection h with h; injection h with _ h; cases h
      · unfold convertLabel at hconv
        rw [show assert (!o.thin || decide (o.radius = 1)) = .ok () by rw [hthin]; rfl, now_bind] at hconv
        simp only [hf.label, Option.isSome_some, load] at hconv
        rw [show assert true = .ok () from rfl, now_bind] at hconv
        rcases ha : assert (decide (pathExt (procFile o f) = ".png".toList ∨ pathExt (procFile o f) = ".tif".toList ∨
          pathExt (procFile o f) = ".bin".toList)) with er | u
        · rw [ha] at hconv; cases hconv
        · rw [ha, now_bind, now_bind, hpre, now_bind, hm, now_bind,
            labelEdges_eq env.lib fuel env.pics o f _ _ m I0 hf.noInst hI1, hr, hthin, d1] at hconv
          replace hconv : (now (edgeToTrainId ids cityscapesLabel2TrainId)).bind _ = _ := hconv
          rw [t1, now_bind, hpost, now_bind] at hconv
          unfold encode at hconv
          rw [if_neg hx, if_neg hx2] at hconv
          split at hconv <;> cases hconv
  -- one category
  obtain ⟨c, hc⟩ : ∃ c : Nat, s.category = c := ⟨s.category.toNat, by omega⟩
  obtain ⟨l, hl, hmem, l7, l34, huniq⟩ := trainId2label_ok c (by omega) (by omega)
  have hmem' : ((l : Int), ((c - 1 : Nat) : Int)) ∈ cityscapesLabel2TrainId := by
    rw [show ((c - 1 : Nat) : Int) = (c : Int) - 1 by omega]; exact hmem
  have eh : e.h = L0.rows := by rw [t3, d3, mh]
  have ew : e.w = L0.cols := by rw [t4, d4, mw]
  have Eh : E.h = L0.rows := by rw [hEe]; exact eh
  have Ew : E.w = L0.cols := by rw [hEe]; exact ew
  -- the inputs of the ordinary evaluator
  have hx : ∀ kill, s.params.killInternal = some kill → precomputedInputs env.pics false 19 s = otfInputs env.lib env.pics { s with
        segPath := some f, instPath := if o.inst then some (instFile o f) else none,
        params := { s.params with radius := some r } } := by
    intro kill hkill
    have hresE : resizeRgb E (L0.rows : Int) (L0.cols : Int) = .ok E := by
      have := resizeRgb_self (im := E) (by omega) (by omega)
      rwa [Eh, Ew] at this
    have hresT : resize T (L0.rows : Int) (L0.cols : Int) = .ok T := by
      have := resize_self (im := T) (by omega) (by omega)
      rwa [Tr, Tc] at this
    have hresL : resize L0 (L0.rows : Int) (L0.cols : Int) = .ok L0 := resize_self lr lc
    have hk : pyIndex (decodePng E 19).n (s.category - 1) = .ok (c - 1) := by
      unfold pyIndex
      show (if 0 ≤ s.category - 1 ∧ s.category - 1 < ((19 : Nat) : Int) then _ else _) = _
      rw [if_pos (by omega)]
      congr 1
      omega
    have hdec : (decodePng E 19).at_ (c - 1) = ids.at_ l := by
      funext i j
      show (pngBits 19 (E.r i j) (E.g i j) (E.b i j)).getD (c - 1) false = _
      rw [pngBits_getD _ _ _ _ _ (by omega), ← t5 l (c - 1) hmem' i j, hEe]
      have hcn : c - 1 < e.n := by omega
      simp only [rgbState, word_testBit]
      split
      · have : c - 1 < e.n := hcn
        simp; omega
      · split
        · rw [show 8 + (c - 1 - 8) = c - 1 by omega]; simp; omega
        · split
          · rw [show 16 + (c - 1 - 16) = c - 1 by omega]; simp; omega
          · omega
    have hotf : ∀ s' : Sample, s'.instPath = (if o.inst then some (instFile o f) else none) →
        otfEdge env.lib env.pics s' r L0.rows L0.cols l m = .ok ⟨m.h, m.w, ids.at_ l⟩ := by
      intro s' hs'
      have h5 := d5 l l34
      unfold otfEdge
      rw [hs']
      cases hi : o.inst with
      | false =>
        rw [hf.noInst hi] at h5
        simp only [Bool.false_eq_true, if_false, Option.filter_none]
        exact h5
      | true =>
        obtain ⟨i0, q1, q2, q3, q4, q5⟩ := hf.inst hi
        rw [q1] at h5
        have hfil : (some (instFile o f)).filter (· ≠ []) = some (instFile o f) := by simp [Option.filter, hinst]
        have hresI : resize i0 (L0.rows : Int) (L0.cols : Int) = .ok i0 := by
          have := resize_self (im := i0) (by omega) (by omega)
          rwa [q3, q4] at this
        simp only [if_true]
        rw [hfil]
        simp only [q2, load, bind, Except.bind, hresI]
        exact h5
    have hseg : ∀ i j, (maskToTrainId ⟨L0.rows, L0.cols, fun i j => (L0.at_ i j : Int)⟩ cityscapesLabel2TrainId).at_ i j =
        (c : Int) - 1 ↔ (T.at_ i j : Int) = (c : Int) - 1 := by
      intro i j
      rw [trainMask (L := L0) (by omega) (by omega) hmem huniq i j, ← hTid l (c - 1) hmem' i j]
      omega
    unfold precomputedInputs otfInputs loadScaledEdge loadPred loadSeg eqMask
    simp only [hep, hsp, hkill, kw, hs, hE, hT, hf.label, load, bind, Except.bind, Eh, Ew, scaledSize_one, hresE, hresT,
      hresL, hc, hl, hm, Int.toNat_natCast]
    have hk' := hk
    rw [hc] at hk'
    rw [hotf _ rfl, hk']
    simp only [hdec]
    have hdh : (decodePng E 19).h = L0.rows := Eh
    have hdw : (decodePng E 19).w = L0.cols := Ew
    simp only [hdh, hdw, mh, mw, Tr, Tc]
    cases hp : env.pics.gray s.predPath with
    | none => rfl
    | some P =>
      simp only [Bool.false_eq_true, if_false]
      cases hrp : resize P (L0.rows : Int) (L0.cols : Int) with
      | error er => rfl
      | ok P' =>
        simp only
        cases kill with
        | false => rfl
        | true =>
          simp only [if_true, and_self, decide_true]
          rw [show assert true = .ok () from rfl]
          simp only [hseg, show (maskToTrainId ⟨L0.rows, L0.cols, fun i j => (L0.at_ i j : Int)⟩
            cityscapesLabel2TrainId).rows = L0.rows from rfl, show (maskToTrainId ⟨L0.rows, L0.cols, fun i j => (L0.at_ i j : Int)⟩
            cityscapesLabel2TrainId).cols = L0.cols from rfl, and_self, decide_true]
          rfl
  unfold multiLabelSingle
  simp only [reduceCtorEq, if_false, or_self, decide_false, if_true]
  cases hkill : s.params.killInternal with
  | none => rfl
  | some kill =>
    rw [show numClasses .cityscapes = 19 from rfl, hx kill hkill]
    simp only [hkill]
    rfl

/-! ## What the converter refuses -/

theorem now_ok {α : Type} {x : Except PyErr α} {a : α} (h : now x = .ok (some a)) : x = .ok a := by
  cases x with
  | error e => cases h
  | ok b => injection h with h; injection h with h; rw [h]

theorem now_error {α β : Type} {x : Except PyErr α} {er : PyErr} (h : x = .error er) (f : α → Run β) :
    (now x).bind f = .error er := by rw [h]; rfl

/-- C52: the checks of the converter.  A call that thins with a radius other than 1, whose label file is missing, whose
output has another extension than `.png`, `.tif` and `.bin`, whose label map (after resampling, if it is resampled
before the edges are computed) has fewer than 34 rows, or whose instance file is missing, fails with `AssertionError`.  -/
theorem C52_refusals (lib : DTLib) (fuel : Nat) (pics : Pictures) (o : ConvOpts) (f : Str) :
    (o.thin = true → o.radius ≠ 1 → convertLabel lib fuel pics o f = .error .assertionError) ∧
    ((o.thin = true → o.radius = 1) →
      (pics.gray f = none → convertLabel lib fuel pics o f = .error .assertionError) ∧
      ∀ L0, pics.gray f = some L0 →
        (pathExt (procFile o f) ∉ [".png".toList, ".tif".toList, ".bin".toList] →
          convertLabel lib fuel pics o f = .error .assertionError) ∧
        (pathExt (procFile o f) ∈ [".png".toList, ".tif".toList, ".bin".toList] →
          (1 ≤ o.scale ∨ (o.sealed = true ∧ o.thin = false) → L0.rows < 34 →
            convertLabel lib fuel pics o f = .error .assertionError) ∧
          (0 ≤ o.scale → o.scale < 1 → o.sealed = false ∨ o.thin = true →
            1 / 2 ≤ L0.rows * o.scale → L0.rows * o.scale < 67 / 2 → 1 / 2 ≤ L0.cols * o.scale →
            convertLabel lib fuel pics o f = .error .assertionError) ∧
          (1 ≤ o.scale ∨ (o.sealed = true ∧ o.thin = false) → 34 ≤ L0.rows → o.inst = true →
            pics.gray (instFile o f) = none → convertLabel lib fuel pics o f = .error .assertionError))) := by
  have small : ∀ L : Img Nat, L.rows < 34 →
      mask2onehot ⟨L.rows, L.cols, fun i j => (L.at_ i j : Int)⟩ cityscapesLabelIds = .error .assertionError :=
    fun L h => (C24_onehot ⟨L.rows, L.cols, fun i j => (L.at_ i j : Int)⟩ cityscapesLabelIds).1
      (Or.inr (by show L.rows < cityscapesLabelIds.length; exact h))
  refine ⟨?_, ?_⟩
  · intro ht hr
    unfold convertLabel
    apply now_error
    rw [ht]
    simp [hr, assert]
  · intro ht
    have a1 : assert (!o.thin || decide (o.radius = 1)) = .ok () := by
      rw [assert_ok]
      cases h : o.thin with
      | false => rfl
      | true => simp [ht h]
    refine ⟨?_, ?_⟩
    · intro hf
      unfold convertLabel
      rw [a1, now_bind]
      apply now_error
      rw [hf]; rfl
    · intro L0 hf
      have a2 : assert (pics.gray f).isSome = .ok () := by rw [hf]; rfl
      have a3 : load (pics.gray f) = .ok L0 := load_ok.2 hf
      refine ⟨?_, ?_⟩
      · intro hx
        unfold convertLabel
        rw [a1, now_bind]
        simp only [a2, now_bind]
        apply now_error
        rw [decide_eq_false]
        · rfl
        · simpa using hx
      · intro hx
        have a4 : assert (decide (pathExt (procFile o f) = ".png".toList ∨ pathExt (procFile o f) = ".tif".toList ∨
            pathExt (procFile o f) = ".bin".toList)) = .ok () := by rw [assert_ok]; simpa using hx
        have hsame : 1 ≤ o.scale ∨ (o.sealed = true ∧ o.thin = false) → ¬ (o.scale < 1 ∧ (o.sealed = false ∨ o.thin = true)) := by
          rintro (h | ⟨h, h'⟩) ⟨k, k'⟩
          · linarith
          · rw [h, h'] at k'; simp at k'
        refine ⟨?_, ?_, ?_⟩
        · intro hc hlt
          unfold convertLabel
          simp only [a1, a2, a3, a4, now_bind, source_same (hsame hc)]
          exact now_error (small L0 hlt) _
        · intro h0 h1 h2 b1 b2 b3
          obtain ⟨hh, ww, rh, -, hall⟩ := source_scaled ⟨h1, h2⟩ h0 (L0 := L0) b1 b3
          have r0 : 0 < L0.rows := by
            rcases Nat.eq_zero_or_pos L0.rows with h | h
            · rw [h] at b1; norm_num at b1
            · exact h
          have c0 : 0 < L0.cols := by
            rcases Nat.eq_zero_or_pos L0.cols with h | h
            · rw [h] at b3; norm_num at b3
            · exact h
          obtain ⟨L, p1, p2, -⟩ := hall L0 r0 c0
          have hlt : L.rows < 34 := by
            rw [p2]
            exact_mod_cast (by linarith [rh.1] : (hh : ℚ) < 34)
          unfold convertLabel
          simp only [a1, a2, a3, a4, now_bind, p1]
          exact now_error (small L hlt) _
        · intro hc h34 hi hf'
          obtain ⟨m, hm, -⟩ := onehot_city L0 h34
          unfold convertLabel
          simp only [a1, a2, a3, a4, now_bind, source_same (hsame hc), hm]
          unfold labelEdges
          rw [if_pos hi, hf']
          rfl

/-- C52: a call that succeeds writes exactly the file named after the label file, as a PNG or TIFF picture
according to its extension; the `.bin` format, though accepted by the checks, never succeeds. -/
theorem C52_written (lib : DTLib) (fuel : Nat) (pics : Pictures) (o : ConvOpts) (f out : Str) (enc : Encoded)
    (h : convertLabel lib fuel pics o f = .ok (some (out, enc))) :
    out = procFile o f ∧ EncodedAs (pathExt out) enc ∧ pathExt out ≠ ".bin".toList := by
  unfold convertLabel at h
  obtain ⟨_, -, h⟩ := Run.bind_eq_ok.1 h
  obtain ⟨_, -, h⟩ := Run.bind_eq_ok.1 h
  obtain ⟨_, -, h⟩ := Run.bind_eq_ok.1 h
  obtain ⟨L0, -, h⟩ := Run.bind_eq_ok.1 h
  obtain ⟨L, -, h⟩ := Run.bind_eq_ok.1 h
  obtain ⟨m, -, h⟩ := Run.bind_eq_ok.1 h
  obtain ⟨ids, -, h⟩ := Run.bind_eq_ok.1 h
  obtain ⟨e, -, h⟩ := Run.bind_eq_ok.1 h
  obtain ⟨e', -, h⟩ := Run.bind_eq_ok.1 h
  obtain ⟨enc', henc, h⟩ := Run.bind_eq_ok.1 h
  injection h with h; injection h with h; injection h with h1 h2
  subst h1 h2
  refine ⟨rfl, ?_⟩
  have henc := now_ok henc
  revert henc
  generalize pathExt (procFile o f) = x
  intro henc
  unfold encode at henc
  split at henc
  · next hx =>
    split at henc
    · injection henc with henc; subst henc
      exact ⟨hx, by rw [hx]; decide⟩
    · cases henc
  · split at henc
    · next hx =>
      injection henc with henc; subst henc
      exact ⟨hx, by rw [hx]; decide⟩
    · split at henc <;> cases henc

/-- C52: with the default options for `.bin` (no thinning, scale 1) the conversion fails with `TypeError`: the keyword
`dtype` of `ndarray.tofile` does not exist. -/
theorem C52_bin_fails (lib : DTLib) (fuel r : Nat) (pics : Pictures) (o : ConvOpts) (f : Str) (L0 : Img Nat)
    (I0 : Option (Img Nat)) (hf : SampleFiles pics o f L0 I0) (hx : pathExt (procFile o f) = ".bin".toList)
    (hr : o.radius = r) (hthin : o.thin = false) (hscale : 1 ≤ o.scale) (h34 : 34 ≤ L0.rows) :
    convertLabel lib fuel pics o f = .error .typeError := by
  have hpre : ∀ im, preScaled o L0.rows L0.cols im = .ok im := fun im =>
    source_same (by rintro ⟨h, -⟩; linarith) _ _ im
  obtain ⟨m, hm, mn, mh, mw, ma⟩ := onehot_city L0 h34
  obtain ⟨ids, d1, d2, d3, d4, d5⟩ := edges_channel lib fuel r m mn I0 (by
    intro im him i j hi hj
    cases hi' : o.inst with
    | false => rw [hf.noInst hi'] at him; cases him
    | true =>
      obtain ⟨i0, q1, q2, q3, q4, q5⟩ := hf.inst hi'
      rw [q1] at him; cases him
      exact q5 i hi j hj)
  obtain ⟨e, t1, -⟩ := train_channels d2
  have a1 : assert (!o.thin || decide (o.radius = 1)) = .ok () := by rw [hthin]; rfl
  have a2 : assert (pics.gray f).isSome = .ok () := by rw [hf.label]; rfl
  have a3 : load (pics.gray f) = .ok L0 := load_ok.2 hf.label
  have hpost : postScaled o L0.rows L0.cols e = .ok e := by
    unfold postScaled; rw [if_neg (by rintro ⟨h, -⟩; linarith)]
  have a4 : assert (decide (pathExt (procFile o f) = ".png".toList ∨ pathExt (procFile o f) = ".tif".toList ∨
      pathExt (procFile o f) = ".bin".toList)) = .ok () := by rw [assert_ok]; simp [hx]
  unfold convertLabel
  simp only [a1, a2, a3, a4, now_bind, hpre, hm]
  rw [labelEdges_eq lib fuel pics o f _ _ m I0 hf.noInst (by
    intro hi
    obtain ⟨i0, q1, q2, -⟩ := hf.inst hi
    exact ⟨i0, i0, q2, hpre _, q1⟩), hr, hthin, d1]
  show (now (edgeToTrainId ids cityscapesLabel2TrainId)).bind _ = _
  rw [t1, now_bind, hpost, now_bind, hx]
  rfl

/-! ## Witnesses -/

/-- The label file of the witnesses. -/
def exLabel : Str := "d/gtFine/val/c/x_gtFine_labelIds.png".toList

/-- A 34×2 label map: 17 rows of road (label 7) above 17 rows of sidewalk (label 8), with its instance map (the
instances of these labels are the labels). -/
def exConv : Pictures where
  rgb _ := none
  gray p := if p = exLabel ∨ p = "d/gtFine/val/c/x_gtFine_instanceIds.png".toList then
    some ⟨34, 2, fun i _ => if i < 17 then 7 else 8⟩ else none
  mat _ := .error .assertionError

theorem exConv_gray (p : Str) : exConv.gray p =
    if p = exLabel ∨ p = "d/gtFine/val/c/x_gtFine_instanceIds.png".toList then
      some ⟨34, 2, fun i _ => if i < 17 then 7 else 8⟩ else none := rfl

theorem exConv_nonempty : NoEmptyPictures exConv := by
  constructor
  · intro p E h; cases h
  · intro p P h
    rw [exConv_gray] at h
    split at h
    · cases h; exact ⟨by decide, by decide⟩
    · cases h

theorem exConv_files (o : ConvOpts) (h1 : o.labelSuffix = "_gtFine_labelIds.png".toList)
    (h2 : o.instSuffix = "_gtFine_instanceIds.png".toList) :
    SampleFiles exConv o exLabel ⟨34, 2, fun i _ => if i < 17 then 7 else 8⟩
      (if o.inst then some ⟨34, 2, fun i _ => if i < 17 then 7 else 8⟩ else none) := by
  refine ⟨by rw [exConv_gray, if_pos (Or.inl rfl)], ?_, ?_⟩
  · intro h
    have hi : instFile o exLabel = "d/gtFine/val/c/x_gtFine_instanceIds.png".toList := by
      unfold instFile; rw [h1, h2]; decide +kernel
    refine ⟨_, if_pos h, by rw [hi, exConv_gray, if_pos (Or.inr rfl)], rfl, rfl, ?_⟩
    intro i _ j _
    simp only
    split <;> decide
  · intro h
    rw [if_neg (by simp [h])]

/-- The road pixel next to the sidewalk is a boundary pixel, the top of the road is not. -/
theorem exConv_edges (I : Option (Img Nat)) :
    OtfEdge 1 ⟨34, 2, fun i _ => if i < 17 then 7 else 8⟩ I 7 (16, 0) ∧
    ¬ OtfEdge 1 ⟨34, 2, fun i _ => if i < 17 then 7 else 8⟩ I 7 (0, 0) := by
  set L : Img Nat := ⟨34, 2, fun i _ => if i < 17 then 7 else 8⟩ with hL
  have hmem : ∀ i < 34, ∀ j < 2, ((i, j) ∈ valuePx L 7 ↔ i < 17) := by
    intro i hi j hj
    show (_ ∧ (if i < 17 then 7 else 8) = 7) ↔ _
    refine ⟨fun h => by by_contra hcon; rw [if_neg hcon] at h; simp at h, fun h => ⟨?_, if_pos h⟩⟩
    exact ⟨hi, hj⟩
  have hnoig : ∀ q : Px, q ∉ cityIgnored L := by
    rintro ⟨i, j⟩ ⟨hq, h⟩
    simp only [hL] at h
    split at h <;> omega
  have dist : ∀ p q : Px, pdist p q ≤ 1 → p.1 ≤ q.1 + 1 ∧ q.1 ≤ p.1 + 1 := by
    intro p q h
    unfold pdist at h
    rw [Real.sqrt_le_left (by norm_num), one_pow] at h
    have h2 : ((p.1 : ℝ) - q.1) ^ 2 ≤ 1 := by nlinarith [sq_nonneg ((p.2 : ℝ) - q.2)]
    have h3 := abs_le_one_iff_mul_self_le_one.2 (by nlinarith : ((p.1 : ℝ) - q.1) * ((p.1 : ℝ) - q.1) ≤ 1)
    obtain ⟨a, b⟩ := abs_le.1 h3
    exact ⟨by exact_mod_cast (by linarith : (p.1 : ℝ) ≤ q.1 + 1), by exact_mod_cast (by linarith : (q.1 : ℝ) ≤ p.1 + 1)⟩
  constructor
  · refine ⟨⟨(16, 0), (hmem 16 (by decide) 0 (by decide)).2 (by decide)⟩, Or.inl (Or.inl ⟨(hmem 16 (by decide) 0 (by decide)).2
      (by decide), (17, 0), ⟨by decide, by decide⟩, fun h => ?_, hnoig _, ?_⟩)⟩
    · exact absurd ((hmem 17 (by decide) 0 (by decide)).1 h) (by decide)
    · simp only [pdist]; norm_num
  · rintro ⟨-, hb | ⟨im, v, -, -, h24, -⟩⟩
    · rcases hb with ⟨-, ⟨i, j⟩, hq, hn, -, hd⟩ | ⟨hn, -⟩ | ⟨hn, -⟩
      · have h1 := dist _ _ (by exact_mod_cast hd)
        exact hn ((hmem i hq.1 j hq.2).2 (by have := h1.2; simp at this; omega))
      · exact hn ((hmem 0 (by decide) 0 (by decide)).2 (by decide))
      · exact hn ((hmem 0 (by decide) 0 (by decide)).2 (by decide))
    · omega

/-- A conversion with instances and radius 1: the road bit is set at row 16 and not at row 0. -/
example : ∃ enc, convertLabel (refLib 1) 0 exConv { radius := 1 } exLabel =
      .ok (some ("d/gtEval/val/c/x_gtProc_edge.png".toList, enc)) ∧
    encSize enc = (34, 2) ∧ encBit enc 0 16 0 = true ∧ encBit enc 0 0 0 = false := by
  obtain ⟨enc, L, I, h1, -, hL, -, -, h5, h6⟩ := C52_contents (refLib 1) 0 1 (by simpa using refLib_exact 1 true 0) exConv
    exConv_nonempty { radius := 1 } exLabel _ _ (exConv_files _ rfl rfl) (Or.inl (by decide +kernel)) rfl rfl (by norm_num)
    (Or.inl (by norm_num)) (by norm_num)
  have hp : procFile { radius := 1 } exLabel = "d/gtEval/val/c/x_gtProc_edge.png".toList := by decide +kernel
  have hL' := hL.1 (by norm_num)
  subst hL'
  obtain ⟨p1, p2⟩ := exConv_edges I
  refine ⟨enc, by rw [← hp]; exact h1, h5, ?_, ?_⟩
  · exact ((h6 16 (by decide) 0 (by decide)).1 7 0 (by decide)).2 (by simpa using p1)
  · have := (h6 0 (by decide) 0 (by decide)).1 7 0 (by decide)
    rw [Bool.eq_false_iff]
    intro hcon
    exact p2 (by simpa using this.1 hcon)

/-- The same without instances, edges resampled to half size afterwards: output row 8 starts at row 16. -/
example : ∃ enc, convertLabel (refLib 1) 0 exConv { radius := 1, inst := false, scale := 1 / 2 } exLabel =
      .ok (some ("d/gtEval/val/c/x_gtProc_edge.png".toList, enc)) ∧
    encSize enc = (17, 1) ∧ encBit enc 0 8 0 = true ∧ encBit enc 0 0 0 = false := by
  obtain ⟨enc, h, w, h1, -, h3, h4, h5, h6⟩ := C52_sealed (refLib 1) 0 1 (by simpa using refLib_exact 1 true 0) exConv
    exConv_nonempty { radius := 1, inst := false, scale := 1 / 2 } exLabel _ _ (exConv_files _ rfl rfl)
    (Or.inl (by decide +kernel)) rfl rfl (by norm_num) (by norm_num) rfl (by decide) (by norm_num) (by norm_num)
  have hp : procFile { radius := 1, inst := false, scale := 1 / 2 } exLabel = "d/gtEval/val/c/x_gtProc_edge.png".toList := by
    decide +kernel
  obtain rfl : h = 17 := by
    obtain ⟨a, b⟩ := h4
    norm_num at a b
    have : h < 18 := by exact_mod_cast (by linarith : (h : ℚ) < 18)
    have : 16 < h := by exact_mod_cast (by linarith : (16 : ℚ) < h)
    omega
  obtain rfl : w = 1 := by
    obtain ⟨a, b⟩ := h5
    norm_num at a b
    have : w < 2 := by exact_mod_cast (by linarith : (w : ℚ) < 2)
    have : 0 < w := by exact_mod_cast (by linarith : (0 : ℚ) < w)
    omega
  obtain ⟨p1, p2⟩ := exConv_edges none
  have half := fun x hx p => (C52_half_offset 17 x hx).2.2.1 p
  have half' := fun x hx p => (C52_half_offset 1 x hx).2.2.1 p
  refine ⟨enc, by rw [← hp]; exact h1, h3, ?_, ?_⟩
  · obtain ⟨p, q, c1, c2, hb, -⟩ := h6 8 (by decide) 0 (by decide)
    obtain rfl := half 8 (by decide) p c1
    obtain rfl := half' 0 (by decide) q c2
    exact (hb 7 0 (by decide)).2 (by simpa using p1)
  · obtain ⟨p, q, c1, c2, hb, -⟩ := h6 0 (by decide) 0 (by decide)
    obtain rfl := half 0 (by decide) p c1
    obtain rfl := half' 0 (by decide) q c2
    rw [Bool.eq_false_iff]
    intro hcon
    exact p2 (by simpa using (hb 7 0 (by decide)).1 hcon)

/-- Thinned edges: the hypotheses are met. -/
example : ∃ F, ∀ fuel, F ≤ fuel → ∃ enc, convertLabel (refLib 1) fuel exConv
    { radius := 1, thin := true, edgeSuffix := "_gtProc_thin_isedge.tif".toList } exLabel =
      .ok (some ("d/gtEval/val/c/x_gtProc_thin_isedge.tif".toList, enc)) := by
  obtain ⟨L, I, -, -, -, F, hF⟩ := C52_thin (refLib 1) (refLib_exact 1 true 0) exConv
    exConv_nonempty { radius := 1, thin := true, edgeSuffix := "_gtProc_thin_isedge.tif".toList } exLabel _ _
    (exConv_files _ rfl rfl) (Or.inr (by decide +kernel)) rfl rfl (by norm_num) (by norm_num)
  have hp : procFile { radius := 1, thin := true, edgeSuffix := "_gtProc_thin_isedge.tif".toList } exLabel =
      "d/gtEval/val/c/x_gtProc_thin_isedge.tif".toList := by decide +kernel
  refine ⟨F, fun fuel hf => ?_⟩
  obtain ⟨enc, h, -⟩ := hF fuel hf
  exact ⟨enc, by rw [← hp]; exact h⟩

example : convertLabel (refLib 1) 0 exConv { radius := 2, thin := true } exLabel = .error .assertionError :=
  (C52_refusals _ _ _ _ _).1 rfl (by decide)

example : convertLabel (refLib 1) 0 exConv { radius := 1, edgeSuffix := "_e.bin".toList } exLabel = .error .typeError :=
  C52_bin_fails (refLib 1) 0 1 exConv _ exLabel _ _ (exConv_files _ rfl rfl) (by decide +kernel) rfl rfl (by norm_num) (by decide)

/-- The pictures of `exConv` with a converted picture, a trainId map and a prediction. -/
def exConvWith (E : Rgb) : Pictures where
  rgb p := if p = ['e'] then some E else none
  gray p := if p = ['t'] then some ⟨34, 2, fun i _ => if i < 17 then 0 else 1⟩
    else if p = ['p'] then some ⟨34, 2, fun i _ => if i = 16 then 255 else 0⟩ else exConv.gray p
  mat _ := .error .assertionError

theorem exConvWith_gray (E : Rgb) (p : Str) : (exConvWith E).gray p =
    if p = ['t'] then some ⟨34, 2, fun i _ => if i < 17 then 0 else 1⟩
    else if p = ['p'] then some ⟨34, 2, fun i _ => if i = 16 then 255 else 0⟩ else exConv.gray p := rfl

/-- A sample of the category "road". -/
def exConvSample : Sample where
  name := ['x']
  category := 1
  edgePath := some ['e']
  segPath := some ['t']
  instPath := none
  predPath := ['p']
  params := { scale := 1, thinning := false, nms := false, maxDist := 1 / 50, killInternal := some true,
              skipIfNonexistent := some false, radius := none }

/-- Evaluation against the converted picture and on the fly, for a concrete sample. -/
example : ∃ E, ∀ fuel rnd,
    multiLabelSingle ⟨exConvWith E, refLib 1, id, fun _ _ => 0, fuel⟩ .cityscapes (.list [1 / 2]) exConvSample rnd =
      multiLabelSingle ⟨exConvWith E, refLib 1, id, fun _ _ => 0, fuel⟩ .otf (.list [1 / 2]) { exConvSample with
        segPath := some exLabel, instPath := some "d/gtFine/val/c/x_gtFine_instanceIds.png".toList,
        params := { exConvSample.params with radius := some 1 } } rnd := by
  have files : ∀ E : Rgb, SampleFiles (exConvWith E)
      { radius := 1 } exLabel ⟨34, 2, fun i _ => if i < 17 then 7 else 8⟩
      (some ⟨34, 2, fun i _ => if i < 17 then 7 else 8⟩) := by
    intro E
    obtain ⟨a, b, c⟩ := exConv_files { radius := 1 } rfl rfl
    have hi : instFile { radius := 1 } exLabel = "d/gtFine/val/c/x_gtFine_instanceIds.png".toList := by decide +kernel
    refine ⟨?_, ?_, by simp⟩
    · rw [exConvWith_gray, if_neg (by decide), if_neg (by decide)]
      exact a
    · intro _
      obtain ⟨im, b1, b2, b3⟩ := b rfl
      rw [if_pos rfl] at b1
      refine ⟨im, b1, ?_, b3⟩
      rw [exConvWith_gray, hi, if_neg (by decide), if_neg (by decide), ← hi]
      exact b2
  have nonempty : ∀ E : Rgb, 0 < E.h → 0 < E.w →
      NoEmptyPictures (exConvWith E) := by
    intro E h1 h2
    constructor
    · intro p E' h
      simp only [exConvWith] at h
      split at h
      · cases h; exact ⟨h1, h2⟩
      · cases h
    · intro p P h
      simp only [exConvWith] at h
      split at h
      · cases h; exact ⟨by decide, by decide⟩
      · split at h
        · cases h; exact ⟨by decide, by decide⟩
        · exact exConv_nonempty.2 p P h
  obtain ⟨m, hm, mn, mh, mw, -⟩ := onehot_city ⟨34, 2, fun i _ => if i < 17 then 7 else 8⟩ (le_refl 34)
  -- the converted picture does not depend on the other pictures
  obtain ⟨ids, d1, d2, d3, d4, -⟩ := edges_channel (refLib 1) 0 1 m mn (some ⟨34, 2, fun i _ => if i < 17 then 7 else 8⟩) (by
    rintro _ ⟨⟩ i j _ _; simp only; split <;> decide)
  obtain ⟨e, t1, t2, t3, t4, -⟩ := train_channels d2
  refine ⟨rgbState e e.n, ?_⟩
  intro fuel rnd
  have eh : e.h = 34 := by rw [t3, d3, mh]
  have ew : e.w = 2 := by rw [t4, d4, mw]
  have hne := nonempty (rgbState e e.n) (by show 0 < e.h; omega) (by show 0 < e.w; omega)
  have hfiles := files (rgbState e e.n)
  have hi : instFile { radius := 1 } exLabel = "d/gtFine/val/c/x_gtFine_instanceIds.png".toList := by decide +kernel
  have hx : pathExt (procFile { radius := 1 } exLabel) = ".png".toList := by decide +kernel
  have hconv : convertLabel (refLib 1) 0 (exConvWith (rgbState e e.n)) { radius := 1 } exLabel = .ok (some (procFile { radius := 1 } exLabel,
      .png (rgbState e e.n))) := by
    apply convert_run (by simp) hfiles.label (Or.inl hx) (source_same (by norm_num) _ _ _) hm (by simp) ?_ d1 t1
      (by unfold postScaled; rw [if_neg (by norm_num)]) ?_
    · intro _
      obtain ⟨i0, q1, q2, -⟩ := hfiles.inst rfl
      exact ⟨i0, i0, q2, source_same (by norm_num) _ _ _, q1⟩
    · rw [hx]; unfold encode; rw [if_pos rfl]
      have : rgbEncode e = .ok (rgbState e e.n) := rgb_fold e e.n (by omega)
      rw [this]
  have key := C52_same_as_otf ⟨exConvWith (rgbState e e.n), refLib 1, id, fun _ _ => 0, fuel⟩ hne 0 1 { radius := 1 } exLabel _ _ _ hfiles
    (by rw [hi]; decide) rfl rfl rfl _ hconv exConvSample ['e'] ['t'] ⟨34, 2, fun i _ => if i < 17 then 0 else 1⟩ rfl rfl rfl rfl rfl rfl
    (by
      intro l t hlt i j
      have h7 : ∀ kv ∈ cityscapesLabel2TrainId, (kv.2 = 0 ↔ kv.1 = 7) ∧ (kv.2 = 1 ↔ kv.1 = 8) := by decide
      obtain ⟨k1, k2⟩ := h7 _ hlt
      simp only at k1 k2 ⊢
      split <;> omega) (by decide) (by decide) rfl (.list [1 / 2]) rnd
  rw [key, if_pos rfl, hi]

end EdgeEval.Props
