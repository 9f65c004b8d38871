import Verif.Props.Mask2Edge
import Verif.Props.MatchInts
import Verif.Props.Utils
import Verif.Props.EndToEnd
import Verif.Props.NmsBatch
import Verif.Props.Io
import Verif.Props.Evaluate
import Verif.Props.Otf
import Verif.Props.Convert

/-!
# More statements added after mutation testing
-/

namespace EdgeEval.Props

open EdgeEval Text Io Samples Spec NmsBatch Datasets

/-! ## C29 -/

/-- A number below 100 has no digits after the second. -/
theorem parseMp_short {v : Nat} (h : v < 100) : parseMp v = .error .valueError := by
  have h2 : (pyStr v).drop 2 = [] := by
    rw [List.drop_eq_nil_iff]
    unfold pyStr
    split
    · simp
    · rw [List.length_reverse]
      have := (Nat.digits_length_le_iff (b := 10) (by norm_num) (k := 2) v).2 (by norm_num; omega)
      exact this
  unfold parseMp
  have h1 : pyInt ((pyStr v).drop 2) = .error .valueError := by rw [h2]; rfl
  have h3 : ∃ l, pyInt ((pyStr v).take 2) = .ok l := by
    unfold pyInt
    rw [if_neg]
    · exact ⟨_, rfl⟩
    · unfold pyStr
      split
      · simp
      · next hv =>
        intro h0
        rw [List.take_eq_nil_iff] at h0
        rcases h0 with h0 | h0
        · simp at h0
        · simp [Nat.digits_ne_nil_iff_ne_zero.2 hv] at h0
  obtain ⟨l, h3⟩ := h3
  simp only [h3, h1, bind, Except.bind]

/-- C29 (defect): with label 0 among the instance labels the multiprocess version raises `ValueError` on every instance map
with a pixel below 100 (such as the background 0) — `int('')` — where the loop version only warns. -/
theorem C29_mp_label_zero (lib : DTLib) (radius quality : Int) (useCv2 : Bool) (mask : MLEdges) (im : Img Nat)
    (ids : List Nat) (h0 : 0 ∈ ids) (ignore : List Int) (hign : ∀ i ∈ ignore, 0 ≤ i ∧ i < mask.n)
    (i j : Nat) (hi : i < im.rows) (hj : j < im.cols) (hv : im.at_ i j < 100)
    (out : Except PyErr MLEdges) (h : MpInstMask2Edge lib radius quality useCv2 false mask im ids ignore out) :
    out = .error .valueError := by
  obtain ⟨ign, hi', -⟩ := ignoreMask_ok mask ignore (fun i hi => by have := hign i hi; omega)
  obtain ⟨l0, hl0, -, hmin⟩ := minLabel_spec ids (List.ne_nil_of_mem h0)
  have hz : l0 = 0 := Nat.le_zero.1 (hmin 0 h0)
  subst hz
  have hmem : im.at_ i j ∈ uniqueVals im := (mem_uniqueVals _ _).2 ⟨i, j, hi, hj, rfl⟩
  have hmp : mpLabelInst im ids = .error .valueError := by
    unfold mpLabelInst
    rw [if_neg (List.ne_nil_of_mem hmem), hl0]
    simp only [labelInst]
    obtain ⟨er, he⟩ := mapM_error parseMp
      ((uniqueVals im).filter fun (v : Nat) => !decide (v < 0 * 1000))
      ⟨im.at_ i j, List.mem_filter.2 ⟨hmem, by simp⟩, _, parseMp_short hv⟩
    rw [he]
    obtain ⟨v, -, hv'⟩ := mapM_mem_err he
    have : parseMp v = .error .valueError ∨ ∃ r, parseMp v = .ok r := by
      unfold parseMp pyInt
      simp only [bind, Except.bind, pure, Except.pure]
      split_ifs <;> simp
    rcases this with h | ⟨r, h⟩
    · rw [h] at hv'; cases hv'; rfl
    · rw [h] at hv'; cases hv'
  unfold MpInstMask2Edge at h
  simpa only [Bool.false_eq_true, if_false, hi', hmp] using h

/-- Such a call exists: background only, labels 0 and 5. -/
example (lib : DTLib) : MpInstMask2Edge lib 1 0 true false (uniMask 6 5) ⟨1, 2, fun _ _ => 0⟩ [0, 5] []
    (.error .valueError) := by
  obtain ⟨ign, hign, -⟩ := ignoreMask_ok (uniMask 6 5) [] (by simp)
  by_contra hcon
  unfold MpInstMask2Edge at hcon
  simp only [Bool.false_eq_true, if_false, hign] at hcon
  cases hm : mpLabelInst (⟨1, 2, fun _ _ => 0⟩ : Img Nat) [0, 5] with
  | error e =>
    have := C29_mp_label_zero lib 1 0 true (uniMask 6 5) ⟨1, 2, fun _ _ => 0⟩ [0, 5] (by simp) [] (by simp) 0 0 (by simp)
      (by simp) (by simp) (.error e) (by
        unfold MpInstMask2Edge
        simp only [Bool.false_eq_true, if_false, hign, hm])
    cases this
    rw [hm] at hcon
    exact hcon rfl
  | ok li =>
    have hmem : 0 ∈ uniqueVals (⟨1, 2, fun _ _ => 0⟩ : Img Nat) := (mem_uniqueVals _ _).2 ⟨0, 0, by simp, by simp, rfl⟩
    obtain ⟨l0, hl0, -, hmin⟩ := minLabel_spec [0, 5] (by simp)
    have hz : l0 = 0 := Nat.le_zero.1 (hmin 0 (by simp))
    subst hz
    unfold mpLabelInst at hm
    rw [if_neg (List.ne_nil_of_mem hmem), hl0] at hm
    obtain ⟨er, he⟩ := mapM_error parseMp
      ((uniqueVals (⟨1, 2, fun _ _ => 0⟩ : Img Nat)).filter fun (v : Nat) => !decide (v < 0 * 1000))
      ⟨0, List.mem_filter.2 ⟨hmem, by simp⟩, _, parseMp_short (by norm_num)⟩
    simp only [labelInst, he] at hm
    cases hm

/-! ## C10, C31 -/

/-- C31: asking for `kill_internal` without a segmentation is an `AssertionError` (whenever the ground truth is not empty and
there is a threshold). -/
theorem C31_needs_segmentation (ths : List ℚ) (pred gt : Img ℚ) (o : MLOpts) (hk : o.kill = true)
    (rnd : Nat → Nat → Nat → ℚ) (hg : imgAny gt = true) (hths : ths ≠ []) :
    ∃ F, ∀ fuel, F ≤ fuel → evalMultiLabel fuel ths pred gt none o rnd = .error .assertionError := by
  obtain ⟨t, ts, rfl⟩ := List.exists_cons_of_ne_nil hths
  obtain ⟨F, p, hF⟩ := processPred_total o.thin (preNms o.nms pred) t
  refine ⟨F, fun fuel hf => ?_⟩
  unfold evalMultiLabel
  rw [if_neg (by simp [hg])]
  unfold overThresholds mlRow
  rw [hF fuel hf]
  simp [Run.bind, hg, maybeKill, hk]

example : imgAny (⟨1, 1, fun _ _ => 1⟩ : Img ℚ) = true := by decide +kernel

/-! ## C60 -/

/-- C60: `nms_results` on a missing directory is an `AssertionError` and writes nothing. -/
theorem C60_results_missing {α β : Type} (loader : Str → Except PyErr α) (nms : α → Except PyErr β)
    (resultDir saveDir : Str) (d : Disk β) :
    nmsResults loader nms resultDir saveDir none d = (d, some .assertionError) := rfl

/-- C60: an exception of the loader or of the thinning of the first unreadable file ends `nms_results` with that exception; the
pictures of the files before it are there. -/
theorem C60_results_raises {α β : Type} (loader : Str → Except PyErr α) (nms : α → Except PyErr β)
    (resultDir saveDir : Str) (before after : List Str) (f : Str) (d d' : Disk β) (e : PyErr)
    (hb : nmsResults loader nms resultDir saveDir (some before) d = (d', none))
    (hf : loader (pjoin resultDir f) = .error e) :
    nmsResults loader nms resultDir saveDir (some (before ++ f :: after)) d = (d', some e) := by
  unfold nmsResults at hb ⊢
  simp only at hb ⊢
  induction before generalizing d with
  | nil =>
    simp only [loop] at hb
    cases hb
    simp [loop, resultsBody, hf, bind, Except.bind]
  | cons b bs ih =>
    simp only [List.cons_append, loop] at hb ⊢
    cases hx : resultsBody loader nms resultDir saveDir d b with
    | error er => rw [hx] at hb; simp at hb
    | ok s => rw [hx] at hb; exact ih s hb

example : nmsResults (fun f : Str => if f = "r/a".toList then .ok 1 else .error .fileNotFoundError) (fun x : Nat => .ok x) "r".toList
    "s".toList (some ["a".toList, "b".toList, "a".toList]) (fun _ => none) =
    ((nmsResults (fun f : Str => if f = "r/a".toList then .ok 1 else .error .fileNotFoundError) (fun x : Nat => .ok x) "r".toList
    "s".toList (some ["a".toList]) (fun _ => none)).1, some .fileNotFoundError) :=
  C60_results_raises _ _ _ _ ["a".toList] ["a".toList] "b".toList _ _ _ rfl rfl

/-! ## C38 -/

/-- C38: what the plotter accepts as overall results: exactly eight numbers, or one number, which then stands for all eight. -/
theorem C38_plot_accepts (thr overall : Str) (pr : List (List ℚ)) (ov : List ℚ)
    (h : loadAlgorithm thr overall = .ok (pr, ov)) :
    ov.length = 8 ∧ (loadOverall overall = .ok (.vec ov) ∨
      ∃ x, (loadOverall overall = .ok (.scalar x) ∨ loadOverall overall = .ok (.vec [x])) ∧ ∀ y ∈ ov, y = x) := by
  unfold loadAlgorithm at h
  cases h1 : loadThresholdData thr with
  | error e => rw [h1] at h; cases h
  | ok t =>
    rw [h1] at h
    simp only at h
    cases h2 : loadOverall overall with
    | error e => rw [h2] at h; cases h
    | ok a =>
      rw [h2] at h
      simp only at h
      cases a with
      | scalar x =>
        simp only [assignEight, Except.ok.injEq, Prod.mk.injEq] at h
        obtain ⟨rfl, rfl⟩ := h
        exact ⟨by simp, .inr ⟨x, .inl rfl, fun y hy => List.eq_of_mem_replicate hy⟩⟩
      | mat m => simp [assignEight] at h
      | vec xs =>
        unfold assignEight at h
        by_cases h8 : xs.length = 8
        · simp only [if_pos h8, Except.ok.injEq, Prod.mk.injEq] at h
          obtain ⟨rfl, rfl⟩ := h
          exact ⟨h8, .inl rfl⟩
        · simp only [if_neg h8] at h
          match xs with
          | [x] =>
            simp only [Except.ok.injEq, Prod.mk.injEq] at h
            obtain ⟨rfl, rfl⟩ := h
            exact ⟨by simp, .inr ⟨x, .inr rfl, fun y hy => List.eq_of_mem_replicate hy⟩⟩
          | [] => simp at h
          | _ :: _ :: _ => simp at h

example : ∃ pr ov, loadAlgorithm "0.5 0.5 0.5 0.5\n0.6 0.4 0.6 0.5".toList "0.25".toList = .ok (pr, ov) :=
  ⟨[[1/2, 1/2, 1/2, 1/2], [3/5, 2/5, 3/5, 1/2]], List.replicate 8 (1/4), by decide +kernel⟩

/-! ## C49 -/

/-- C49: the flipped table inverts the table of trainIds exactly; everything else is a `KeyError`. -/
theorem C49_flipped_table (t : Int) :
    (∀ l, trainId2label t = .ok l ↔ (l, t) ∈ cityscapesLabel2TrainId) ∧
    (trainId2label t = .error .keyError ↔ ¬ (0 ≤ t ∧ t ≤ 18)) := by
  have h1 : ∀ l, trainId2label t = .ok l → (l, t) ∈ cityscapesLabel2TrainId := by
    intro l h
    unfold trainId2label at h
    cases hf : cityscapesLabel2TrainId.reverse.find? fun kv => kv.2 = t with
    | none => rw [hf] at h; cases h
    | some kv =>
      rw [hf] at h
      cases h
      have h1 := List.find?_some hf
      have h2 := List.mem_of_find?_eq_some hf
      simp only [decide_eq_true_eq] at h1
      rw [← h1]
      exact List.mem_reverse.1 h2
  have hr : ∀ l, (l, t) ∈ cityscapesLabel2TrainId → 0 ≤ t ∧ t ≤ 18 := by
    intro l h
    have : ∀ kv ∈ cityscapesLabel2TrainId, 0 ≤ kv.2 ∧ kv.2 ≤ 18 := by decide
    exact this _ h
  have hok : 0 ≤ t ∧ t ≤ 18 → ∃ l, trainId2label t = .ok l ∧ ∀ l', (l', t) ∈ cityscapesLabel2TrainId → l' = l := by
    intro ht
    obtain ⟨l, a, -, -, -, b⟩ := trainId2label_ok (t + 1).toNat (by omega) (by omega)
    have : (((t + 1).toNat : Nat) : Int) - 1 = t := by omega
    rw [this] at a b
    exact ⟨l, a, b⟩
  have herr : trainId2label t = .error .keyError ∨ ∃ l, trainId2label t = .ok l := by
    unfold trainId2label
    split
    · exact .inr ⟨_, rfl⟩
    · exact .inl rfl
  refine ⟨fun l => ⟨h1 l, fun h => ?_⟩, ?_⟩
  · obtain ⟨l', a, b⟩ := hok (hr l h)
    rw [a, b l h]
  · constructor
    · intro h ht
      obtain ⟨l, a, -⟩ := hok ht
      rw [h] at a
      cases a
    · intro ht
      rcases herr with h | ⟨l, h⟩
      · exact h
      · exact absurd (hr l (h1 l h)) ht

example : trainId2label 18 = .ok 33 ∧ trainId2label (-1) = .error .keyError ∧ trainId2label 19 = .error .keyError := by
  decide +kernel

/-! ## C52 -/

/-- C52: an extension other than the three known ones is a `ValueError`, `.bin` a `TypeError`. -/
theorem C52_encode_refusals (ext : Str) (e : MLEdges) :
    (ext ≠ ".png".toList → ext ≠ ".tif".toList → ext ≠ ".bin".toList → Convert.encode ext e = .error .valueError) ∧
    Convert.encode ".bin".toList e = .error .typeError := by
  constructor
  · intro h1 h2 h3
    unfold Convert.encode
    rw [if_neg h1, if_neg h2, if_neg h3]
  · have h1 : ".bin".toList ≠ ".png".toList := by decide
    have h2 : ".bin".toList ≠ ".tif".toList := by decide
    unfold Convert.encode
    rw [if_neg h1, if_neg h2, if_pos rfl]

/-! ## C58 -/

/-- The values `C58_no_overflow` speaks about include every intermediate result of the expressions in match.cc that could be large: squared search offsets and
neighbour coordinates, node numbers shifted for the solver, the scaled outlier weight, coordinate differences and their squares, and the encoded partner positions. -/
theorem C58_covers (h w r n ow : Nat) (g : List GEdge) (m : Pix → Option Pix) :
    (((ow * multiplier : Nat) : ℤ) ∈ graphInts n ow g ∧ (1 + (n : ℤ)) ∈ graphInts n ow g) ∧
    (∀ e ∈ g, (e.c : ℤ) ∈ graphInts n ow g ∧ ((e.i : ℤ) + 1) ∈ graphInts n ow g ∧ ((e.j : ℤ) + (1 + n)) ∈ graphInts n ow g) ∧
    (∀ p ∈ pixels h w, ∀ uv ∈ window r, (uv.1 * uv.1 + uv.2 * uv.2) ∈ windowInts h w r ∧ uv.1 * uv.1 ∈ windowInts h w r ∧
      uv.2 * uv.2 ∈ windowInts h w r ∧ ((p.1 : ℤ) + uv.1) ∈ windowInts h w r ∧ ((p.2 : ℤ) + uv.2) ∈ windowInts h w r) ∧
    (∀ p ∈ pixels h w, ∀ q, m p = some q → ((q.1 : ℤ) * h) ∈ partnerInts h w m ∧ ((q.1 : ℤ) * h + q.2 + 1) ∈ partnerInts h w m ∧
      (((p.1 : ℤ) - q.1) * (p.1 - q.1) + (p.2 - q.2) * (p.2 - q.2)) ∈ partnerInts h w m) := by
  refine ⟨⟨by simp [graphInts], by simp [graphInts]⟩, fun e he => ?_, fun p hp uv hu => ?_, fun p hp q hq => ?_⟩
  · simp only [graphInts, List.mem_append, List.mem_flatMap]
    exact ⟨.inr ⟨e, he, by simp⟩, .inr ⟨e, he, by simp⟩, .inr ⟨e, he, by simp⟩⟩
  · simp only [windowInts, List.mem_append, List.mem_flatMap]
    exact ⟨.inr ⟨p, hp, uv, hu, by simp⟩, .inr ⟨p, hp, uv, hu, by simp⟩, .inr ⟨p, hp, uv, hu, by simp⟩, .inr ⟨p, hp, uv, hu, by simp⟩,
      .inr ⟨p, hp, uv, hu, by simp⟩⟩
  · simp only [partnerInts, List.mem_flatMap]
    exact ⟨⟨p, hp, by simp [hq]⟩, ⟨p, hp, by simp [hq]⟩, ⟨p, hp, by simp [hq]⟩⟩

example : ((60 * 100 : Nat) : ℤ) ∈ graphInts 3 60 [] := (C58_covers 1 1 1 3 60 [] fun _ => none).1.1


/-- The same for the counts (match.cc:142-162, 262), the element indices (Array.hh:134), the solution (match.cc:265-295) and the `unsigned` values. -/
theorem C58_covers_counts (h w n1 n2 ne n m : Nat) (ns1 ns2 : List Pix) (wt : Nat → ℤ) (out : List InArc) :
    (∀ z ∈ [(n1 : ℤ), (n2 : ℤ), (n1 : ℤ) - 1, (n2 : ℤ) - 1, (n1 : ℤ) + n2, (ne : ℤ), ((min 6 (n1 - 1) * n1 : Nat) : ℤ), ((min 6 (n2 - 1) * n2 : Nat) : ℤ),
      ((ne + min 6 (n1 - 1) * n1 : Nat) : ℤ), ((ne + min 6 (n1 - 1) * n1 + min 6 (n2 - 1) * n2 : Nat) : ℤ), ((min 6 (min n1 n2) * max n1 n2 : Nat) : ℤ),
      ((ne + min 6 (n1 - 1) * n1 + min 6 (n2 - 1) * n2 + min 6 (min n1 n2) * max n1 n2 : Nat) : ℤ),
      ((ne + min 6 (n1 - 1) * n1 + min 6 (n2 - 1) * n2 + min 6 (min n1 n2) * max n1 n2 + (n1 + n2) : Nat) : ℤ), 2 * ((n1 : ℤ) + n2)],
      z ∈ countInts n1 n2 ne) ∧
    ((h * w : ℤ) ∈ arrayInts h w ∧ ∀ p ∈ pixels h w, ((p.1 : ℤ) * h + p.2) ∈ arrayInts h w) ∧
    (∀ a ∈ out, ∀ z ∈ [(a.tail : ℤ), (a.head : ℤ), a.cost, (a.tail : ℤ) - 1, (a.head : ℤ) - 1, (a.head : ℤ) - 1 - n], z ∈ solutionInts n ns1 ns2 wt out) ∧
    (∀ a ∈ out, ∀ p q : Pix, ns1[a.tail - 1]? = some p → ns2[a.head - 1 - n]? = some q →
      ∀ z ∈ [((p.1 : ℤ) - q.1) * (p.1 - q.1), ((p.2 : ℤ) - q.2) * (p.2 - q.2),
        ((p.1 : ℤ) - q.1) * (p.1 - q.1) + ((p.2 : ℤ) - q.2) * (p.2 - q.2), wt (pixDist2 p q)], z ∈ solutionInts n ns1 ns2 wt out) ∧
    (m * 3 ∈ matchUnsigned n m ∧ n * 3 ∈ matchUnsigned n m ∧
      (∀ i < m, ∀ k < 3, i * 3 + k ∈ matchUnsigned n m) ∧ ∀ i < n, ∀ k < 3, i * 3 + k ∈ matchUnsigned n m) := by
  refine ⟨?_, ⟨by simp [arrayInts], fun p hp => ?_⟩, fun a ha z hz => ?_, fun a ha p q hp hq z hz => ?_, ?_⟩
  · intro z hz
    simp only [countInts, deg1, deg3, degree, announcedM, List.mem_cons, List.not_mem_nil, or_false] at hz ⊢
    push_cast at hz ⊢
    tauto
  · simp only [arrayInts, List.mem_append, List.mem_flatMap]
    exact .inr ⟨p, hp, by simp⟩
  · exact List.mem_flatMap.2 ⟨a, ha, List.mem_append_left _ hz⟩
  · refine List.mem_flatMap.2 ⟨a, ha, List.mem_append_right _ ?_⟩
    have h1 : (ofArc n a).i < ns1.length := (List.getElem?_eq_some_iff.1 hp).1
    have h2 : (ofArc n a).j < ns2.length := (List.getElem?_eq_some_iff.1 hq).1
    have e1 : ns1.getD (ofArc n a).i (0, 0) = p := by rw [List.getD_eq_getElem?_getD]; show (ns1[a.tail - 1]?).getD _ = p; rw [hp]; rfl
    have e2 : ns2.getD (ofArc n a).j (0, 0) = q := by rw [List.getD_eq_getElem?_getD]; show (ns2[a.head - 1 - n]?).getD _ = q; rw [hq]; rfl
    simp only [h1, h2, and_self, if_true, e1, e2]
    simp only [List.mem_cons, List.not_mem_nil, or_false] at hz ⊢
    tauto
  · have key : ∀ (N : Nat), ∀ i < N, ∀ k < 3, i * 3 + k ∈ ((List.range N).flatMap fun (i : Nat) => [3 * i, 3 * i + 1, 3 * i + 2]) := by
      intro N i hi k hk
      refine List.mem_flatMap.2 ⟨i, List.mem_range.2 hi, ?_⟩
      simp only [List.mem_cons, List.not_mem_nil, or_false]
      omega
    refine ⟨by simp [matchUnsigned], by simp [matchUnsigned], fun i hi k hk => ?_, fun i hi k hk => ?_⟩
    · exact List.mem_append_left _ (List.mem_append_right _ (key m i hi k hk))
    · exact List.mem_append_right _ (key n i hi k hk)

example : ((3 : ℤ) - 1) ∈ countInts 3 2 1 := (C58_covers_counts 1 1 3 2 1 1 1 [] [] (fun _ => 0) []).1 _ (by simp)

/-! ## C36 -/

/-- C36: a logger no call has asked for by name is as `logging` creates it: no handler, and no level of its own (0 is `NOTSET`). -/
theorem C36_unconfigured (h : List LogCall) (n : List Char) (hn : ∀ c ∈ h, c.name ≠ n) :
    (LogState.empty.run h).handlers n = [] ∧ (LogState.empty.run h).level n = 0 := by
  have : ∀ (l : List LogCall) (s : LogState), (∀ c ∈ l, c.name ≠ n) → s.handlers n = [] ∧ s.level n = 0 →
      (s.run l).handlers n = [] ∧ (s.run l).level n = 0 := by
    intro l
    induction l with
    | nil => intro s _ hs; exact hs
    | cons c cs ih =>
      intro s hl hs
      apply ih _ fun d hd => hl d (List.mem_cons_of_mem _ hd)
      have hc : n ≠ c.name := fun e => hl c List.mem_cons_self e.symm
      simp only
      split
      · rename_i s' hs'
        unfold getLogger at hs'
        split at hs'
        · cases hs'; exact hs
        · split at hs'
          · cases hs'; exact hs
          · split at hs'
            · cases hs'; simpa [hc] using hs
            · split at hs'
              · cases hs'; simpa [hc] using hs
              · cases hs'
      · exact hs
  exact this h _ hn ⟨rfl, rfl⟩

example : (LogState.empty.run [⟨['x'], none, 10, "w", true⟩]).level ['y'] = 0 :=
  (C36_unconfigured _ _ (by decide)).2

/-! ## C38 -/

/-- The digits of a number as the text primitives read them. -/
theorem digitsU_natStr (n : Nat) : digitsU false (natStr n) = some (pyStr n) :=
  digitsU_map false _ (fun d hd => pyStr_lt_ten n d hd) (.inl (pyStr_ne_nil n))

/-- C38: a number in a result file (or threshold list) may be written in scientific notation: `ne-k` is `n / 10^k`, `ne+k` and `nek` are `n * 10^k`, with `e`
or `E`. -/
theorem C38_exponents (n k : Nat) (c : Char) (hc : c = 'e' ∨ c = 'E') :
    floatLit (natStr n ++ c :: '-' :: natStr k) = .ok ((n : ℚ) / 10 ^ k) ∧
    floatLit (natStr n ++ c :: '+' :: natStr k) = .ok ((n : ℚ) * 10 ^ k) ∧
    floatLit (natStr n ++ c :: natStr k) = .ok ((n : ℚ) * 10 ^ k) ∧
    floatLit ('-' :: natStr n ++ c :: '-' :: natStr k) = .ok (-((n : ℚ) / 10 ^ k)) := by
  have hsp : isSpace c = false := by rcases hc with rfl | rfl <;> decide
  have hna : ∀ x ∈ natStr n, (decide (x = 'e') || decide (x = 'E')) = false := by
    intro x hx
    obtain ⟨d, hd, rfl⟩ := natStr_mem hx
    simp [digitCh_spec hd]
  have hcp : (decide (c = 'e') || decide (c = 'E')) = true := by rcases hc with rfl | rfl <;> decide
  have hm : mantissa (natStr n) = some (n : ℚ) := by
    unfold mantissa
    rw [splitFirst_none (p := fun c => decide (c = '.')) (by
      intro x hx
      obtain ⟨d, hd, rfl⟩ := natStr_mem hx
      simp [digitCh_spec hd])]
    simp only
    rw [digitsU_natStr, Option.map_some, digitsVal_pyStr]
  have hu : ∀ e, ufloat (natStr n ++ c :: e) = match mantissa (natStr n), e with
    | some x, '-' :: r => (digitsU false r).map fun ds => x / 10 ^ digitsVal ds
    | some x, '+' :: r => (digitsU false r).map fun ds => x * 10 ^ digitsVal ds
    | some x, r => (digitsU false r).map fun ds => x * 10 ^ digitsVal ds
    | none, _ => none := by
    intro e
    unfold ufloat
    rw [splitFirst_some (p := fun c => decide (c = 'e') || decide (c = 'E')) hna hcp]
    rfl
  have hk : digitsU false (natStr k) = some (pyStr k) := digitsU_natStr k
  have ns : ∀ e : Str, NoSpace e → NoSpace (natStr n ++ c :: e) := by
    intro e he x hx
    rcases List.mem_append.1 hx with h | h
    · exact natStr_noSpace n x h
    · rcases List.mem_cons.1 h with rfl | h
      · exact hsp
      · exact he x h
  have nsc : ∀ (d : Char) (e : Str), isSpace d = false → NoSpace e → NoSpace (d :: e) := by
    intro d e hd he x hx
    rcases List.mem_cons.1 hx with rfl | h
    · exact hd
    · exact he x h
  have lit : ∀ e x, NoSpace e → ufloat (natStr n ++ c :: e) = some x → floatLit (natStr n ++ c :: e) = .ok x := by
    intro e x he hx
    unfold floatLit
    rw [strip_noSpace (ns e he)]
    obtain ⟨d, t, hd, hdt⟩ := natStr_cons n
    rw [hdt] at hx ⊢
    rw [List.cons_append] at hx ⊢
    have s1 := (digitCh_spec hd).2.2.2.1
    have s2 := (digitCh_spec hd).2.2.2.2.1
    have out : ∀ v : Option ℚ, v = some x → (match v with | some x => Except.ok x | none => .error .valueError) = (.ok x : Except PyErr ℚ) := by
      rintro _ rfl; rfl
    apply out
    split
    · rename_i h; exact absurd (List.cons.inj h).1 s1
    · rename_i h; exact absurd (List.cons.inj h).1 s2
    · exact hx
  have u1 : ufloat (natStr n ++ c :: '-' :: natStr k) = some ((n : ℚ) / 10 ^ k) := by
    rw [hu, hm]; simp only [hk, Option.map_some, digitsVal_pyStr]
  have u2 : ufloat (natStr n ++ c :: '+' :: natStr k) = some ((n : ℚ) * 10 ^ k) := by
    rw [hu, hm]; simp only [hk, Option.map_some, digitsVal_pyStr]
  have u3 : ufloat (natStr n ++ c :: natStr k) = some ((n : ℚ) * 10 ^ k) := by
    rw [hu, hm]
    obtain ⟨d, t, hd, hdt⟩ := natStr_cons k
    have s1 := (digitCh_spec hd).2.2.2.1
    have s2 := (digitCh_spec hd).2.2.2.2.1
    rw [hdt] at hk ⊢
    split
    · rename_i h; exact absurd (List.cons.inj h).1 s1
    · rename_i h; exact absurd (List.cons.inj h).1 s2
    · rename_i h1 h2 h3 h4; cases h2; rw [hk, Option.map_some, digitsVal_pyStr]
    · rename_i h; cases h
  refine ⟨lit _ _ (nsc _ _ (by decide) (natStr_noSpace k)) u1, lit _ _ (nsc _ _ (by decide) (natStr_noSpace k)) u2,
    lit _ _ (natStr_noSpace k) u3, ?_⟩
  unfold floatLit
  rw [List.cons_append, strip_noSpace (nsc _ _ (by decide) (ns _ (nsc _ _ (by decide) (natStr_noSpace k))))]
  simp only [u1, Option.map_some]

example : floatLit ['5', 'e', '-', '2'] = .ok ((5 : ℚ) / 10 ^ 2) := (C38_exponents 5 2 'e' (.inl rfl)).1

/-- The text of an unsigned number: groups of digits with single underscores between them. -/
def groupText (g : List Nat) (gs : List (List Nat)) : Str := g.map digitCh ++ gs.flatMap fun h => '_' :: h.map digitCh

theorem charDigit_some {c : Char} {d : Nat} (h : charDigit c = some d) : c = digitCh d ∧ d < 10 := by
  unfold charDigit at h
  split at h
  · rename_i hc
    cases h
    unfold digitCh
    rw [show 48 + (c.toNat - 48) = c.toNat by omega, Char.ofNat_toNat]
    exact ⟨rfl, by omega⟩
  · cases h

theorem digitsU_iff (prev : Bool) (s : Str) (ds : List Nat) :
    digitsU prev s = some ds ↔ ∃ g gs, (prev = true ∨ g ≠ []) ∧ (∀ h ∈ gs, h ≠ []) ∧ (∀ d ∈ ds, d < 10) ∧ s = groupText g gs ∧ ds = g ++ gs.flatten := by
  induction s generalizing prev ds with
  | nil =>
    unfold digitsU
    constructor
    · intro h
      split at h
      · rename_i hp; cases h; exact ⟨[], [], .inl hp, by simp, by simp, rfl, rfl⟩
      · cases h
    · rintro ⟨g, gs, h1, h2, _, h3, rfl⟩
      unfold groupText at h3
      obtain ⟨e1, e2⟩ := List.append_eq_nil_iff.1 h3.symm
      have hg : g = [] := List.map_eq_nil_iff.1 e1
      have hgs : gs = [] := by
        cases gs with
        | nil => rfl
        | cons a as => simp at e2
      subst hg hgs
      rcases h1 with h1 | h1
      · simp [h1]
      · exact absurd rfl h1
  | cons c cs ih =>
    rw [digitsU]
    constructor
    · intro h
      split at h
      · rename_i d hd
        obtain ⟨e, hlt⟩ := charDigit_some hd
        obtain ⟨ds', h', rfl⟩ := Option.map_eq_some_iff.1 h
        obtain ⟨g, gs, -, h2, h3, rfl, rfl⟩ := (ih true ds').1 h'
        exact ⟨d :: g, gs, .inr (by simp), h2, by simpa using ⟨hlt, by simpa using h3⟩, by simp [groupText, e], rfl⟩
      · split at h
        · rename_i hc
          obtain ⟨g, gs, h1, h2, h3, rfl, rfl⟩ := (ih false ds).1 h
          refine ⟨[], g :: gs, .inl hc.2, ?_, h3, by simp [groupText, hc.1], by simp⟩
          simpa using ⟨by simpa using h1, h2⟩
        · cases h
    · rintro ⟨g, gs, h1, h2, h3, h4, rfl⟩
      cases g with
      | cons d g =>
        rw [groupText, List.map_cons, List.cons_append] at h4
        obtain ⟨rfl, e2⟩ := List.cons.inj h4
        rw [(digitCh_spec (h3 d (by simp))).1]
        simp only
        rw [(ih true (g ++ gs.flatten)).2 ⟨g, gs, .inl rfl, h2, fun x hx => h3 x (by simp at hx ⊢; tauto), e2, rfl⟩]
        rfl
      | nil =>
        have hp : prev = true := by rcases h1 with h | h; exact h; exact absurd rfl h
        cases gs with
        | nil => simp [groupText] at h4
        | cons a gs =>
          simp only [groupText, List.map_nil, List.nil_append, List.flatMap_cons, List.cons_append] at h4
          obtain ⟨rfl, e2⟩ := List.cons.inj h4
          have : charDigit '_' = none := by decide
          rw [this]
          simp only
          rw [if_pos ⟨trivial, hp⟩]
          refine (ih false _).2 ⟨a, gs, .inr (h2 a (by simp)), fun x hx => h2 x (by simp [hx]), h3, e2, by simp⟩

/-- C38: exactly these texts are integers for `int(...)`: after trimming, an optional sign and groups of decimal digits with single underscores
between the groups; the value is the decimal value of all the digits. In particular a doubled, leading or trailing underscore is refused. -/
theorem C38_integer_literals (s : Str) (z : ℤ) :
    intLit s = .ok z ↔ ∃ (sign : Str) (g : List Nat) (gs : List (List Nat)),
      (sign = [] ∨ sign = ['+'] ∨ sign = ['-']) ∧ g ≠ [] ∧ (∀ h ∈ gs, h ≠ []) ∧ (∀ d ∈ g ++ gs.flatten, d < 10) ∧
      strip s = sign ++ groupText g gs ∧
      z = (if sign = ['-'] then -(digitsVal (g ++ gs.flatten) : ℤ) else digitsVal (g ++ gs.flatten)) := by
  have nat : ∀ (r : Str) (n : Nat), natLit r = .ok n ↔ ∃ g gs, g ≠ [] ∧ (∀ h ∈ gs, h ≠ []) ∧ (∀ d ∈ g ++ gs.flatten, d < 10) ∧ r = groupText g gs ∧
      n = digitsVal (g ++ gs.flatten) := by
    intro r n
    unfold natLit
    constructor
    · intro h
      split at h
      · rename_i ds hds
        cases h
        obtain ⟨g, gs, h1, h2, h3, h4, rfl⟩ := (digitsU_iff _ _ _).1 hds
        exact ⟨g, gs, by simpa using h1, h2, h3, h4, rfl⟩
      · cases h
    · rintro ⟨g, gs, h1, h2, h3, h4, rfl⟩
      rw [(digitsU_iff false r _).2 ⟨g, gs, .inr h1, h2, h3, h4, rfl⟩]
  have hd : ∀ (d : Nat) (g : List Nat) (gs : List (List Nat)), d < 10 → ∀ c r, groupText (d :: g) gs = c :: r → c ≠ '-' ∧ c ≠ '+' := by
    intro d g gs hd c r h
    rw [groupText, List.map_cons, List.cons_append] at h
    obtain ⟨rfl, -⟩ := List.cons.inj h
    have := digitCh_spec hd
    exact ⟨this.2.2.2.1, this.2.2.2.2.1⟩
  unfold intLit
  constructor
  · intro h
    split at h
    · rename_i r hr
      cases hn : natLit r with
      | error e => rw [hn] at h; cases h
      | ok n =>
        rw [hn] at h; cases h
        obtain ⟨g, gs, h1, h2, h3, rfl, rfl⟩ := (nat r n).1 hn
        exact ⟨['-'], g, gs, by simp, h1, h2, h3, by simp [hr], by simp⟩
    · rename_i r hr
      cases hn : natLit r with
      | error e => rw [hn] at h; cases h
      | ok n =>
        rw [hn] at h; cases h
        obtain ⟨g, gs, h1, h2, h3, rfl, rfl⟩ := (nat r n).1 hn
        exact ⟨['+'], g, gs, by simp, h1, h2, h3, by simp [hr], by simp⟩
    · cases hn : natLit (strip s) with
      | error e => rw [hn] at h; cases h
      | ok n =>
        rw [hn] at h; cases h
        obtain ⟨g, gs, h1, h2, h3, h4, rfl⟩ := (nat _ n).1 hn
        exact ⟨[], g, gs, by simp, h1, h2, h3, by simp [h4], by simp⟩
  · rintro ⟨sign, g, gs, hs, h1, h2, h3, h4, rfl⟩
    have hn := (nat (groupText g gs) _).2 ⟨g, gs, h1, h2, h3, rfl, rfl⟩
    rw [h4]
    rcases hs with rfl | rfl | rfl
    · cases g with
      | nil => exact absurd rfl h1
      | cons d g =>
        simp only [List.nil_append]
        split
        · rename_i r hr; exact absurd rfl (hd d g gs (h3 d (by simp)) _ _ hr).1
        · rename_i r hr; exact absurd rfl (hd d g gs (h3 d (by simp)) _ _ hr).2
        · rw [hn]; simp [Except.map]
    · simp only [List.cons_append, List.nil_append]
      rw [hn]; simp [Except.map]
    · simp only [List.cons_append, List.nil_append]
      rw [hn]; simp [Except.map]

example : intLit ['1', '_', '2'] = .ok 12 :=
  (C38_integer_literals _ _).2 ⟨[], [1], [[2]], by simp, by simp, by simp, by decide, by decide, by decide⟩

end EdgeEval.Props
