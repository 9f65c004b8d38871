import Verif.Lemmas.Evaluate

/-!
# Property theorems C10, C12, C41: boundary evaluation

`evalBinary`, `evalMultiGt`, `evalMultiLabel` model the three `evaluate_boundaries_threshold…` functions;
`toCounts rows` are the four returned arrays.  `edgePixels x` is the set of non-zero pixels of `x`.
`rnd i g` is the random stream the matcher sees at threshold number `i` and annotator number `g`.
-/

namespace EdgeEval.Props

open EdgeEval Finset

/-- All random numbers lie in `[0, 1)`. -/
def UnitStreams (rnd : Nat → Nat → Nat → ℚ) : Prop := ∀ i g n, 0 ≤ rnd i g n ∧ rnd i g n < 1

/-- `p` is the binary prediction compared with the ground truth at threshold `t`: the pixels with response at
least `t`, thinned with `binary_thin` if requested. -/
structure Processed (fuel : Nat) (thin : Bool) (pred : Img ℚ) (t : ℚ) (p : Img ℚ) : Prop where
  rows : p.rows = pred.rows
  cols : p.cols = pred.cols
  plain : thin = false → edgePixels p =
    (range pred.rows ×ˢ range pred.cols).filter fun q => t ≤ pred.at_ q.1 q.2
  thinned : thin = true → binaryThin fuel ⟨pred.rows, pred.cols, fun i j => if t ≤ pred.at_ i j then 1 else 0⟩
    none = some p

theorem edgePixels_geThresh (pred : Img ℚ) (t : ℚ) : edgePixels (geThresh pred t) =
    (range pred.rows ×ˢ range pred.cols).filter fun q => t ≤ pred.at_ q.1 q.2 := by
  unfold edgePixels
  apply filter_congr
  intro q _
  simp only [geThresh]
  by_cases h : t ≤ pred.at_ q.1 q.2 <;> simp [h]

theorem processed_of {fuel : Nat} {thin : Bool} {pred : Img ℚ} {t : ℚ} {p : Img ℚ}
    (h : processPred fuel thin pred t = .ok (some p)) :
    Processed fuel thin pred t p ∧ imgSum p = (edgePixels p).card := by
  obtain ⟨a, b, c, d, e⟩ := processPred_facts h
  refine ⟨⟨a, b, fun ht => ?_, fun ht => e ht⟩, imgSum_binary c⟩
  rw [d ht, edgePixels_geThresh]

/-- The row computed at threshold number `k`. -/
def rowAt (rows : List Row) (k : Nat) : Row := rows.getD k ⟨0, 0, 0, 0⟩

/-! ## One annotator (binary) -/

theorem binary_row {fuel : Nat} {ths : List ℚ} {pred gt : Img ℚ} {maxDist : ℚ} {thin : Bool}
    {nms : Option (Img ℚ → Img ℚ)} {rnd : Nat → Nat → Nat → ℚ} {rows : List Row}
    (hx : UnitStreams rnd)
    (h : evalBinary fuel ths pred gt maxDist thin nms rnd = .ok (some rows)) :
    rows.length = ths.length ∧ ∀ k, k < ths.length → ∃ p n,
      Processed fuel thin (preNms nms pred) (ths.getD k 0) p ∧
      (rowAt rows k).countR = (n : Nat) ∧ (rowAt rows k).countP = (n : Nat) ∧
      n ≤ (edgePixels p).card ∧ n ≤ (edgePixels gt).card ∧
      (rowAt rows k).sumR = imgSum gt ∧ (rowAt rows k).sumP = (edgePixels p).card := by
  obtain ⟨hl, hk⟩ := (overThresholds_spec _ _ _).mp h
  refine ⟨hl, fun k hk' => ?_⟩
  have hrow := hk k hk'
  rw [Nat.zero_add] at hrow
  obtain ⟨p, hp, hrow⟩ := Run.bind_eq_ok.mp hrow
  obtain ⟨hpr, hsum⟩ := processed_of hp
  by_cases hg : imgAny gt = true
  · rw [if_pos hg] at hrow
    obtain ⟨n, h1, h2, h3, h4, h5, h6⟩ := matchRow_facts (hx k 0) hrow
    exact ⟨p, n, hpr, h1, h2, h3, h4, h5, h6.trans hsum⟩
  · rw [if_neg hg] at hrow
    simp only [Except.ok.injEq, Option.some.injEq] at hrow
    have he := (imgAny_false gt).mp (by simpa using hg)
    refine ⟨p, 0, hpr, ?_⟩
    unfold rowAt
    rw [← hrow]
    simp [he, imgSum_empty he, hsum]

/-- C10: the arrays returned by the binary `evaluate_boundaries_threshold` have one entry per threshold and
satisfy `0 ≤ count_r ≤ sum_r` and `0 ≤ count_p ≤ sum_p` everywhere, whatever the prediction, thresholds,
options and random numbers, for every ground truth with entries 0 or at least 1 (bool or integer). -/
theorem C10_binary_counts (fuel : Nat) (ths : List ℚ) (pred gt : Img ℚ) (maxDist : ℚ) (thin : Bool)
    (nms : Option (Img ℚ → Img ℚ)) (rnd : Nat → Nat → Nat → ℚ) (rows : List Row) (hx : UnitStreams rnd)
    (hgt : ∀ i j, i < gt.rows → j < gt.cols → gt.at_ i j = 0 ∨ 1 ≤ gt.at_ i j)
    (h : evalBinary fuel ths pred gt maxDist thin nms rnd = .ok (some rows)) :
    Spec.Sane ths.length (toCounts rows) := by
  obtain ⟨hl, hk⟩ := binary_row hx h
  refine sane_of_rows hl fun k hk' => ?_
  obtain ⟨p, n, -, h1, h2, h3, h4, h5, h6⟩ := hk k hk'
  unfold rowAt at h1 h2 h5 h6
  rw [h1, h2, h5, h6]
  have := card_le_imgSum hgt
  have h4' : (n : ℚ) ≤ (edgePixels gt).card := by exact_mod_cast h4
  exact ⟨by positivity, by linarith, by positivity, by exact_mod_cast h3⟩

/-- C10: the totals. `sum_r` is the number of ground-truth edge pixels of a 0/1 ground truth, `sum_p` the
number of edge pixels of the thresholded (and thinned) prediction. -/
theorem C10_binary_totals (fuel : Nat) (ths : List ℚ) (pred gt : Img ℚ) (maxDist : ℚ) (thin : Bool)
    (nms : Option (Img ℚ → Img ℚ)) (rnd : Nat → Nat → Nat → ℚ) (rows : List Row) (hx : UnitStreams rnd)
    (hgt : ∀ i j, i < gt.rows → j < gt.cols → gt.at_ i j = 0 ∨ gt.at_ i j = 1)
    (h : evalBinary fuel ths pred gt maxDist thin nms rnd = .ok (some rows)) (k : Nat)
    (hk : k < ths.length) :
    ∃ p, Processed fuel thin (preNms nms pred) (ths.getD k 0) p ∧
      (rowAt rows k).sumR = (edgePixels gt).card ∧ (rowAt rows k).sumP = (edgePixels p).card := by
  obtain ⟨hl, hk'⟩ := binary_row hx h
  obtain ⟨p, n, hp, h1, h2, h3, h4, h5, h6⟩ := hk' k hk
  exact ⟨p, hp, by rw [h5, imgSum_binary hgt], h6⟩

/-- C12: with one annotator the number of matched predicted pixels equals the number of matched ground-truth
pixels at every threshold. -/
theorem C12_binary_counts_agree (fuel : Nat) (ths : List ℚ) (pred gt : Img ℚ) (maxDist : ℚ) (thin : Bool)
    (nms : Option (Img ℚ → Img ℚ)) (rnd : Nat → Nat → Nat → ℚ) (rows : List Row) (hx : UnitStreams rnd)
    (h : evalBinary fuel ths pred gt maxDist thin nms rnd = .ok (some rows)) :
    (toCounts rows).countP = (toCounts rows).countR := by
  obtain ⟨hl, hk⟩ := binary_row hx h
  simp only [toCounts]
  apply List.map_congr_left
  intro row hrow
  obtain ⟨k, hk', rfl⟩ := List.mem_iff_getElem.mp hrow
  obtain ⟨p, n, -, h1, h2, -⟩ := hk k (by omega)
  have : rowAt rows k = rows[k] := by
    unfold rowAt
    rw [List.getD_eq_getElem?_getD, List.getElem?_eq_getElem hk']; rfl
  rw [this] at h1 h2
  rw [h1, h2]

/-! ## Several annotators -/

theorem multi_row {fuel : Nat} {ths : List ℚ} {pred : Img ℚ} {gts : List (Img ℚ)} {maxDist : ℚ} {thin : Bool}
    {nms : Option (Img ℚ → Img ℚ)} {rnd : Nat → Nat → Nat → ℚ} {rows : List Row}
    (hx : UnitStreams rnd)
    (h : evalMultiGt fuel ths pred gts maxDist thin nms rnd = .ok (some rows)) :
    rows.length = ths.length ∧ ∀ k, k < ths.length → ∃ p, ∃ ms : List (Finset (Nat × Nat)),
      Processed fuel thin (preNms nms pred) (ths.getD k 0) p ∧ ms.length = gts.length ∧
      (∀ g, g < gts.length → ms.getD g ∅ ⊆ edgePixels p ∧
        (ms.getD g ∅).card ≤ (edgePixels (gts.getD g ⟨0, 0, fun _ _ => 0⟩)).card) ∧
      (rowAt rows k).countR = (ms.map fun m => (m.card : ℚ)).sum ∧
      (rowAt rows k).sumR = (gts.map imgSum).sum ∧
      (rowAt rows k).countP = ((edgePixels p).filter fun q => ∃ m ∈ ms, q ∈ m).card ∧
      (rowAt rows k).sumP = (edgePixels p).card := by
  obtain ⟨hl, hk⟩ := (overThresholds_spec _ _ _).mp h
  refine ⟨hl, fun k hk' => ?_⟩
  have hrow := hk k hk'
  rw [Nat.zero_add] at hrow
  obtain ⟨p, hp, hrow⟩ := Run.bind_eq_ok.mp hrow
  obtain ⟨s, hs, hrow⟩ := Run.bind_eq_ok.mp hrow
  obtain ⟨hpr, hsum⟩ := processed_of hp
  obtain ⟨ms, h1, h2, h3, h4, h5⟩ := overGts_spec (hx k) gts 0 _ _ hs
  simp only [Except.ok.injEq, Option.some.injEq] at hrow
  refine ⟨p, ms, hpr, h1, h2, ?_⟩
  unfold rowAt
  rw [← hrow]
  simp only
  refine ⟨by rw [h4]; simp, by rw [h5]; simp, ?_, hsum⟩
  rw [imgSum_acc]
  congr 2
  ext ⟨i, j⟩
  simp only [mem_filter, mem_product, mem_range]
  constructor
  · rintro ⟨⟨hi, hj⟩, ha⟩
    rw [h3 i j hi hj] at ha
    simp only [Bool.false_eq_true, false_or] at ha
    obtain ⟨m, hm, hq⟩ := ha
    refine ⟨?_, m, hm, hq⟩
    obtain ⟨g, hg, rfl⟩ := List.mem_iff_getElem.mp hm
    have := (h2 g (by omega)).1
    rw [List.getD_eq_getElem?_getD, List.getElem?_eq_getElem hg] at this
    exact this hq
  · rintro ⟨he, m, hm, hq⟩
    simp only [edgePixels, mem_filter, mem_product, mem_range] at he
    refine ⟨he.1, ?_⟩
    rw [h3 i j he.1.1 he.1.2]
    exact Or.inr ⟨m, hm, hq⟩

theorem sum_le_of_getD {A B : Type} (f : A → ℚ) (g : B → ℚ) (da : A) (db : B) : ∀ (l : List A) (l' : List B),
    l.length = l'.length → (∀ k, k < l.length → f (l.getD k da) ≤ g (l'.getD k db)) →
    (l.map f).sum ≤ (l'.map g).sum := by
  intro l
  induction l with
  | nil =>
    intro l' hl _
    have : l' = [] := List.length_eq_zero_iff.mp (by simpa using hl.symm)
    subst this; simp
  | cons a l ih =>
    intro l' hl h
    cases l' with
    | nil => simp at hl
    | cons b l' =>
      have h0 := h 0 (by simp)
      have := ih l' (by simpa using hl) (fun k hk => by simpa using h (k + 1) (by simpa using hk))
      simp only [List.getD_cons_zero] at h0
      simp only [List.map_cons, List.sum_cons]
      linarith

/-- C10: the arrays returned with several annotators: one entry per threshold, `0 ≤ count_r ≤ sum_r`,
`0 ≤ count_p ≤ sum_p`. -/
theorem C10_multiple_gts_counts (fuel : Nat) (ths : List ℚ) (pred : Img ℚ) (gts : List (Img ℚ)) (maxDist : ℚ)
    (thin : Bool) (nms : Option (Img ℚ → Img ℚ)) (rnd : Nat → Nat → Nat → ℚ) (rows : List Row)
    (hx : UnitStreams rnd)
    (hgt : ∀ gt ∈ gts, ∀ i j, i < gt.rows → j < gt.cols → gt.at_ i j = 0 ∨ 1 ≤ gt.at_ i j)
    (h : evalMultiGt fuel ths pred gts maxDist thin nms rnd = .ok (some rows)) :
    Spec.Sane ths.length (toCounts rows) := by
  obtain ⟨hl, hk⟩ := multi_row hx h
  refine sane_of_rows hl fun k hk' => ?_
  obtain ⟨p, ms, -, hlen, h2, h3, h4, h5, h6⟩ := hk k hk'
  unfold rowAt at h3 h4 h5 h6
  rw [h3, h4, h5, h6]
  refine ⟨List.sum_nonneg (by simp), ?_, by positivity, by exact_mod_cast card_filter_le _ _⟩
  apply sum_le_of_getD _ _ ∅ ⟨0, 0, fun _ _ => 0⟩ _ _ hlen
  intro g hg
  have h2' := (h2 g (by omega)).2
  have hmem : gts.getD g ⟨0, 0, fun _ _ => 0⟩ ∈ gts := by
    rw [List.getD_eq_getElem?_getD, List.getElem?_eq_getElem (by omega)]
    exact List.getElem_mem _
  have := card_le_imgSum (hgt _ hmem)
  have h2'' : ((ms.getD g ∅).card : ℚ) ≤ (edgePixels (gts.getD g ⟨0, 0, fun _ _ => 0⟩)).card := by exact_mod_cast h2'
  exact h2''.trans this

/-- C10: the totals with several annotators: `sum_r` counts the edge pixels of all annotators. -/
theorem C10_multiple_gts_totals (fuel : Nat) (ths : List ℚ) (pred : Img ℚ) (gts : List (Img ℚ)) (maxDist : ℚ)
    (thin : Bool) (nms : Option (Img ℚ → Img ℚ)) (rnd : Nat → Nat → Nat → ℚ) (rows : List Row)
    (hx : UnitStreams rnd)
    (hgt : ∀ gt ∈ gts, ∀ i j, i < gt.rows → j < gt.cols → gt.at_ i j = 0 ∨ gt.at_ i j = 1)
    (h : evalMultiGt fuel ths pred gts maxDist thin nms rnd = .ok (some rows)) (k : Nat)
    (hk : k < ths.length) :
    ∃ p, Processed fuel thin (preNms nms pred) (ths.getD k 0) p ∧
      (rowAt rows k).sumR = ((gts.map fun gt => (edgePixels gt).card).sum : Nat) ∧
      (rowAt rows k).sumP = (edgePixels p).card := by
  obtain ⟨hl, hk'⟩ := multi_row hx h
  obtain ⟨p, ms, hp, -, -, -, h4, -, h6⟩ := hk' k hk
  refine ⟨p, hp, ?_, h6⟩
  rw [h4, Nat.cast_list_sum, List.map_map]
  congr 1
  apply List.map_congr_left
  intro gt hg
  exact imgSum_binary (hgt gt hg)

/-- C12: with several annotators, let `ms` be the numbers of pixels matched with each of them: `count_r` is
their sum, `count_p` is at least each of them and at most the sum (a predicted pixel matched with several
annotators counts once). -/
theorem C12_multiple_gts_counts (fuel : Nat) (ths : List ℚ) (pred : Img ℚ) (gts : List (Img ℚ)) (maxDist : ℚ)
    (thin : Bool) (nms : Option (Img ℚ → Img ℚ)) (rnd : Nat → Nat → Nat → ℚ) (rows : List Row)
    (hx : UnitStreams rnd)
    (h : evalMultiGt fuel ths pred gts maxDist thin nms rnd = .ok (some rows)) (k : Nat)
    (hk : k < ths.length) :
    ∃ ns : List Nat, ns.length = gts.length ∧ (rowAt rows k).countR = (ns.sum : Nat) ∧
      (∀ n ∈ ns, (n : ℚ) ≤ (rowAt rows k).countP) ∧
      (rowAt rows k).countP ≤ (rowAt rows k).countR ∧
      (rowAt rows k).countR ≤ gts.length * (rowAt rows k).countP := by
  obtain ⟨hl, hk'⟩ := multi_row hx h
  obtain ⟨p, ms, -, hlen, h2, h3, -, h5, -⟩ := hk' k hk
  have hsub : ∀ m ∈ ms, m ⊆ (edgePixels p).filter fun q => ∃ m ∈ ms, q ∈ m := by
    intro m hm q hq
    rw [mem_filter]
    refine ⟨?_, m, hm, hq⟩
    obtain ⟨g, hg, rfl⟩ := List.mem_iff_getElem.mp hm
    have := (h2 g (by omega)).1
    rw [List.getD_eq_getElem?_getD, List.getElem?_eq_getElem hg] at this
    exact this hq
  refine ⟨ms.map card, by simp [hlen], ?_, ?_, ?_, ?_⟩
  · rw [h3, Nat.cast_list_sum, List.map_map]; rfl
  · intro n hn
    obtain ⟨m, hm, rfl⟩ := List.mem_map.mp hn
    rw [h5]
    exact_mod_cast card_le_card (hsub m hm)
  · rw [h5, h3]
    clear h5 h3 h2 hlen hsub
    have key : ∀ l : List (Finset (Nat × Nat)),
        (((edgePixels p).filter fun q => ∃ m ∈ l, q ∈ m).card : ℚ) ≤ (l.map fun m => (m.card : ℚ)).sum := by
      intro l
      induction l with
      | nil => simp
      | cons a l ih =>
        have hs : ((edgePixels p).filter fun q => ∃ m ∈ a :: l, q ∈ m) ⊆
            a ∪ (edgePixels p).filter fun q => ∃ m ∈ l, q ∈ m := by
          intro q hq
          simp only [mem_filter, List.mem_cons, exists_eq_or_imp, mem_union] at hq ⊢
          tauto
        have h1 : (((edgePixels p).filter fun q => ∃ m ∈ a :: l, q ∈ m).card : ℚ) ≤
            a.card + ((edgePixels p).filter fun q => ∃ m ∈ l, q ∈ m).card := by
          exact_mod_cast (card_le_card hs).trans (card_union_le _ _)
        simp only [List.map_cons, List.sum_cons]
        linarith
    exact key ms
  · rw [h3, h5, ← hlen]
    have := List.sum_le_card_nsmul (ms.map fun m => (m.card : ℚ))
      (((edgePixels p).filter fun q => ∃ m ∈ ms, q ∈ m).card : ℚ) (by
        intro x hx
        obtain ⟨m, hm, rfl⟩ := List.mem_map.mp hx
        exact_mod_cast card_le_card (hsub m hm))
    simpa using this

/-! ## Multi-label -/

theorem killInternal_shape {pred gt : Img ℚ} {seg : Seg} {maxDist : ℚ} {junk : Nat → Nat → ℚ} {q : Img ℚ}
    (h : killInternal pred gt seg maxDist junk = .ok q) :
    (gt.rows = seg.img.rows ∧ gt.cols = seg.img.cols) ∧ (gt.rows = pred.rows ∧ gt.cols = pred.cols) ∧
    q = ⟨pred.rows, pred.cols, fun i j =>
      pred.at_ i j * killMaskAt (farFromGt gt junk pred.rows pred.cols maxDist i j) seg i j⟩ := by
  unfold killInternal at h
  split at h
  · simp at h
  · rename_i h1
    split at h
    · simp at h
    · rename_i h2
      simp only [Except.ok.injEq] at h
      exact ⟨not_not.mp h1, not_not.mp h2, h.symm⟩

/-- A uint8 mask has entries 0..255. -/
def SegOk (seg : Option Seg) : Prop :=
  ∀ s, seg = some s → s.isBool = false → ∀ i j, i < s.img.rows → j < s.img.cols →
    ∃ v : Nat, v ≤ 255 ∧ s.img.at_ i j = v

theorem maybeKill_facts {o : MLOpts} {p gt : Img ℚ} {seg : Option Seg} {q : Img ℚ} (hp : IsBinary p)
    (hs : SegOk seg) (h : maybeKill o p gt seg = .ok (some q)) :
    q.rows = p.rows ∧ q.cols = p.cols ∧ Countable01 q ∧ edgePixels q ⊆ edgePixels p ∧
    ((o.kill = false ∨ ∃ s, seg = some s ∧ s.isBool = true) → IsBinary q) ∧
    (o.kill = false → q = p) ∧
    (o.kill = true → ∃ s, seg = some s ∧ killInternal p gt s o.maxDist o.junk = .ok q) := by
  unfold maybeKill at h
  by_cases hk : o.kill = true
  · rw [if_pos hk] at h
    cases seg with
    | none => simp at h
    | some s =>
      simp only at h
      rcases hki : killInternal p gt s o.maxDist o.junk with e | q'
      · rw [hki] at h; simp at h
      · rw [hki] at h
        simp only [Except.ok.injEq, Option.some.injEq] at h
        subst h
        obtain ⟨sh1, sh2, rfl⟩ := killInternal_shape hki
        have hsub : edgePixels ⟨p.rows, p.cols, fun i j =>
            p.at_ i j * killMaskAt (farFromGt gt o.junk p.rows p.cols o.maxDist i j) s i j⟩ ⊆ edgePixels p := by
          intro x hxx
          simp only [edgePixels, mem_filter] at hxx ⊢
          exact ⟨hxx.1, left_ne_zero_of_mul hxx.2⟩
        refine ⟨rfl, rfl, ?_, hsub, ?_, by simp [hk], fun _ => ⟨s, rfl, hki⟩⟩
        · intro i j hi hj
          simp only at hi hj ⊢
          rcases hp i j hi hj with e | e
          · simp [e]
          · rw [e, one_mul]
            unfold killMaskAt
            split
            · split <;> simp
            · rename_i hb
              split
              · obtain ⟨v, hv, he⟩ := hs s rfl (by simpa using hb) i j (by omega) (by omega)
                rw [he]
                rcases Nat.lt_or_ge v 255 with h1 | h1
                · right
                  have : (v : ℚ) + 1 ≤ 255 := by exact_mod_cast h1
                  linarith
                · left
                  have : v = 255 := by omega
                  subst this; norm_num
              · right; norm_num
        · intro hb i j hi hj
          simp only at hi hj ⊢
          rcases hb with hb | ⟨s', hs', hb⟩
          · simp [hk] at hb
          · simp only [Option.some.injEq] at hs'
            subst hs'
            rcases hp i j hi hj with e | e
            · simp [e]
            · rw [e, one_mul]
              unfold killMaskAt
              rw [if_pos hb]
              split <;> simp
  · rw [if_neg hk] at h
    simp only [Except.ok.injEq, Option.some.injEq] at h
    subst h
    refine ⟨rfl, rfl, ?_, Finset.Subset.refl _, fun _ => hp, fun _ => rfl, fun hk' => absurd hk' hk⟩
    intro i j hi hj
    rcases hp i j hi hj with e | e
    · exact Or.inl e
    · exact Or.inr e.ge

theorem ml_row {fuel : Nat} {ths : List ℚ} {pred gt : Img ℚ} {seg : Option Seg} {o : MLOpts}
    {rnd : Nat → Nat → Nat → ℚ} {rows : List Row} (hx : UnitStreams rnd)
    (h : evalMultiLabel fuel ths pred gt seg o rnd = .ok (some rows)) :
    rows.length = ths.length ∧ ∀ k, k < ths.length →
      (edgePixels gt = ∅ ∧ o.skip = true ∧ rowAt rows k = ⟨0, 0, 0, 0⟩) ∨
      (edgePixels gt = ∅ ∧ o.skip = false ∧ ∃ p, Processed fuel o.thin (preNms o.nms pred) (ths.getD k 0) p ∧
        rowAt rows k = ⟨0, 0, 0, (edgePixels p).card⟩) ∨
      (edgePixels gt ≠ ∅ ∧ ∃ p q n, Processed fuel o.thin (preNms o.nms pred) (ths.getD k 0) p ∧
        IsBinary p ∧ maybeKill o p gt seg = .ok (some q) ∧
        (rowAt rows k).countR = (n : Nat) ∧ (rowAt rows k).countP = (n : Nat) ∧
        n ≤ (edgePixels q).card ∧ n ≤ (edgePixels gt).card ∧
        (rowAt rows k).sumR = imgSum gt ∧ (rowAt rows k).sumP = imgSum q) := by
  unfold evalMultiLabel at h
  split at h
  · rename_i hsk
    simp only [Bool.and_eq_true, Bool.not_eq_true'] at hsk
    simp only [Except.ok.injEq, Option.some.injEq] at h
    subst h
    refine ⟨by simp, fun k hk => Or.inl ⟨(imgAny_false gt).mp hsk.2, hsk.1, ?_⟩⟩
    unfold rowAt
    rw [List.getD_eq_getElem?_getD, List.getElem?_map, List.getElem?_eq_getElem hk]; rfl
  · rename_i hsk
    obtain ⟨hl, hk⟩ := (overThresholds_spec _ _ _).mp h
    refine ⟨hl, fun k hk' => Or.inr ?_⟩
    have hrow := hk k hk'
    rw [Nat.zero_add] at hrow
    obtain ⟨p, hp, hrow⟩ := Run.bind_eq_ok.mp hrow
    obtain ⟨hpr, hsum⟩ := processed_of hp
    by_cases hg : imgAny gt = true
    · rw [if_pos hg] at hrow
      obtain ⟨q, hq, hrow⟩ := Run.bind_eq_ok.mp hrow
      obtain ⟨n, h1, h2, h3, h4, h5, h6⟩ := matchRow_facts (hx k 0) hrow
      right
      refine ⟨((imgAny_iff gt).mp hg).ne_empty, p, q, n, hpr, (processPred_facts hp).2.2.1, hq, h1, h2, h3, h4, h5, h6⟩
    · rw [if_neg hg] at hrow
      simp only [Except.ok.injEq, Option.some.injEq] at hrow
      left
      have hg' : imgAny gt = false := by simpa using hg
      refine ⟨(imgAny_false gt).mp hg', ?_, p, hpr, ?_⟩
      · simpa [hg'] using hsk
      · unfold rowAt; rw [← hrow, hsum]

/-- C10: the arrays returned by the multi-label `evaluate_boundaries_threshold` are sane, with or without
thinning, kill_internal (bool or uint8 mask) and skip_if_nonexistent. -/
theorem C10_multi_label_counts (fuel : Nat) (ths : List ℚ) (pred gt : Img ℚ) (seg : Option Seg) (o : MLOpts)
    (rnd : Nat → Nat → Nat → ℚ) (rows : List Row) (hx : UnitStreams rnd) (hs : SegOk seg)
    (hgt : ∀ i j, i < gt.rows → j < gt.cols → gt.at_ i j = 0 ∨ 1 ≤ gt.at_ i j)
    (h : evalMultiLabel fuel ths pred gt seg o rnd = .ok (some rows)) :
    Spec.Sane ths.length (toCounts rows) := by
  obtain ⟨hl, hk⟩ := ml_row hx h
  refine sane_of_rows hl fun k hk' => ?_
  rcases hk k hk' with ⟨-, -, e⟩ | ⟨-, -, p, -, e⟩ | ⟨-, p, q, n, -, hb, hq, h1, h2, h3, h4, h5, h6⟩
  · unfold rowAt at e; rw [e]; simp
  · unfold rowAt at e; rw [e]; simp
  · unfold rowAt at h1 h2 h5 h6
    rw [h1, h2, h5, h6]
    have f := maybeKill_facts hb hs hq
    have a := card_le_imgSum hgt
    have b := card_le_imgSum f.2.2.1
    have h4' : (n : ℚ) ≤ (edgePixels gt).card := by exact_mod_cast h4
    have h3' : (n : ℚ) ≤ (edgePixels q).card := by exact_mod_cast h3
    exact ⟨by positivity, by linarith, by positivity, by linarith⟩

/-- C10: the multi-label totals, for a 0/1 ground truth. Without ground-truth edges all counts are zero and
`sum_p` is zero with skip_if_nonexistent and the number of predicted pixels (false positives) without;
otherwise `sum_r` is the number of ground-truth pixels and, with kill_internal off, `sum_p` the number of
predicted pixels (for kill_internal see C31). -/
theorem C10_multi_label_totals (fuel : Nat) (ths : List ℚ) (pred gt : Img ℚ) (seg : Option Seg) (o : MLOpts)
    (rnd : Nat → Nat → Nat → ℚ) (rows : List Row) (hx : UnitStreams rnd) (hs : SegOk seg)
    (hgt : ∀ i j, i < gt.rows → j < gt.cols → gt.at_ i j = 0 ∨ gt.at_ i j = 1)
    (h : evalMultiLabel fuel ths pred gt seg o rnd = .ok (some rows)) (k : Nat) (hk : k < ths.length) :
    (rowAt rows k).sumR = (edgePixels gt).card ∧
    (edgePixels gt = ∅ → o.skip = true → rowAt rows k = ⟨0, 0, 0, 0⟩) ∧
    (edgePixels gt = ∅ → o.skip = false → ∃ p, Processed fuel o.thin (preNms o.nms pred) (ths.getD k 0) p ∧
      rowAt rows k = ⟨0, 0, 0, (edgePixels p).card⟩) ∧
    (edgePixels gt ≠ ∅ → o.kill = false → ∃ p, Processed fuel o.thin (preNms o.nms pred) (ths.getD k 0) p ∧
      (rowAt rows k).sumP = (edgePixels p).card) := by
  obtain ⟨hl, hk'⟩ := ml_row hx h
  rcases hk' k hk with ⟨he, hsk, e⟩ | ⟨he, hsk, p, hp, e⟩ | ⟨hne, p, q, n, hp, hb, hq, -, -, -, -, h5, h6⟩
  · rw [e]; simp [he, hsk]
  · rw [e]
    simp only [he, hsk, card_empty, Nat.cast_zero, true_and, Bool.false_eq_true, false_implies, implies_true,
      not_true_eq_false, ne_eq, and_true]
    exact fun _ _ => ⟨p, hp, rfl⟩
  · refine ⟨by rw [h5, imgSum_binary hgt], fun h => absurd h hne, fun h => absurd h hne, fun _ hkill => ?_⟩
    have f := maybeKill_facts hb hs hq
    rw [f.2.2.2.2.2.1 hkill] at h6
    exact ⟨p, hp, h6.trans (imgSum_binary hb)⟩

/-- C12: in the multi-label evaluation too, the matched counts agree at every threshold. -/
theorem C12_multi_label_counts_agree (fuel : Nat) (ths : List ℚ) (pred gt : Img ℚ) (seg : Option Seg) (o : MLOpts)
    (rnd : Nat → Nat → Nat → ℚ) (rows : List Row) (hx : UnitStreams rnd)
    (h : evalMultiLabel fuel ths pred gt seg o rnd = .ok (some rows)) :
    (toCounts rows).countP = (toCounts rows).countR := by
  obtain ⟨hl, hk⟩ := ml_row hx h
  simp only [toCounts]
  apply List.map_congr_left
  intro row hrow
  obtain ⟨k, hk', rfl⟩ := List.mem_iff_getElem.mp hrow
  have : rowAt rows k = rows[k] := by
    unfold rowAt
    rw [List.getD_eq_getElem?_getD, List.getElem?_eq_getElem hk']; rfl
  rcases hk k (by omega) with ⟨-, -, e⟩ | ⟨-, -, p, -, e⟩ | ⟨-, p, q, n, -, -, -, h1, h2, -⟩
  · rw [this] at e; rw [e]
  · rw [this] at e; rw [e]
  · rw [this] at h1 h2; rw [h1, h2]

/-! ## The evaluation returns on every valid input -/

theorem binaryThinLoop_mono (m : Option Nat) : ∀ (fuel fuel' it : Nat) (x y : Img ℚ), fuel ≤ fuel' →
    binaryThinLoop m fuel it x = some y → binaryThinLoop m fuel' it x = some y := by
  intro fuel
  induction fuel with
  | zero => intro fuel' it x y _ h; simp [binaryThinLoop] at h
  | succ fuel ih =>
    intro fuel' it x y hf h
    obtain ⟨f, rfl⟩ : ∃ f, fuel' = f + 1 := ⟨fuel' - 1, by omega⟩
    unfold binaryThinLoop at h ⊢
    split at h
    · rename_i h1
      rw [if_pos h1]
      split at h
      · rename_i h2
        rw [if_pos h2]
        simp only at h ⊢
        split at h
        · rename_i h3
          rw [if_pos h3]
          exact ih f _ _ _ (by omega) h
        · rename_i h3
          rw [if_neg h3]; exact h
      · rename_i h2
        rw [if_neg h2]; exact h
    · rename_i h1
      rw [if_neg h1]; exact h

theorem processPred_total (thin : Bool) (pred : Img ℚ) (t : ℚ) :
    ∃ F p, ∀ fuel, F ≤ fuel → processPred fuel thin pred t = .ok (some p) := by
  cases thin with
  | false => exact ⟨0, geThresh pred t, fun fuel _ => rfl⟩
  | true =>
    obtain ⟨y, hy⟩ := C17_binary_thin_terminates (geThresh pred t) none _ (le_refl _)
    refine ⟨(edgeSet (geThresh pred t)).ncard + 1, y, fun fuel hf => ?_⟩
    unfold processPred
    rw [if_pos rfl]
    unfold binaryThin at hy ⊢
    rw [binaryThinLoop_mono none _ _ _ _ _ hf hy]

/-- `x` eventually returns a fixed value when given enough fuel. -/
def Returns {α : Type} (x : Nat → Run α) : Prop := ∃ F a, ∀ fuel, F ≤ fuel → x fuel = .ok (some a)

theorem Returns.bind {α β : Type} {x : Nat → Run α} {f : Nat → α → Run β} {P : α → Prop} (hx : Returns x)
    (hP : ∀ fuel a, x fuel = .ok (some a) → P a)
    (hf : ∀ a, P a → Returns fun fuel => f fuel a) : Returns fun fuel => (x fuel).bind (f fuel) := by
  obtain ⟨F, a, ha⟩ := hx
  obtain ⟨G, b, hb⟩ := hf a (hP F a (ha F (le_refl _)))
  refine ⟨max F G, b, fun fuel h => ?_⟩
  show (x fuel).bind (f fuel) = _
  rw [ha fuel (by omega)]
  exact hb fuel (by omega)

theorem overThresholds_total {f : Nat → Nat → ℚ → Run Row} (h : ∀ i t, Returns fun fuel => f fuel i t) :
    ∀ (ts : List ℚ) (i : Nat), Returns fun fuel => overThresholds (f fuel) i ts := by
  intro ts
  induction ts with
  | nil => intro i; exact ⟨0, [], fun _ _ => rfl⟩
  | cons t ts ih =>
    intro i
    unfold overThresholds
    refine Returns.bind (P := fun _ => True) (h i t) (fun _ _ _ => trivial) fun row _ => ?_
    refine Returns.bind (P := fun _ => True) (ih (i + 1)) (fun _ _ _ => trivial) fun rest _ => ?_
    exact ⟨0, _, fun _ _ => rfl⟩

theorem matchRow_total {p gt : Img ℚ} {maxDist : ℚ} {xs : Nat → ℚ} (hx : ∀ i, 0 ≤ xs i ∧ xs i < 1)
    (hs : p.rows = gt.rows ∧ p.cols = gt.cols) (hd : 0 < maxDist) (hne : 0 < p.rows ∧ 0 < p.cols) :
    Returns fun fuel => matchRow fuel p gt maxDist xs := by
  refine Returns.bind (P := fun _ => True) (C11_total p gt maxDist 100 xs 0 hx hs hd (by norm_num) hne)
    (fun _ _ _ => trivial) fun r _ => ⟨0, _, fun _ _ => rfl⟩

theorem imgAny_nonempty {gt : Img ℚ} (h : imgAny gt = true) : 0 < gt.rows ∧ 0 < gt.cols := by
  obtain ⟨⟨i, j⟩, hij⟩ := (imgAny_iff gt).mp h
  simp only [edgePixels, mem_filter, mem_product, mem_range] at hij
  omega

/-- C10: the binary evaluation returns normally (no exception, no failed assertion, every loop stops), with a
result that does not depend on the fuel, whenever the (possibly NMS-processed) prediction and the ground
truth have the same shape and `max_dist > 0`. -/
theorem C10_binary_total (ths : List ℚ) (pred gt : Img ℚ) (maxDist : ℚ) (thin : Bool)
    (nms : Option (Img ℚ → Img ℚ)) (rnd : Nat → Nat → Nat → ℚ) (hx : UnitStreams rnd) (hd : 0 < maxDist)
    (hs : (preNms nms pred).rows = gt.rows ∧ (preNms nms pred).cols = gt.cols) :
    ∃ F rows, ∀ fuel, F ≤ fuel → evalBinary fuel ths pred gt maxDist thin nms rnd = .ok (some rows) := by
  refine overThresholds_total (f := fun fuel i t => binaryRow fuel thin (preNms nms pred) gt maxDist (rnd i 0) t)
    (fun i t => ?_) ths 0
  refine Returns.bind (P := fun p => p.rows = gt.rows ∧ p.cols = gt.cols) (processPred_total thin (preNms nms pred) t)
    (fun fuel a ha => ?_) fun p hp => ?_
  · have := processPred_facts ha
    exact ⟨this.1.trans hs.1, this.2.1.trans hs.2⟩
  · by_cases hg : imgAny gt = true
    · simp only [if_pos hg]
      exact matchRow_total (hx i 0) hp hd (by rw [hp.1, hp.2]; exact imgAny_nonempty hg)
    · simp only [if_neg hg]
      exact ⟨0, _, fun _ _ => rfl⟩

/-- C10: so does the evaluation with several annotators, for images with at least one pixel. -/
theorem C10_multiple_gts_total (ths : List ℚ) (pred : Img ℚ) (gts : List (Img ℚ)) (maxDist : ℚ) (thin : Bool)
    (nms : Option (Img ℚ → Img ℚ)) (rnd : Nat → Nat → Nat → ℚ) (hx : UnitStreams rnd) (hd : 0 < maxDist)
    (hs : ∀ gt ∈ gts, (preNms nms pred).rows = gt.rows ∧ (preNms nms pred).cols = gt.cols)
    (hne : 0 < (preNms nms pred).rows ∧ 0 < (preNms nms pred).cols) :
    ∃ F rows, ∀ fuel, F ≤ fuel → evalMultiGt fuel ths pred gts maxDist thin nms rnd = .ok (some rows) := by
  refine overThresholds_total (f := fun fuel i t => multiGtRow fuel thin (preNms nms pred) gts maxDist (rnd i) t)
    (fun i t => ?_) ths 0
  refine Returns.bind (P := fun p => p.rows = (preNms nms pred).rows ∧ p.cols = (preNms nms pred).cols)
    (processPred_total thin (preNms nms pred) t) (fun fuel a ha => ?_) fun p hp => ?_
  · have := processPred_facts ha
    exact ⟨this.1, this.2.1⟩
  · refine Returns.bind (P := fun _ => True) ?_ (fun _ _ _ => trivial) fun s _ => ⟨0, _, fun _ _ => rfl⟩
    have key : ∀ (l : List (Img ℚ)) (g : Nat) (s : GtAcc),
        (∀ gt ∈ l, (preNms nms pred).rows = gt.rows ∧ (preNms nms pred).cols = gt.cols) →
        Returns fun fuel => overGts fuel p maxDist (rnd i) g l s := by
      intro l
      induction l with
      | nil => intro g s _; exact ⟨0, s, fun _ _ => rfl⟩
      | cons gt l ih =>
        intro g s hl
        unfold overGts
        have hg := hl gt (by simp)
        refine Returns.bind (P := fun _ => True)
          (C11_total p gt maxDist 100 (rnd i g) 0 (hx i g) ⟨hp.1.trans hg.1, hp.2.trans hg.2⟩ hd (by norm_num)
            (by rw [hp.1, hp.2]; exact hne)) (fun _ _ _ => trivial) fun r _ => ?_
        exact ih _ _ fun gt' h' => hl gt' (by simp [h'])
    exact key gts 0 _ hs

/-- C10: and the multi-label evaluation, where kill_internal needs a mask of the same shape. -/
theorem C10_multi_label_total (ths : List ℚ) (pred gt : Img ℚ) (seg : Option Seg) (o : MLOpts)
    (rnd : Nat → Nat → Nat → ℚ) (hx : UnitStreams rnd) (hd : 0 < o.maxDist)
    (hs : (preNms o.nms pred).rows = gt.rows ∧ (preNms o.nms pred).cols = gt.cols)
    (hk : o.kill = true → ∃ s, seg = some s ∧ s.img.rows = gt.rows ∧ s.img.cols = gt.cols) :
    ∃ F rows, ∀ fuel, F ≤ fuel → evalMultiLabel fuel ths pred gt seg o rnd = .ok (some rows) := by
  unfold evalMultiLabel
  by_cases hsk : (o.skip && !imgAny gt) = true
  · simp only [if_pos hsk]
    exact ⟨0, _, fun _ _ => rfl⟩
  simp only [if_neg hsk]
  refine overThresholds_total (f := fun fuel i t => mlRow fuel o (preNms o.nms pred) gt seg (rnd i 0) t)
    (fun i t => ?_) ths 0
  refine Returns.bind (P := fun p => p.rows = gt.rows ∧ p.cols = gt.cols) (processPred_total o.thin (preNms o.nms pred) t)
    (fun fuel a ha => ?_) fun p hp => ?_
  · have := processPred_facts ha
    exact ⟨this.1.trans hs.1, this.2.1.trans hs.2⟩
  · by_cases hg : imgAny gt = true
    · simp only [if_pos hg]
      have hq : ∃ q, maybeKill o p gt seg = .ok (some q) ∧ q.rows = gt.rows ∧ q.cols = gt.cols := by
        unfold maybeKill
        by_cases hkill : o.kill = true
        · obtain ⟨s, rfl, h1, h2⟩ := hk hkill
          simp only [if_pos hkill]
          unfold killInternal
          rw [if_neg (not_not.mpr ⟨h1.symm, h2.symm⟩), if_neg (not_not.mpr ⟨hp.1.symm, hp.2.symm⟩)]
          exact ⟨_, rfl, hp.1, hp.2⟩
        · simp only [if_neg hkill]
          exact ⟨p, rfl, hp⟩
      obtain ⟨q, hq, hsq⟩ := hq
      simp only [hq, Run.bind]
      exact matchRow_total (hx i 0) hsq hd (by rw [hsq.1, hsq.2]; exact imgAny_nonempty hg)
    · simp only [if_neg hg]
      exact ⟨0, _, fun _ _ => rfl⟩

/-- A run of the several-annotators evaluation on a concrete input exists (3 thresholds, 2 annotators, with
thinning), so the theorems above are not vacuous. -/
example : ∃ F rows, ∀ fuel, F ≤ fuel →
    evalMultiGt fuel [1/4, 1/2, 3/4] (ofRows [[1, 1/2, 0], [0, 1/2, 1], [1/3, 1, 1]])
      [ofRows [[1, 0, 0], [0, 1, 0], [0, 0, 1]], ofRows [[0, 0, 0], [0, 1, 1], [1, 0, 0]]] (1/4) true none
      (fun _ _ _ => 1/2) = .ok (some rows) := by
  refine C10_multiple_gts_total _ _ _ _ _ _ _ (fun _ _ _ => by norm_num) (by norm_num) ?_ (by simp [preNms, ofRows])
  simp [preNms, ofRows]

/-! ## C41 -/

/-- C41: without thinning a higher threshold never adds predicted pixels and never increases `sum_p`. -/
theorem C41_threshold_antitone (fuel : Nat) (ths : List ℚ) (pred gt : Img ℚ) (maxDist : ℚ)
    (nms : Option (Img ℚ → Img ℚ)) (rnd : Nat → Nat → Nat → ℚ) (rows : List Row) (hx : UnitStreams rnd)
    (h : evalBinary fuel ths pred gt maxDist false nms rnd = .ok (some rows)) (k l : Nat)
    (hk : k < ths.length) (hl : l < ths.length) (hle : ths.getD k 0 ≤ ths.getD l 0) :
    (∃ p q, Processed fuel false (preNms nms pred) (ths.getD k 0) p ∧
      Processed fuel false (preNms nms pred) (ths.getD l 0) q ∧ edgePixels q ⊆ edgePixels p) ∧
    (rowAt rows l).sumP ≤ (rowAt rows k).sumP := by
  obtain ⟨-, hr⟩ := binary_row hx h
  obtain ⟨p, -, hp, -, -, -, -, -, sp⟩ := hr k hk
  obtain ⟨q, -, hq, -, -, -, -, -, sq⟩ := hr l hl
  have hsub : edgePixels q ⊆ edgePixels p := by
    rw [hp.plain rfl, hq.plain rfl]
    intro x hx'
    simp only [mem_filter] at hx' ⊢
    exact ⟨hx'.1, hle.trans hx'.2⟩
  refine ⟨⟨p, q, hp, hq, hsub⟩, ?_⟩
  rw [sp, sq]
  exact_mod_cast card_le_card hsub

theorem edgePixels_of_edgeSet_empty {x : Img ℚ} (h : edgeSet x = ∅) : edgePixels x = ∅ := by
  rw [← not_nonempty_iff_eq_empty]
  rintro ⟨⟨i, j⟩, hij⟩
  simp only [edgePixels, mem_filter, mem_product, mem_range] at hij
  have : ((i : ℤ), (j : ℤ)) ∈ edgeSet x := by
    simp only [edgeSet, Set.mem_ofPred_eq]
    refine ⟨by omega, by omega, by omega, by omega, ?_⟩
    simpa using hij.2
  rw [h] at this
  exact this.elim

theorem processed_empty {fuel : Nat} {thin : Bool} {pred : Img ℚ} {t : ℚ} {p : Img ℚ}
    (hp : Processed fuel thin pred t p) (ht : ∀ i j, i < pred.rows → j < pred.cols → pred.at_ i j < t) :
    edgePixels p = ∅ := by
  cases thin with
  | false =>
    rw [hp.plain rfl, filter_eq_empty_iff]
    rintro ⟨i, j⟩ hij
    simp only [mem_product, mem_range] at hij
    exact not_le.mpr (ht i j hij.1 hij.2)
  | true =>
    obtain ⟨-, -, hs, -⟩ := C17_binary_thin_subset _ _ _ _ (hp.thinned rfl)
    apply edgePixels_of_edgeSet_empty
    refine Set.eq_empty_of_forall_notMem fun x hx => ?_
    have := hs hx
    simp only [edgeSet, Set.mem_ofPred_eq] at this
    obtain ⟨a, b, c, d, e⟩ := this
    rw [if_neg (not_le.mpr (ht _ _ (by omega) (by omega)))] at e
    exact e rfl

/-- C41: a threshold above every response gives `sum_p = count_p = count_r = 0`, with or without thinning. -/
theorem C41_threshold_above_all (fuel : Nat) (ths : List ℚ) (pred gt : Img ℚ) (maxDist : ℚ) (thin : Bool)
    (nms : Option (Img ℚ → Img ℚ)) (rnd : Nat → Nat → Nat → ℚ) (rows : List Row) (hx : UnitStreams rnd)
    (h : evalBinary fuel ths pred gt maxDist thin nms rnd = .ok (some rows)) (k : Nat) (hk : k < ths.length)
    (ht : ∀ i j, i < (preNms nms pred).rows → j < (preNms nms pred).cols →
      (preNms nms pred).at_ i j < ths.getD k 0) :
    (rowAt rows k).sumP = 0 ∧ (rowAt rows k).countP = 0 ∧ (rowAt rows k).countR = 0 := by
  obtain ⟨-, hr⟩ := binary_row hx h
  obtain ⟨p, n, hp, h1, h2, h3, -, -, h6⟩ := hr k hk
  have he := processed_empty hp ht
  rw [he] at h3 h6
  have : n = 0 := by simpa using h3
  subst this
  rw [h1, h2, h6]
  simp

/-- C41: a threshold not above any response (0 for non-negative maps) predicts every pixel, without
thinning. -/
theorem C41_threshold_below_all (fuel : Nat) (ths : List ℚ) (pred gt : Img ℚ) (maxDist : ℚ)
    (nms : Option (Img ℚ → Img ℚ)) (rnd : Nat → Nat → Nat → ℚ) (rows : List Row) (hx : UnitStreams rnd)
    (h : evalBinary fuel ths pred gt maxDist false nms rnd = .ok (some rows)) (k : Nat) (hk : k < ths.length)
    (ht : ∀ i j, i < (preNms nms pred).rows → j < (preNms nms pred).cols →
      ths.getD k 0 ≤ (preNms nms pred).at_ i j) :
    (rowAt rows k).sumP = ((preNms nms pred).rows * (preNms nms pred).cols : Nat) := by
  obtain ⟨-, hr⟩ := binary_row hx h
  obtain ⟨p, n, hp, -, -, -, -, -, h6⟩ := hr k hk
  rw [h6, hp.plain rfl, filter_true_of_mem, card_product, card_range, card_range]
  rintro ⟨i, j⟩ hij
  simp only [mem_product, mem_range] at hij
  exact ht i j hij.1 hij.2

/-- C41 (finding): with thinning the predicted pixel count is not antitone in the threshold: on this 3x3
response map the lower threshold leaves 1 pixel, the higher one 4. -/
theorem C41_thinning_breaks_antitone :
    let pred := ofRows [[1, 1, 1], [1, 1/2, 1], [1, 1, 1]]
    (processPred 9 true pred (1/4)).map (Option.map imgSum) = .ok (some 1) ∧
    (processPred 9 true pred (3/4)).map (Option.map imgSum) = .ok (some 4) := by
  decide +kernel

end EdgeEval.Props
