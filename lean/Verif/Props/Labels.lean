import Verif.Model.Codec
import Verif.Spec.Labels
import Mathlib.Data.List.GetD
import Mathlib.Data.List.Nodup
import Mathlib.Data.Fintype.Card
import Mathlib.Data.Finset.Card

/-!
# C24, C27: label conversions and the ignored border
-/

namespace EdgeEval.Props

open EdgeEval.Spec

/-! ## C24 -/

/-- C24: `mask2onehot(mask, labels)` raises exactly when there is no label or fewer *rows* than labels
(`mask.shape[0]` of a 2-D mask is its height); otherwise channel `k` is set exactly where the mask equals
`labels[k]`. -/
theorem C24_onehot (mask : Img Int) (labels : List Int) :
    ((labels = [] ∨ mask.rows < labels.length) → mask2onehot mask labels = .error .assertionError) ∧
    (labels ≠ [] → labels.length ≤ mask.rows → ∃ e, mask2onehot mask labels = .ok e ∧
      e.n = labels.length ∧ e.h = mask.rows ∧ e.w = mask.cols ∧
      ∀ k i j, ∀ hk : k < labels.length, e.at_ k i j = true ↔ mask.at_ i j = labels[k]) := by
  constructor
  · rintro (h | h)
    · subst h; rfl
    · unfold mask2onehot
      split
      · rfl
      · rw [if_pos (by omega)]
  · intro h1 h2
    have : 0 < labels.length := List.length_pos_iff.mpr h1
    refine ⟨⟨labels.length, mask.rows, mask.cols, fun k i j => decide (labels[k]? = some (mask.at_ i j))⟩,
      by unfold mask2onehot; rw [if_neg (by omega), if_neg (by omega)], rfl, rfl, rfl, ?_⟩
    intro k i j hk
    simp [List.getElem?_eq_getElem hk, eq_comm]

/-- C24: with distinct labels the channels are disjoint: a pixel is in at most one of them. -/
theorem C24_onehot_disjoint (mask : Img Int) (labels : List Int) (hnd : labels.Nodup) (e : MLEdges)
    (h : mask2onehot mask labels = .ok e) (k l i j : Nat) (hk : k < e.n) (hl : l < e.n)
    (h1 : e.at_ k i j = true) (h2 : e.at_ l i j = true) : k = l := by
  unfold mask2onehot at h
  split at h
  · cases h
  split at h
  · cases h
  cases h
  have hk' : k < labels.length := hk
  have hl' : l < labels.length := hl
  simp only [decide_eq_true_eq, List.getElem?_eq_getElem hk', List.getElem?_eq_getElem hl', Option.some.injEq] at h1 h2
  exact (List.Nodup.getElem_inj_iff hnd).mp (h1.trans h2.symm)

theorem maskFold (x : Int) (d : List (Int × Int)) (v : Int) :
    (d.map Prod.fst).Nodup →
    (∀ kv ∈ d, kv.1 = x → d.foldl (fun v kv => if x = kv.1 then kv.2 % 256 else v) v = kv.2 % 256) ∧
    ((∀ kv ∈ d, kv.1 ≠ x) → d.foldl (fun v kv => if x = kv.1 then kv.2 % 256 else v) v = v) := by
  induction d generalizing v with
  | nil => simp
  | cons a d ih =>
    intro hnd
    rw [List.map_cons, List.nodup_cons] at hnd
    obtain ⟨i1, i2⟩ := ih (if x = a.1 then a.2 % 256 else v) hnd.2
    constructor
    · intro kv hkv hx
      rw [List.foldl_cons]
      rcases List.mem_cons.mp hkv with h | h
      · subst h
        rw [i2, if_pos hx.symm]
        rintro kv' h' rfl
        exact hnd.1 (List.mem_map.mpr ⟨kv', h', hx.symm⟩)
      · exact i1 kv h hx
    · intro h
      rw [List.foldl_cons, i2 (fun kv hkv => h kv (List.mem_cons_of_mem _ hkv)),
        if_neg (fun hx => h a List.mem_cons_self hx.symm)]

/-- C24: `mask_label2trainId` maps every pixel whose label is in the table to its trainId (as a byte) and every
other pixel to 255. -/
theorem C24_mask_trainId (mask : Img Int) (d : List (Int × Int)) (hd : (d.map Prod.fst).Nodup) :
    (maskToTrainId mask d).rows = mask.rows ∧ (maskToTrainId mask d).cols = mask.cols ∧
    (∀ i j l t, (l, t) ∈ d → mask.at_ i j = l → (maskToTrainId mask d).at_ i j = t % 256) ∧
    (∀ i j, (∀ t, (mask.at_ i j, t) ∉ d) → (maskToTrainId mask d).at_ i j = 255) := by
  refine ⟨rfl, rfl, ?_, ?_⟩
  · intro i j l t h hx
    exact (maskFold (mask.at_ i j) d 255 hd).1 (l, t) h hx.symm
  · intro i j h
    refine (maskFold (mask.at_ i j) d 255 hd).2 ?_
    rintro ⟨l, t⟩ hkv rfl
    exact h t hkv

theorem pyIndex_ok (n : Nat) (i : Int) (h0 : 0 ≤ i) (h1 : i < n) : pyIndex n i = .ok i.toNat := by
  rw [pyIndex, if_pos ⟨h0, h1⟩]

theorem edgeFold (edge : MLEdges) : ∀ (d : List (Int × Int)) (out : MLEdges),
    (∀ kv ∈ d, 0 ≤ kv.1 ∧ kv.1 < edge.n ∧ 0 ≤ kv.2 ∧ kv.2 < out.n) → (d.map Prod.snd).Nodup →
    ∃ r, d.foldlM (setChannel edge) out = .ok r ∧ r.n = out.n ∧ r.h = out.h ∧ r.w = out.w ∧
      (∀ kv ∈ d, ∀ i j, r.at_ kv.2.toNat i j = edge.at_ kv.1.toNat i j) ∧
      (∀ k : Nat, (∀ kv ∈ d, kv.2 ≠ k) → ∀ i j, r.at_ k i j = out.at_ k i j) := by
  intro d
  induction d with
  | nil => intro out _ _; exact ⟨out, rfl, rfl, rfl, rfl, by simp, by simp⟩
  | cons a d ih =>
    intro out hr hnd
    rw [List.map_cons, List.nodup_cons] at hnd
    have ha := hr a List.mem_cons_self
    obtain ⟨r, hr1, hn, hh, hw, h1, h2⟩ := ih
      { out with at_ := fun k i j => if k = a.2.toNat then edge.at_ a.1.toNat i j else out.at_ k i j }
      (fun kv hkv => hr kv (List.mem_cons_of_mem _ hkv)) hnd.2
    refine ⟨r, ?_, hn, hh, hw, ?_, ?_⟩
    · rw [List.foldlM_cons]
      have : setChannel edge out a = .ok
        { out with at_ := fun k i j => if k = a.2.toNat then edge.at_ a.1.toNat i j else out.at_ k i j } := by
        unfold setChannel
        rw [pyIndex_ok _ _ ha.1 ha.2.1, pyIndex_ok _ _ ha.2.2.1 ha.2.2.2]
      rw [this]; exact hr1
    · intro kv hkv i j
      rcases List.mem_cons.mp hkv with h | h
      · subst h
        rw [h2]
        · simp
        · intro kv' h' he
          have : kv'.2 = kv.2 := by omega
          exact hnd.1 (List.mem_map.mpr ⟨kv', h', this⟩)
      · exact h1 kv h i j
    · intro k hk i j
      rw [h2 k (fun kv hkv => hk kv (List.mem_cons_of_mem _ hkv))]
      have := hk a List.mem_cons_self
      have hne : k ≠ a.2.toNat := by omega
      simp [hne]

/-- C24: when the labels of the table are channels of the edge image and the trainIds are distinct numbers below
the size of the table, `edge_label2trainId` succeeds, has one channel per table entry, and the channel of a
trainId is the edge channel of its label. -/
theorem C24_edge_trainId (edge : MLEdges) (d : List (Int × Int))
    (hr : ∀ kv ∈ d, 0 ≤ kv.1 ∧ kv.1 < edge.n ∧ 0 ≤ kv.2 ∧ kv.2 < d.length) (hnd : (d.map Prod.snd).Nodup) :
    ∃ r, edgeToTrainId edge d = .ok r ∧ r.n = d.length ∧ r.h = edge.h ∧ r.w = edge.w ∧
      (∀ l t, (l, t) ∈ d → ∀ i j, r.at_ t.toNat i j = edge.at_ l.toNat i j) := by
  obtain ⟨r, h, hn, hh, hw, h1, -⟩ := edgeFold edge d ⟨d.length, edge.h, edge.w, fun _ _ _ => false⟩ hr hnd
  exact ⟨r, h, hn, hh, hw, fun l t ht i j => h1 (l, t) ht i j⟩

/-- Every channel of the result belongs to a table entry (distinct trainIds below the table size). -/
theorem trainIds_surj (d : List (Int × Int)) (hr : ∀ kv ∈ d, 0 ≤ kv.2 ∧ kv.2 < d.length)
    (hnd : (d.map Prod.snd).Nodup) (k : Nat) (hk : k < d.length) : ∃ l, (l, (k : Int)) ∈ d := by
  have hsub : (d.map Prod.snd).toFinset ⊆ (Finset.range d.length).image (fun m : Nat => (m : Int)) := by
    intro x hx
    rw [List.mem_toFinset, List.mem_map] at hx
    obtain ⟨kv, hkv, rfl⟩ := hx
    have := hr kv hkv
    exact Finset.mem_image.mpr ⟨kv.2.toNat, Finset.mem_range.mpr (by omega), by omega⟩
  have hc : ((Finset.range d.length).image (fun m : Nat => (m : Int))).card ≤ (d.map Prod.snd).toFinset.card := by
    rw [List.toFinset_card_of_nodup hnd, List.length_map]
    exact Finset.card_image_le.trans (by simp)
  have := Finset.eq_of_subset_of_card_le hsub hc
  have hk' : (k : Int) ∈ (d.map Prod.snd).toFinset := by
    rw [this]; exact Finset.mem_image.mpr ⟨k, Finset.mem_range.mpr hk, rfl⟩
  rw [List.mem_toFinset, List.mem_map] at hk'
  obtain ⟨⟨l, t⟩, h, rfl⟩ := hk'
  exact ⟨l, h⟩

/-- C24: a trainId that is not below the number of table entries makes `edge_label2trainId` raise (such as 255 for
unused labels), when the labels are channels of the edge image. -/
theorem C24_edge_trainId_rejected (edge : MLEdges) (d : List (Int × Int)) (l t : Int) (h : (l, t) ∈ d)
    (ht : (d.length : Int) ≤ t) : ∃ e, edgeToTrainId edge d = .error e := by
  have key : ∀ (d : List (Int × Int)) (out : MLEdges), (l, t) ∈ d → (out.n : Int) ≤ t →
      ∃ e, d.foldlM (setChannel edge) out = .error e := by
    intro d
    induction d with
    | nil => intro _ h _; cases h
    | cons a d ih =>
      intro out hm ho
      rw [List.foldlM_cons]
      rcases hs : setChannel edge out a with e | out'
      · exact ⟨e, rfl⟩
      · have hn : out'.n = out.n := by
          unfold setChannel at hs
          rcases h1 : pyIndex edge.n a.1 with e | x
          · rw [h1] at hs; cases hs
          · rcases h2 : pyIndex out.n a.2 with e | y
            · rw [h1, h2] at hs; cases hs
            · rw [h1, h2] at hs
              simp only [Except.ok.injEq] at hs
              rw [← hs]
        rcases List.mem_cons.mp hm with h | h
        · subst h
          have : pyIndex out.n t = .error .indexError := by
            unfold pyIndex
            rw [if_neg (by omega), if_neg (by omega)]
          unfold setChannel at hs
          rcases h1 : pyIndex edge.n l with e | x <;> simp only [h1, this] at hs <;> cases hs
        · exact ih out' h (by rw [hn]; exact ho)
  exact key d _ h ht

/-- C24: converting the mask to trainIds and then to one-hot gives the same channels as converting to one-hot (one
channel per label id `0 … n-1`) and then moving the channels to trainId slots. -/
theorem C24_conversions_commute (mask : Img Int) (n : Nat) (d : List (Int × Int))
    (hkeys : (d.map Prod.fst).Nodup) (hvals : (d.map Prod.snd).Nodup)
    (hr : ∀ kv ∈ d, 0 ≤ kv.1 ∧ kv.1 < n ∧ 0 ≤ kv.2 ∧ kv.2 < d.length) (hlen : d.length ≤ 255) (hne : d ≠ [])
    (hrows : n ≤ mask.rows) (hdn : d.length ≤ n) :
    ∃ e r a, mask2onehot mask ((List.range n).map fun (k : Nat) => (k : Int)) = .ok e ∧
      edgeToTrainId e d = .ok r ∧
      mask2onehot (maskToTrainId mask d) ((List.range d.length).map fun (k : Nat) => (k : Int)) = .ok a ∧
      SameEdges r a := by
  have hpos : 0 < d.length := List.length_pos_iff.mpr hne
  have hn0 : List.map (fun (k : Nat) => (k : Int)) (List.range n) ≠ [] := by
    intro h
    have := congrArg List.length h
    simp at this; omega
  have hd0 : List.map (fun (k : Nat) => (k : Int)) (List.range d.length) ≠ [] := by
    intro h
    have := congrArg List.length h
    simp at this; exact hne this
  obtain ⟨e, he, en, eh, ew, ea⟩ := (C24_onehot mask ((List.range n).map fun (k : Nat) => (k : Int))).2 hn0 (by simpa using hrows)
  obtain ⟨a, ha, an, ah, aw, aa⟩ := (C24_onehot (maskToTrainId mask d)
    ((List.range d.length).map fun (k : Nat) => (k : Int))).2 hd0 (by simpa using (le_trans hdn hrows : d.length ≤ (maskToTrainId mask d).rows))
  simp only [List.length_map, List.length_range] at en an ea aa
  obtain ⟨r, hr1, rn, rh, rw', ra⟩ := C24_edge_trainId e d (by rw [en]; exact hr) hvals
  obtain ⟨mr, mc, mt, mo⟩ := C24_mask_trainId mask d hkeys
  refine ⟨e, r, a, he, hr1, ha, by rw [rn, an], by rw [rh, ah, eh, mr], by rw [rw', aw, ew, mc], ?_⟩
  intro k i j hk _ _
  rw [rn] at hk
  obtain ⟨l, hl⟩ := trainIds_surj d (fun kv h => (hr kv h).2.2) hvals k hk
  have hlr := hr _ hl
  simp only at hlr
  have h1 := ra l k hl i j
  simp only [Int.toNat_natCast] at h1
  rw [h1]
  have h2 := ea l.toNat i j (by omega)
  have h3 := aa k i j hk
  simp only [List.getElem_map, List.getElem_range] at h2 h3
  rw [Bool.eq_iff_iff, h2, h3]
  constructor
  · intro hm
    rw [mt i j l k hl (by omega)]
    omega
  · intro hm
    by_cases hex : ∃ t, (mask.at_ i j, t) ∈ d
    · obtain ⟨t, ht⟩ := hex
      rw [mt i j _ t ht rfl] at hm
      have := hr _ ht
      simp only at this
      have htk : t = k := by omega
      subst htk
      have := List.inj_on_of_nodup_map hvals ht hl rfl
      have : mask.at_ i j = l := congrArg Prod.fst this
      omega
    · rw [mo i j (fun t ht => hex ⟨t, ht⟩)] at hm
      omega

/-- The Cityscapes and SBD tables meet the hypotheses above, with the label counts used in the project. -/
theorem C24_tables :
    ((cityscapesLabel2TrainId.map Prod.fst).Nodup ∧ (cityscapesLabel2TrainId.map Prod.snd).Nodup ∧
      ∀ kv ∈ cityscapesLabel2TrainId, 0 ≤ kv.1 ∧ kv.1 < (34 : Nat) ∧ 0 ≤ kv.2 ∧ kv.2 < cityscapesLabel2TrainId.length) ∧
    ((sbdLabel2TrainId.map Prod.fst).Nodup ∧ (sbdLabel2TrainId.map Prod.snd).Nodup ∧
      ∀ kv ∈ sbdLabel2TrainId, 0 ≤ kv.1 ∧ kv.1 < (22 : Nat) ∧ 0 ≤ kv.2 ∧ kv.2 < sbdLabel2TrainId.length) := by
  decide +kernel

example : ∃ e r a, mask2onehot ⟨40, 50, fun i _ => (i : Int)⟩ cityscapesLabelIds = .ok e ∧
    edgeToTrainId e cityscapesLabel2TrainId = .ok r ∧
    mask2onehot (maskToTrainId ⟨40, 50, fun i _ => (i : Int)⟩ cityscapesLabel2TrainId)
      ((List.range cityscapesLabel2TrainId.length).map fun (k : Nat) => (k : Int)) = .ok a ∧ SameEdges r a :=
  C24_conversions_commute _ 34 _ C24_tables.1.1 C24_tables.1.2.1 C24_tables.1.2.2 (by decide) (by decide) (by decide)
    (by decide)

/-- the mask of the example above is 26 (car) in row 26 and 0 (unlabeled) in row 0. -/
example : (maskToTrainId ⟨40, 50, fun i _ => (i : Int)⟩ cityscapesLabel2TrainId).at_ 26 3 = 13 ∧
    (maskToTrainId ⟨40, 50, fun i _ => (i : Int)⟩ cityscapesLabel2TrainId).at_ 0 3 = 255 := by decide +kernel

/-- a table with an out-of-range trainId, and a mask with too few rows. -/
example : (∃ e, edgeToTrainId ⟨3, 1, 1, fun _ _ _ => true⟩ [(0, 0), (1, 255)] = .error e) ∧
    mask2onehot ⟨2, 100, fun _ _ => 0⟩ [0, 1, 2] = .error .assertionError :=
  ⟨C24_edge_trainId_rejected _ _ 1 255 (by decide) (by decide), (C24_onehot _ _).1 (Or.inr (by decide))⟩

/-! ## C27 -/

/-- C27: for every border width `b ≥ 0`, `add_ignore_pixel` sets exactly the pixels nearer than `b` to an image
edge to `ignore_id` and keeps every other pixel, for every image size (also smaller than the border). -/
theorem C27_border {α : Type} (seg : Img α) (b : Int) (ignoreId : α) (hb : 0 ≤ b) :
    (addIgnorePixel seg b ignoreId).rows = seg.rows ∧ (addIgnorePixel seg b ignoreId).cols = seg.cols ∧
    ∀ i j, i < seg.rows → j < seg.cols →
      (addIgnorePixel seg b ignoreId).at_ i j =
        if (i : Int) < b ∨ (seg.rows : Int) - b ≤ i ∨ (j : Int) < b ∨ (seg.cols : Int) - b ≤ j then ignoreId
        else seg.at_ i j := by
  refine ⟨rfl, rfl, ?_⟩
  intro i j hi hj
  have clip : ∀ (n : Nat) (k : Nat), k < n →
      (inSlice n 0 b k = true ↔ (k : Int) < b) ∧
      (¬ (k : Int) < b → (inSlice n ((n : Int) - b) n k = true ↔ (n : Int) - b ≤ k)) := by
    intro n k hk
    unfold inSlice
    simp only [decide_eq_true_eq]
    constructor
    · rw [if_neg (by omega), if_neg (by omega)]
      omega
    · intro hkb
      have : ¬ ((n : Int) < 0) := by omega
      rw [if_neg this, if_neg (by omega)]
      omega
  obtain ⟨r1, r2⟩ := clip seg.rows i hi
  obtain ⟨c1, c2⟩ := clip seg.cols j hj
  simp only [addIgnorePixel, r1, c1]
  by_cases h1 : (i : Int) < b
  · simp [h1]
  · by_cases h3 : (j : Int) < b
    · simp [h3]
    · simp only [r2 h1, c2 h3, h1, h3, if_false, false_or]
      by_cases h2 : (seg.rows : Int) - b ≤ i <;> by_cases h4 : (seg.cols : Int) - b ≤ j <;> simp [h2, h4]

/-- C27: in particular an image at most twice the border wide or high is ignored completely. -/
theorem C27_small_image (seg : Img Int) (b ignoreId : Int) (hb : 0 ≤ b)
    (hs : (seg.rows : Int) ≤ 2 * b ∨ (seg.cols : Int) ≤ 2 * b) (i j : Nat) (hi : i < seg.rows) (hj : j < seg.cols) :
    (addIgnorePixel seg b ignoreId).at_ i j = ignoreId := by
  rw [(C27_border seg b ignoreId hb).2.2 i j hi hj, if_pos]
  omega

/-- C27: applying it twice changes nothing more. -/
theorem C27_idempotent (seg : Img Int) (b ignoreId : Int) (hb : 0 ≤ b) :
    SameImg (addIgnorePixel (addIgnorePixel seg b ignoreId) b ignoreId) (addIgnorePixel seg b ignoreId) := by
  refine ⟨rfl, rfl, ?_⟩
  intro i j hi hj
  have h := C27_border seg b ignoreId hb
  have h' := C27_border (addIgnorePixel seg b ignoreId) b ignoreId hb
  rw [h'.2.2 i j hi hj, h.2.2 i j hi hj, h.1, h.2.1]
  split <;> rfl

example : let s : Img Int := ⟨12, 12, fun i j => (i : Int) + j + 1⟩
    (addIgnorePixel s 5 0).at_ 4 6 = 0 ∧ (addIgnorePixel s 5 0).at_ 5 5 = 11 ∧ (addIgnorePixel s 5 0).at_ 6 6 = 13 ∧
    (addIgnorePixel s 5 0).at_ 7 6 = 0 ∧ (0 : Int) ≤ 5 := by decide

end EdgeEval.Props
