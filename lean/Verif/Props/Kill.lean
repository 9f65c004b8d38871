import Verif.Props.Evaluate

/-!
# Property theorems C31: `kill_internal_prediction`
-/

namespace EdgeEval.Props

open EdgeEval Finset

/-- Pixel `(i, j)` is within the distance tolerance of a ground-truth edge pixel. -/
def NearGt (gt : Img ℚ) (maxDist : ℚ) (i j : Nat) : Prop :=
  ∃ a b, a < gt.rows ∧ b < gt.cols ∧ gt.at_ a b = 1 ∧
    euclid j i b a ≤ maxDist * diagonal gt.rows gt.cols

theorem foldl_min_le {A : Type} (f : A → ℚ) (c : ℚ) : ∀ (l : List A) (m : ℚ),
    c < l.foldl (fun m a => min m (f a)) m ↔ c < m ∧ ∀ a ∈ l, c < f a := by
  intro l
  induction l with
  | nil => simp
  | cons x l ih =>
    intro m
    rw [List.foldl_cons, ih, lt_min_iff]
    simp only [List.mem_cons, forall_eq_or_imp, and_assoc]

theorem mem_gtOnes {gt : Img ℚ} {z : Nat × Nat} :
    z ∈ gtOnes gt ↔ z.1 < gt.rows ∧ z.2 < gt.cols ∧ gt.at_ z.1 z.2 = 1 := by
  unfold gtOnes
  simp only [List.mem_flatMap, List.mem_range, List.mem_map, List.mem_filter, decide_eq_true_eq]
  constructor
  · rintro ⟨a, ha, b, ⟨hb, h⟩, rfl⟩
    exact ⟨ha, hb, by linarith⟩
  · rintro ⟨ha, hb, h⟩
    exact ⟨z.1, ha, z.2, ⟨hb, by linarith⟩, rfl⟩

theorem euclid_le_iff {maxDist : ℚ} (hd : 0 ≤ maxDist) (rows cols i j a b : Nat) :
    euclid j i b a ≤ maxDist * diagonal rows cols ↔ sqDist i j a b ≤ maxDist2 rows cols maxDist := by
  rw [← sqrt_maxDist2 hd]
  unfold euclid sqDist
  have h0 : 0 ≤ maxDist2 rows cols maxDist := by unfold maxDist2; positivity
  rw [Real.sqrt_le_sqrt_iff (by exact_mod_cast h0), add_comm]
  constructor
  · intro h; exact_mod_cast h
  · intro h; exact_mod_cast h

theorem far_iff {gt : Img ℚ} {junk : Nat → Nat → ℚ} {rows cols : Nat} {maxDist : ℚ} (hd : 0 ≤ maxDist)
    (hr : gt.rows = rows) (hc : gt.cols = cols) (h1 : ∃ a b, a < gt.rows ∧ b < gt.cols ∧ gt.at_ a b = 1) (i j : Nat) :
    farFromGt gt junk rows cols maxDist i j = true ↔ ¬ NearGt gt maxDist i j := by
  obtain ⟨a, b, ha, hb, hab⟩ := h1
  unfold farFromGt
  rw [decide_eq_true_eq, or_iff_right (not_lt.mpr hd)]
  unfold edt2
  have hm : (a, b) ∈ gtOnes gt := mem_gtOnes.mpr ⟨ha, hb, hab⟩
  have key : ∀ z ∈ gtOnes gt, z.1 < gt.rows ∧ z.2 < gt.cols ∧ gt.at_ z.1 z.2 = 1 := fun z hz => mem_gtOnes.mp hz
  have key2 : ∀ a b, a < gt.rows → b < gt.cols → gt.at_ a b = 1 → (a, b) ∈ gtOnes gt :=
    fun a b h1 h2 h3 => mem_gtOnes.mpr ⟨h1, h2, h3⟩
  rcases hz : gtOnes gt with _ | ⟨z, zs⟩
  · rw [hz] at hm; simp at hm
  · rw [hz] at key key2
    simp only [gt_iff_lt]
    rw [foldl_min_le (fun a : Nat × Nat => sqDist i j a.1 a.2)]
    unfold NearGt
    push Not
    constructor
    · rintro ⟨h1, h2⟩ a b h3 h4 h5
      rw [← not_le, euclid_le_iff hd, not_le, hr, hc]
      rcases List.mem_cons.mp (key2 a b h3 h4 h5) with h | h
      · rw [← h] at h1; exact h1
      · exact h2 _ h
    · intro h
      have h' : ∀ x ∈ z :: zs, maxDist2 rows cols maxDist < sqDist i j x.1 x.2 := by
        intro x hx
        obtain ⟨k1, k2, k3⟩ := key x hx
        have := h x.1 x.2 k1 k2 k3
        rw [← not_le, euclid_le_iff hd, not_le, hr, hc] at this
        exact this
      exact ⟨h' z (by simp), fun x hx => h' x (by simp [hx])⟩

/-- C31: with a bool class mask (and a ground truth containing an edge pixel), `kill_internal_prediction`
keeps a predicted pixel that is within the tolerance of a ground-truth edge pixel or outside the class
segment, and removes every other one; it never adds or changes one. -/
theorem C31_kill_internal (pred gt seg q : Img ℚ) (maxDist : ℚ) (junk : Nat → Nat → ℚ) (hd : 0 ≤ maxDist)
    (h1 : ∃ a b, a < gt.rows ∧ b < gt.cols ∧ gt.at_ a b = 1)
    (h : killInternal pred gt ⟨seg, true⟩ maxDist junk = .ok q) :
    q.rows = pred.rows ∧ q.cols = pred.cols ∧ ∀ i j, i < pred.rows → j < pred.cols →
      (NearGt gt maxDist i j ∨ seg.at_ i j = 0 → q.at_ i j = pred.at_ i j) ∧
      (¬ NearGt gt maxDist i j ∧ seg.at_ i j ≠ 0 → q.at_ i j = 0) := by
  obtain ⟨_, hs, rfl⟩ := killInternal_shape h
  refine ⟨rfl, rfl, fun i j hi hj => ?_⟩
  have hf := far_iff (junk := junk) hd hs.1 hs.2 h1 i j
  simp only [killMaskAt, if_true]
  constructor
  · intro hn
    rw [if_neg]
    · ring
    · rw [Bool.and_eq_true, hf, decide_eq_true_eq]
      tauto
  · rintro ⟨hn, hseg⟩
    rw [if_pos]
    · ring
    · rw [Bool.and_eq_true, hf, decide_eq_true_eq]
      exact ⟨hn, hseg⟩

/-- C31: shapes. The call succeeds exactly when the three arrays have the same shape; otherwise it raises. -/
theorem C31_shapes (pred gt : Img ℚ) (seg : Seg) (maxDist : ℚ) (junk : Nat → Nat → ℚ) :
    (∃ q, killInternal pred gt seg maxDist junk = .ok q) ↔
      (gt.rows = seg.img.rows ∧ gt.cols = seg.img.cols) ∧ (gt.rows = pred.rows ∧ gt.cols = pred.cols) := by
  constructor
  · rintro ⟨q, h⟩
    obtain ⟨a, b, -⟩ := killInternal_shape h
    exact ⟨a, b⟩
  · rintro ⟨a, b⟩
    unfold killInternal
    rw [if_neg (not_not.mpr a), if_neg (not_not.mpr b)]
    exact ⟨_, rfl⟩

/-- C31 (finding): with an integer (uint8) 0/1 mask nothing is removed — `np.invert` is then bitwise — and
every predicted pixel is multiplied by 254 or 255, which inflates `sum_p`. -/
theorem C31_uint8_mask_kills_nothing (pred gt seg q : Img ℚ) (maxDist : ℚ) (junk : Nat → Nat → ℚ)
    (hseg : ∀ i j, i < seg.rows → j < seg.cols → seg.at_ i j = 0 ∨ seg.at_ i j = 1)
    (hp : ∀ i j, i < pred.rows → j < pred.cols → pred.at_ i j = 0 ∨ pred.at_ i j = 1)
    (h : killInternal pred gt ⟨seg, false⟩ maxDist junk = .ok q) :
    edgePixels q = edgePixels pred ∧ 254 * (edgePixels pred).card ≤ imgSum q := by
  obtain ⟨hs0, hs, rfl⟩ := killInternal_shape h
  simp only at hs0
  have hm : ∀ i j, i < pred.rows → j < pred.cols →
      254 ≤ killMaskAt (farFromGt gt junk pred.rows pred.cols maxDist i j) ⟨seg, false⟩ i j := by
    intro i j hi hj
    unfold killMaskAt
    simp only [Bool.false_eq_true, if_false]
    split
    · rcases hseg i j (by omega) (by omega) with e | e <;> rw [e] <;> norm_num
    · norm_num
  constructor
  · unfold edgePixels
    apply filter_congr
    rintro ⟨i, j⟩ hij
    simp only [mem_product, mem_range] at hij
    simp only
    have := hm i j hij.1 hij.2
    constructor
    · exact fun h => left_ne_zero_of_mul h
    · exact fun h => mul_ne_zero h (by linarith)
  · rw [← imgSum_binary hp, imgSum_eq, imgSum_eq, ← sum_product', ← sum_product', mul_sum]
    apply sum_le_sum
    rintro ⟨i, j⟩ hij
    simp only [mem_product, mem_range] at hij
    have := hm i j hij.1 hij.2
    simp only
    rcases hp i j hij.1 hij.2 with e | e
    · simp [e]
    · rw [e]; linarith

/-- The hypotheses of the two theorems hold on a concrete case in which a pixel is killed: a 1x3 strip with
a ground-truth pixel at the left end, all of it inside the segment. -/
example : ∃ q, killInternal (ofRows [[1, 1, 1]]) (ofRows [[1, 0, 0]]) ⟨ofRows [[1, 1, 1]], true⟩ (1/3) (fun _ _ => 0)
    = .ok q ∧ toRows q = [[1, 1, 0]] := by
  refine ⟨_, rfl, ?_⟩
  decide +kernel

example : ∃ q, killInternal (ofRows [[1, 1, 1]]) (ofRows [[1, 0, 0]]) ⟨ofRows [[1, 1, 1]], false⟩ (1/3) (fun _ _ => 0)
    = .ok q ∧ toRows q = [[255, 255, 254]] := by
  refine ⟨_, rfl, ?_⟩
  decide +kernel

/-! ## Effect on the evaluation -/

theorem filter_congr_list {A : Type} {p q : A → Bool} {l : List A} (h : ∀ a ∈ l, p a = q a) :
    l.filter p = l.filter q := List.filter_congr h

section
variable {h w : Nat} {b1 b1' b2 : BMap} {md2 oc2 : ℚ} {xs : Nat → ℚ} {pos : Nat}

/-- `b1` and `b1'` agree on the pixels of the first map that have a partner. -/
def AgreeNear (h w : Nat) (md2 : ℚ) (b1 b1' b2 : BMap) : Prop :=
  ∀ p q : Pix, p.1 < w → p.2 < h → q.1 < w → q.2 < h → b2 q.2 q.1 = true → (pixDist2 p q : ℚ) ≤ md2 →
    b1 p.2 p.1 = b1' p.2 p.1

theorem nodes1_congr (ha : AgreeNear h w md2 b1 b1' b2) : nodes1 h w md2 b1 b2 = nodes1 h w md2 b1' b2 := by
  unfold nodes1
  apply List.filter_congr
  intro p hp
  rw [mem_pixels] at hp
  unfold matchable1
  rw [Bool.eq_iff_iff, Bool.and_eq_true, Bool.and_eq_true]
  apply and_congr_left
  intro hq
  rw [List.any_eq_true] at hq
  obtain ⟨q, hq, hb⟩ := hq
  rw [mem_targets] at hq
  rw [ha p q hp.1 hp.2 hq.1 hq.2.1 hb hq.2.2]

theorem matchable2_congr (ha : AgreeNear h w md2 b1 b1' b2) :
    matchable2 h w md2 b1 b2 = matchable2 h w md2 b1' b2 := by
  funext q
  unfold matchable2
  rw [Bool.eq_iff_iff, List.any_eq_true, List.any_eq_true]
  apply exists_congr
  intro p
  apply and_congr_right
  intro hp
  rw [mem_pixels] at hp
  rw [Bool.and_eq_true, Bool.and_eq_true]
  apply and_congr_left
  intro hq
  rw [List.any_eq_true] at hq
  obtain ⟨q', hq', hb⟩ := hq
  rw [mem_targets] at hq'
  rw [Bool.and_eq_true] at hb
  rw [ha p q' hp.1 hp.2 hq'.1 hq'.2.1 hb.1 hq'.2.2]

/-- The matcher's run depends on the first map only through its matchable pixels. -/
theorem matchEdgeMaps_congr (hx : UnitStream xs) (hmd : 0 ≤ md2) (hoc : md2 < oc2)
    (ha : AgreeNear h w md2 b1 b1' b2) (fuel : Nat) {r : MatchOut}
    (hr : matchEdgeMaps fuel h w b1 b2 md2 oc2 xs pos = some r) :
    ∃ r', matchEdgeMaps fuel h w b1' b2 md2 oc2 xs pos = some r' ∧ r'.mt = r.mt ∧ r'.m2 = r.m2 ∧ r'.m1 = r.m1 := by
  have e1 := nodes1_congr ha
  have e2 := matchable2_congr ha
  have e3 : nodes2 h w md2 b1 b2 = nodes2 h w md2 b1' b2 := by unfold nodes2; rw [e2]
  have e4 : realEdges h w md2 b1 b2 = realEdges h w md2 b1' b2 := by
    unfold realEdges; simp only [e1, e2, e3]
  have g1 := matchEdgeMaps_eq (h := h) (w := w) (b1 := b1) (b2 := b2) (pos := pos) hx hmd hoc fuel
  have g2 := matchEdgeMaps_eq (h := h) (w := w) (b1 := b1') (b2 := b2) (pos := pos) hx hmd hoc fuel
  have eg : matchGraph h w b1 b2 md2 oc2 xs pos = matchGraph h w b1' b2 md2 oc2 xs pos := by
    unfold matchGraph; rw [e1, e3, e4]
  simp only [← e1, ← e3, ← eg] at g2
  have hgood := matchEdgeMaps_good hx hmd hoc hr
  simp only [hr] at g1
  by_cases hn : (nodes1 h w md2 b1 b2).length + (nodes2 h w md2 b1 b2).length = 0
  · rw [if_pos hn] at g1 g2
    simp only [Option.some.injEq] at g1
    exact ⟨_, g2, by rw [g1], by rw [g1], by rw [g1]⟩
  · rw [if_neg hn] at g1 g2
    obtain ⟨out, hout, hreq⟩ := Option.map_eq_some_iff.mp g1.symm
    rw [hout, Option.map_some] at g2
    have hmt := congrArg MatchOut.mt hreq
    have hm2 := congrArg MatchOut.m2 hreq
    have hm1 := congrArg MatchOut.m1 hreq
    simp only at hmt hm2 hm1
    refine ⟨_, g2, hmt, hm2, ?_⟩
    simp only
    rw [hmt] at hm1
    rw [← hm1, hmt]
    funext y x
    unfold encodeMatch
    rcases hq : r.mt.m1 (x, y) with _ | q
    · simp
    · have ok := hgood.1.ok _ q hq
      have := ha (x, y) q ok.1.1 ok.1.2.1 ok.2.1.1 ok.2.1.2.1 ok.2.1.2.2 ok.2.2
      simp only at this
      rw [← this]

end

/-- C31: kill_internal with a bool mask changes nothing but `sum_p`: with the same random stream, the row
computed with kill_internal has the same `count_r`, `sum_r` and `count_p` as without, and a `sum_p` that is at
most as large. So recall is untouched and precision can only rise. -/
theorem C31_only_lowers_sum_p (fuel : Nat) (o o' : MLOpts) (pred gt seg : Img ℚ) (xs : Nat → ℚ) (t : ℚ)
    (row row' : Row) (hx : ∀ i, 0 ≤ xs i ∧ xs i < 1)
    (hgt : ∀ i j, i < gt.rows → j < gt.cols → gt.at_ i j = 0 ∨ gt.at_ i j = 1)
    (ho : o.kill = false) (ho' : o'.kill = true) (hd : o'.maxDist = o.maxDist) (ht : o'.thin = o.thin)
    (h : mlRow fuel o pred gt (some ⟨seg, true⟩) xs t = .ok (some row))
    (h' : mlRow fuel o' pred gt (some ⟨seg, true⟩) xs t = .ok (some row')) :
    row'.countR = row.countR ∧ row'.sumR = row.sumR ∧ row'.countP = row.countP ∧ row'.sumP ≤ row.sumP := by
  obtain ⟨p, hp, h⟩ := Run.bind_eq_ok.mp h
  obtain ⟨p', hp', h'⟩ := Run.bind_eq_ok.mp h'
  rw [ht, hp] at hp'
  simp only [Except.ok.injEq, Option.some.injEq] at hp'
  subst hp'
  by_cases hg : imgAny gt = true
  · rw [if_pos hg] at h h'
    obtain ⟨q, hq, k⟩ := Run.bind_eq_ok.mp h
    obtain ⟨q', hq', k'⟩ := Run.bind_eq_ok.mp h'
    have hb := (processPred_facts hp).2.2.1
    have f := maybeKill_facts hb (fun s hs hb => by simp at hs; subst hs; simp at hb) hq
    have f' := maybeKill_facts hb (fun s hs hb => by simp at hs; subst hs; simp at hb) hq'
    obtain ⟨s, hs, hk⟩ := f'.2.2.2.2.2.2 ho'
    simp only [Option.some.injEq] at hs
    subst hs
    obtain rfl := f.2.2.2.2.2.1 ho
    obtain ⟨r, hr, l⟩ := Run.bind_eq_ok.mp k
    obtain ⟨r', hr', l'⟩ := Run.bind_eq_ok.mp k'
    rw [hd] at hr' hk
    obtain ⟨s1, s2, s3, s4, so⟩ := corr_ok hr
    obtain ⟨s1', s2', s3', s4', so'⟩ := corr_ok hr'
    obtain ⟨⟨a, b⟩, hne⟩ := (imgAny_iff gt).mp hg
    simp only [edgePixels, mem_filter, mem_product, mem_range] at hne
    have hone : ∃ a b, a < gt.rows ∧ b < gt.cols ∧ gt.at_ a b = 1 :=
      ⟨a, b, hne.1.1, hne.1.2, (hgt a b hne.1.1 hne.1.2).resolve_left hne.2⟩
    obtain ⟨-, -, hker⟩ := C31_kill_internal q gt seg q' o.maxDist o'.junk s3.le hone hk
    obtain ⟨m, hm, hreq⟩ := Option.map_eq_some_iff.mp so.symm
    obtain ⟨m', hm', hreq'⟩ := Option.map_eq_some_iff.mp so'.symm
    obtain ⟨hp1, hp2⟩ := match_pre hm
    have ha : AgreeNear q.rows q.cols (maxDist2 q.rows q.cols o.maxDist) (fun y x => q.at_ y x ≠ 0)
        (fun y x => q'.at_ y x ≠ 0) (fun y x => gt.at_ y x ≠ 0) := by
      intro u v hu1 hu2 hv1 hv2 hb2 hdist
      have hnear : NearGt gt o.maxDist u.2 u.1 := by
        refine ⟨v.2, v.1, by omega, by omega, ?_, ?_⟩
        · have hb2' : gt.at_ v.2 v.1 ≠ 0 := by simpa using hb2
          exact (hgt _ _ (by omega) (by omega)).resolve_left hb2'
        · rw [← s1, ← s2]
          exact dist_le s3.le hdist
      simp only [((hker u.2 u.1 hu2 hu1).1 (Or.inl hnear))]
    rw [f'.1, f'.2.1] at hm'
    obtain ⟨m'', hm'', g1, g2, g3⟩ := matchEdgeMaps_congr hx hp1 hp2 ha fuel hm
    rw [hm'] at hm''
    simp only [Option.some.injEq] at hm''
    subst hm''
    simp only [Except.ok.injEq, Option.some.injEq] at l l'
    subst l l' hreq hreq'
    refine ⟨by rw [g2], rfl, by simp only [g3, f'.1, f'.2.1], ?_⟩
    simp only
    rw [imgSum_binary hb, imgSum_binary (f'.2.2.2.2.1 (Or.inr ⟨_, rfl, rfl⟩))]
    exact_mod_cast card_le_card f'.2.2.2.1
  · rw [if_neg hg] at h h'
    rw [h] at h'
    simp only [Except.ok.injEq, Option.some.injEq] at h'
    subst h'
    simp

/-- C31: what `sum_p` counts with kill_internal on (bool mask, 0/1 ground truth with an edge): the processed
predicted pixels that are near the ground truth or outside the segment. -/
theorem C31_sum_p (fuel : Nat) (o : MLOpts) (pred gt seg : Img ℚ) (xs : Nat → ℚ) (t : ℚ)
    (row : Row) (hx : ∀ i, 0 ≤ xs i ∧ xs i < 1)
    (hgt : ∀ i j, i < gt.rows → j < gt.cols → gt.at_ i j = 0 ∨ gt.at_ i j = 1)
    (hne : (edgePixels gt).Nonempty) (hk : o.kill = true)
    (h : mlRow fuel o pred gt (some ⟨seg, true⟩) xs t = .ok (some row)) :
    ∃ p, Processed fuel o.thin pred t p ∧ ∃ S : Finset (Nat × Nat), row.sumP = S.card ∧
      ∀ x, x ∈ S ↔ x ∈ edgePixels p ∧ (NearGt gt o.maxDist x.1 x.2 ∨ seg.at_ x.1 x.2 = 0) := by
  obtain ⟨p, hp, h⟩ := Run.bind_eq_ok.mp h
  rw [if_pos ((imgAny_iff gt).mpr hne)] at h
  obtain ⟨q, hq, h⟩ := Run.bind_eq_ok.mp h
  have hb := (processPred_facts hp).2.2.1
  have f := maybeKill_facts hb (fun s hs hb => by simp at hs; subst hs; simp at hb) hq
  obtain ⟨s, hs, hk⟩ := f.2.2.2.2.2.2 hk
  simp only [Option.some.injEq] at hs
  subst hs
  obtain ⟨r, hr, _⟩ := Run.bind_eq_ok.mp h
  obtain ⟨s1, s2, s3, s4, so⟩ := corr_ok hr
  obtain ⟨⟨a, b⟩, hne'⟩ := hne
  simp only [edgePixels, mem_filter, mem_product, mem_range] at hne'
  have hone : ∃ a b, a < gt.rows ∧ b < gt.cols ∧ gt.at_ a b = 1 :=
    ⟨a, b, hne'.1.1, hne'.1.2, (hgt a b hne'.1.1 hne'.1.2).resolve_left hne'.2⟩
  obtain ⟨-, -, hker⟩ := C31_kill_internal p gt seg q o.maxDist o.junk s3.le hone hk
  obtain ⟨n, -, -, -, -, -, h6⟩ := matchRow_facts hx h
  refine ⟨p, (processed_of hp).1, edgePixels q, ?_, ?_⟩
  · rw [h6, imgSum_binary (f.2.2.2.2.1 (Or.inr ⟨_, rfl, rfl⟩))]
  · rintro ⟨i, j⟩
    simp only [edgePixels, mem_filter, mem_product, mem_range, f.1, f.2.1]
    constructor
    · rintro ⟨⟨hi, hj⟩, hne⟩
      have := hker i j hi hj
      by_cases hc : NearGt gt o.maxDist i j ∨ seg.at_ i j = 0
      · exact ⟨⟨⟨hi, hj⟩, by rw [← this.1 hc]; exact hne⟩, hc⟩
      · push Not at hc
        exact absurd (this.2 hc) hne
    · rintro ⟨⟨⟨hi, hj⟩, hne⟩, hc⟩
      exact ⟨⟨hi, hj⟩, by rw [(hker i j hi hj).1 hc]; exact hne⟩

/-- Both runs in C31_only_lowers_sum_p exist, with a pixel actually killed. -/
example : ∃ fuel row row', mlRow fuel ⟨1/3, false, false, true, none, fun _ _ => 0⟩ (ofRows [[1, 1, 1]])
      (ofRows [[1, 0, 0]]) (some ⟨ofRows [[1, 1, 1]], true⟩) (fun _ => 0) (1/2) = .ok (some row) ∧
    mlRow fuel ⟨1/3, false, true, true, none, fun _ _ => 0⟩ (ofRows [[1, 1, 1]])
      (ofRows [[1, 0, 0]]) (some ⟨ofRows [[1, 1, 1]], true⟩) (fun _ => 0) (1/2) = .ok (some row') := by
  obtain ⟨F, rows, h⟩ := C10_multi_label_total [1/2] (ofRows [[1, 1, 1]]) (ofRows [[1, 0, 0]])
    (some ⟨ofRows [[1, 1, 1]], true⟩) ⟨1/3, false, false, true, none, fun _ _ => 0⟩ (fun _ _ _ => 0)
    (fun _ _ _ => by norm_num) (by norm_num) ⟨rfl, rfl⟩ (by simp)
  obtain ⟨F', rows', h'⟩ := C10_multi_label_total [1/2] (ofRows [[1, 1, 1]]) (ofRows [[1, 0, 0]])
    (some ⟨ofRows [[1, 1, 1]], true⟩) ⟨1/3, false, true, true, none, fun _ _ => 0⟩ (fun _ _ _ => 0)
    (fun _ _ _ => by norm_num) (by norm_num) ⟨rfl, rfl⟩ (by simp [ofRows])
  have e := h (max F F') (by omega)
  have e' := h' (max F F') (by omega)
  have hany : (imgAny (ofRows [[1, 0, 0]])) = true := by decide +kernel
  simp only [evalMultiLabel, hany, Bool.not_true, Bool.and_false, Bool.false_eq_true, if_false] at e e'
  obtain ⟨-, hr⟩ := (overThresholds_spec _ _ _).mp e
  obtain ⟨-, hr'⟩ := (overThresholds_spec _ _ _).mp e'
  exact ⟨_, _, _, hr 0 (by simp), hr' 0 (by simp)⟩

end EdgeEval.Props
