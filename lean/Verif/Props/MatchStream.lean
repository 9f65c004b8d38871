import Verif.Props.MatchQuality
import Verif.Lemmas.KofnOnto

/-!
# Property theorems C43: how the score of a perfect prediction depends on the random stream
-/

namespace EdgeEval.Props

open EdgeEval Finset

/-- The random connections between the outliers of the two maps contain a one-to-one assignment: outlier `i` of the second map can be given outlier
`σ i` of the first. -/
def OutliersCovered (rows : List (List Nat)) (n : Nat) : Prop :=
  ∃ σ : Nat → Nat, ((List.range n).map σ).Perm (List.range n) ∧ ∀ i, i < n → σ i ∈ rows.getD i []

theorem ooRows_length {n : Nat} {xs : Nat → ℚ} (hx : UnitStream xs) (pos : Nat) :
    GoodRows (deg3 n n) n n (ooRows n n xs pos) := by
  have := kRows_ok (deg3 n n) (min n n) xs hx (deg3_le n n) (max n n)
    (kRows (deg1 n) (n - 1) xs n (kRows (deg1 n) (n - 1) xs n pos).2).2
  rw [Nat.min_self, Nat.max_self] at this
  unfold ooRows
  rw [Nat.min_self, Nat.max_self]
  exact this

theorem graph_of_row {n i j ow : Nat} {E : List MEdge} {xs : Nat → ℚ} {pos : Nat} (hx : UnitStream xs) (hi : i < n)
    (hj : j ∈ (ooRows n n xs pos).getD i []) : (⟨n + j, n + i, ow⟩ : GEdge) ∈ buildGraph n n ow E xs pos := by
  unfold buildGraph
  simp only [List.mem_append]
  left; right
  change _ ∈ outlierOutlier n n ow (ooRows n n xs pos)
  unfold outlierOutlier
  simp only [List.mem_flatMap, List.mem_range, List.mem_map]
  exact ⟨i, by rw [(ooRows_length hx pos).1]; exact hi, j, hj, by simp⟩

theorem row_of_graph {n ow : Nat} {E : List MEdge} {xs : Nat → ℚ} {pos : Nat} {e : GEdge} (hx : UnitStream xs)
    (he : e ∈ buildGraph n n ow E xs pos) (hr : ∀ e ∈ E, e.i < n ∧ e.j < n) (h1 : n ≤ e.i) (h2 : n ≤ e.j) :
    e.i - n ∈ (ooRows n n xs pos).getD (e.j - n) [] := by
  have hrows1 := kRows_ok (deg1 n) (n - 1) xs hx (deg1_le n) n pos
  have hrows2 := kRows_ok (deg1 n) (n - 1) xs hx (deg1_le n) n (kRows (deg1 n) (n - 1) xs n pos).2
  unfold buildGraph at he
  simp only [List.mem_append] at he
  rcases he with (((he | he) | he) | he) | he
  · obtain ⟨me, hme, rfl⟩ := List.mem_map.mp he
    have := hr me hme
    simp only at h1; omega
  · obtain ⟨i, j, hi, hj, hne, rfl, _⟩ := outlier1_kind E hrows1 he
    simp only at h1; omega
  · obtain ⟨i, j, hi, hj, hne, rfl, _⟩ := outlier2_kind E hrows2 he
    simp only at h2; omega
  · change e ∈ outlierOutlier n n ow (ooRows n n xs pos) at he
    unfold outlierOutlier at he
    simp only [List.mem_flatMap, List.mem_range, List.mem_map] at he
    obtain ⟨i, hi, j, hj, rfl⟩ := he
    simpa using hj
  · rcases (overlay_kind E he).1 with ⟨i, hi, rfl⟩ | ⟨i, hi, rfl⟩
    · simp only at h1; omega
    · simp only at h2; omega

/-- C43: if the random connections between outliers contain a one-to-one assignment, then a map compared with itself matches every edge pixel to itself
at cost 0, whatever the number of edge pixels. -/
theorem C43_self_match_covered (fuel : Nat) (img : Img ℚ) (maxDist oc : ℚ) (xs : Nat → ℚ) (pos : Nat)
    (hx : ∀ i, 0 ≤ xs i ∧ xs i < 1) (r : CorrOut)
    (hcov : OutliersCovered (ooRows (edgePixels img).card (edgePixels img).card xs pos) (edgePixels img).card)
    (hr : correspondPixels fuel img img maxDist oc xs pos = .ok (some r)) :
    (∀ y x, y < img.rows → x < img.cols → img.at_ y x ≠ 0 →
      r.o0 y x = x * img.rows + y + 1 ∧ r.o1 y x = x * img.rows + y + 1) ∧ r.cost = 0 := by
  obtain ⟨σ, hσ, hrow⟩ := hcov
  obtain ⟨-, -, hd, hoc, ho⟩ := corr_ok hr
  obtain ⟨m, hm, hreq⟩ := Option.map_eq_some_iff.mp ho.symm
  obtain ⟨hp1, hp2⟩ := match_pre hm
  obtain ⟨hg, e1, e2⟩ := matchEdgeMaps_good hx hp1 hp2 hm
  have key : ∀ p : Pix, p.1 < img.cols → p.2 < img.rows → img.at_ p.2 p.1 ≠ 0 → m.mt.m1 p = some p :=
    fun p hpx hpy hpe => self_core_cover (csaSolve_valid fuel) hx hp1 hp2 img 0 (by norm_num) (outlierWeight_pos hp1 hp2)
      (fun out M hout hM => by simpa using csa_opt hx hout hM) hm σ hσ
      (fun i hi ow E => graph_of_row hx hi (hrow i hi)) p hpx hpy hpe
  have key2 : ∀ p : Pix, p.1 < img.cols → p.2 < img.rows → img.at_ p.2 p.1 ≠ 0 → m.mt.m2 p = some p :=
    fun p a b c => (hg.sym p p).mp (key p a b c)
  subst hreq
  simp only
  constructor
  · intro y x hy hxx he
    rw [e1, e2]
    have hb : (decide (img.at_ y x ≠ 0)) = true := by simpa using he
    exact ⟨encode_eq (key (x, y) hxx hy he) hb, encode_eq (key2 (x, y) hxx hy he) hb⟩
  · unfold matchCost
    split
    · rfl
    · rw [sum_pixels]
      apply sum_eq_zero
      intro p hp
      have hp := mem_pixSet.mp hp
      by_cases he : img.at_ p.2 p.1 = 0
      · simp [he]
      · simp only [key p hp.1 hp.2 he, key2 p hp.1 hp.2 he, pixDist2_self]
        simp

/-- The solution behind a map compared with itself, on `N` numbered edge pixels. -/
theorem self_solution {fuel : Nat} {img : Img ℚ} {maxDist oc : ℚ} {xs : Nat → ℚ} {pos : Nat} (hx : ∀ i, 0 ≤ xs i ∧ xs i < 1) {r : CorrOut}
    (hr : correspondPixels fuel img img maxDist oc xs pos = .ok (some r)) (hne : (edgePixels img).card ≠ 0) :
    ∃ (L : List Pix) (ow : Nat) (E : List MEdge) (sol : List GEdge), L.Nodup ∧ L.length = (edgePixels img).card ∧
      (∀ p, p ∈ L ↔ (p.2, p.1) ∈ edgePixels img) ∧ (∀ e ∈ E, e.i < L.length ∧ e.j < L.length) ∧
      Perfect0 (L.length + L.length) (buildGraph L.length L.length ow E xs pos) sol ∧
      ∀ p ∈ L, r.o0 p.2 p.1 ≠ 0 ↔ ∃ e ∈ sol, e.i < L.length ∧ e.j < L.length ∧ L.getD e.i (0, 0) = p := by
  obtain ⟨-, -, hd, hoc, ho⟩ := corr_ok hr
  obtain ⟨m, hm, hreq⟩ := Option.map_eq_some_iff.mp ho.symm
  obtain ⟨hp1, hp2⟩ := match_pre hm
  obtain ⟨hg, e1, e2⟩ := matchEdgeMaps_good hx hp1 hp2 hm
  subst hreq
  have hn1 := nodes_self1 (h := img.rows) (w := img.cols) (b := fun y x => img.at_ y x ≠ 0) hp1
  have hn2 := nodes_self2 (h := img.rows) (w := img.cols) (b := fun y x => img.at_ y x ≠ 0) hp1
  have hcard := card_edgePixels img
  rw [← hn1] at hcard
  obtain ⟨sol, hperf, hopt, hm1, _⟩ := run_sol hx hp1 hp2 hm (by omega)
  have hre := realEdges_range (h := img.rows) (w := img.cols) (md2 := maxDist2 img.rows img.cols maxDist)
    (b1 := fun y x => img.at_ y x ≠ 0) (b2 := fun y x => img.at_ y x ≠ 0)
  unfold matchGraph at hperf
  have hmem : ∀ p, p ∈ nodes1 img.rows img.cols (maxDist2 img.rows img.cols maxDist) (fun y x => img.at_ y x ≠ 0)
      (fun y x => img.at_ y x ≠ 0) ↔ (p.2, p.1) ∈ edgePixels img := by
    intro p
    rw [hn1, List.mem_filter, mem_pixels]
    simp only [edgePixels, mem_filter, mem_product, mem_range, decide_eq_true_eq]
    tauto
  rw [hn2, ← hn1] at hperf hm1 hre
  refine ⟨_, _, _, sol, nodup_nodes1 .., hcard.symm, hmem, hre, hperf, fun p hp => ?_⟩
  have hp' := (hmem p).1 hp
  simp only [edgePixels, mem_filter, mem_product, mem_range] at hp'
  have h0 : img.at_ p.2 p.1 ≠ 0 := hp'.2
  simp only
  rw [e1, encode_ne_zero (fun q hq => (hg.ok _ q hq).1.2.2)]
  constructor
  · rintro ⟨q, hq⟩
    obtain ⟨e, he, a, b, c, d⟩ := (hm1 _ _).1 hq
    exact ⟨e, he, a, b, c⟩
  · rintro ⟨e, he, a, b, c⟩
    exact ⟨_, (hm1 _ _).2 ⟨e, he, a, b, c, rfl⟩⟩

/-- C43: whether a perfect prediction is completely matched depends exactly on the random connections between outliers: it is if and only if they contain
a one-to-one assignment. -/
theorem C43_perfect_iff (fuel : Nat) (img : Img ℚ) (maxDist oc : ℚ) (xs : Nat → ℚ) (pos : Nat)
    (hx : ∀ i, 0 ≤ xs i ∧ xs i < 1) (r : CorrOut) (hr : correspondPixels fuel img img maxDist oc xs pos = .ok (some r)) :
    (∀ y x, y < img.rows → x < img.cols → img.at_ y x ≠ 0 → r.o0 y x ≠ 0) ↔
      OutliersCovered (ooRows (edgePixels img).card (edgePixels img).card xs pos) (edgePixels img).card := by
  constructor
  · intro hall
    by_cases hne : (edgePixels img).card = 0
    · rw [hne]; exact ⟨id, by simp, by simp⟩
    obtain ⟨L, ow, E, sol, hnd, hlen, hmem, hre, hperf, hmatch⟩ := self_solution hx hr hne
    rw [← hlen]
    have hndi : (sol.map GEdge.i).Nodup := hperf.left.nodup_iff.mpr List.nodup_range
    have hedge : ∀ i, i < L.length → ∃ e ∈ sol, e.j = L.length + i ∧ L.length ≤ e.i := by
      intro i hi
      have : L.length + i ∈ sol.map GEdge.j := hperf.right.mem_iff.mpr (List.mem_range.mpr (by omega))
      obtain ⟨e, he, hej⟩ := List.mem_map.mp this
      refine ⟨e, he, hej, ?_⟩
      by_contra hlt
      push Not at hlt
      have hp := getD_mem (l := L) hlt
      have hpe := (hmem _).1 hp
      simp only [edgePixels, mem_filter, mem_product, mem_range] at hpe
      obtain ⟨e', he', a, b, c⟩ := (hmatch _ hp).1 (hall _ _ hpe.1.1 hpe.1.2 hpe.2)
      have hii : e'.i = e.i := getD_inj hnd a hlt c
      have : e' = e := List.inj_on_of_nodup_map hndi he' he hii
      rw [this, hej] at b
      omega
    choose f hf1 hf2 hf3 using hedge
    let σ : Nat → Nat := fun i => if h : i < L.length then (f i h).i - L.length else 0
    have hσ : ∀ i (h : i < L.length), σ i = (f i h).i - L.length := fun i h => by simp [σ, h]
    refine ⟨σ, ?_, fun i hi => ?_⟩
    · have hsub : ∀ x ∈ (List.range L.length).map σ, x ∈ List.range L.length := by
        intro x hxm
        obtain ⟨i, hi, rfl⟩ := List.mem_map.1 hxm
        have hi := List.mem_range.1 hi
        have : (f i hi).i < L.length + L.length := List.mem_range.1 (hperf.left.mem_iff.1 (List.mem_map_of_mem (hf1 i hi)))
        have := hf3 i hi
        rw [hσ i hi, List.mem_range]
        omega
      have hnodup : ((List.range L.length).map σ).Nodup := by
        refine List.Nodup.map_on ?_ List.nodup_range
        intro a ha b hb hab
        have ha := List.mem_range.1 ha
        have hb := List.mem_range.1 hb
        rw [hσ a ha, hσ b hb] at hab
        have h1 := hf3 a ha
        have h2 := hf3 b hb
        have hfe : f a ha = f b hb := List.inj_on_of_nodup_map hndi (hf1 a ha) (hf1 b hb) (by omega)
        have h3 := hf2 a ha
        have h4 := hf2 b hb
        rw [hfe] at h3
        omega
      exact (List.subperm_of_subset hnodup hsub).perm_of_length_le (by simp)
    · rw [hσ i hi]
      have := row_of_graph hx (hperf.sub _ (hf1 i hi)) hre (hf3 i hi) (by rw [hf2 i hi]; omega)
      rwa [hf2 i hi, Nat.add_sub_cancel_left] at this
  · intro hcov y x hy hxx he
    have := (C43_self_match_covered fuel img maxDist oc xs pos hx r hcov hr).1 y x hy hxx he
    omega

/-- C43: a map compared with itself matches at most as many pixels as outliers are reached by the random connections. -/
theorem C43_matched_le_covered (fuel : Nat) (img : Img ℚ) (maxDist oc : ℚ) (xs : Nat → ℚ) (pos : Nat)
    (hx : ∀ i, 0 ≤ xs i ∧ xs i < 1) (r : CorrOut) (hr : correspondPixels fuel img img maxDist oc xs pos = .ok (some r)) :
    ((edgePixels img).filter fun p => r.o0 p.1 p.2 ≠ 0).card ≤
      (ooRows (edgePixels img).card (edgePixels img).card xs pos).flatten.toFinset.card := by
  by_cases hne : (edgePixels img).card = 0
  · rw [card_eq_zero] at hne
    rw [hne]; simp
  obtain ⟨L, ow, E, sol, hnd, hlen, hmem, hre, hperf, hmatch⟩ := self_solution hx hr hne
  have hndi : (sol.map GEdge.i).Nodup := hperf.left.nodup_iff.mpr List.nodup_range
  obtain ⟨c1, -, -⟩ := hperf.count_oo
  simp only at c1
  have h1 : ((edgePixels img).filter fun p => r.o0 p.1 p.2 ≠ 0).card ≤
      sol.countP (fun e => decide (e.i < L.length) && decide (e.j < L.length)) := by
    rw [List.countP_eq_length_filter]
    refine le_trans ?_ (List.toFinset_card_le _)
    refine le_trans ?_ (card_image_le (f := fun e : GEdge => ((L.getD e.i (0, 0)).2, (L.getD e.i (0, 0)).1)))
    apply card_le_card
    intro p hp
    rw [mem_filter] at hp
    obtain ⟨e, he, a, b, c⟩ := (hmatch (p.2, p.1) ((hmem _).2 hp.1)).1 hp.2
    rw [mem_image]
    exact ⟨e, by simp [he, a, b], by rw [c]⟩
  have h2 : sol.countP (fun e => !decide (e.i < L.length) && !decide (e.j < L.length)) ≤
      (ooRows (edgePixels img).card (edgePixels img).card xs pos).flatten.toFinset.card := by
    rw [List.countP_eq_length_filter, ← hlen]
    set S := sol.filter (fun e => !decide (e.i < L.length) && !decide (e.j < L.length)) with hS
    have hmemS : ∀ e ∈ S, e ∈ sol ∧ L.length ≤ e.i ∧ L.length ≤ e.j := by
      intro e he
      rw [hS, List.mem_filter] at he
      simpa using he
    have hndS : (S.map fun e => e.i - L.length).Nodup := by
      refine List.Nodup.map_on ?_ ((List.Nodup.of_map _ hndi).filter _)
      intro a ha b hb hab
      have := hmemS a ha
      have := hmemS b hb
      exact List.inj_on_of_nodup_map hndi (hmemS a ha).1 (hmemS b hb).1 (by omega)
    have : S.length = (S.map fun e => e.i - L.length).toFinset.card := by
      rw [List.toFinset_card_of_nodup hndS, List.length_map]
    rw [this]
    apply card_le_card
    intro x hxm
    rw [List.mem_toFinset, List.mem_map] at hxm
    obtain ⟨e, he, rfl⟩ := hxm
    have he' := hmemS e he
    have := row_of_graph hx (hperf.sub _ he'.1) hre he'.2.1 he'.2.2
    rw [List.mem_toFinset, List.mem_flatten]
    refine ⟨_, ?_, this⟩
    rw [List.getD_eq_getElem?_getD] at this ⊢
    cases hg : (ooRows L.length L.length xs pos)[e.j - L.length]? with
    | none => rw [hg] at this; simp at this
    | some row => exact List.mem_of_getElem? hg
  omega

theorem subset_six {n : Nat} (h : 6 ≤ n) : IsKSubset 6 n (List.range 6) :=
  ⟨by simp, List.pairwise_lt_range, fun x hx => by have := List.mem_range.1 hx; omega⟩

theorem rows_six {n c : Nat} (h : 6 ≤ n) : GoodRows 6 n c (List.replicate c (List.range 6)) :=
  ⟨by simp, fun r hr => by rw [List.eq_of_mem_replicate hr]; exact subset_six h⟩

/-- A row of six outliers that contains outlier `i`. -/
def rowWith (i : Nat) : List Nat := if i < 6 then List.range 6 else [0, 1, 2, 3, 4, i]

theorem rowWith_ok {n i : Nat} (h : 7 ≤ n) (hi : i < n) : IsKSubset 6 n (rowWith i) ∧ i ∈ rowWith i := by
  unfold rowWith
  split
  · exact ⟨subset_six (by omega), List.mem_range.2 (by assumption)⟩
  · refine ⟨⟨rfl, ?_, ?_⟩, by simp⟩
    · simp; omega
    · intro x hx; simp at hx; omega

/-- C43 (finding): for every map with seven edge pixels or more it depends on the random numbers how much of a perfect prediction is found correct: with
some every edge pixel is matched (recall and precision 1), with others at most six pixels are, however many there are. -/
theorem C43_depends_on_stream (img : Img ℚ) (hseven : 7 ≤ (edgePixels img).card) (maxDist oc : ℚ) (hd : 0 < maxDist) (hoc : 1 < oc) :
    ∃ xs ys : Nat → ℚ, (∀ i, 0 ≤ xs i ∧ xs i < 1) ∧ (∀ i, 0 ≤ ys i ∧ ys i < 1) ∧
      ∃ fuel r r', correspondPixels fuel img img maxDist oc xs 0 = .ok (some r) ∧ correspondPixels fuel img img maxDist oc ys 0 = .ok (some r') ∧
        ((edgePixels img).filter fun p => r.o0 p.1 p.2 ≠ 0).card = (edgePixels img).card ∧
        ((edgePixels img).filter fun p => r'.o0 p.1 p.2 ≠ 0).card ≤ 6 := by
  set N := (edgePixels img).card with hN
  have hd1 : deg1 N = 6 := by unfold deg1 degree; omega
  have hd3 : deg3 N N = 6 := by unfold deg3 degree; omega
  have hg : GoodRows (deg3 N N) (min N N) (max N N) ((List.range N).map rowWith) := by
    rw [hd3, Nat.min_self, Nat.max_self]
    refine ⟨by simp, fun r hr => ?_⟩
    obtain ⟨i, hi, rfl⟩ := List.mem_map.1 hr
    exact (rowWith_ok hseven (List.mem_range.1 hi)).1
  have hb : GoodRows (deg3 N N) (min N N) (max N N) (List.replicate N (List.range 6)) := by
    rw [hd3, Nat.min_self, Nat.max_self]; exact rows_six (by omega)
  have h1 : GoodRows (deg1 N) (N - 1) N (List.replicate N (List.range 6)) := by rw [hd1]; exact rows_six (by omega)
  obtain ⟨xs, ux, -, -, ex⟩ := kRows3_onto h1 h1 hg
  obtain ⟨ys, uy, -, -, ey⟩ := kRows3_onto h1 h1 hb
  have hne : 0 < img.rows ∧ 0 < img.cols := by
    obtain ⟨p, hp⟩ := card_pos.1 (show 0 < (edgePixels img).card by omega)
    simp only [edgePixels, mem_filter, mem_product, mem_range] at hp
    omega
  obtain ⟨F, r, hr⟩ := C11_total img img maxDist oc xs 0 ux ⟨rfl, rfl⟩ hd hoc hne
  obtain ⟨F', r', hr'⟩ := C11_total img img maxDist oc ys 0 uy ⟨rfl, rfl⟩ hd hoc hne
  refine ⟨xs, ys, ux, uy, max F F', r, r', hr _ (le_max_left _ _), hr' _ (le_max_right _ _), ?_, ?_⟩
  · have hcov : OutliersCovered (ooRows N N xs 0) N := by
      refine ⟨id, by simp, fun i hi => ?_⟩
      unfold ooRows
      rw [ex, List.getD_of_lt _ _ (by simpa using hi)]
      simpa using (rowWith_ok hseven hi).2
    have hall := (C43_perfect_iff _ img maxDist oc xs 0 ux r (hr _ (le_max_left F F'))).2 hcov
    rw [filter_true_of_mem]
    intro p hp
    simp only [edgePixels, mem_filter, mem_product, mem_range] at hp
    exact hall _ _ hp.1.1 hp.1.2 hp.2
  · refine (C43_matched_le_covered _ img maxDist oc ys 0 uy r' (hr' _ (le_max_right F F'))).trans ?_
    rw [← hN]
    unfold ooRows
    rw [ey]
    have : (List.replicate N (List.range 6)).flatten.toFinset ⊆ Finset.range 6 := by
      intro x hx
      rw [List.mem_toFinset, List.mem_flatten] at hx
      obtain ⟨l, hl, hxl⟩ := hx
      rw [List.eq_of_mem_replicate hl] at hxl
      exact Finset.mem_range.2 (List.mem_range.1 hxl)
    simpa using card_le_card this

example : 7 ≤ (edgePixels ⟨7, 7, fun y x => if y = x then 1 else 0⟩).card := by decide +kernel

/-- With seven pixels, row `i` without outlier `i` contains the assignment `i ↦ i + 1`. -/
example : OutliersCovered ((List.range 7).map fun (i : Nat) => (List.range 7).erase i) 7 :=
  ⟨fun i => (i + 1) % 7, by decide, by decide⟩

end EdgeEval.Props
