import Verif.Lemmas.MatchQuality
import Verif.Lemmas.Augment
import Verif.Props.Match

/-!
# Property theorems C43: how good the pixel correspondence is

The sparse random outlier connections limit what the matching can achieve.
-/

namespace EdgeEval.Props

open EdgeEval Finset

section self
variable {h w : Nat} {b : BMap} {md2 : ℚ}

theorem nodes_self1 (hmd : 0 ≤ md2) : nodes1 h w md2 b b = (pixels h w).filter fun p => b p.2 p.1 := by
  unfold nodes1
  apply List.filter_congr
  intro p hp
  have hp := mem_pixels.mp hp
  rw [Bool.eq_iff_iff]
  unfold matchable1
  simp only [Bool.and_eq_true, List.any_eq_true, mem_targets]
  constructor
  · exact fun h => h.1
  · exact fun h => ⟨h, p, ⟨hp.1, hp.2, by rw [pixDist2_self]; simpa using hmd⟩, h⟩

theorem nodes_self2 (hmd : 0 ≤ md2) : nodes2 h w md2 b b = (pixels h w).filter fun p => b p.2 p.1 := by
  unfold nodes2
  apply List.filter_congr
  intro p hp
  have hp := mem_pixels.mp hp
  rw [Bool.eq_iff_iff, matchable2_iff]
  constructor
  · exact fun h => h.2.2.1
  · exact fun h => ⟨hp.1, hp.2, h, p, hp.1, hp.2, h, by rw [pixDist2_self]; simpa using hmd⟩

end self

theorem card_edgePixels (img : Img ℚ) :
    (edgePixels img).card = ((pixels img.rows img.cols).filter fun p => decide (img.at_ p.2 p.1 ≠ 0)).length := by
  rw [← List.toFinset_card_of_nodup ((nodup_pixels _ _).filter _)]
  refine card_bij (fun p _ => (p.2, p.1)) ?_ ?_ ?_
  · intro p hp
    simp only [edgePixels, mem_filter, mem_product, mem_range] at hp
    simp only [List.mem_toFinset, List.mem_filter, mem_pixels, decide_eq_true_eq]
    exact ⟨⟨hp.1.2, hp.1.1⟩, hp.2⟩
  · rintro ⟨a, b⟩ _ ⟨c, d⟩ _ h
    simp only [Prod.mk.injEq] at h ⊢
    exact ⟨h.2, h.1⟩
  · intro p hp
    simp only [List.mem_toFinset, List.mem_filter, mem_pixels, decide_eq_true_eq] at hp
    exact ⟨(p.2, p.1), by simp [edgePixels, hp], rfl⟩

theorem csa_opt {h w : Nat} {b1 b2 : BMap} {md2 oc2 : ℚ} {xs : Nat → ℚ} {pos fuel : Nat} (hx : ∀ i, 0 ≤ xs i ∧ xs i < 1)
    {out M : List InArc} (hout : csaSolve fuel (2 * ((nodes1 h w md2 b1 b2).length + (nodes2 h w md2 b1 b2).length))
        ((matchGraph h w b1 b2 md2 oc2 xs pos).map
          (toArc ((nodes1 h w md2 b1 b2).length + (nodes2 h w md2 b1 b2).length))) = some out)
    (hM : IsPerfectMatching ((nodes1 h w md2 b1 b2).length + (nodes2 h w md2 b1 b2).length)
        ((matchGraph h w b1 b2 md2 oc2 xs pos).map
          (toArc ((nodes1 h w md2 b1 b2).length + (nodes2 h w md2 b1 b2).length))) M) : totalCost out ≤ totalCost M :=
  have hrange := graph_range (b1 := b1) (b2 := b2) (h := h) (w := w) (md2 := md2) (oc2 := oc2) (pos := pos) hx
  (C16_result_is_optimal _ fuel _ out
    (wellFormed_graph fun e he => ⟨(hrange e he).1, (hrange e he).2.1⟩) hout).2 M hM

/-- A map against itself, when the random connections between the outliers contain a perfect matching `σ`: a solution that is optimal up to `δ` pairs
every pixel with itself. -/
theorem self_core_cover {solve : Nat → List InArc → Option (List InArc)} (hv : Valid solve) {xs : Nat → ℚ} {pos : Nat}
    (hx : ∀ i, 0 ≤ xs i ∧ xs i < 1) {md2 oc2 : ℚ} (hp1 : 0 ≤ md2) (hp2 : md2 < oc2) (img : Img ℚ) {m : MatchOut} (δ : Nat)
    (hδ : δ < 100) (hδo : δ < outlierWeight oc2)
    (hopt : ∀ out M, solve (2 * ((nodes1 img.rows img.cols md2 (fun y x => img.at_ y x ≠ 0) (fun y x => img.at_ y x ≠ 0)).length + (nodes2 img.rows img.cols md2 (fun y x => img.at_ y x ≠ 0) (fun y x => img.at_ y x ≠ 0)).length))
        ((matchGraph img.rows img.cols (fun y x => img.at_ y x ≠ 0) (fun y x => img.at_ y x ≠ 0) md2 oc2 xs pos).map
          (toArc ((nodes1 img.rows img.cols md2 (fun y x => img.at_ y x ≠ 0) (fun y x => img.at_ y x ≠ 0)).length + (nodes2 img.rows img.cols md2 (fun y x => img.at_ y x ≠ 0) (fun y x => img.at_ y x ≠ 0)).length))) = some out →
      IsPerfectMatching ((nodes1 img.rows img.cols md2 (fun y x => img.at_ y x ≠ 0) (fun y x => img.at_ y x ≠ 0)).length + (nodes2 img.rows img.cols md2 (fun y x => img.at_ y x ≠ 0) (fun y x => img.at_ y x ≠ 0)).length)
        ((matchGraph img.rows img.cols (fun y x => img.at_ y x ≠ 0) (fun y x => img.at_ y x ≠ 0) md2 oc2 xs pos).map
          (toArc ((nodes1 img.rows img.cols md2 (fun y x => img.at_ y x ≠ 0) (fun y x => img.at_ y x ≠ 0)).length + (nodes2 img.rows img.cols md2 (fun y x => img.at_ y x ≠ 0) (fun y x => img.at_ y x ≠ 0)).length))) M → totalCost out ≤ totalCost M + δ)
    (hm : matchWith solve img.rows img.cols (fun y x => img.at_ y x ≠ 0) (fun y x => img.at_ y x ≠ 0) md2 oc2 xs pos = some m)
    (σ : Nat → Nat)
    (hσ : ((List.range (edgePixels img).card).map σ).Perm (List.range (edgePixels img).card))
    (hoo : ∀ i, i < (edgePixels img).card → ∀ (ow : Nat) (E : List MEdge), (⟨(edgePixels img).card + σ i, (edgePixels img).card + i, ow⟩ : GEdge) ∈
      buildGraph (edgePixels img).card (edgePixels img).card ow E xs pos) (p : Pix) (hpx : p.1 < img.cols) (hpy : p.2 < img.rows)
    (hpe : img.at_ p.2 p.1 ≠ 0) : m.mt.m1 p = some p := by
  have hn1 := nodes_self1 (h := img.rows) (w := img.cols) (b := fun y x => img.at_ y x ≠ 0) hp1
  have hn2 := nodes_self2 (h := img.rows) (w := img.cols) (b := fun y x => img.at_ y x ≠ 0) hp1
  rw [card_edgePixels, ← hn1] at hσ hoo
  have hpm : p ∈ nodes1 img.rows img.cols md2
      (fun y x => img.at_ y x ≠ 0) (fun y x => img.at_ y x ≠ 0) := by
    rw [hn1, List.mem_filter, mem_pixels]
    exact ⟨⟨hpx, hpy⟩, by simpa using hpe⟩
  have hlen := List.length_pos_of_mem hpm
  obtain ⟨sol, hperf, hopt, hm1, _⟩ := run_sol_with hv hx hp1 hp2 δ hopt hm (by omega)
  have hkind : ∀ e ∈ sol, _ := fun e he => graph_kind hx (hperf.sub e he)
  have hre := realEdges_range (h := img.rows) (w := img.cols) (md2 := md2)
    (b1 := fun y x => img.at_ y x ≠ 0) (b2 := fun y x => img.at_ y x ≠ 0)
  have hmem : ∀ i, i < (nodes1 img.rows img.cols md2
      (fun y x => img.at_ y x ≠ 0) (fun y x => img.at_ y x ≠ 0)).length → (⟨i, i, 0⟩ : MEdge) ∈
      realEdges img.rows img.cols md2
        (fun y x => img.at_ y x ≠ 0) (fun y x => img.at_ y x ≠ 0) := by
    intro i hi
    rw [mem_realEdges, hn2, ← hn1]
    exact ⟨hi, hi, by rw [pixDist2_self], by simpa using hp1⟩
  unfold matchGraph at hperf hopt
  rw [hn2, ← hn1] at hperf hopt hm1 hkind hre
  clear hn2 hn1
  generalize hL : nodes1 img.rows img.cols md2
      (fun y x => img.at_ y x ≠ 0) (fun y x => img.at_ y x ≠ 0) = L at *
  generalize hE : realEdges img.rows img.cols md2
        (fun y x => img.at_ y x ≠ 0) (fun y x => img.at_ y x ≠ 0) = E at *
  have howp := outlierWeight_pos hp1 hp2
  generalize outlierWeight oc2 = ow at *
  have hnd : L.Nodup := hL ▸ nodup_nodes1 ..
  -- the identity matching
  have hM : Perfect0 (L.length + L.length) (buildGraph L.length L.length ow E xs pos)
      ((List.range L.length).map (fun (i : Nat) => (⟨i, i, 0⟩ : GEdge)) ++
        (List.range L.length).map fun (i : Nat) => (⟨L.length + σ i, L.length + i, ow⟩ : GEdge)) := by
    refine ⟨?_, ?_, ?_⟩
    · intro e he
      rcases List.mem_append.mp he with he | he
      · obtain ⟨i, hi, rfl⟩ := List.mem_map.mp he
        have := mem_graph_real (n1 := L.length) (n2 := L.length) (ow := ow) (xs := xs) (pos := pos)
          (hmem i (List.mem_range.mp hi))
        exact this
      · obtain ⟨i, hi, rfl⟩ := List.mem_map.mp he
        have hi := List.mem_range.mp hi
        exact hoo i hi ow E
    · rw [List.map_append, List.map_map, List.map_map, List.range_add]
      have : (GEdge.i ∘ fun (i : Nat) => (⟨i, i, 0⟩ : GEdge)) = id := rfl
      rw [this, List.map_id]
      refine List.Perm.append_left _ ?_
      have e : (GEdge.i ∘ fun (i : Nat) => (⟨L.length + σ i, L.length + i, ow⟩ : GEdge)) = (fun x => L.length + x) ∘ σ := rfl
      rw [e, ← List.map_map]
      exact hσ.map _
    · rw [List.map_append, List.map_map, List.map_map, List.range_add]
      have : (GEdge.j ∘ fun (i : Nat) => (⟨i, i, 0⟩ : GEdge)) = id := rfl
      rw [this, List.map_id]
      exact List.Perm.of_eq rfl
  have hle := hopt _ hM
  have hMc : (((List.range L.length).map (fun (i : Nat) => (⟨i, i, 0⟩ : GEdge)) ++
        (List.range L.length).map fun (i : Nat) => (⟨L.length + σ i, L.length + i, ow⟩ : GEdge)).map GEdge.c).sum
      = (ow : Int) * L.length := by
    rw [List.map_append, List.map_map, List.map_map, List.sum_append]
    have a1 : (GEdge.c ∘ fun (i : Nat) => (⟨i, i, 0⟩ : GEdge)) = fun _ => 0 := rfl
    have a2 : (GEdge.c ∘ fun (i : Nat) => (⟨L.length + σ i, L.length + i, ow⟩ : GEdge)) = fun _ => (ow : Int) := rfl
    rw [a1, a2]
    simp [mul_comm]
  rw [hMc] at hle
  have hlow := cost_lower sol hkind hre
  obtain ⟨c1, c2, c3⟩ := hperf.count_oo
  simp only at c1 c2 c3
  have hlen' : sol.length = L.length + L.length := by
    have := hperf.left.length_eq; simpa using this
  have hsplit := countP_split sol (fun _ => true) (fun e => decide (e.i < L.length) && decide (e.j < L.length))
  simp only [Bool.true_and] at hsplit
  have hct : sol.countP (fun _ => true) = sol.length := by simp
  -- the real edges cost nothing and there are L.length of them
  have hnonneg : 0 ≤ ((sol.filter (fun e => decide (e.i < L.length) && decide (e.j < L.length))).map GEdge.c).sum := by
    apply List.sum_nonneg
    intro c hc
    obtain ⟨e, he, rfl⟩ := List.mem_map.mp hc
    exact ((hkind e (List.mem_of_mem_filter he)).range hre).2.2
  have hnr : L.length ≤ sol.countP (fun e => !(decide (e.i < L.length) && decide (e.j < L.length))) := by omega
  have hz : ((sol.filter (fun e => decide (e.i < L.length) && decide (e.j < L.length))).map GEdge.c).sum ≤ δ ∧
      sol.countP (fun e => !(decide (e.i < L.length) && decide (e.j < L.length))) ≤ L.length := by
    generalize sol.countP (fun e => !(decide (e.i < L.length) && decide (e.j < L.length))) = c at *
    have h1 : (L.length : Int) ≤ c := by exact_mod_cast hnr
    have h2 : (0 : Int) < ow := by exact_mod_cast howp
    have h4 : (δ : Int) < ow := by exact_mod_cast hδo
    constructor
    · nlinarith
    · have : (c : Int) ≤ L.length := by
        by_contra hcc
        push Not at hcc
        nlinarith
      exact_mod_cast this
  -- take the edge at p's node
  have hi := List.idxOf_lt_length_of_mem hpm
  have : L.idxOf p ∈ sol.map GEdge.i := hperf.left.mem_iff.mpr (List.mem_range.mpr (by omega))
  obtain ⟨e, he, hei⟩ := List.mem_map.mp this
  have hej : e.j < L.length := by
    by_contra hcon
    have hpos : 0 < sol.countP (fun e => decide (e.i < L.length) && !decide (e.j < L.length)) := by
      rw [List.countP_pos_iff]
      exact ⟨e, he, by simp [hei, hi, hcon]⟩
    omega
  have hreal : e ∈ sol.filter (fun e => decide (e.i < L.length) && decide (e.j < L.length)) := by
    rw [List.mem_filter]; exact ⟨he, by simp [hei, hi, hej]⟩
  have hc0 : e.c < 100 := by
    have hle1 : e.c ≤ ((sol.filter (fun e => decide (e.i < L.length) && decide (e.j < L.length))).map GEdge.c).sum := by
      apply List.single_le_sum _ _ (List.mem_map_of_mem hreal)
      intro c hc
      obtain ⟨e', he', rfl⟩ := List.mem_map.mp hc
      exact ((hkind e' (List.mem_of_mem_filter he')).range hre).2.2
    have := ((hkind e he).range hre).2.2
    omega
  obtain ⟨me, hme, hee⟩ := (hkind e he).real_of_lt (by rw [hei]; exact hi) hej
  rw [hm1]
  refine ⟨e, he, by rw [hei]; exact hi, hej, ?_, ?_⟩
  · rw [hei]; exact getD_idxOf hpm
  · have hd0 : me.d2 = 0 := by
      apply rint100_eq_zero
      rw [hee] at hc0
      simp only at hc0
      exact_mod_cast hc0
    have hmem' := hme
    rw [← hE, mem_realEdges] at hmem'
    have h3 := hmem'.2.2.1
    have hn2' := nodes_self2 (h := img.rows) (w := img.cols) (b := fun y x => img.at_ y x ≠ 0) hp1
    have hn1' := nodes_self1 (h := img.rows) (w := img.cols) (b := fun y x => img.at_ y x ≠ 0) hp1
    rw [hn2', ← hn1', hL, hd0] at h3
    have := pixDist2_eq_zero h3.symm
    have hmi : me.i = L.idxOf p := by rw [← hei, hee]
    have hmj : me.j = e.j := by rw [hee]
    rw [← hmj, ← this, hmi, getD_idxOf hpm]

/-- A map with at most six edge pixels against itself: all connections between outliers are there. -/
theorem self_core {solve : Nat → List InArc → Option (List InArc)} (hv : Valid solve) {xs : Nat → ℚ} {pos : Nat}
    (hx : ∀ i, 0 ≤ xs i ∧ xs i < 1) {md2 oc2 : ℚ} (hp1 : 0 ≤ md2) (hp2 : md2 < oc2) (img : Img ℚ) {m : MatchOut} (δ : Nat)
    (hδ : δ < 100) (hδo : δ < outlierWeight oc2)
    (hopt : ∀ out M, solve (2 * ((nodes1 img.rows img.cols md2 (fun y x => img.at_ y x ≠ 0) (fun y x => img.at_ y x ≠ 0)).length + (nodes2 img.rows img.cols md2 (fun y x => img.at_ y x ≠ 0) (fun y x => img.at_ y x ≠ 0)).length))
        ((matchGraph img.rows img.cols (fun y x => img.at_ y x ≠ 0) (fun y x => img.at_ y x ≠ 0) md2 oc2 xs pos).map
          (toArc ((nodes1 img.rows img.cols md2 (fun y x => img.at_ y x ≠ 0) (fun y x => img.at_ y x ≠ 0)).length + (nodes2 img.rows img.cols md2 (fun y x => img.at_ y x ≠ 0) (fun y x => img.at_ y x ≠ 0)).length))) = some out →
      IsPerfectMatching ((nodes1 img.rows img.cols md2 (fun y x => img.at_ y x ≠ 0) (fun y x => img.at_ y x ≠ 0)).length + (nodes2 img.rows img.cols md2 (fun y x => img.at_ y x ≠ 0) (fun y x => img.at_ y x ≠ 0)).length)
        ((matchGraph img.rows img.cols (fun y x => img.at_ y x ≠ 0) (fun y x => img.at_ y x ≠ 0) md2 oc2 xs pos).map
          (toArc ((nodes1 img.rows img.cols md2 (fun y x => img.at_ y x ≠ 0) (fun y x => img.at_ y x ≠ 0)).length + (nodes2 img.rows img.cols md2 (fun y x => img.at_ y x ≠ 0) (fun y x => img.at_ y x ≠ 0)).length))) M → totalCost out ≤ totalCost M + δ)
    (hm : matchWith solve img.rows img.cols (fun y x => img.at_ y x ≠ 0) (fun y x => img.at_ y x ≠ 0) md2 oc2 xs pos = some m)
    (hsix : (edgePixels img).card ≤ 6) (p : Pix) (hpx : p.1 < img.cols) (hpy : p.2 < img.rows)
    (hpe : img.at_ p.2 p.1 ≠ 0) : m.mt.m1 p = some p :=
  self_core_cover hv hx hp1 hp2 img δ hδ hδo hopt hm id (by simp)
    (fun i hi ow E => mem_graph_oo hx (by unfold degree; omega) hi hi) p hpx hpy hpe

/-- C43: an edge map with at most six edge pixels compared with itself matches every edge pixel to
itself, at cost 0, for every tolerance, every outlier cost and every random stream. -/
theorem C43_self_match_small (fuel : Nat) (img : Img ℚ) (maxDist oc : ℚ) (xs : Nat → ℚ) (pos : Nat)
    (hx : ∀ i, 0 ≤ xs i ∧ xs i < 1) (r : CorrOut) (hsix : (edgePixels img).card ≤ 6)
    (hr : correspondPixels fuel img img maxDist oc xs pos = .ok (some r)) :
    (∀ y x, y < img.rows → x < img.cols → img.at_ y x ≠ 0 →
      r.o0 y x = x * img.rows + y + 1 ∧ r.o1 y x = x * img.rows + y + 1) ∧ r.cost = 0 := by
  obtain ⟨-, -, hd, hoc, ho⟩ := corr_ok hr
  obtain ⟨m, hm, hreq⟩ := Option.map_eq_some_iff.mp ho.symm
  obtain ⟨hp1, hp2⟩ := match_pre hm
  obtain ⟨hg, e1, e2⟩ := matchEdgeMaps_good hx hp1 hp2 hm
  have key : ∀ p : Pix, p.1 < img.cols → p.2 < img.rows → img.at_ p.2 p.1 ≠ 0 → m.mt.m1 p = some p :=
    fun p hpx hpy hpe => self_core (csaSolve_valid fuel) hx hp1 hp2 img 0 (by norm_num) (outlierWeight_pos hp1 hp2)
      (fun out M hout hM => by simpa using csa_opt hx hout hM) hm hsix p hpx hpy hpe
  have key2 : ∀ p : Pix, p.1 < img.cols → p.2 < img.rows → img.at_ p.2 p.1 ≠ 0 → m.mt.m2 p = some p :=
    fun p a b c => (hg.sym p p).mp (key p a b c)
  subst hreq
  simp only
  constructor
  · intro y x hy hxx he
    rw [e1, e2]
    have hb : (decide (img.at_ y x ≠ 0)) = true := by simpa using he
    exact ⟨encode_eq (key (x, y) hxx hy he) hb, encode_eq (key2 (x, y) hxx hy he) hb⟩
  · unfold matchCost
    split
    · rfl
    · rw [sum_pixels]
      apply sum_eq_zero
      intro p hp
      have hp := mem_pixSet.mp hp
      by_cases he : img.at_ p.2 p.1 = 0
      · simp [he]
      · simp only [key p hp.1 hp.2 he, key2 p hp.1 hp.2 he, pixDist2_self]
        simp

/-- Such images exist and the call returns on them (C11_total). -/
example : (edgePixels ⟨4, 4, fun y x => if y = x then 1 else 0⟩).card = 4 := by decide +kernel

/-! ## What the random outlier connections can cost -/

/-- The rows of random outlier-outlier connections drawn by `matchEdgeMaps` for `n1`, `n2` matchable
pixels (match.cc:189-237: the third group of draws). -/
def ooRows (n1 n2 : Nat) (xs : Nat → ℚ) (pos : Nat) : List (List Nat) :=
  (kRows (deg3 n1 n2) (min n1 n2) xs (max n1 n2)
    (kRows (deg1 n2) (n2 - 1) xs n2 (kRows (deg1 n1) (n1 - 1) xs n1 pos).2).2).1

theorem mem_oo_rows {n1 n2 ow : Nat} {edges : List MEdge} {xs : Nat → ℚ} {pos : Nat} {e : GEdge}
    (hx : UnitStream xs) (he : e ∈ buildGraph n1 n2 ow edges xs pos) (hr : ∀ e ∈ edges, e.i < n1 ∧ e.j < n2)
    (h1 : n1 ≤ e.i) (h2 : n2 ≤ e.j) (hle : n2 ≤ n1) :
    ∃ row ∈ ooRows n1 n2 xs pos, e.i - n1 ∈ row := by
  have hrows1 := kRows_ok (deg1 n1) (n1 - 1) xs hx (deg1_le n1) n1 pos
  have hrows2 := kRows_ok (deg1 n2) (n2 - 1) xs hx (deg1_le n2) n2 (kRows (deg1 n1) (n1 - 1) xs n1 pos).2
  unfold buildGraph at he
  simp only [List.mem_append] at he
  rcases he with (((he | he) | he) | he) | he
  · obtain ⟨me, hme, rfl⟩ := List.mem_map.mp he
    have := hr me hme
    simp only at h1; omega
  · obtain ⟨i, j, hi, hj, hne, rfl, _⟩ := outlier1_kind edges hrows1 he
    simp only at h1; omega
  · obtain ⟨i, j, hi, hj, hne, rfl, _⟩ := outlier2_kind edges hrows2 he
    simp only at h2; omega
  · change e ∈ outlierOutlier n1 n2 ow (ooRows n1 n2 xs pos) at he
    unfold outlierOutlier at he
    simp only [List.mem_flatMap, List.mem_range, List.mem_map] at he
    obtain ⟨i, hi, j, hj, rfl⟩ := he
    rw [if_neg (by omega)]
    rw [List.getD_of_lt _ _ hi] at hj
    exact ⟨_, List.getElem_mem hi, by simpa using hj⟩
  · rcases (overlay_kind edges he).1 with ⟨i, hi, rfl⟩ | ⟨i, hi, rfl⟩
    · simp only at h1; omega
    · simp only at h2; omega

/-- C43 (finding): if some outlier is missed by all rows of random outlier-outlier connections, then an
edge map compared with itself is not completely matched: at least one edge pixel of the perfect
prediction is reported as unmatched. -/
theorem C43_uncovered_outlier_loses_a_pixel (fuel : Nat) (img : Img ℚ) (maxDist oc : ℚ) (xs : Nat → ℚ)
    (pos : Nat) (hx : ∀ i, 0 ≤ xs i ∧ xs i < 1) (r : CorrOut)
    (hr : correspondPixels fuel img img maxDist oc xs pos = .ok (some r)) (k : Nat)
    (hk : k < (edgePixels img).card)
    (hmiss : ∀ row ∈ ooRows (edgePixels img).card (edgePixels img).card xs pos, k ∉ row) :
    ∃ y x, y < img.rows ∧ x < img.cols ∧ img.at_ y x ≠ 0 ∧ r.o0 y x = 0 := by
  by_contra hcon
  push Not at hcon
  obtain ⟨-, -, hd, hoc, ho⟩ := corr_ok hr
  obtain ⟨m, hm, hreq⟩ := Option.map_eq_some_iff.mp ho.symm
  obtain ⟨hp1, hp2⟩ := match_pre hm
  obtain ⟨hg, e1, e2⟩ := matchEdgeMaps_good hx hp1 hp2 hm
  subst hreq
  have hn1 := nodes_self1 (h := img.rows) (w := img.cols) (b := fun y x => img.at_ y x ≠ 0) hp1
  have hn2 := nodes_self2 (h := img.rows) (w := img.cols) (b := fun y x => img.at_ y x ≠ 0) hp1
  rw [card_edgePixels, ← hn1] at hk hmiss
  obtain ⟨sol, hperf, hopt, hm1, _⟩ := run_sol hx hp1 hp2 hm (by omega)
  have hre := realEdges_range (h := img.rows) (w := img.cols) (md2 := maxDist2 img.rows img.cols maxDist)
    (b1 := fun y x => img.at_ y x ≠ 0) (b2 := fun y x => img.at_ y x ≠ 0)
  have hmatched : ∀ p ∈ nodes1 img.rows img.cols (maxDist2 img.rows img.cols maxDist)
        (fun y x => img.at_ y x ≠ 0) (fun y x => img.at_ y x ≠ 0), ∃ q, m.mt.m1 p = some q := by
    intro p hp
    rw [hn1, List.mem_filter, mem_pixels] at hp
    have hp0 : img.at_ p.2 p.1 ≠ 0 := by simpa using hp.2
    have := hcon p.2 p.1 hp.1.2 hp.1.1 hp0
    simp only at this
    rw [e1, encode_ne_zero (fun q hq => (hg.ok _ q hq).1.2.2)] at this
    exact this
  unfold matchGraph at hperf
  rw [hn2, ← hn1] at hperf hm1 hre
  clear hn2 hn1 hopt
  generalize hL : nodes1 img.rows img.cols (maxDist2 img.rows img.cols maxDist)
      (fun y x => img.at_ y x ≠ 0) (fun y x => img.at_ y x ≠ 0) = L at *
  have hnd : L.Nodup := hL ▸ nodup_nodes1 ..
  have hndi : (sol.map GEdge.i).Nodup := hperf.left.nodup_iff.mpr List.nodup_range
  obtain ⟨c1, c2, c3⟩ := hperf.count_oo
  simp only at c1 c2 c3
  -- all edges at real left nodes are real
  have hz : sol.countP (fun e => decide (e.i < L.length) && !decide (e.j < L.length)) = 0 := by
    rw [List.countP_eq_zero]
    intro e he hb
    simp only [Bool.and_eq_true, decide_eq_true_eq, Bool.not_eq_true', decide_eq_false_iff_not] at hb
    obtain ⟨q, hq⟩ := hmatched _ (getD_mem hb.1)
    rw [hm1] at hq
    obtain ⟨e', he', a, b', c, d⟩ := hq
    have hii : e'.i = e.i := getD_inj hnd a hb.1 c
    have : e' = e := List.inj_on_of_nodup_map hndi he' he hii
    rw [this] at b'
    exact hb.2 b'
  -- the left outlier k
  have : L.length + k ∈ sol.map GEdge.i := hperf.left.mem_iff.mpr (List.mem_range.mpr (by omega))
  obtain ⟨e, he, hei⟩ := List.mem_map.mp this
  have hej : L.length ≤ e.j := by
    by_contra hlt
    have hpos : 0 < sol.countP (fun e => !decide (e.i < L.length) && decide (e.j < L.length)) := by
      rw [List.countP_pos_iff]
      exact ⟨e, he, by simp [hei]; omega⟩
    omega
  obtain ⟨row, hrow, hmem⟩ := mem_oo_rows hx (hperf.sub e he) hre (by omega) hej (le_refl _)
  rw [hei, Nat.add_sub_cancel_left] at hmem
  exact hmiss row hrow hmem

/-- C43 (finding): it does happen: with a stream of zeros (or any stream whose draws miss the same
outlier) every edge map with exactly seven edge pixels loses a pixel when compared with itself. -/
theorem C43_seven_pixels_lose_one (fuel : Nat) (img : Img ℚ) (maxDist oc : ℚ) (r : CorrOut)
    (hseven : (edgePixels img).card = 7)
    (hr : correspondPixels fuel img img maxDist oc (fun _ => 0) 0 = .ok (some r)) :
    ∃ y x, y < img.rows ∧ x < img.cols ∧ img.at_ y x ≠ 0 ∧ r.o0 y x = 0 := by
  refine C43_uncovered_outlier_loses_a_pixel fuel img maxDist oc _ 0 (fun _ => ⟨le_refl _, one_pos⟩) r hr 6
    (by omega) ?_
  rw [hseven]
  decide +kernel

example : (edgePixels ⟨7, 7, fun y x => if y = x then 1 else 0⟩).card = 7 := by decide +kernel

/-! ## Maximality -/

/-- C43: when one of the maps has at most six edge pixels and leaving a pixel unmatched costs at least a
hundredth of a pixel more than the tolerance, the matching is maximal: no two edge pixels within the
tolerance are both left unmatched. -/
theorem C43_maximal_small (fuel : Nat) (i0 i1 : Img ℚ) (maxDist oc : ℚ) (xs : Nat → ℚ) (pos : Nat)
    (hx : ∀ i, 0 ≤ xs i ∧ xs i < 1) (r : CorrOut)
    (hsix : (edgePixels i0).card ≤ 6 ∨ (edgePixels i1).card ≤ 6)
    (hgap : maxDist * diagonal i0.rows i0.cols + 1 / 100 ≤ oc * maxDist * diagonal i0.rows i0.cols)
    (hr : correspondPixels fuel i0 i1 maxDist oc xs pos = .ok (some r))
    (y x y' x' : Nat) (hy : y < i0.rows) (hxx : x < i0.cols) (hy' : y' < i0.rows) (hx' : x' < i0.cols)
    (h0 : i0.at_ y x ≠ 0) (h1 : i1.at_ y' x' ≠ 0)
    (hdist : ((y : ℚ) - y') ^ 2 + ((x : ℚ) - x') ^ 2 ≤ maxDist2 i0.rows i0.cols maxDist) :
    r.o0 y x ≠ 0 ∨ r.o1 y' x' ≠ 0 := by
  by_contra hcon
  push Not at hcon
  obtain ⟨hs1, hs2, hd, hoc, ho⟩ := corr_ok hr
  obtain ⟨m, hm, hreq⟩ := Option.map_eq_some_iff.mp ho.symm
  obtain ⟨hp1, hp2⟩ := match_pre hm
  obtain ⟨hg, e1, e2⟩ := matchEdgeMaps_good hx hp1 hp2 hm
  subst hreq
  simp only at hcon
  have hoc1 : (0 : ℝ) ≤ oc := by exact_mod_cast (zero_lt_one.trans hoc).le
  -- the outlier weight exceeds every real weight
  have hw : ∀ d : Nat, (d : ℚ) ≤ maxDist2 i0.rows i0.cols maxDist →
      rint100 d < outlierWeight (oc ^ 2 * maxDist2 i0.rows i0.cols maxDist) := by
    intro d hd2
    have a := (abs_lt.mp (C11_rint d)).2
    have b : √(d : ℝ) ≤ maxDist * diagonal i0.rows i0.cols := by
      rw [← sqrt_maxDist2 hd.le]
      apply Real.sqrt_le_sqrt
      have : ((d : ℚ) : ℝ) ≤ ((maxDist2 i0.rows i0.cols maxDist : ℚ) : ℝ) := by exact_mod_cast hd2
      simpa using this
    have c := Int.le_ceil (√(((oc ^ 2 * maxDist2 i0.rows i0.cols maxDist) * ((multiplier * multiplier : Nat) : ℚ) : ℚ) : ℝ))
    rw [← C11_ceilSqrt] at c
    have e : √(((oc ^ 2 * maxDist2 i0.rows i0.cols maxDist) * ((multiplier * multiplier : Nat) : ℚ) : ℚ) : ℝ) =
        oc * maxDist * diagonal i0.rows i0.cols * 100 := by
      push_cast
      rw [Real.sqrt_mul (by
          have : (0 : ℝ) ≤ (maxDist2 i0.rows i0.cols maxDist : ℝ) := by exact_mod_cast hp1
          positivity), Real.sqrt_mul (by positivity),
        Real.sqrt_sq hoc1, sqrt_maxDist2 hd.le, Real.sqrt_mul_self (by positivity)]
      simp only [multiplier]; push_cast; ring
    rw [e] at c
    have f : (rint100 d : ℝ) < (outlierWeight (oc ^ 2 * maxDist2 i0.rows i0.cols maxDist) : ℝ) := by
      have c' : oc * maxDist * diagonal i0.rows i0.cols * 100 ≤
        (outlierWeight (oc ^ 2 * maxDist2 i0.rows i0.cols maxDist) : ℝ) := by
        unfold outlierWeight; exact_mod_cast c
      linarith
    exact_mod_cast f
  have hb0 : (decide (i0.at_ y x ≠ 0)) = true := by simpa using h0
  have hb1 : (decide (i1.at_ y' x' ≠ 0)) = true := by simpa using h1
  have hdist' : (pixDist2 (x, y) (x', y') : ℚ) ≤ maxDist2 i0.rows i0.cols maxDist := by
    rw [pixDist2_rat]; exact hdist
  have hpm : (x, y) ∈ nodes1 i0.rows i0.cols (maxDist2 i0.rows i0.cols maxDist)
      (fun y x => i0.at_ y x ≠ 0) (fun y x => i1.at_ y x ≠ 0) :=
    mem_nodes1.mpr ⟨hxx, hy, hb0, (x', y'), hx', hy', hb1, hdist'⟩
  have hqm : (x', y') ∈ nodes2 i0.rows i0.cols (maxDist2 i0.rows i0.cols maxDist)
      (fun y x => i0.at_ y x ≠ 0) (fun y x => i1.at_ y x ≠ 0) :=
    mem_nodes2.mpr ⟨hx', hy', hb1, (x, y), hxx, hy, hb0, hdist'⟩
  have hu1 : m.mt.m1 (x, y) = none := by
    rcases hq : m.mt.m1 (x, y) with _ | q
    · rfl
    · exfalso
      have := (encode_ne_zero (h := i0.rows) (b := fun y x => i0.at_ y x ≠ 0) (m := m.mt.m1) (y := y) (x := x)
        (fun q hq => (hg.ok _ q hq).1.2.2)).mpr ⟨q, hq⟩
      rw [← e1] at this
      exact this hcon.1
  have hu2 : m.mt.m2 (x', y') = none := by
    rcases hq : m.mt.m2 (x', y') with _ | q
    · rfl
    · exfalso
      have := (encode_ne_zero (h := i0.rows) (b := fun y x => i1.at_ y x ≠ 0) (m := m.mt.m2) (y := y') (x := x')
        (fun q hq => (hg.ok q _ ((hg.sym _ _).mpr hq)).2.1.2.2)).mpr ⟨q, hq⟩
      rw [← e2] at this
      exact this hcon.2
  have hlen1 : (nodes1 i0.rows i0.cols (maxDist2 i0.rows i0.cols maxDist)
      (fun y x => i0.at_ y x ≠ 0) (fun y x => i1.at_ y x ≠ 0)).length ≤ (edgePixels i0).card := by
    rw [card_edgePixels]
    refine (List.subperm_of_subset (nodup_nodes1 ..) ?_).length_le
    intro p hp
    have := mem_nodes1.mp hp
    rw [List.mem_filter, mem_pixels]
    exact ⟨⟨this.1, this.2.1⟩, this.2.2.1⟩
  have hlen2 : (nodes2 i0.rows i0.cols (maxDist2 i0.rows i0.cols maxDist)
      (fun y x => i0.at_ y x ≠ 0) (fun y x => i1.at_ y x ≠ 0)).length ≤ (edgePixels i1).card := by
    rw [card_edgePixels]
    refine (List.subperm_of_subset (nodup_nodes2 ..) ?_).length_le
    intro p hp
    have := mem_nodes2.mp hp
    rw [List.mem_filter, mem_pixels, ← hs1, ← hs2]
    exact ⟨⟨this.1, this.2.1⟩, this.2.2.1⟩
  have l1 := List.idxOf_lt_length_of_mem hpm
  have l2 := List.idxOf_lt_length_of_mem hqm
  obtain ⟨sol, hperf, hopt, hm1, hm2⟩ := run_sol hx hp1 hp2 hm (by omega)
  have hkind : ∀ e ∈ sol, _ := fun e he => graph_kind hx (hperf.sub e he)
  have hmemE : (⟨(nodes1 i0.rows i0.cols (maxDist2 i0.rows i0.cols maxDist)
        (fun y x => i0.at_ y x ≠ 0) (fun y x => i1.at_ y x ≠ 0)).idxOf (x, y),
      (nodes2 i0.rows i0.cols (maxDist2 i0.rows i0.cols maxDist)
        (fun y x => i0.at_ y x ≠ 0) (fun y x => i1.at_ y x ≠ 0)).idxOf (x', y'),
      pixDist2 (x, y) (x', y')⟩ : MEdge) ∈
      realEdges i0.rows i0.cols (maxDist2 i0.rows i0.cols maxDist)
        (fun y x => i0.at_ y x ≠ 0) (fun y x => i1.at_ y x ≠ 0) :=
    mem_realEdges.mpr ⟨l1, l2, by simp only; rw [getD_idxOf hpm, getD_idxOf hqm], hdist'⟩
  have hw := hw _ hdist'
  have hre := realEdges_range (h := i0.rows) (w := i0.cols) (md2 := maxDist2 i0.rows i0.cols maxDist)
    (b1 := fun y x => i0.at_ y x ≠ 0) (b2 := fun y x => i1.at_ y x ≠ 0)
  unfold matchGraph at hperf hopt
  generalize nodes1 i0.rows i0.cols (maxDist2 i0.rows i0.cols maxDist)
      (fun y x => i0.at_ y x ≠ 0) (fun y x => i1.at_ y x ≠ 0) = L1 at *
  generalize nodes2 i0.rows i0.cols (maxDist2 i0.rows i0.cols maxDist)
      (fun y x => i0.at_ y x ≠ 0) (fun y x => i1.at_ y x ≠ 0) = L2 at *
  generalize realEdges i0.rows i0.cols (maxDist2 i0.rows i0.cols maxDist)
        (fun y x => i0.at_ y x ≠ 0) (fun y x => i1.at_ y x ≠ 0) = E at *
  generalize outlierWeight (oc ^ 2 * maxDist2 i0.rows i0.cols maxDist) = ow at *
  -- the two solution edges at the unmatched pixels
  have : L1.idxOf (x, y) ∈ sol.map GEdge.i := hperf.left.mem_iff.mpr (List.mem_range.mpr (by omega))
  obtain ⟨e, he, hei⟩ := List.mem_map.mp this
  have : L2.idxOf (x', y') ∈ sol.map GEdge.j := hperf.right.mem_iff.mpr (List.mem_range.mpr (by omega))
  obtain ⟨f, hf, hfj⟩ := List.mem_map.mp this
  have hej : L2.length ≤ e.j := by
    by_contra hlt
    have hh : m.mt.m1 (x, y) = some (L2.getD e.j (0, 0)) := by
      rw [hm1]
      exact ⟨e, he, by omega, by omega, by rw [hei, getD_idxOf hpm], rfl⟩
    rw [hu1] at hh; simp at hh
  have hfi : L1.length ≤ f.i := by
    by_contra hlt
    have hh : m.mt.m2 (x', y') = some (L1.getD f.i (0, 0)) := by
      rw [hm2]
      exact ⟨f, hf, by omega, by omega, rfl, by rw [hfj, getD_idxOf hqm]⟩
    rw [hu2] at hh; simp at hh
  have hne : f ≠ e := by intro hfe; rw [hfe] at hfi; omega
  have hce : (ow : Int) ≤ e.c := (hkind e he).ow_le hre (by omega)
  have hcf : (ow : Int) ≤ f.c := (hkind f hf).ow_le hre (by omega)
  have hrange_e := (hkind e he).range hre
  have hrange_f := (hkind f hf).range hre
  have hperm : sol.Perm (e :: f :: (sol.erase e).erase f) :=
    (List.perm_cons_erase he).trans
      ((List.perm_cons_erase ((List.mem_erase_of_ne hne).mpr hf)).cons e)
  generalize hrest : (sol.erase e).erase f = rest at hperm
  have hrest_mem : ∀ a ∈ rest, a ∈ sol := fun a ha =>
    hperm.mem_iff.mpr (List.mem_cons_of_mem _ (List.mem_cons_of_mem _ ha))
  have hM : Perfect0 (L1.length + L2.length) (buildGraph L1.length L2.length ow E xs pos)
      (⟨e.i, f.j, (rint100 (pixDist2 (x, y) (x', y')) : Nat)⟩ :: ⟨f.i, e.j, ow⟩ :: rest) := by
    refine ⟨?_, ?_, ?_⟩
    · intro a ha
      simp only [List.mem_cons] at ha
      rcases ha with rfl | rfl | ha
      · rw [hei, hfj]
        exact mem_graph_real hmemE
      · have := mem_graph_oo (n1 := L1.length) (n2 := L2.length) (ow := ow) (edges := E) (pos := pos) hx
          (by unfold degree; omega) (i := f.i - L1.length) (j := e.j - L2.length) (by omega) (by omega)
        rw [Nat.add_sub_cancel' hfi, Nat.add_sub_cancel' hej] at this
        exact this
      · exact hperf.sub a (hrest_mem a ha)
    · exact ((hperm.map GEdge.i).symm).trans hperf.left
    · refine List.Perm.trans ?_ (((hperm.map GEdge.j).symm).trans hperf.right)
      simp only [List.map_cons]
      exact List.Perm.swap _ _ _
  have hle := hopt _ hM
  rw [(hperm.map GEdge.c).sum_eq] at hle
  simp only [List.map_cons, List.sum_cons] at hle
  have : (rint100 (pixDist2 (x, y) (x', y')) : Int) < ow := by exact_mod_cast hw
  linarith

/-- The cost gap holds for the default parameters on every non-empty image: 100 times the tolerance. -/
example : ((3 / 400 : ℚ) : ℝ) * diagonal 1 0 + 1 / 100 ≤ ((100 : ℚ) : ℝ) * ((3 / 400 : ℚ) : ℝ) * diagonal 1 0 := by
  have : diagonal 1 0 = 1 := by simp [diagonal]
  rw [this]; norm_num

/-! ## Maximum cardinality -/

/-- If one of the maps has at most six edge pixels, a solution that is optimal up to `δ` pairs as many pixels as any
one-to-one correspondence within the distance. -/
theorem maximum_core {solve : Nat → List InArc → Option (List InArc)} (hv : Valid solve) {xs : Nat → ℚ} {pos : Nat}
    (hx : ∀ i, 0 ≤ xs i ∧ xs i < 1) {md2 oc2 : ℚ} (hp1 : 0 ≤ md2) (hp2 : md2 < oc2) (i0 i1 : Img ℚ)
    (hs1 : i0.rows = i1.rows) (hs2 : i0.cols = i1.cols) {m : MatchOut} (δ : Nat)
    (hopt0 : ∀ out M, solve (2 * ((nodes1 i0.rows i0.cols md2 (fun y x => i0.at_ y x ≠ 0) (fun y x => i1.at_ y x ≠ 0)).length + (nodes2 i0.rows i0.cols md2 (fun y x => i0.at_ y x ≠ 0) (fun y x => i1.at_ y x ≠ 0)).length))
        ((matchGraph i0.rows i0.cols (fun y x => i0.at_ y x ≠ 0) (fun y x => i1.at_ y x ≠ 0) md2 oc2 xs pos).map
          (toArc ((nodes1 i0.rows i0.cols md2 (fun y x => i0.at_ y x ≠ 0) (fun y x => i1.at_ y x ≠ 0)).length + (nodes2 i0.rows i0.cols md2 (fun y x => i0.at_ y x ≠ 0) (fun y x => i1.at_ y x ≠ 0)).length))) = some out →
      IsPerfectMatching ((nodes1 i0.rows i0.cols md2 (fun y x => i0.at_ y x ≠ 0) (fun y x => i1.at_ y x ≠ 0)).length + (nodes2 i0.rows i0.cols md2 (fun y x => i0.at_ y x ≠ 0) (fun y x => i1.at_ y x ≠ 0)).length)
        ((matchGraph i0.rows i0.cols (fun y x => i0.at_ y x ≠ 0) (fun y x => i1.at_ y x ≠ 0) md2 oc2 xs pos).map
          (toArc ((nodes1 i0.rows i0.cols md2 (fun y x => i0.at_ y x ≠ 0) (fun y x => i1.at_ y x ≠ 0)).length + (nodes2 i0.rows i0.cols md2 (fun y x => i0.at_ y x ≠ 0) (fun y x => i1.at_ y x ≠ 0)).length))) M → totalCost out ≤ totalCost M + δ)
    (hm : matchWith solve i0.rows i0.cols (fun y x => i0.at_ y x ≠ 0) (fun y x => i1.at_ y x ≠ 0) md2 oc2 xs pos = some m)
    (hg : GoodMatch i0.rows i0.cols (fun y x => i0.at_ y x ≠ 0) (fun y x => i1.at_ y x ≠ 0) md2 m.mt)
    (e1 : m.m1 = encodeMatch i0.rows (fun y x => i0.at_ y x ≠ 0) m.mt.m1)
    (hsix : (edgePixels i0).card ≤ 6 ∨ (edgePixels i1).card ≤ 6)
    (hw : ∀ d : Nat, (d : ℚ) ≤ md2 → 6 * (rint100 d + δ) < outlierWeight oc2)
    (M : Finset ((Nat × Nat) × (Nat × Nat)))
    (hM : ∀ e ∈ M, e.1 ∈ edgePixels i0 ∧ e.2 ∈ edgePixels i1 ∧
      ((e.1.1 : ℚ) - e.2.1) ^ 2 + ((e.1.2 : ℚ) - e.2.2) ^ 2 ≤ md2)
    (hM1 : ∀ e ∈ M, ∀ f ∈ M, e.1 = f.1 → e = f) (hM2 : ∀ e ∈ M, ∀ f ∈ M, e.2 = f.2 → e = f) :
    M.card ≤ ((edgePixels i0).filter fun p => m.m1 p.1 p.2 ≠ 0).card := by
  rcases M.eq_empty_or_nonempty with rfl | hne
  · simp
  have hmem : ∀ e ∈ M, (e.1.2, e.1.1) ∈ nodes1 i0.rows i0.cols md2
        (fun y x => i0.at_ y x ≠ 0) (fun y x => i1.at_ y x ≠ 0) ∧
      (e.2.2, e.2.1) ∈ nodes2 i0.rows i0.cols md2
        (fun y x => i0.at_ y x ≠ 0) (fun y x => i1.at_ y x ≠ 0) ∧
      (pixDist2 (e.1.2, e.1.1) (e.2.2, e.2.1) : ℚ) ≤ md2 := by
    intro e he
    obtain ⟨k1, k2, k3⟩ := hM e he
    simp only [edgePixels, mem_filter, mem_product, mem_range] at k1 k2
    rw [← hs1, ← hs2] at k2
    have hb0 : (decide (i0.at_ e.1.1 e.1.2 ≠ 0)) = true := by simpa using k1.2
    have hb1 : (decide (i1.at_ e.2.1 e.2.2 ≠ 0)) = true := by simpa using k2.2
    have hdist' : (pixDist2 (e.1.2, e.1.1) (e.2.2, e.2.1) : ℚ) ≤ md2 := by
      rw [pixDist2_rat]; exact k3
    exact ⟨mem_nodes1.mpr ⟨k1.1.2, k1.1.1, hb0, _, k2.1.2, k2.1.1, hb1, hdist'⟩,
      mem_nodes2.mpr ⟨k2.1.2, k2.1.1, hb1, _, k1.1.2, k1.1.1, hb0, hdist'⟩, hdist'⟩
  have hlen1 : (nodes1 i0.rows i0.cols md2
      (fun y x => i0.at_ y x ≠ 0) (fun y x => i1.at_ y x ≠ 0)).length ≤ (edgePixels i0).card := by
    rw [card_edgePixels]
    refine (List.subperm_of_subset (nodup_nodes1 ..) ?_).length_le
    intro p hp
    have := mem_nodes1.mp hp
    rw [List.mem_filter, mem_pixels]
    exact ⟨⟨this.1, this.2.1⟩, this.2.2.1⟩
  have hlen2 : (nodes2 i0.rows i0.cols md2
      (fun y x => i0.at_ y x ≠ 0) (fun y x => i1.at_ y x ≠ 0)).length ≤ (edgePixels i1).card := by
    rw [card_edgePixels]
    refine (List.subperm_of_subset (nodup_nodes2 ..) ?_).length_le
    intro p hp
    have := mem_nodes2.mp hp
    rw [List.mem_filter, mem_pixels, ← hs1, ← hs2]
    exact ⟨⟨this.1, this.2.1⟩, this.2.2.1⟩
  have hnz : (nodes1 i0.rows i0.cols md2
      (fun y x => i0.at_ y x ≠ 0) (fun y x => i1.at_ y x ≠ 0)).length ≠ 0 := by
    obtain ⟨e, he⟩ := hne
    exact (List.length_pos_of_mem (hmem e he).1).ne'
  obtain ⟨sol, hperf, hopt, hm1, hm2⟩ := run_sol_with hv hx hp1 hp2 δ hopt0 hm (by omega)
  have hE : ∀ e ∈ M, (⟨(nodes1 i0.rows i0.cols md2
        (fun y x => i0.at_ y x ≠ 0) (fun y x => i1.at_ y x ≠ 0)).idxOf (e.1.2, e.1.1),
      (nodes2 i0.rows i0.cols md2
        (fun y x => i0.at_ y x ≠ 0) (fun y x => i1.at_ y x ≠ 0)).idxOf (e.2.2, e.2.1),
      pixDist2 (e.1.2, e.1.1) (e.2.2, e.2.1)⟩ : MEdge) ∈
      realEdges i0.rows i0.cols md2
        (fun y x => i0.at_ y x ≠ 0) (fun y x => i1.at_ y x ≠ 0) := by
    intro e he
    obtain ⟨k1, k2, k3⟩ := hmem e he
    exact mem_realEdges.mpr ⟨List.idxOf_lt_length_of_mem k1, List.idxOf_lt_length_of_mem k2,
      by simp only; rw [getD_idxOf k1, getD_idxOf k2], k3⟩
  have hcheap : ∀ e ∈ realEdges i0.rows i0.cols md2
        (fun y x => i0.at_ y x ≠ 0) (fun y x => i1.at_ y x ≠ 0),
      6 * (rint100 e.d2 + δ) < outlierWeight oc2 :=
    fun e he => hw _ (mem_realEdges.mp he).2.2.2
  have hre := realEdges_range (h := i0.rows) (w := i0.cols) (md2 := md2)
    (b1 := fun y x => i0.at_ y x ≠ 0) (b2 := fun y x => i1.at_ y x ≠ 0)
  have hnd := nodup_nodes1 i0.rows i0.cols md2
    (fun y x => i0.at_ y x ≠ 0) (fun y x => i1.at_ y x ≠ 0)
  have hok : ∀ p ∈ nodes1 i0.rows i0.cols md2
        (fun y x => i0.at_ y x ≠ 0) (fun y x => i1.at_ y x ≠ 0),
      p.2 < i0.rows ∧ p.1 < i0.cols ∧ i0.at_ p.2 p.1 ≠ 0 := by
    intro p hp
    have := mem_nodes1.mp hp
    exact ⟨this.2.1, this.1, by simpa using this.2.2.1⟩
  unfold matchGraph at hperf hopt
  clear hw
  generalize nodes1 i0.rows i0.cols md2
      (fun y x => i0.at_ y x ≠ 0) (fun y x => i1.at_ y x ≠ 0) = L1 at *
  generalize nodes2 i0.rows i0.cols md2
      (fun y x => i0.at_ y x ≠ 0) (fun y x => i1.at_ y x ≠ 0) = L2 at *
  generalize realEdges i0.rows i0.cols md2
        (fun y x => i0.at_ y x ≠ 0) (fun y x => i1.at_ y x ≠ 0) = E at *
  generalize outlierWeight oc2 = ow at *
  -- the competing matching, as node pairs
  let g : (Nat × Nat) × (Nat × Nat) → Nat × Nat := fun e => (L1.idxOf (e.1.2, e.1.1), L2.idxOf (e.2.2, e.2.1))
  have inj1 : ∀ e ∈ M, ∀ f ∈ M, (g e).1 = (g f).1 → e = f := by
    intro e he f hf hef
    have := (List.idxOf_inj (hmem e he).1).1 hef
    simp only [Prod.mk.injEq] at this
    exact hM1 e he f hf (Prod.ext this.2 this.1)
  have inj2 : ∀ e ∈ M, ∀ f ∈ M, (g e).2 = (g f).2 → e = f := by
    intro e he f hf hef
    have := (List.idxOf_inj (hmem e he).2.1).1 hef
    simp only [Prod.mk.injEq] at this
    exact hM2 e he f hf (Prod.ext this.2 this.1)
  have hcardM : (M.image g).card = M.card :=
    card_image_of_injOn fun e he f hf h => inj1 e he f hf (congrArg Prod.fst h)
  have hmax := realPart_maximum δ hx hre hcheap (by unfold degree; omega) hperf hopt (M.image g) (by
      constructor
      · intro a ha b hb hab
        obtain ⟨e, he, rfl⟩ := mem_image.1 ha
        obtain ⟨f, hf, rfl⟩ := mem_image.1 hb
        rw [inj1 e he f hf hab]
      · intro a ha b hb hab
        obtain ⟨e, he, rfl⟩ := mem_image.1 ha
        obtain ⟨f, hf, rfl⟩ := mem_image.1 hb
        rw [inj2 e he f hf hab]) (by
      intro p hp
      obtain ⟨e, he, rfl⟩ := mem_image.1 hp
      exact ⟨_, hE e he, rfl, rfl⟩)
  rw [hcardM] at hmax
  refine hmax.trans (card_le_card_of_injOn
    (fun p => ((L1.getD p.1 (0, 0)).2, (L1.getD p.1 (0, 0)).1)) ?_ ?_)
  · intro p hp
    obtain ⟨h1, h2, e, he, k1, k2⟩ := mem_realPart.1 hp
    have hp1 : L1.getD p.1 (0, 0) ∈ L1 := by
      rw [List.getD_of_lt _ _ h1]; exact List.getElem_mem h1
    have hin := hok _ hp1
    have hh : m.mt.m1 (L1.getD p.1 (0, 0)) = some (L2.getD e.j (0, 0)) := by
      rw [hm1]
      exact ⟨e, he, by omega, by omega, by rw [k1], rfl⟩
    simp only [coe_filter, Set.mem_ofPred_eq, edgePixels, mem_filter, mem_product, mem_range]
    refine ⟨⟨⟨hin.1, hin.2.1⟩, hin.2.2⟩, ?_⟩
    rw [e1]
    exact (encode_ne_zero (h := i0.rows) (b := fun y x => i0.at_ y x ≠ 0) (m := m.mt.m1)
        (fun q hq => (hg.ok _ q hq).1.2.2)).mpr ⟨_, hh⟩
  · intro p hp q hq hpq
    obtain ⟨h1, h2, e, he, k1, k2⟩ := mem_realPart.1 hp
    obtain ⟨h1', h2', f, hf, l1, l2⟩ := mem_realPart.1 hq
    simp only [Prod.mk.injEq] at hpq
    have hi : p.1 = q.1 := getD_inj hnd h1 h1' (Prod.ext hpq.2 hpq.1)
    have hndi : (sol.map GEdge.i).Nodup := hperf.left.nodup_iff.2 List.nodup_range
    have : e = f := List.inj_on_of_nodup_map hndi he hf (by omega)
    subst this
    exact Prod.ext hi (by omega)

/-- C43: when one of the maps has at most six edge pixels and the outlier cost is at least seven times the
tolerance (the default is one hundred times), no one-to-one correspondence between edge pixels within the
tolerance pairs more pixels than the result does. -/
theorem C43_maximum_small (fuel : Nat) (i0 i1 : Img ℚ) (maxDist oc : ℚ) (xs : Nat → ℚ) (pos : Nat)
    (hx : ∀ i, 0 ≤ xs i ∧ xs i < 1) (r : CorrOut)
    (hsix : (edgePixels i0).card ≤ 6 ∨ (edgePixels i1).card ≤ 6) (hseven : 7 ≤ oc)
    (hr : correspondPixels fuel i0 i1 maxDist oc xs pos = .ok (some r))
    (M : Finset ((Nat × Nat) × (Nat × Nat)))
    (hM : ∀ e ∈ M, e.1 ∈ edgePixels i0 ∧ e.2 ∈ edgePixels i1 ∧
      ((e.1.1 : ℚ) - e.2.1) ^ 2 + ((e.1.2 : ℚ) - e.2.2) ^ 2 ≤ maxDist2 i0.rows i0.cols maxDist)
    (hM1 : ∀ e ∈ M, ∀ f ∈ M, e.1 = f.1 → e = f) (hM2 : ∀ e ∈ M, ∀ f ∈ M, e.2 = f.2 → e = f) :
    M.card ≤ ((edgePixels i0).filter fun p => r.o0 p.1 p.2 ≠ 0).card := by
  obtain ⟨hs1, hs2, hd, hoc, ho⟩ := corr_ok hr
  obtain ⟨m, hm, hreq⟩ := Option.map_eq_some_iff.mp ho.symm
  obtain ⟨hp1, hp2⟩ := match_pre hm
  obtain ⟨hg, e1, e2⟩ := matchEdgeMaps_good hx hp1 hp2 hm
  subst hreq
  simp only
  have hoc1 : (0 : ℝ) ≤ oc := by exact_mod_cast (zero_lt_one.trans hoc).le
  -- the outlier weight exceeds six times every real weight
  have hw : ∀ d : Nat, (d : ℚ) ≤ maxDist2 i0.rows i0.cols maxDist →
      6 * rint100 d < outlierWeight (oc ^ 2 * maxDist2 i0.rows i0.cols maxDist) := by
    intro d hd2
    have a := (abs_lt.mp (C11_rint d)).2
    have b : √(d : ℝ) ≤ maxDist * diagonal i0.rows i0.cols := by
      rw [← sqrt_maxDist2 hd.le]
      apply Real.sqrt_le_sqrt
      have : ((d : ℚ) : ℝ) ≤ ((maxDist2 i0.rows i0.cols maxDist : ℚ) : ℝ) := by exact_mod_cast hd2
      simpa using this
    have c := Int.le_ceil (√(((oc ^ 2 * maxDist2 i0.rows i0.cols maxDist) * ((multiplier * multiplier : Nat) : ℚ) : ℚ) : ℝ))
    rw [← C11_ceilSqrt] at c
    have e : √(((oc ^ 2 * maxDist2 i0.rows i0.cols maxDist) * ((multiplier * multiplier : Nat) : ℚ) : ℚ) : ℝ) =
        oc * maxDist * diagonal i0.rows i0.cols * 100 := by
      push_cast
      rw [Real.sqrt_mul (by
          have : (0 : ℝ) ≤ (maxDist2 i0.rows i0.cols maxDist : ℝ) := by exact_mod_cast hp1
          positivity), Real.sqrt_mul (by positivity),
        Real.sqrt_sq hoc1, sqrt_maxDist2 hd.le, Real.sqrt_mul_self (by positivity)]
      simp only [multiplier]; push_cast; ring
    rw [e] at c
    have c' : oc * maxDist * diagonal i0.rows i0.cols * 100 ≤
        (outlierWeight (oc ^ 2 * maxDist2 i0.rows i0.cols maxDist) : ℝ) := by
      unfold outlierWeight; exact_mod_cast c
    have hDpos : 0 < (maxDist : ℝ) * diagonal i0.rows i0.cols := by
      rw [← sqrt_maxDist2 hd.le]
      apply Real.sqrt_pos.2
      have : 0 < maxDist2 i0.rows i0.cols maxDist := by
        rcases hp1.lt_or_eq with h | h
        · exact h
        · rw [← h] at hp2; simp at hp2
      exact_mod_cast this
    have h7 : (7 : ℝ) ≤ oc := by exact_mod_cast hseven
    have g : 700 * (maxDist * diagonal i0.rows i0.cols) ≤
        (outlierWeight (oc ^ 2 * maxDist2 i0.rows i0.cols maxDist) : ℝ) := by
      nlinarith
    have f : (6 : ℝ) * (rint100 d : ℝ) < (outlierWeight (oc ^ 2 * maxDist2 i0.rows i0.cols maxDist) : ℝ) := by
      rcases Nat.eq_zero_or_pos d with rfl | hpos
      · simp only [Nat.cast_zero, Real.sqrt_zero, zero_mul, sub_zero] at a
        have : rint100 0 = 0 := by
          have h2 : ((rint100 0 : Nat) : ℝ) < 1 := by linarith
          have : rint100 0 < 1 := by exact_mod_cast h2
          omega
        rw [this]
        push_cast
        linarith
      · have : (1 : ℝ) ≤ √(d : ℝ) := by
          rw [Real.one_le_sqrt]; exact_mod_cast hpos
        linarith
    exact_mod_cast f
  exact maximum_core (csaSolve_valid fuel) hx hp1 hp2 i0 i1 hs1 hs2 0 (fun out M hout hM => by simpa using csa_opt hx hout hM)
    hm hg e1 hsix (by simpa using hw) M hM hM1 hM2

/-- A row with edges at 0, 1 against a row with edges at 1, 2, tolerance one pixel: pairing 1 with 1 at cost
0 would leave 0 and 2 alone, yet both pixels are matched (0 with 1, 1 with 2), for every random stream. -/
example (xs : Nat → ℚ) (pos : Nat) (hx : ∀ i, 0 ≤ xs i ∧ xs i < 1) : ∃ F r, ∀ fuel, F ≤ fuel →
    correspondPixels fuel ⟨1, 4, fun _ x => if x = 0 ∨ x = 1 then 1 else 0⟩
      ⟨1, 4, fun _ x => if x = 1 ∨ x = 2 then 1 else 0⟩ (1 / 4) 100 xs pos = .ok (some r) ∧
      r.o0 0 0 ≠ 0 ∧ r.o0 0 1 ≠ 0 := by
  obtain ⟨F, r, h⟩ := C11_total ⟨1, 4, fun _ x => if x = 0 ∨ x = 1 then 1 else 0⟩
    ⟨1, 4, fun _ x => if x = 1 ∨ x = 2 then 1 else 0⟩ (1 / 4) 100 xs pos hx ⟨rfl, rfl⟩ (by norm_num) (by norm_num)
    ⟨Nat.one_pos, Nat.succ_pos 3⟩
  refine ⟨F, r, fun fuel hf => ⟨h fuel hf, ?_⟩⟩
  have hle := C43_maximum_small fuel _ _ _ _ xs pos hx r (.inl (by decide +kernel)) (by norm_num) (h fuel hf)
    {((0, 0), (0, 1)), ((0, 1), (0, 2))} (by decide +kernel) (by decide) (by decide)
  have hsub : (edgePixels ⟨1, 4, fun _ x => if x = 0 ∨ x = 1 then 1 else 0⟩) = {(0, 0), (0, 1)} := by decide +kernel
  rw [hsub] at hle
  have h2 : ({((0, 0), (0, 1)), ((0, 1), (0, 2))} : Finset ((Nat × Nat) × (Nat × Nat))).card = 2 := by decide
  rw [h2] at hle
  have heq : ({(0, 0), (0, 1)} : Finset (Nat × Nat)).filter (fun p => r.o0 p.1 p.2 ≠ 0) = {(0, 0), (0, 1)} :=
    Finset.eq_of_subset_of_card_le (Finset.filter_subset _ _) (by simpa using hle)
  have := Finset.filter_eq_self.1 heq
  exact ⟨this (0, 0) (by simp), this (0, 1) (by simp)⟩

end EdgeEval.Props
