import Verif.Lemmas.MatchInts
import Verif.Props.MatchFloat

/-!
# Property theorems C58: 32-bit integers in the pixel correspondence

`pyxInts`, `preInts`, `postInts` list every `int` computed by one call, `matchUnsigned` every `unsigned`, `resultCosts` the
values of the solver's running total.
-/

namespace EdgeEval.Props

open EdgeEval Finset

section
variable {fl sq : ℚ → ℚ} {i0 i1 : Img ℚ} {maxDist oc : ℚ}

theorem FloatArgs.radius (A : FloatArgs i0 i1 maxDist oc) (H : RoundsNearest fl) (S : SqrtNearest sq) {R : Nat}
    (hR : maxDist * diagonal i0.rows i0.cols ≤ R) (hR2 : R ≤ 2 ^ 17) :
    radiusF (tolF fl sq i0.rows i0.cols maxDist) ≤ R + 1 ∧ ceilSqrt (limSq fl sq i0 maxDist) ≤ R + 1 := by
  have ht := (tolF_nr (fl := fl) (sq := sq) H S A.nonempty A.dist_ge).1.2
  have hl := (limF_nr (fl := fl) (sq := sq) H S A.nonempty A.dist_ge).2
  have h0 := A.tol_pos
  unfold exactTol at ht hl
  generalize (maxDist : ℝ) * diagonal i0.rows i0.cols = t at *
  have hRr : (R : ℝ) ≤ 2 ^ 17 := by exact_mod_cast hR2
  constructor
  · unfold radiusF
    rw [Int.toNat_le, Int.ceil_le]
    have : (tolF fl sq i0.rows i0.cols maxDist : ℝ) ≤ ((R + 1 : Nat) : ℝ) := by
      refine ht.trans ?_
      push_cast
      have : t * (1 + 1 / 2 ^ 53) ^ 2 ≤ t + t * (1 / 2 ^ 51) := by
        have : ((1 : ℝ) + 1 / 2 ^ 53) ^ 2 ≤ 1 + 1 / 2 ^ 51 := by norm_num
        nlinarith
      have h3 : t * (1 / 2 ^ 51) ≤ 1 := by
        have : t ≤ 2 ^ 17 := hR.trans hRr
        calc t * (1 / 2 ^ 51) ≤ 2 ^ 17 * (1 / 2 ^ 51) := by gcongr
          _ ≤ 1 := by norm_num
      linarith
    have h2 : tolF fl sq i0.rows i0.cols maxDist ≤ ((R + 1 : Nat) : ℚ) := by exact_mod_cast this
    exact_mod_cast h2
  · rw [ceilSqrt_le_iff]
    have : (limSq fl sq i0 maxDist : ℝ) ≤ (((R + 1) * (R + 1) : Nat) : ℝ) := by
      refine le_trans hl ?_
      push_cast
      have h2 : t ≤ 2 ^ 17 := hR.trans hRr
      have h3 : t ^ 2 * (1 + 1 / 2 ^ 53) ^ 5 ≤ t ^ 2 * (1 + 1 / 2 ^ 50) := by
        gcongr; norm_num
      have h4 : t ^ 2 * (1 / 2 ^ 50) ≤ 1 := by
        calc t ^ 2 * (1 / 2 ^ 50) ≤ (2 ^ 17) ^ 2 * (1 / 2 ^ 50) := by gcongr
          _ ≤ 1 := by norm_num
      have h5 : t ^ 2 ≤ (R : ℝ) ^ 2 := by gcongr
      have h6 : (0 : ℝ) ≤ R := by positivity
      nlinarith
    exact_mod_cast this

theorem FloatArgs.ow_int (A : FloatArgs i0 i1 maxDist oc) (H : RoundsNearest fl) (S : SqrtNearest sq)
    (hoc : oc * maxDist * diagonal i0.rows i0.cols ≤ 214748) : owF fl sq i0 maxDist oc * 100 < 2 ^ 31 := by
  have ho1 : 1 ≤ oc := le_trans (by norm_num) A.oc_ge
  have h := (ocF_nr (fl := fl) (sq := sq) H S A.nonempty A.dist_ge ho1).2.2
  have e : (oc : ℝ) * exactTol i0.rows i0.cols maxDist = oc * maxDist * diagonal i0.rows i0.cols := by
    unfold exactTol; ring
  rw [e] at h
  have : (fl (ocF fl sq i0.rows i0.cols maxDist oc * (multiplier : Nat)) : ℝ) ≤ ((21474801 : Nat) : ℝ) := by
    refine h.trans ?_
    calc _ ≤ (214748 : ℝ) * 100 * (1 + 1 / 2 ^ 53) ^ 4 := by gcongr
      _ ≤ _ := by norm_num
  have h2 : fl (ocF fl sq i0.rows i0.cols maxDist oc * (multiplier : Nat)) ≤ ((21474801 : Nat) : ℚ) := by exact_mod_cast this
  have h3 : owF fl sq i0 maxDist oc ≤ 21474801 := by
    unfold owF outlierWeightF
    rw [Int.toNat_le, Int.ceil_le]
    exact_mod_cast h2
  omega

end

/-- C58: no `int` or `unsigned` overflows in `correspond_pixels` and `matchEdgeMaps`, for images of at most 32767 rows and
columns, a tolerance of at most `R ≤ 32765` pixels, an outlier cost of at most 214748 pixels and edge maps with `E0`, `E1`
edge pixels such that `3 (E0 (2R+3)^2 + 13 (E0 + E1)) < 2^32`: before the solver is called, and after it for every result it
can return. -/
theorem C58_no_overflow (fl sq : ℚ → ℚ) (H : RoundsNearest fl) (S : SqrtNearest sq) (fuel : Nat) (i0 i1 : Img ℚ)
    (maxDist oc : ℚ) (small : Nat → Nat → Bool) (xs : Nat → ℚ) (pos : Nat) (hx : ∀ i, 0 ≤ xs i ∧ xs i ≤ 1 - 1 / 2 ^ 48)
    (A : FloatArgs i0 i1 maxDist oc) (hrows : i0.rows ≤ 32767) (hcols : i0.cols ≤ 32767) (R : Nat) (hR : maxDist * diagonal i0.rows i0.cols ≤ R)
    (hRmax : R ≤ 32765) (hoc : oc * maxDist * diagonal i0.rows i0.cols ≤ 214748)
    (hsz : 3 * ((edgePixels i0).card * ((2 * R + 3) * (2 * R + 3)) + 13 * ((edgePixels i0).card + (edgePixels i1).card)) <
      2 ^ 32) :
    let md := tolF fl sq i0.rows i0.cols maxDist
    let ow := outlierWeightF fl (ocF fl sq i0.rows i0.cols maxDist oc)
    let b1 : BMap := fun y x => i0.at_ y x ≠ 0
    let b2 : BMap := fun y x => i1.at_ y x ≠ 0
    let ns1 := nodes1F fl i0.rows i0.cols md b1 b2
    let ns2 := nodes2F fl i0.rows i0.cols md b1 b2
    let edges := realEdgesF fl i0.rows i0.cols md b1 b2
    let n := ns1.length + ns2.length
    let g := buildGraphF fl sq small ns1.length ns2.length ow edges xs pos
    (∀ z ∈ pyxInts i0.rows i0.cols, FitsInt z) ∧
    (∀ z ∈ preInts i0.rows i0.cols (radiusF md) ns1 ns2 edges.length ow g, FitsInt z) ∧
    (∀ k ∈ matchUnsigned n g.length, FitsUnsigned k) ∧
    ∀ out, csaSolveF fl fuel (2 * n) (g.map (toArc n)) = some out →
      ∀ z ∈ postInts i0.rows i0.cols ns1 ns2 (weightF fl sq) out, FitsInt z := by
  intro md ow b1 b2 ns1 ns2 edges n g
  have T := A.good H S
  have e1 : ns1 = nodes1 i0.rows i0.cols (limSq fl sq i0 maxDist) b1 b2 := nodes1F_eq H A.rows_le A.cols_le T.nonneg
  have e2 : ns2 = nodes2 i0.rows i0.cols (limSq fl sq i0 maxDist) b1 b2 := nodes2F_eq H A.rows_le A.cols_le T.nonneg
  have e3 : edges = realEdges i0.rows i0.cols (limSq fl sq i0 maxDist) b1 b2 := realEdgesF_eq H A.rows_le A.cols_le T.nonneg
  obtain ⟨xs, hx, pos, e4⟩ : ∃ ys : Nat → ℚ, (∀ i, 0 ≤ ys i ∧ ys i < 1) ∧ ∃ p,
      g = buildGraph ns1.length ns2.length ow edges ys p := by
    simp only [g, e3]
    exact buildGraphF_draws H S A.rows_le A.cols_le small _ _ _ (pixels_count A.rows_le A.cols_le _)
      (pixels_count A.rows_le A.cols_le _) xs pos hx
  obtain ⟨r1, r2⟩ := A.radius H S hR (by omega)
  have hlen : g.length = announcedM ns1.length ns2.length edges.length := by
    rw [e4]; exact buildGraph_length _ _ _ _ xs pos hx
  clear_value ns1 ns2 edges g
  subst e1 e2 e3 e4
  rw [hlen]
  obtain ⟨f1, f2, f3⟩ := matchInts_fit (h := i0.rows) (w := i0.cols) (b1 := b1) (b2 := b2) (xs := xs) (pos := pos)
    (ow := ow) (lim := limSq fl sq i0 maxDist) hx hrows hcols (r := radiusF md) (r1.trans (by omega)) (A.ow_int H S hoc) (R := R + 1) r2
    (nodes1_le i0 i1 _) (nodes2_le i0 i1 A.rows_eq A.cols_eq _)
    (by simpa only [show 2 * (R + 1) + 1 = 2 * R + 3 by ring] using hsz) (weightF fl sq)
    (fun d hd => weightF_eq H S hd)
  refine ⟨pyxInts_fit hrows hcols, f1, f2, ?_⟩
  intro out hout
  refine f3 out (csaSolveF_valid fl fuel _ _ out (wellFormed_graph fun e he => ?_) hout)
  have := (buildGraph_kind hx he).range realEdges_range
  exact ⟨this.1, this.2.1⟩

/-- C58 (limit): from 46341 rows on, `rows * rows` in `correspond_pixels.pyx` is outside the range of `int`. -/
theorem C58_tall_image_overflows (rows cols : Nat) (h : 46341 ≤ rows ∨ 46341 ≤ cols) :
    ∃ z ∈ pyxInts rows cols, ¬ FitsInt z := by
  rcases h with h | h
  · refine ⟨(rows : ℤ) * rows, by simp [pyxInts], ?_⟩
    unfold FitsInt
    have : (46341 : ℤ) * 46341 ≤ (rows : ℤ) * rows := by
      have : (46341 : ℤ) ≤ rows := by exact_mod_cast h
      nlinarith
    omega
  · refine ⟨(cols : ℤ) * cols, by simp [pyxInts], ?_⟩
    unfold FitsInt
    have : (46341 : ℤ) * 46341 ≤ (cols : ℤ) * cols := by
      have : (46341 : ℤ) ≤ cols := by exact_mod_cast h
      nlinarith
    omega

/-! ## The solver's total cost -/

theorem sum_mem_scanl (l : List ℤ) (a : ℤ) : a + l.sum ∈ l.scanl (· + ·) a := by
  induction l generalizing a with
  | nil => simp
  | cons b l ih =>
    rw [List.scanl_cons, List.sum_cons, ← add_assoc]
    exact List.mem_cons_of_mem _ (ih (a + b))

theorem totalCost_mem (out : List InArc) : totalCost out ∈ resultCosts out := by
  have := sum_mem_scanl (out.map InArc.cost) 0
  rwa [zero_add] at this

/-- Every perfect matching of the graph costs at least the outlier weight for each matchable pixel of the larger side. -/
theorem total_lower {h w : Nat} {b1 b2 : BMap} {md2 oc2 : ℚ} {xs : Nat → ℚ} {pos : Nat} (hx : UnitStream xs) {out : List InArc}
    (hm : IsPerfectMatching ((nodes1 h w md2 b1 b2).length + (nodes2 h w md2 b1 b2).length)
      ((matchGraph h w b1 b2 md2 oc2 xs pos).map
        (toArc ((nodes1 h w md2 b1 b2).length + (nodes2 h w md2 b1 b2).length))) out) :
    ((outlierWeight oc2 * max (nodes1 h w md2 b1 b2).length (nodes2 h w md2 b1 b2).length : Nat) : ℤ) ≤ totalCost out := by
  obtain ⟨s1, s2, s3, s4, _⟩ := sol_of_matching hm
  have hP : Perfect0 ((nodes1 h w md2 b1 b2).length + (nodes2 h w md2 b1 b2).length) (matchGraph h w b1 b2 md2 oc2 xs pos)
      (out.map (ofArc ((nodes1 h w md2 b1 b2).length + (nodes2 h w md2 b1 b2).length))) := ⟨s1, s2, s3⟩
  have hc := hP.count_oo
  have hl := cost_lower _ (fun e he => graph_kind hx (s1 e he)) (realEdges_range (h := h) (w := w) (md2 := md2) (b1 := b1) (b2 := b2))
  rw [s4] at hl
  refine le_trans ?_ hl
  have hlen : (out.map (ofArc ((nodes1 h w md2 b1 b2).length + (nodes2 h w md2 b1 b2).length))).length =
      (nodes1 h w md2 b1 b2).length + (nodes2 h w md2 b1 b2).length := by
    have := s2.length_eq
    simpa using this
  have hnn : 0 ≤ (((out.map (ofArc ((nodes1 h w md2 b1 b2).length + (nodes2 h w md2 b1 b2).length))).filter
      (fun e => decide (e.i < (nodes1 h w md2 b1 b2).length) && decide (e.j < (nodes2 h w md2 b1 b2).length))).map GEdge.c).sum := by
    apply List.sum_nonneg
    intro c hc
    obtain ⟨e, he, rfl⟩ := List.mem_map.mp hc
    exact (graph_range hx e (s1 e (List.mem_of_mem_filter he))).2.2
  have hnot := List.length_eq_countP_add_countP
    (fun e : GEdge => decide (e.i < (nodes1 h w md2 b1 b2).length) && decide (e.j < (nodes2 h w md2 b1 b2).length))
    (l := out.map (ofArc ((nodes1 h w md2 b1 b2).length + (nodes2 h w md2 b1 b2).length)))
  simp only at hc
  have hcnt : max (nodes1 h w md2 b1 b2).length (nodes2 h w md2 b1 b2).length ≤
      (out.map (ofArc ((nodes1 h w md2 b1 b2).length + (nodes2 h w md2 b1 b2).length))).countP
        (fun e => !(decide (e.i < (nodes1 h w md2 b1 b2).length) && decide (e.j < (nodes2 h w md2 b1 b2).length))) := by
    have e : (fun a : GEdge => decide ¬((decide (a.i < (nodes1 h w md2 b1 b2).length) &&
        decide (a.j < (nodes2 h w md2 b1 b2).length)) = true)) =
        (fun e => !(decide (e.i < (nodes1 h w md2 b1 b2).length) && decide (e.j < (nodes2 h w md2 b1 b2).length))) := by
      funext a
      cases decide (a.i < (nodes1 h w md2 b1 b2).length) <;> cases decide (a.j < (nodes2 h w md2 b1 b2).length) <;> rfl
    rw [e] at hnot
    omega
  have : ((outlierWeight oc2 * max (nodes1 h w md2 b1 b2).length (nodes2 h w md2 b1 b2).length : Nat) : ℤ) ≤
      (outlierWeight oc2 : ℤ) * ((out.map (ofArc ((nodes1 h w md2 b1 b2).length + (nodes2 h w md2 b1 b2).length))).countP
        (fun e => !(decide (e.i < (nodes1 h w md2 b1 b2).length) && decide (e.j < (nodes2 h w md2 b1 b2).length))) : Nat) := by
    exact_mod_cast Nat.mul_le_mul_left _ hcnt
  linarith

/-- C58 (finding): the solver adds the costs of the assigned arcs in an `int` that nobody reads. If `P` is a set of edge pixels
of the first map that have an edge pixel of the second map within the tolerance and `100 * outlier_cost * max_dist * diagonal`
times its size reaches `2^31`, this total overflows, which is undefined behaviour in C++: the solver returns an assignment
(`C11_total`), and for every assignment it returns the running total leaves the range of `int`. -/
theorem C58_result_cost_overflows (i0 i1 : Img ℚ) (maxDist oc : ℚ) (xs : Nat → ℚ) (pos : Nat)
    (hx : ∀ i, 0 ≤ xs i ∧ xs i < 1) (hs : i0.rows = i1.rows ∧ i0.cols = i1.cols) (hd : 0 < maxDist) (ho : 1 < oc)
    (P : Finset (Nat × Nat))
    (hP : ∀ p ∈ P, p ∈ edgePixels i0 ∧ ∃ q ∈ edgePixels i1, euclid p.2 p.1 q.2 q.1 ≤ maxDist * diagonal i0.rows i0.cols)
    (hbig : 2 ^ 31 ≤ 100 * (oc * maxDist * diagonal i0.rows i0.cols) * P.card) :
    let b1 : BMap := fun y x => i0.at_ y x ≠ 0
    let b2 : BMap := fun y x => i1.at_ y x ≠ 0
    let md2 := maxDist2 i0.rows i0.cols maxDist
    let n1 := (nodes1 i0.rows i0.cols md2 b1 b2).length
    let n2 := (nodes2 i0.rows i0.cols md2 b1 b2).length
    let ow := ceilSqrt (oc ^ 2 * md2 * (multiplier * multiplier : Nat))
    let g := buildGraph n1 n2 ow (realEdges i0.rows i0.cols md2 b1 b2) xs pos
    (∃ F out, ∀ fuel, F ≤ fuel → csaSolve fuel (2 * (n1 + n2)) (g.map (toArc (n1 + n2))) = some out) ∧
    ∀ fuel out, csaSolve fuel (2 * (n1 + n2)) (g.map (toArc (n1 + n2))) = some out → ∃ z ∈ resultCosts out, ¬ FitsInt z := by
  intro b1 b2 md2 n1 n2 ow g
  have hPne : P.Nonempty := by
    rw [Finset.nonempty_iff_ne_empty]
    rintro rfl
    norm_num at hbig
  obtain ⟨p0, hp0⟩ := hPne
  have hne : 0 < i0.rows ∨ 0 < i0.cols := by
    have := (hP p0 hp0).1
    simp only [edgePixels, mem_filter, mem_product, mem_range] at this
    left; omega
  have hmd := maxDist2_pos (rows := i0.rows) (cols := i0.cols) hd hne
  have hoc : md2 < oc ^ 2 * md2 := lt_mul_of_one_lt_left hmd (one_lt_pow₀ ho two_ne_zero)
  -- every pixel of P is a node
  have hcard : P.card ≤ n1 := by
    have : P.image (fun p => (p.2, p.1)) ⊆ (nodes1 i0.rows i0.cols md2 b1 b2).toFinset := by
      intro q hq
      obtain ⟨p, hp, rfl⟩ := Finset.mem_image.mp hq
      obtain ⟨h1, q, h2, h3⟩ := hP p hp
      simp only [edgePixels, mem_filter, mem_product, mem_range] at h1 h2
      rw [← hs.1, ← hs.2] at h2
      rw [List.mem_toFinset, mem_nodes1]
      refine ⟨h1.1.2, h1.1.1, by simpa [b1] using h1.2, (q.2, q.1), h2.1.2, h2.1.1, by simpa [b2] using h2.2, ?_⟩
      have h4 : √(pixDist2 (p.2, p.1) (q.2, q.1) : ℝ) ≤ √((md2 : ℚ) : ℝ) := by
        rw [euclid_eq, sqrt_maxDist2 hd.le]; exact h3
      have h5 := (Real.sqrt_le_sqrt_iff (by exact_mod_cast hmd.le)).mp h4
      exact_mod_cast h5
    have h2 := Finset.card_le_card this
    rw [Finset.card_image_of_injective _ (fun a b hab => by
      simp only [Prod.mk.injEq] at hab; exact Prod.ext hab.2 hab.1),
      List.toFinset_card_of_nodup (nodup_nodes1 ..)] at h2
    exact h2
  have hpos : 0 < n1 + n2 := by
    have := Finset.card_pos.mpr ⟨p0, hp0⟩
    omega
  -- the outlier weight
  have how : 100 * (oc * maxDist * diagonal i0.rows i0.cols) ≤ (ow : ℝ) := by
    have h1 := (ceilSqrt_le_iff (oc ^ 2 * md2 * (multiplier * multiplier : Nat)) ow).mp (le_refl _)
    have h2 : ((oc ^ 2 * md2 * (multiplier * multiplier : Nat) : ℚ) : ℝ) ≤ ((ow * ow : Nat) : ℝ) := by exact_mod_cast h1
    have h3 := Real.sqrt_le_sqrt h2
    rw [Nat.cast_mul ow ow, Real.sqrt_mul_self (by positivity)] at h3
    refine le_trans (le_of_eq ?_) h3
    have e : ((oc ^ 2 * md2 * (multiplier * multiplier : Nat) : ℚ) : ℝ) = (oc * 100 : ℝ) ^ 2 * ((md2 : ℚ) : ℝ) := by
      simp only [multiplier]; push_cast; ring
    have ho0 : (0 : ℝ) ≤ oc := by exact_mod_cast (zero_lt_one.trans ho).le
    rw [e, Real.sqrt_mul (by positivity), Real.sqrt_sq (by positivity), sqrt_maxDist2 hd.le]
    ring
  refine ⟨?_, ?_⟩
  · obtain ⟨F, out, hF, _⟩ := matchGraph_solvable (h := i0.rows) (w := i0.cols) (b1 := b1) (b2 := b2) (pos := pos) hx hmd.le hoc hpos
    exact ⟨F, out, hF⟩
  · intro fuel out hout
    have hrange := graph_range (b1 := b1) (b2 := b2) (h := i0.rows) (w := i0.cols) (md2 := md2) (oc2 := oc ^ 2 * md2)
      (pos := pos) hx
    have hm := csaSolve_valid fuel _ _ out
      (wellFormed_graph fun e he => ⟨(hrange e he).1, (hrange e he).2.1⟩) hout
    have hl := total_lower hx hm
    refine ⟨totalCost out, totalCost_mem out, ?_⟩
    have h1 : ow * P.card ≤ ow * max n1 n2 := Nat.mul_le_mul_left _ (hcard.trans (le_max_left _ _))
    have h2 : (2 : ℝ) ^ 31 ≤ ((ow * P.card : Nat) : ℝ) := by
      push_cast
      refine hbig.trans ?_
      gcongr
    have h3 : 2 ^ 31 ≤ ow * P.card := by exact_mod_cast h2
    have h4 : 2 ^ 31 ≤ ow * max n1 n2 := h3.trans h1
    have h5 : ((ow * max n1 n2 : Nat) : ℤ) ≤ totalCost out := hl
    unfold FitsInt
    have h6 : ((2 ^ 31 : Nat) : ℤ) ≤ ((ow * max n1 n2 : Nat) : ℤ) := by exact_mod_cast h4
    have h7 := h6.trans h5
    push_cast at h7
    omega

/-! ## Witnesses -/

/-- C58_no_overflow applies to the small example of C57 … -/
example (xs : Nat → ℚ) (hx : ∀ i, 0 ≤ xs i ∧ xs i ≤ 1 - 1 / 2 ^ 48) :
    ∀ z ∈ pyxInts 1 4, FitsInt z := by
  have hd := diag14
  have e1 : rowA.rows = 1 := rfl
  have e2 : rowA.cols = 4 := rfl
  exact (C58_no_overflow nearestF64 sqrtF64 nearestF64_rounds sqrtF64_nearest 0 rowA rowB (1 / 4) 100 (fun _ _ => true) xs 0 hx rowArgs
    (by decide) (by decide) 2 (by rw [e1, e2]; push_cast; linarith) (by norm_num) (by rw [e1, e2]; push_cast; linarith)
    (by rw [edges_rowA, edges_rowB]; decide)).1

/-- … and its size condition holds for every pair of edge maps of 1024 by 2048 pixels with a tolerance of at most
8.1 pixels (`max_dist = 0.0035`). -/
example (E0 E1 : Nat) (h0 : E0 ≤ 1024 * 2048) (h1 : E1 ≤ 1024 * 2048) :
    3 * (E0 * ((2 * 9 + 3) * (2 * 9 + 3)) + 13 * (E0 + E1)) < 2 ^ 32 := by omega

/-- An image of 375 by 500 pixels with 18000 edge pixels, compared with itself with `max_dist = 0.02`, overflows. -/
def denseImg : Img ℚ := ⟨375, 500, fun y _ => if y < 36 then 1 else 0⟩

theorem stripe_edges {r c k : Nat} (hk : k ≤ r) :
    edgePixels ⟨r, c, fun y _ => if y < k then 1 else 0⟩ = range k ×ˢ range c := by
  ext p
  unfold edgePixels
  rw [mem_filter, mem_product, mem_product, mem_range, mem_range, mem_range]
  change ((p.1 < r ∧ p.2 < c) ∧ (if p.1 < k then (1 : ℚ) else 0) ≠ 0) ↔ _
  constructor
  · rintro ⟨⟨h1, h2⟩, h3⟩
    refine ⟨?_, h2⟩
    by_contra hc
    rw [if_neg hc] at h3
    exact h3 rfl
  · rintro ⟨h1, h2⟩
    rw [if_pos h1]
    exact ⟨⟨by omega, h2⟩, one_ne_zero⟩

theorem denseImg_edges : edgePixels denseImg = range 36 ×ˢ range 500 :=
  stripe_edges (r := 375) (c := 500) (k := 36) (by norm_num)

theorem diag625 : diagonal 375 500 = 625 := by
  unfold diagonal
  rw [show ((375 : Nat) : ℝ) ^ 2 + ((500 : Nat) : ℝ) ^ 2 = 625 ^ 2 by norm_num]
  exact Real.sqrt_sq (by norm_num)

example : (∀ p ∈ range 36 ×ˢ range 500, p ∈ edgePixels denseImg ∧ ∃ q ∈ edgePixels denseImg,
      euclid p.2 p.1 q.2 q.1 ≤ ((1 / 50 : ℚ) : ℝ) * diagonal denseImg.rows denseImg.cols) ∧
    2 ^ 31 ≤ 100 * (((100 : ℚ) : ℝ) * ((1 / 50 : ℚ) : ℝ) * diagonal denseImg.rows denseImg.cols) *
      ((range 36 ×ˢ range 500).card : ℝ) := by
  have e1 : denseImg.rows = 375 := rfl
  have e2 : denseImg.cols = 500 := rfl
  rw [e1, e2, diag625, denseImg_edges]
  constructor
  · intro p hp
    refine ⟨hp, p, hp, ?_⟩
    have : euclid p.2 p.1 p.2 p.1 = 0 := by unfold euclid; simp
    rw [this]; norm_num
  · rw [card_product, card_range, card_range]; norm_num

end EdgeEval.Props
