import Verif.Lemmas.MatchGraph

/-! # matchEdgeMaps: the run, its result, totality -/

namespace EdgeEval

/-- A solution edge between real nodes, as a pair of pixels. -/
def RealPair (ns1 ns2 : List Pix) (e : GEdge) (p q : Pix) : Prop :=
  e.i < ns1.length ∧ e.j < ns2.length ∧ ns1.getD e.i (0, 0) = p ∧ ns2.getD e.j (0, 0) = q

theorem recordMatch_m1 {ns1 ns2 : List Pix} (h1 : ns1.Nodup) (sol : List GEdge)
    (hn : (sol.map GEdge.i).Nodup) (s : Matches) (p q : Pix) :
    (sol.foldl (recordMatch ns1 ns2) s).m1 p = some q ↔
      (∃ e ∈ sol, RealPair ns1 ns2 e p q) ∨
        (s.m1 p = some q ∧ ∀ e ∈ sol, ∀ q', ¬ RealPair ns1 ns2 e p q') := by
  induction sol generalizing s with
  | nil => simp
  | cons e sol ih =>
    rw [List.map_cons, List.nodup_cons] at hn
    rw [List.foldl_cons, ih hn.2]
    simp only [List.mem_cons, exists_eq_or_imp, forall_eq_or_imp]
    by_cases hr : e.i < ns1.length ∧ e.j < ns2.length
    · have hstep : (recordMatch ns1 ns2 s e).m1 p =
          if p = ns1.getD e.i (0, 0) then some (ns2.getD e.j (0, 0)) else s.m1 p := by
        unfold recordMatch; rw [if_pos hr]
      rw [hstep]
      by_cases hp : p = ns1.getD e.i (0, 0)
      · rw [if_pos hp]
        have hno : ∀ e' ∈ sol, ∀ q', ¬ RealPair ns1 ns2 e' p q' := by
          rintro e' he' q' ⟨a, b, c, d⟩
          have : e'.i = e.i := getD_inj h1 a hr.1 (c.trans hp)
          exact hn.1 (List.mem_map.mpr ⟨e', he', this⟩)
        constructor
        · rintro (⟨e', he', h⟩ | ⟨h, _⟩)
          · exact (hno e' he' q h).elim
          · left; left
            exact ⟨hr.1, hr.2, hp.symm, by simpa using h⟩
        · rintro ((h | ⟨e', he', h⟩) | ⟨_, h, _⟩)
          · right; exact ⟨by rw [h.2.2.2], hno⟩
          · exact (hno e' he' q h).elim
          · exact (h _ ⟨hr.1, hr.2, hp.symm, rfl⟩).elim
      · rw [if_neg hp]
        have hno : ∀ q', ¬ RealPair ns1 ns2 e p q' := fun q' h => hp h.2.2.1.symm
        constructor
        · rintro (h | ⟨h, h'⟩)
          · exact .inl (.inr h)
          · exact .inr ⟨h, hno, h'⟩
        · rintro ((h | h) | ⟨h, _, h'⟩)
          · exact (hno q h).elim
          · exact .inl h
          · exact .inr ⟨h, h'⟩
    · have hstep : recordMatch ns1 ns2 s e = s := by unfold recordMatch; rw [if_neg hr]
      have hno : ∀ q', ¬ RealPair ns1 ns2 e p q' := fun q' h => hr ⟨h.1, h.2.1⟩
      rw [hstep]
      constructor
      · rintro (h | ⟨h, h'⟩)
        · exact .inl (.inr h)
        · exact .inr ⟨h, hno, h'⟩
      · rintro ((h | h) | ⟨h, _, h'⟩)
        · exact (hno q h).elim
        · exact .inl h
        · exact .inr ⟨h, h'⟩

theorem recordMatch_m2 {ns1 ns2 : List Pix} (h2 : ns2.Nodup) (sol : List GEdge)
    (hn : (sol.map GEdge.j).Nodup) (s : Matches) (p q : Pix) :
    (sol.foldl (recordMatch ns1 ns2) s).m2 q = some p ↔
      (∃ e ∈ sol, RealPair ns1 ns2 e p q) ∨
        (s.m2 q = some p ∧ ∀ e ∈ sol, ∀ p', ¬ RealPair ns1 ns2 e p' q) := by
  induction sol generalizing s with
  | nil => simp
  | cons e sol ih =>
    rw [List.map_cons, List.nodup_cons] at hn
    rw [List.foldl_cons, ih hn.2]
    simp only [List.mem_cons, exists_eq_or_imp, forall_eq_or_imp]
    by_cases hr : e.i < ns1.length ∧ e.j < ns2.length
    · have hstep : (recordMatch ns1 ns2 s e).m2 q =
          if q = ns2.getD e.j (0, 0) then some (ns1.getD e.i (0, 0)) else s.m2 q := by
        unfold recordMatch; rw [if_pos hr]
      rw [hstep]
      by_cases hp : q = ns2.getD e.j (0, 0)
      · rw [if_pos hp]
        have hno : ∀ e' ∈ sol, ∀ p', ¬ RealPair ns1 ns2 e' p' q := by
          rintro e' he' q' ⟨a, b, c, d⟩
          have : e'.j = e.j := getD_inj h2 b hr.2 (d.trans hp)
          exact hn.1 (List.mem_map.mpr ⟨e', he', this⟩)
        constructor
        · rintro (⟨e', he', h⟩ | ⟨h, _⟩)
          · exact (hno e' he' p h).elim
          · left; left
            exact ⟨hr.1, hr.2, by simpa using h, hp.symm⟩
        · rintro ((h | ⟨e', he', h⟩) | ⟨_, h, _⟩)
          · right; exact ⟨by rw [h.2.2.1], hno⟩
          · exact (hno e' he' p h).elim
          · exact (h _ ⟨hr.1, hr.2, rfl, hp.symm⟩).elim
      · rw [if_neg hp]
        have hno : ∀ q', ¬ RealPair ns1 ns2 e q' q := fun q' h => hp h.2.2.2.symm
        constructor
        · rintro (h | ⟨h, h'⟩)
          · exact .inl (.inr h)
          · exact .inr ⟨h, hno, h'⟩
        · rintro ((h | h) | ⟨h, _, h'⟩)
          · exact (hno p h).elim
          · exact .inl h
          · exact .inr ⟨h, h'⟩
    · have hstep : recordMatch ns1 ns2 s e = s := by unfold recordMatch; rw [if_neg hr]
      have hno : ∀ q', ¬ RealPair ns1 ns2 e q' q := fun q' h => hr ⟨h.1, h.2.1⟩
      rw [hstep]
      constructor
      · rintro (h | ⟨h, h'⟩)
        · exact .inl (.inr h)
        · exact .inr ⟨h, hno, h'⟩
      · rintro ((h | h) | ⟨h, _, h'⟩)
        · exact (hno p h).elim
        · exact .inl h
        · exact .inr ⟨h, h'⟩

theorem ofArc_toArc (n : Nat) (e : GEdge) : ofArc n (toArc n e) = e := by
  cases e; simp [ofArc, toArc]

/-- What a perfect matching of the offset graph looks like in 0-based ids. -/
theorem sol_of_matching {n : Nat} {g : List GEdge} {out : List InArc}
    (hm : IsPerfectMatching n (g.map (toArc n)) out) :
    (∀ e ∈ out.map (ofArc n), e ∈ g) ∧ ((out.map (ofArc n)).map GEdge.i).Perm (List.range n) ∧
      ((out.map (ofArc n)).map GEdge.j).Perm (List.range n) ∧
      ((out.map (ofArc n)).map GEdge.c).sum = totalCost out ∧ (out.map (ofArc n)).map (toArc n) = out := by
  refine ⟨?_, ?_, ?_, ?_, ?_⟩
  · intro e he
    obtain ⟨a, ha, rfl⟩ := List.mem_map.mp he
    obtain ⟨e', he', rfl⟩ := List.mem_map.mp (hm.1 a ha)
    rw [ofArc_toArc]; exact he'
  · have := hm.2.1.map (fun x => x - 1)
    rw [List.map_map] at this ⊢
    refine this.trans (List.Perm.of_eq ?_)
    rw [List.range'_eq_map_range, List.map_map]
    conv_rhs => rw [← List.map_id (List.range n)]
    apply List.map_congr_left; intro a _; simp
  · have := hm.2.2.map (fun x => x - 1 - n)
    rw [List.map_map] at this ⊢
    refine this.trans (List.Perm.of_eq ?_)
    rw [List.range'_eq_map_range, List.map_map]
    conv_rhs => rw [← List.map_id (List.range n)]
    apply List.map_congr_left; intro a _; simp
  · rw [List.map_map]; rfl
  · rw [List.map_map]
    conv_rhs => rw [← List.map_id out]
    apply List.map_congr_left
    intro a ha
    obtain ⟨e', he', rfl⟩ := List.mem_map.mp (hm.1 a ha)
    simp [ofArc_toArc]

/-- The integer cost of an outlier connection. -/
def outlierWeight (oc2 : ℚ) : Nat := ceilSqrt (oc2 * (multiplier * multiplier : Nat))

/-- The 0-based graph built for the two maps. -/
def matchGraph (h w : Nat) (b1 b2 : BMap) (md2 oc2 : ℚ) (xs : Nat → ℚ) (pos : Nat) : List GEdge :=
  buildGraph (nodes1 h w md2 b1 b2).length (nodes2 h w md2 b1 b2).length (outlierWeight oc2)
    (realEdges h w md2 b1 b2) xs pos

section
variable {h w : Nat} {b1 b2 : BMap} {md2 oc2 : ℚ} {xs : Nat → ℚ} {pos : Nat}

theorem realEdges_range : ∀ e ∈ realEdges h w md2 b1 b2,
    e.i < (nodes1 h w md2 b1 b2).length ∧ e.j < (nodes2 h w md2 b1 b2).length := fun e he =>
  ⟨(mem_realEdges.mp he).1, (mem_realEdges.mp he).2.1⟩

theorem announcedM_eq_zero {n1 n2 k : Nat} (hk : 0 < k → 0 < n1) : announcedM n1 n2 k = 0 ↔ n1 + n2 = 0 := by
  unfold announcedM deg1 deg3
  constructor
  · intro h; omega
  · intro h
    have h1 : n1 = 0 := by omega
    have h2 : n2 = 0 := by omega
    subst h1 h2
    have : k = 0 := by omega
    subst this
    rfl

theorem announced_zero_iff : announcedM (nodes1 h w md2 b1 b2).length (nodes2 h w md2 b1 b2).length
      (realEdges h w md2 b1 b2).length = 0 ↔
    (nodes1 h w md2 b1 b2).length + (nodes2 h w md2 b1 b2).length = 0 := by
  apply announcedM_eq_zero
  intro hk
  obtain ⟨e, he⟩ := List.exists_mem_of_length_pos hk
  have := realEdges_range e he
  omega

/-- All the assertions before the solver hold. -/
theorem asserts_pre (hmd : 0 ≤ md2) (hoc : md2 < oc2) :
    (realEdges h w md2 b1 b2).all (fun e => e.i < (nodes1 h w md2 b1 b2).length &&
      e.j < (nodes2 h w md2 b1 b2).length && decide ((e.d2 : ℚ) < oc2)) = true := by
  rw [List.all_eq_true]
  intro e he
  have := mem_realEdges.mp he
  simp only [Bool.and_eq_true, decide_eq_true_eq]
  exact ⟨⟨this.1, this.2.1⟩, this.2.2.2.trans_lt hoc⟩

theorem graph_kind (hx : Props.UnitStream xs) {e : GEdge} (he : e ∈ matchGraph h w b1 b2 md2 oc2 xs pos) :
    EdgeKind (nodes1 h w md2 b1 b2).length (nodes2 h w md2 b1 b2).length (outlierWeight oc2)
      (realEdges h w md2 b1 b2) e := buildGraph_kind hx he

theorem graph_range (hx : Props.UnitStream xs) : ∀ e ∈ matchGraph h w b1 b2 md2 oc2 xs pos,
    e.i < (nodes1 h w md2 b1 b2).length + (nodes2 h w md2 b1 b2).length ∧
    e.j < (nodes1 h w md2 b1 b2).length + (nodes2 h w md2 b1 b2).length ∧ 0 ≤ e.c := fun e he =>
  (graph_kind hx he).range realEdges_range

theorem solutionOk_of_mem (hx : Props.UnitStream xs) {e : GEdge}
    (he : e ∈ matchGraph h w b1 b2 md2 oc2 xs pos) :
    solutionOk ((nodes1 h w md2 b1 b2).length + (nodes2 h w md2 b1 b2).length)
      (nodes1 h w md2 b1 b2) (nodes2 h w md2 b1 b2) e = true := by
  have hr := graph_range hx e he
  unfold solutionOk
  simp only [Bool.and_eq_true, decide_eq_true_eq, Bool.or_eq_true, beq_iff_eq]
  refine ⟨⟨⟨hr.1, hr.2.1⟩, hr.2.2⟩, ?_⟩
  by_cases h1 : (nodes1 h w md2 b1 b2).length ≤ e.i
  · exact .inl (.inl h1)
  · by_cases h2 : (nodes2 h w md2 b1 b2).length ≤ e.j
    · exact .inl (.inr h2)
    · right
      obtain ⟨me, hme, rfl⟩ := (graph_kind hx he).real_of_lt (by omega) (by omega)
      have := (mem_realEdges.mp hme).2.2.1
      simp only
      rw [← this]

/-- A solver whose results are perfect matchings. -/
def Valid (solve : Nat → List InArc → Option (List InArc)) : Prop :=
  ∀ n g out, WellFormedGraph n g → solve (2 * n) g = some out → IsPerfectMatching n g out

theorem csaSolve_valid (fuel : Nat) : Valid (csaSolve fuel) := fun n g out hg h =>
  (Props.C16_result_is_optimal n fuel g out hg h).1

/-- The run of `matchEdgeMaps`: under its precondition no assertion fires, and its result is read off
the solver's result. -/
theorem matchWith_eq {solve : Nat → List InArc → Option (List InArc)} (hv : Valid solve) (hx : Props.UnitStream xs)
    (hmd : 0 ≤ md2) (hoc : md2 < oc2) :
    let ns1 := nodes1 h w md2 b1 b2
    let ns2 := nodes2 h w md2 b1 b2
    let n := ns1.length + ns2.length
    matchWith solve h w b1 b2 md2 oc2 xs pos =
      if n = 0 then some ⟨fun _ _ => 0, fun _ _ => 0, ⟨fun _ => none, fun _ => none⟩⟩
      else (solve (2 * n) ((matchGraph h w b1 b2 md2 oc2 xs pos).map (toArc n))).map fun out =>
        let mt := (out.map (ofArc n)).foldl (recordMatch ns1 ns2) ⟨fun _ => none, fun _ => none⟩
        ⟨encodeMatch h b1 mt.m1, encodeMatch h b2 mt.m2, mt⟩ := by
  intro ns1 ns2 n
  unfold matchWith
  rw [if_neg (by simp [hmd, hoc])]
  simp only
  rw [if_neg (by rw [asserts_pre hmd hoc]; simp)]
  by_cases hz : n = 0
  · rw [if_pos hz, if_pos (announced_zero_iff.mpr hz)]
  · rw [if_neg hz, if_neg (fun h => hz (announced_zero_iff.mp h))]
    have hg : buildGraph (nodes1 h w md2 b1 b2).length (nodes2 h w md2 b1 b2).length
        (ceilSqrt (oc2 * (multiplier * multiplier : Nat))) (realEdges h w md2 b1 b2) xs pos =
        matchGraph h w b1 b2 md2 oc2 xs pos := rfl
    rw [hg]
    have hrange := graph_range (b1 := b1) (b2 := b2) (h := h) (w := w) (md2 := md2) (oc2 := oc2) (pos := pos) hx
    rw [if_neg (by
      rw [not_not]
      refine ⟨buildGraph_length _ _ _ _ xs pos hx, ?_⟩
      rw [List.all_eq_true]
      intro e he
      simp only [Bool.and_eq_true, decide_eq_true_eq]
      exact ⟨(hrange e he).1, (hrange e he).2.1⟩)]
    have hwf : WellFormedGraph n ((matchGraph h w b1 b2 md2 oc2 xs pos).map (toArc n)) :=
      wellFormed_graph fun e he => ⟨(hrange e he).1, (hrange e he).2.1⟩
    change (match solve (2 * n) ((matchGraph h w b1 b2 md2 oc2 xs pos).map (toArc n)) with
      | none => none | some out => _) = _
    rcases hs : solve (2 * n) ((matchGraph h w b1 b2 md2 oc2 xs pos).map (toArc n)) with _ | out
    · rfl
    · have hm := hv n _ out hwf hs
      have hsol := sol_of_matching hm
      simp only [Option.map_some]
      rw [if_neg]
      rw [not_not]
      refine ⟨?_, ?_⟩
      · have := hsol.2.1.length_eq
        simpa using this
      · rw [List.all_eq_true]
        intro e he
        exact solutionOk_of_mem hx (hsol.1 e he)

theorem matchEdgeMaps_eq (hx : Props.UnitStream xs) (hmd : 0 ≤ md2) (hoc : md2 < oc2) (fuel : Nat) :
    let ns1 := nodes1 h w md2 b1 b2
    let ns2 := nodes2 h w md2 b1 b2
    let n := ns1.length + ns2.length
    matchEdgeMaps fuel h w b1 b2 md2 oc2 xs pos =
      if n = 0 then some ⟨fun _ _ => 0, fun _ _ => 0, ⟨fun _ => none, fun _ => none⟩⟩
      else (csaSolve fuel (2 * n) ((matchGraph h w b1 b2 md2 oc2 xs pos).map (toArc n))).map fun out =>
        let mt := (out.map (ofArc n)).foldl (recordMatch ns1 ns2) ⟨fun _ => none, fun _ => none⟩
        ⟨encodeMatch h b1 mt.m1, encodeMatch h b2 mt.m2, mt⟩ :=
  matchWith_eq (csaSolve_valid fuel) hx hmd hoc

theorem outlierWeight_pos (hmd : 0 ≤ md2) (hoc : md2 < oc2) : 0 < outlierWeight oc2 := by
  by_contra hc
  have : outlierWeight oc2 ≤ 0 := by omega
  unfold outlierWeight at this
  rw [ceilSqrt_le_iff] at this
  simp only [multiplier] at this
  norm_num at this
  linarith

/-- The solver gets a graph it can solve. -/
theorem matchGraph_solvable (hx : Props.UnitStream xs) (hmd : 0 ≤ md2) (hoc : md2 < oc2)
    (hn : 0 < (nodes1 h w md2 b1 b2).length + (nodes2 h w md2 b1 b2).length) :
    let n := (nodes1 h w md2 b1 b2).length + (nodes2 h w md2 b1 b2).length
    ∃ F out, (∀ fuel, F ≤ fuel → csaSolve fuel (2 * n)
        ((matchGraph h w b1 b2 md2 oc2 xs pos).map (toArc n)) = some out) ∧
      IsPerfectMatching n ((matchGraph h w b1 b2 md2 oc2 xs pos).map (toArc n)) out ∧
      ∀ M', IsPerfectMatching n ((matchGraph h w b1 b2 md2 oc2 xs pos).map (toArc n)) M' →
        totalCost out ≤ totalCost M' := by
  intro n
  have hrange := graph_range (b1 := b1) (b2 := b2) (h := h) (w := w) (md2 := md2) (oc2 := oc2) (pos := pos) hx
  have hwf : WellFormedGraph n ((matchGraph h w b1 b2 md2 oc2 xs pos).map (toArc n)) :=
    wellFormed_graph fun e he => ⟨(hrange e he).1, (hrange e he).2.1⟩
  refine Props.C16_terminates n _ _ hwf hn
    (overlay_perfect _ _ (outlierWeight oc2) _ (overlay_sub _ _ _ _ xs pos)) ?_
  have hpos := outlierWeight_pos hmd hoc
  have hsub := overlay_sub (nodes1 h w md2 b1 b2).length (nodes2 h w md2 b1 b2).length (outlierWeight oc2)
    (realEdges h w md2 b1 b2) xs pos
  by_cases h1 : 0 < (nodes1 h w md2 b1 b2).length
  · refine ⟨toArc n ⟨0, (nodes2 h w md2 b1 b2).length + 0, (outlierWeight oc2 * multiplier : Nat)⟩,
      List.mem_map_of_mem (hsub _ ?_), ?_⟩
    · unfold overlay
      rw [List.mem_append]; left
      exact List.mem_map.mpr ⟨0, List.mem_range.mpr h1, rfl⟩
    · simp only [toArc, multiplier]; omega
  · refine ⟨toArc n ⟨(nodes1 h w md2 b1 b2).length + 0, 0, (outlierWeight oc2 * multiplier : Nat)⟩,
      List.mem_map_of_mem (hsub _ ?_), ?_⟩
    · unfold overlay
      rw [List.mem_append]; right
      exact List.mem_map.mpr ⟨0, List.mem_range.mpr (by omega), rfl⟩
    · simp only [toArc, multiplier]; omega

theorem matchEdgeMaps_total (hx : Props.UnitStream xs) (hmd : 0 ≤ md2) (hoc : md2 < oc2) :
    ∃ F r, ∀ fuel, F ≤ fuel → matchEdgeMaps fuel h w b1 b2 md2 oc2 xs pos = some r := by
  by_cases hn : (nodes1 h w md2 b1 b2).length + (nodes2 h w md2 b1 b2).length = 0
  · refine ⟨0, ⟨fun _ _ => 0, fun _ _ => 0, ⟨fun _ => none, fun _ => none⟩⟩, fun fuel _ => ?_⟩
    have := matchEdgeMaps_eq (h := h) (w := w) (b1 := b1) (b2 := b2) (pos := pos) hx hmd hoc fuel
    simp only [if_pos hn] at this
    exact this
  · obtain ⟨F, out, hF, _⟩ := matchGraph_solvable (h := h) (w := w) (b1 := b1) (b2 := b2) (pos := pos) hx hmd hoc
      (by omega)
    refine ⟨F, (some out).elim ⟨fun _ _ => 0, fun _ _ => 0, ⟨fun _ => none, fun _ => none⟩⟩ fun out =>
      let mt := (out.map (ofArc ((nodes1 h w md2 b1 b2).length + (nodes2 h w md2 b1 b2).length))).foldl
        (recordMatch (nodes1 h w md2 b1 b2) (nodes2 h w md2 b1 b2)) ⟨fun _ => none, fun _ => none⟩
      ⟨encodeMatch h b1 mt.m1, encodeMatch h b2 mt.m2, mt⟩, fun fuel hf => ?_⟩
    have := matchEdgeMaps_eq (h := h) (w := w) (b1 := b1) (b2 := b2) (pos := pos) hx hmd hoc fuel
    simp only [if_neg hn, hF fuel hf, Option.map_some] at this
    exact this

/-- The recorded matches form a partial one-to-one relation on edge pixels within the distance. -/
structure GoodMatch (h w : Nat) (b1 b2 : BMap) (md2 : ℚ) (mt : Matches) : Prop where
  sym : ∀ p q, mt.m1 p = some q ↔ mt.m2 q = some p
  ok : ∀ p q, mt.m1 p = some q → (p.1 < w ∧ p.2 < h ∧ b1 p.2 p.1 = true) ∧
    (q.1 < w ∧ q.2 < h ∧ b2 q.2 q.1 = true) ∧ (pixDist2 p q : ℚ) ≤ md2

theorem matchWith_good {solve : Nat → List InArc → Option (List InArc)} (hv : Valid solve) (hx : Props.UnitStream xs)
    (hmd : 0 ≤ md2) (hoc : md2 < oc2)
    {r : MatchOut} (hr : matchWith solve h w b1 b2 md2 oc2 xs pos = some r) :
    GoodMatch h w b1 b2 md2 r.mt ∧ r.m1 = encodeMatch h b1 r.mt.m1 ∧ r.m2 = encodeMatch h b2 r.mt.m2 := by
  have heq := matchWith_eq (h := h) (w := w) (b1 := b1) (b2 := b2) (pos := pos) hv hx hmd hoc
  rw [hr] at heq
  simp only at heq
  split at heq
  · cases heq
    refine ⟨⟨by simp, by simp⟩, ?_, ?_⟩ <;> (funext y x; simp [encodeMatch])
  · obtain ⟨out, hout, heq⟩ := Option.map_eq_some_iff.mp heq.symm
    subst heq
    refine ⟨?_, rfl, rfl⟩
    simp only
    have hrange := graph_range (b1 := b1) (b2 := b2) (h := h) (w := w) (md2 := md2) (oc2 := oc2) (pos := pos) hx
    have hm := hv _ _ out
      (wellFormed_graph fun e he => ⟨(hrange e he).1, (hrange e he).2.1⟩) hout
    obtain ⟨s1, s2, s3, _⟩ := sol_of_matching hm
    have nd1 := s2.nodup_iff.mpr List.nodup_range
    have nd2 := s3.nodup_iff.mpr List.nodup_range
    have e1 := recordMatch_m1 (nodup_nodes1 h w md2 b1 b2) (ns2 := nodes2 h w md2 b1 b2) _ nd1 ⟨fun _ => none, fun _ => none⟩
    have e2 := recordMatch_m2 (nodup_nodes2 h w md2 b1 b2) (ns1 := nodes1 h w md2 b1 b2) _ nd2 ⟨fun _ => none, fun _ => none⟩
    simp only [reduceCtorEq, false_and, or_false] at e1 e2
    refine ⟨fun p q => by rw [e1, e2], ?_⟩
    intro p q hpq
    rw [e1] at hpq
    obtain ⟨e, he, a, b, rfl, rfl⟩ := hpq
    obtain ⟨me, hme, rfl⟩ := (graph_kind hx (s1 e he)).real_of_lt a b
    have m1 := mem_nodes1.mp (getD_mem a)
    have m2 := mem_nodes2.mp (getD_mem b)
    have m3 := mem_realEdges.mp hme
    refine ⟨⟨m1.1, m1.2.1, m1.2.2.1⟩, ⟨m2.1, m2.2.1, m2.2.2.1⟩, ?_⟩
    rw [← m3.2.2.1]
    exact m3.2.2.2

theorem matchEdgeMaps_good (hx : Props.UnitStream xs) (hmd : 0 ≤ md2) (hoc : md2 < oc2) {fuel : Nat}
    {r : MatchOut} (hr : matchEdgeMaps fuel h w b1 b2 md2 oc2 xs pos = some r) :
    GoodMatch h w b1 b2 md2 r.mt ∧ r.m1 = encodeMatch h b1 r.mt.m1 ∧ r.m2 = encodeMatch h b2 r.mt.m2 :=
  matchWith_good (csaSolve_valid fuel) hx hmd hoc hr

end

end EdgeEval
