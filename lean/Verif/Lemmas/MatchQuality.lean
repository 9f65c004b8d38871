import Verif.Lemmas.MatchCost

/-! # Structure of optimal solutions of the matching graph -/

namespace EdgeEval

/-- A perfect matching in 0-based ids. -/
structure Perfect0 (n : Nat) (g sol : List GEdge) : Prop where
  sub : ∀ e ∈ sol, e ∈ g
  left : (sol.map GEdge.i).Perm (List.range n)
  right : (sol.map GEdge.j).Perm (List.range n)

theorem Perfect0.toArcs {n : Nat} {g sol : List GEdge} (h : Perfect0 n g sol) :
    IsPerfectMatching n (g.map (toArc n)) (sol.map (toArc n)) := by
  refine ⟨?_, ?_, ?_⟩
  · intro a ha
    obtain ⟨e, he, rfl⟩ := List.mem_map.mp ha
    exact List.mem_map_of_mem (h.sub e he)
  · have := h.left.map (fun x => x + 1)
    rw [List.map_map] at this ⊢
    refine this.trans (List.Perm.of_eq ?_)
    rw [List.range'_eq_map_range]
    apply List.map_congr_left; intro a _; omega
  · have := h.right.map (fun x => x + 1 + n)
    rw [List.map_map] at this ⊢
    refine this.trans (List.Perm.of_eq ?_)
    rw [List.range'_eq_map_range]
    apply List.map_congr_left; intro a _; omega

theorem totalCost_toArc (n : Nat) (sol : List GEdge) :
    totalCost (sol.map (toArc n)) = (sol.map GEdge.c).sum := by
  unfold totalCost; rw [List.map_map]; rfl

section
variable {h w : Nat} {b1 b2 : BMap} {md2 oc2 : ℚ} {xs : Nat → ℚ} {pos : Nat}

/-- The solution behind a result of the matcher. -/
theorem run_sol_with {solve : Nat → List InArc → Option (List InArc)} (hv : Valid solve) (hx : Props.UnitStream xs)
    (hmd : 0 ≤ md2) (hoc : md2 < oc2) {r : MatchOut} (δ : Nat)
    (hopt : ∀ out M, solve (2 * ((nodes1 h w md2 b1 b2).length + (nodes2 h w md2 b1 b2).length))
        ((matchGraph h w b1 b2 md2 oc2 xs pos).map
          (toArc ((nodes1 h w md2 b1 b2).length + (nodes2 h w md2 b1 b2).length))) = some out →
      IsPerfectMatching ((nodes1 h w md2 b1 b2).length + (nodes2 h w md2 b1 b2).length)
        ((matchGraph h w b1 b2 md2 oc2 xs pos).map
          (toArc ((nodes1 h w md2 b1 b2).length + (nodes2 h w md2 b1 b2).length))) M → totalCost out ≤ totalCost M + δ)
    (hr : matchWith solve h w b1 b2 md2 oc2 xs pos = some r)
    (hn : (nodes1 h w md2 b1 b2).length + (nodes2 h w md2 b1 b2).length ≠ 0) :
    ∃ sol, Perfect0 ((nodes1 h w md2 b1 b2).length + (nodes2 h w md2 b1 b2).length)
        (matchGraph h w b1 b2 md2 oc2 xs pos) sol ∧
      (∀ M, Perfect0 ((nodes1 h w md2 b1 b2).length + (nodes2 h w md2 b1 b2).length)
        (matchGraph h w b1 b2 md2 oc2 xs pos) M → (sol.map GEdge.c).sum ≤ (M.map GEdge.c).sum + δ) ∧
      (∀ p q, r.mt.m1 p = some q ↔ ∃ e ∈ sol, RealPair (nodes1 h w md2 b1 b2) (nodes2 h w md2 b1 b2) e p q) ∧
      (∀ p q, r.mt.m2 q = some p ↔ ∃ e ∈ sol, RealPair (nodes1 h w md2 b1 b2) (nodes2 h w md2 b1 b2) e p q) := by
  have heq := matchWith_eq (h := h) (w := w) (b1 := b1) (b2 := b2) (pos := pos) hv hx hmd hoc
  rw [hr] at heq
  simp only [if_neg hn] at heq
  obtain ⟨out, hout, heq⟩ := Option.map_eq_some_iff.mp heq.symm
  subst heq
  have hrange := graph_range (b1 := b1) (b2 := b2) (h := h) (w := w) (md2 := md2) (oc2 := oc2) (pos := pos) hx
  have hm := hv _ _ out
    (wellFormed_graph fun e he => ⟨(hrange e he).1, (hrange e he).2.1⟩) hout
  obtain ⟨s1, s2, s3, s4, _⟩ := sol_of_matching hm
  have nd1 := s2.nodup_iff.mpr List.nodup_range
  have nd2 := s3.nodup_iff.mpr List.nodup_range
  have e1 := recordMatch_m1 (nodup_nodes1 h w md2 b1 b2) (ns2 := nodes2 h w md2 b1 b2) _ nd1 ⟨fun _ => none, fun _ => none⟩
  have e2 := recordMatch_m2 (nodup_nodes2 h w md2 b1 b2) (ns1 := nodes1 h w md2 b1 b2) _ nd2 ⟨fun _ => none, fun _ => none⟩
  simp only [reduceCtorEq, false_and, or_false] at e1 e2
  refine ⟨_, ⟨s1, s2, s3⟩, ?_, e1, e2⟩
  intro M hM
  rw [s4, ← totalCost_toArc ((nodes1 h w md2 b1 b2).length + (nodes2 h w md2 b1 b2).length)]
  exact hopt _ _ hout hM.toArcs

/-- The solution behind a result of `matchEdgeMaps`. -/
theorem run_sol (hx : Props.UnitStream xs) (hmd : 0 ≤ md2) (hoc : md2 < oc2) {fuel : Nat} {r : MatchOut}
    (hr : matchEdgeMaps fuel h w b1 b2 md2 oc2 xs pos = some r)
    (hn : (nodes1 h w md2 b1 b2).length + (nodes2 h w md2 b1 b2).length ≠ 0) :
    ∃ sol, Perfect0 ((nodes1 h w md2 b1 b2).length + (nodes2 h w md2 b1 b2).length)
        (matchGraph h w b1 b2 md2 oc2 xs pos) sol ∧
      (∀ M, Perfect0 ((nodes1 h w md2 b1 b2).length + (nodes2 h w md2 b1 b2).length)
        (matchGraph h w b1 b2 md2 oc2 xs pos) M → (sol.map GEdge.c).sum ≤ (M.map GEdge.c).sum) ∧
      (∀ p q, r.mt.m1 p = some q ↔ ∃ e ∈ sol, RealPair (nodes1 h w md2 b1 b2) (nodes2 h w md2 b1 b2) e p q) ∧
      (∀ p q, r.mt.m2 q = some p ↔ ∃ e ∈ sol, RealPair (nodes1 h w md2 b1 b2) (nodes2 h w md2 b1 b2) e p q) := by
  have hrange := graph_range (b1 := b1) (b2 := b2) (h := h) (w := w) (md2 := md2) (oc2 := oc2) (pos := pos) hx
  have := run_sol_with (csaSolve_valid fuel) hx hmd hoc 0 (fun out M hout hM => by
    have := (Props.C16_result_is_optimal _ fuel _ out
      (wellFormed_graph fun e he => ⟨(hrange e he).1, (hrange e he).2.1⟩) hout).2 M hM
    simpa using this) hr hn
  simpa only [Nat.cast_zero, add_zero] using this

end

/-! ## Counting -/

theorem countP_split {α : Type} (l : List α) (A B : α → Bool) :
    l.countP A = l.countP (fun x => A x && B x) + l.countP (fun x => A x && !B x) := by
  induction l with
  | nil => rfl
  | cons a l ih =>
    simp only [List.countP_cons, ih]
    cases A a <;> cases B a <;> simp <;> omega

theorem countP_range_lt {n m : Nat} (hm : m ≤ n) : (List.range n).countP (fun x => decide (x < m)) = m := by
  obtain ⟨k, rfl⟩ := Nat.exists_eq_add_of_le hm
  rw [List.range_add, List.countP_append]
  have h1 : (List.range m).countP (fun x => decide (x < m)) = m := by
    rw [List.countP_eq_length.mpr]
    · simp
    · intro a ha; simpa using ha
  have h2 : ((List.range k).map (m + ·)).countP (fun x => decide (x < m)) = 0 := by
    rw [List.countP_eq_zero]
    intro a ha
    obtain ⟨b, _, rfl⟩ := List.mem_map.mp ha
    simp
  omega

/-- In a perfect matching there are as many outlier-outlier edges as real edges. -/
theorem Perfect0.count_oo {n1 n2 : Nat} {g sol : List GEdge} (h : Perfect0 (n1 + n2) g sol) :
    let R := fun e : GEdge => decide (e.i < n1)
    let C := fun e : GEdge => decide (e.j < n2)
    sol.countP (fun e => !R e && !C e) = sol.countP (fun e => R e && C e) ∧
    sol.countP (fun e => R e && C e) + sol.countP (fun e => R e && !C e) = n1 ∧
    sol.countP (fun e => R e && C e) + sol.countP (fun e => !R e && C e) = n2 := by
  intro R C
  have hi : sol.countP R = n1 := by
    have : sol.countP R = (sol.map GEdge.i).countP (fun x => decide (x < n1)) := by
      rw [List.countP_map]; rfl
    rw [this, h.left.countP_eq, countP_range_lt (by omega)]
  have hj : sol.countP C = n2 := by
    have : sol.countP C = (sol.map GEdge.j).countP (fun x => decide (x < n2)) := by
      rw [List.countP_map]; rfl
    rw [this, h.right.countP_eq, countP_range_lt (by omega)]
  have hl : sol.length = n1 + n2 := by
    have := h.left.length_eq
    simpa using this
  have a1 := countP_split sol R C
  have a2 := countP_split sol C R
  have a3 := countP_split sol (fun _ => true) R
  have a4 := countP_split sol (fun e => !R e) C
  have e0 : sol.countP (fun _ => true) = sol.length := by simp
  simp only [Bool.true_and] at a3
  have e1 : sol.countP (fun e => C e && R e) = sol.countP (fun e => R e && C e) := by
    congr 1; funext e; exact Bool.and_comm _ _
  have e2 : sol.countP (fun e => C e && !R e) = sol.countP (fun e => !R e && C e) := by
    congr 1; funext e; exact Bool.and_comm _ _
  have hi' : sol.countP (fun x => R x) = n1 := hi
  have a1' : sol.countP (fun x => R x) = _ := a1
  have a2' : sol.countP (fun x => C x) = _ := a2
  have hj' : sol.countP (fun x => C x) = n2 := hj
  omega

theorem EdgeKind.ow_le {n1 n2 ow : Nat} {edges : List MEdge} {e : GEdge} (hke : EdgeKind n1 n2 ow edges e)
    (hr : ∀ e ∈ edges, e.i < n1 ∧ e.j < n2) (hreal : ¬ (e.i < n1 ∧ e.j < n2)) : (ow : Int) ≤ e.c := by
  have hmul : (ow : Int) ≤ ((ow * multiplier : Nat) : Int) := by
    simp only [multiplier]; omega
  cases hke with
  | real me h he => subst he; exact (hreal (hr me h)).elim
  | out1 i j hi hj hne he => subst he; exact le_refl _
  | out2 i j hi hj hne he => subst he; exact le_refl _
  | oo i j hi hj he => subst he; exact le_refl _
  | ov1 i hi he => subst he; exact hmul
  | ov2 i hi he => subst he; exact hmul

/-- Lower bound for the cost of a perfect matching by the number of non-real edges. -/
theorem cost_lower {n1 n2 ow : Nat} {edges : List MEdge} (sol : List GEdge)
    (hk : ∀ e ∈ sol, EdgeKind n1 n2 ow edges e) (hr : ∀ e ∈ edges, e.i < n1 ∧ e.j < n2) :
    (ow : Int) * (sol.countP (fun e => !(decide (e.i < n1) && decide (e.j < n2))) : Nat) +
      ((sol.filter (fun e => decide (e.i < n1) && decide (e.j < n2))).map GEdge.c).sum ≤ (sol.map GEdge.c).sum := by
  induction sol with
  | nil => simp
  | cons e sol ih =>
    have ih := ih (fun e he => hk e (List.mem_cons_of_mem _ he))
    have hke := hk e List.mem_cons_self
    by_cases hreal : e.i < n1 ∧ e.j < n2
    · have : (decide (e.i < n1) && decide (e.j < n2)) = true := by simp [hreal]
      rw [List.countP_cons, List.filter_cons, if_pos this, this]
      simp only [Bool.not_true, Bool.false_eq_true, if_false, Nat.add_zero, List.map_cons, List.sum_cons]
      linarith
    · have hf : (decide (e.i < n1) && decide (e.j < n2)) = false := by
        simp only [Bool.and_eq_false_iff, decide_eq_false_iff_not]; tauto
      have hc : (ow : Int) ≤ e.c := hke.ow_le hr hreal
      simp only [List.countP_cons, List.filter_cons, hf, Bool.not_false, if_true, List.map_cons, List.sum_cons,
        Bool.false_eq_true, if_false]
      push_cast
      linarith

theorem rint100_eq_zero {d : Nat} (h : rint100 d < 100) : d = 0 := by
  by_contra hd
  unfold rint100 at h
  have h1 : 100 ≤ Nat.sqrt (10000 * d) := by
    rw [Nat.le_sqrt]; omega
  simp only at h
  split at h <;> omega

theorem pixDist2_eq_zero {p q : Pix} (h : pixDist2 p q = 0) : p = q := by
  unfold pixDist2 at h
  have h1 : ((p.1 : Int) - q.1).natAbs ^ 2 = 0 := by omega
  have h2 : ((p.2 : Int) - q.2).natAbs ^ 2 = 0 := by omega
  rw [pow_eq_zero_iff two_ne_zero] at h1 h2
  ext <;> omega

/-! ## Outlier-outlier connections -/

/-- Membership of an outlier-outlier edge in the graph. -/
theorem mem_graph_oo {n1 n2 ow : Nat} {edges : List MEdge} {xs : Nat → ℚ} {pos : Nat}
    (hx : Props.UnitStream xs) (hmin : min n1 n2 ≤ degree) {i j : Nat} (hi : i < n2) (hj : j < n1) :
    (⟨n1 + i, n2 + j, ow⟩ : GEdge) ∈ buildGraph n1 n2 ow edges xs pos := by
  unfold buildGraph
  simp only [List.mem_append]
  left; right
  generalize (kRows (deg1 n2) (n2 - 1) xs n2 (kRows (deg1 n1) (n1 - 1) xs n1 pos).2).2 = p3
  have hd3 : deg3 n1 n2 = min n1 n2 := by unfold deg3; omega
  have hrows : GoodRows (deg3 n1 n2) (min n1 n2) (max n1 n2)
      (kRows (deg3 n1 n2) (min n1 n2) xs (max n1 n2) p3).1 := kRows_ok _ _ xs hx (deg3_le n1 n2) _ _
  have hall : ∀ a, a < max n1 n2 → ∀ b, b < min n1 n2 →
      b ∈ (kRows (deg3 n1 n2) (min n1 n2) xs (max n1 n2) p3).1.getD a [] := by
    intro a ha b hb
    obtain ⟨l1, l2, l3⟩ := hrows.getD ha
    rw [hd3] at l1 l2 l3
    rw [hd3]
    have hp : ((kRows (min n1 n2) (min n1 n2) xs (max n1 n2) p3).1.getD a []).Perm (List.range (min n1 n2)) := by
      apply (List.subperm_of_subset (l2.imp (fun h => Nat.ne_of_lt h)) ?_).perm_of_length_le
      · rw [l1, List.length_range]
      · intro x hx; exact List.mem_range.mpr (l3 x hx)
    exact hp.mem_iff.mpr (List.mem_range.mpr hb)
  unfold outlierOutlier
  rw [List.mem_flatMap]
  by_cases hlt : n1 < n2
  · refine ⟨i, List.mem_range.mpr (by rw [hrows.1]; omega), List.mem_map.mpr ⟨j, hall i (by omega) j (by omega), ?_⟩⟩
    rw [if_pos hlt]
  · refine ⟨j, List.mem_range.mpr (by rw [hrows.1]; omega), List.mem_map.mpr ⟨i, hall j (by omega) i (by omega), ?_⟩⟩
    rw [if_neg hlt]

theorem mem_graph_real {n1 n2 ow : Nat} {edges : List MEdge} {xs : Nat → ℚ} {pos : Nat} {e : MEdge}
    (he : e ∈ edges) : (⟨e.i, e.j, (rint100 e.d2 : Nat)⟩ : GEdge) ∈ buildGraph n1 n2 ow edges xs pos := by
  unfold buildGraph
  simp only [List.mem_append]
  left; left; left; left
  exact List.mem_map.mpr ⟨e, he, rfl⟩

end EdgeEval
