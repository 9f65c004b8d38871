import Verif.Lemmas.CsaMain

/-!
# Property theorems C16: the assignment solver

`csaSolve fuel n g` is the model of `CSA csa(n, m, g)` followed by reading all edges, the two loops
being cut off after `fuel` iterations.
-/

namespace EdgeEval.Props

open EdgeEval

/-- C16: whatever the solver returns is a perfect matching of the input graph of minimum total cost
among all its perfect matchings (every graph, every number of nodes, every integer costs). -/
theorem C16_result_is_optimal (N fuel : Nat) (g out : List InArc) (hg : WellFormedGraph N g)
    (h : csaSolve fuel (2 * N) g = some out) :
    IsPerfectMatching N g out ∧ ∀ M, IsPerfectMatching N g M → totalCost out ≤ totalCost M := by
  rw [csaSolve_unfold hg] at h
  obtain ⟨s, h1, h2⟩ := Option.bind_eq_some_iff.mp h
  by_cases hN : N = 0
  · subst hN
    have : out = [] := by simpa [storeResults] using h2.symm
    subst this
    refine ⟨⟨by simp, by simp, by simp⟩, ?_⟩
    intro M hM
    have : M = [] := by
      have := hM.2.1.length_eq
      simpa using this
    subst this; exact le_refl _
  · by_cases hC : csaMaxCost g = 0
    · exfalso
      rw [hC] at h1
      cases fuel with
      | zero => simp [mainLoop] at h1
      | succ f =>
        unfold mainLoop at h1
        rw [if_neg (by have := minEps_pos N; push_cast at this ⊢; linarith)] at h1
        cases h1
        obtain ⟨n, rfl⟩ : ∃ n, N = n + 1 := ⟨N - 1, by omega⟩
        unfold storeResults at h2
        rw [List.range_succ_eq_map, List.mapM_cons] at h2
        simp [csaInit] at h2
    · have hpo : (0 : ℚ) ≤ 2 * ((2 * N : Nat) : ℚ) * (scaleFactor + 1) := by
        unfold scaleFactor; positivity
      obtain ⟨p0, inv, h0⟩ := mainLoop_inv hpo (minEps_pos N) fuel fuel _ _ s (csaInit_idle _ N)
        (.inl (minEps_lt N (csaMaxCost g) (by omega) (by omega))) h1
      have hh := adjOf_headLt hg
      obtain ⟨out', e1, e2, _, e3⟩ := storeResults_spec hg (matched_all inv h0) (final_pmat inv h0 hh)
      rw [e1] at h2
      cases h2
      refine ⟨e2, ?_⟩
      intro M hM
      obtain ⟨σ, hσ, hs⟩ := pmat_of_matching hg hM
      rw [e3, ← hs]
      exact final_optimal inv h0 hh (N_minEps N) hσ

/-- C16: the solver always stops: on every graph that has a perfect matching and at least one non-zero
cost, it returns a result, the same for every sufficiently large number of loop iterations; the result
is a minimum-cost perfect matching. -/
theorem C16_terminates (N : Nat) (g M : List InArc) (hg : WellFormedGraph N g) (hN : 0 < N)
    (hM : IsPerfectMatching N g M) (hC : ∃ a ∈ g, a.cost ≠ 0) :
    ∃ F out, (∀ fuel, F ≤ fuel → csaSolve fuel (2 * N) g = some out) ∧ IsPerfectMatching N g out ∧
      ∀ M', IsPerfectMatching N g M' → totalCost out ≤ totalCost M' := by
  obtain ⟨σ, hσ, _⟩ := pmat_of_matching hg hM
  have hpo : (0 : ℚ) ≤ 2 * ((2 * N : Nat) : ℚ) * (scaleFactor + 1) := by unfold scaleFactor; positivity
  have hmin := minEps_pos N
  have hC1 : 1 ≤ csaMaxCost g := by
    obtain ⟨a, ha, hne⟩ := hC
    have := maxCost_le g a ha
    have h2 : a.cost.natAbs ≠ 0 := by simpa using hne
    omega
  obtain ⟨k, hk⟩ : ∃ k : Nat, (csaMaxCost g : ℚ) ≤ 2 / (((2 * N : Nat) : ℚ) + 1) * 10 ^ k := by
    obtain ⟨k, hk⟩ := pow_unbounded_of_one_lt ((csaMaxCost g : ℚ) / (2 / (((2 * N : Nat) : ℚ) + 1)))
      (by norm_num : (1 : ℚ) < 10)
    refine ⟨k, ?_⟩
    rw [div_lt_iff₀ hmin] at hk
    linarith
  obtain ⟨F, s, hs⟩ := mainLoop_total hpo hmin hσ (adjOf_costLe N g) (adjOf_headLt hg) k _ hk _
    (csaInit_idle _ N)
  have hbig : ∀ fuel, max F (k + 1) ≤ fuel → mainLoop (adjOf N g) N (2 * ((2 * N : Nat) : ℚ) * (scaleFactor + 1))
      (2 / (((2 * N : Nat) : ℚ) + 1)) fuel fuel (csaMaxCost g) (csaInit (adjOf N g)) = some s := by
    intro fuel hf
    exact mainLoop_mono _ _ _ _ F fuel ((le_max_left _ _).trans hf) _ _ ((le_max_right _ _).trans hf) _ _ _ hs
  obtain ⟨p0, inv, h0⟩ := mainLoop_inv hpo hmin F (k + 1) _ _ s (csaInit_idle _ N)
    (.inl (minEps_lt N (csaMaxCost g) hN hC1)) hs
  obtain ⟨out, e1, _, _, _⟩ := storeResults_spec hg (matched_all inv h0)
    (final_pmat inv h0 (adjOf_headLt hg))
  have hsol : ∀ fuel, max F (k + 1) ≤ fuel → csaSolve fuel (2 * N) g = some out := by
    intro fuel hf
    rw [csaSolve_unfold hg, hbig fuel hf]
    exact e1
  refine ⟨max F (k + 1), out, hsol, ?_⟩
  exact C16_result_is_optimal N _ g out hg (hsol _ (le_refl _))

/-- C16 (finding): with all costs zero the scaling loop is never entered, every left node is still
unmatched and reading the result dereferences a null pointer: no result for any number of iterations.
(`matchEdgeMaps` never builds such a graph, see C13.) -/
theorem C16_zero_costs_no_result (N fuel : Nat) (g : List InArc) (hg : WellFormedGraph N g) (hN : 0 < N)
    (hz : ∀ a ∈ g, a.cost = 0) : csaSolve fuel (2 * N) g = none := by
  rw [csaSolve_unfold hg]
  have hC : csaMaxCost g = 0 := by
    have : ∀ (l : List InArc), (∀ a ∈ l, a.cost = 0) → l.foldl (fun m a => max m a.cost.natAbs) 0 = 0 := by
      intro l
      induction l with
      | nil => intro _; rfl
      | cons b l ih =>
        intro h
        simp only [List.foldl_cons]
        rw [h b List.mem_cons_self]
        exact ih (fun a ha => h a (List.mem_cons_of_mem _ ha))
    exact this g hz
  rw [hC]
  cases fuel with
  | zero => simp [mainLoop]
  | succ f =>
    unfold mainLoop
    rw [if_neg (by have := minEps_pos N; push_cast at this ⊢; linarith)]
    obtain ⟨n, rfl⟩ : ∃ n, N = n + 1 := ⟨N - 1, by omega⟩
    simp only [Option.bind_some]
    unfold storeResults
    rw [List.range_succ_eq_map, List.mapM_cons]
    simp [csaInit]

/-- The solver states reachable from the initial one by starting refine phases (with any positive
epsilon, when nothing is active) and by double pushes from the top of the stack. The second index is the
epsilon of the current phase. -/
inductive CsaReach (adj : Nat → List Arc) (N : Nat) (po : ℚ) : ℚ → CsaState → Prop
  | init (eps : ℚ) (he : 0 < eps) : CsaReach adj N po eps (csaInit adj)
  | phase (eps eps' : ℚ) (s : CsaState) (he : 0 < eps') (h : CsaReach adj N po eps s)
      (hidle : s.active = []) : CsaReach adj N po eps' (refineInit adj N s)
  | push (eps : ℚ) (s : CsaState) (v : Nat) (rest : List Nat) (h : CsaReach adj N po eps s)
      (hact : s.active = v :: rest) (hne : adj v ≠ []) :
      CsaReach adj N po eps (doublePush adj eps po v { s with active := rest })

/-- C16: in every reachable state the two matched pointers describe one consistent partial one-to-one
matching by arcs of the graph; and every matched arc is within epsilon of the cheapest arc of its left
node (reduced costs). -/
theorem C16_every_state_consistent (adj : Nat → List Arc) (N : Nat) (po eps : ℚ) (hpo : 0 ≤ po)
    (s : CsaState) (h : CsaReach adj N po eps s) :
    (∀ v k, s.mL v = some k → v < N ∧ k < (adj v).length ∧ s.mR (arcAt adj v k).head = some v) ∧
    (∀ w v, s.mR w = some v → ∃ k, s.mL v = some k ∧ (arcAt adj v k).head = w) ∧
    (∀ v k, s.mL v = some k → ∀ j, j < (adj v).length →
      ((arcAt adj v k).cost : ℚ) - s.p (arcAt adj v k).head ≤
        ((arcAt adj v j).cost : ℚ) - s.p (arcAt adj v j).head + eps) ∧
    s.totalE = s.active.length ∧ s.active.Nodup := by
  have key : 0 < eps ∧ Idle adj N { s with active := [] } ∧
      (s = csaInit adj ∨ ∃ p0, CsaInv adj N eps p0 s) := by
    induction h with
    | init eps he => exact ⟨he, csaInit_idle adj N, .inl rfl⟩
    | phase eps eps' s he h hidle ih =>
      obtain ⟨_, ih2, _⟩ := ih
      have e : { s with active := [] } = s := by cases s; simp_all
      rw [e] at ih2
      have := refineInit_inv ih2 eps'
      exact ⟨he, ⟨this.1.mLR, this.1.mRL, rfl, this.1.cache⟩, .inr ⟨_, this.1⟩⟩
    | push eps s v rest h hact hne ih =>
      obtain ⟨ih1, _, ih3⟩ := ih
      rcases ih3 with rfl | ⟨p0, inv⟩
      · simp [csaInit] at hact
      · have := (doublePush_inv ih1 hpo hne hact inv).1
        exact ⟨ih1, ⟨this.mLR, this.mRL, rfl, this.cache⟩, .inr ⟨_, this⟩⟩
  obtain ⟨_, _, rfl | ⟨p0, inv⟩⟩ := key
  · refine ⟨by simp [csaInit], by simp [csaInit], by simp [csaInit], rfl, by simp [csaInit]⟩
  · exact ⟨inv.mLR, inv.mRL, inv.eopt, inv.excess, inv.nodup⟩

/-- A 2+2 node graph meeting the hypotheses, and its result. -/
example : csaSolve 20 (2 * 2) [⟨1, 3, 5⟩, ⟨1, 4, 1⟩, ⟨2, 3, 1⟩, ⟨2, 4, 1⟩] =
      some [⟨1, 4, 1⟩, ⟨2, 3, 1⟩] ∧
    WellFormedGraph 2 [⟨1, 3, 5⟩, ⟨1, 4, 1⟩, ⟨2, 3, 1⟩, ⟨2, 4, 1⟩] ∧
    IsPerfectMatching 2 [⟨1, 3, 5⟩, ⟨1, 4, 1⟩, ⟨2, 3, 1⟩, ⟨2, 4, 1⟩] [⟨1, 3, 5⟩, ⟨2, 4, 1⟩] := by
  refine ⟨by decide +kernel, by unfold WellFormedGraph; decide, by decide, by decide, by decide⟩

end EdgeEval.Props
