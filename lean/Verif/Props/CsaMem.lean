import Verif.Lemmas.CsaMemSolve
import Verif.Props.CsaFloat
import Verif.Props.Match

/-!
# Property theorems C62: memory safety of the assignment solver

`CsaMem.solve` is `csa.hh` with its arrays: every read and write is checked, and a read or write outside a block, a read of a
cell nobody has written and the use of a null pointer are errors.
-/

namespace EdgeEval.Props

open EdgeEval EdgeEval.CsaMem

theorem adjOf_ne_nil {N : Nat} {g : List InArc} (harc : ∀ v, 1 ≤ v → v ≤ N → ∃ a ∈ g, a.tail = v) (v : Nat) (hv : v < N) :
    adjOf N g v ≠ [] := by
  obtain ⟨a, ha, e⟩ := harc (v + 1) (by omega) (by omega)
  obtain ⟨k, hk, _⟩ := adjOf_idx (N := N) ha e
  intro h
  rw [h] at hk
  exact absurd hk (by simp)

theorem matching_arcs {N : Nat} {g M : List InArc} (hM : IsPerfectMatching N g M) :
    ∀ v, 1 ≤ v → v ≤ N → ∃ a ∈ g, a.tail = v := by
  intro v h1 h2
  obtain ⟨m1, m2, _⟩ := hM
  have : v ∈ M.map InArc.tail := m2.mem_iff.mpr (by simp [List.mem_range'_1]; omega)
  obtain ⟨a, ha, rfl⟩ := List.mem_map.mp this
  exact ⟨a, m1 a ha, rfl⟩

theorem minEps_lt_one {fl : ℚ → ℚ} (H : RoundsNearest fl) {N : Nat} (hN : 0 < N) : minEpsF fl (2 * N) < 1 := by
  unfold minEpsF
  have h3 : (3 : ℚ) ≤ fl ((2 * N + 1 : Nat) : ℚ) := by
    have e : fl (3 : ℚ) = 3 := by exact_mod_cast H.nat 3 (by norm_num)
    rw [← e]
    exact H.mono (by exact_mod_cast (show 3 ≤ 2 * N + 1 by omega))
  have h34 : IsF64 (3 / 4) := ⟨3, -2, by norm_num, by norm_num, by norm_num⟩
  have h2 : (2 : ℚ) / fl ((2 * N + 1 : Nat) : ℚ) ≤ 3 / 4 := by
    rw [div_le_iff₀ (by linarith)]
    linarith
  have := H.mono h2
  rw [H.exact h34] at this
  linarith

theorem one_le_maxCost {g : List InArc} (hC : ∃ a ∈ g, a.cost ≠ 0) : 1 ≤ csaMaxCost g := by
  obtain ⟨a, ha, hne⟩ := hC
  have := maxCost_le g a ha
  have h2 : a.cost.natAbs ≠ 0 := by simpa using hne
  omega

/-- C62: the code on arrays computes what the abstract solver computes, whatever the rounding. -/
theorem C62_same_result (fl : ℚ → ℚ) (N fuel : Nat) (g out : List InArc) (hg : WellFormedGraph N g)
    (harc : ∀ v, 1 ≤ v → v ≤ N → ∃ a ∈ g, a.tail = v) :
    solve fl fuel (2 * N) g.length (graphBlk g) = .ok (out.map triple) ↔ csaSolveF fl fuel (2 * N) g = some out := by
  rw [solve_eq hg (adjOf_ne_nil harc), csaSolveF_unfold hg]
  have hinj : Function.Injective triple := by
    rintro ⟨a, b, c⟩ ⟨a', b', c'⟩ h
    simp only [triple, Prod.mk.injEq, Nat.cast_inj] at h
    obtain ⟨rfl, rfl, rfl⟩ := h
    rfl
  cases csaRunF fl fuel (2 * N) g with
  | none => simp
  | some s =>
    simp only [Option.bind_some]
    cases storeResults (adjOf N g) N s with
    | none => simp
    | some o => simp [List.map_inj_right hinj]

/-- C62: on every well-formed graph in which every left node has an arc and some cost is not zero, at no point of the run
does the solver access memory outside its blocks, read a cell it has not written, use a null pointer, or pop an empty stack:
the run has the result of a perfect matching, or it is still running. -/
theorem C62_no_bad_access (fl : ℚ → ℚ) (H : RoundsNearest fl) (N fuel : Nat) (g : List InArc) (hg : WellFormedGraph N g)
    (harc : ∀ v, 1 ≤ v → v ≤ N → ∃ a ∈ g, a.tail = v) (hC : ∃ a ∈ g, a.cost ≠ 0) :
    solve fl fuel (2 * N) g.length (graphBlk g) = .error .outOfFuel ∨
      ∃ M, IsPerfectMatching N g M ∧ solve fl fuel (2 * N) g.length (graphBlk g) = .ok (M.map triple) := by
  have hN : 0 < N := by
    obtain ⟨a, ha, _⟩ := hC
    have := hg a ha
    omega
  have h1 := one_le_maxCost hC
  have heq := solve_eq hg (adjOf_ne_nil harc) fl fuel
  cases hr : csaRunF fl fuel (2 * N) g with
  | none =>
    rw [hr] at heq
    exact .inl heq
  | some s =>
    right
    have hrun := hr
    rw [csaRunF_unfold hg] at hrun
    have hlt : minEpsF fl (2 * N) < fl (csaMaxCost g) :=
      lt_of_lt_of_le (minEps_lt_one H hN) (H.one_le (by exact_mod_cast h1))
    have hm := mainLoopF_matched fuel fuel _ _ s (csaInitF_idle fl (adjOf N g) N) (.inl hlt) hrun
    choose! f hf using hm
    have hst := storeResults_all (adj := adjOf N g) (s := s) hf
    rw [hr] at heq
    dsimp only at heq
    rw [hst] at heq
    refine ⟨_, ?_, heq⟩
    refine (csaSolveF_perfect hg (fl := fl) (fuel := fuel) ?_).1
    rw [csaSolveF_unfold hg, hr]
    exact hst

/-- C62: on a graph with a perfect matching, of moderate size, the code on arrays stops and returns a perfect matching of
minimum cost. -/
theorem C62_solves (fl : ℚ → ℚ) (H : RoundsNearest fl) (N : Nat) (g M : List InArc) (hg : WellFormedGraph N g)
    (hM : IsPerfectMatching N g M) (hC : ∃ a ∈ g, a.cost ≠ 0) (hsz : 2100 * N ^ 2 * (N * csaMaxCost g + 9) ≤ 2 ^ 53) :
    ∃ F out, (∀ fuel, F ≤ fuel → solve fl fuel (2 * N) g.length (graphBlk g) = .ok (out.map triple)) ∧ IsPerfectMatching N g out ∧
      ∀ M', IsPerfectMatching N g M' → totalCost out ≤ totalCost M' := by
  have hN : 0 < N := by
    obtain ⟨a, ha, _⟩ := hC
    have := hg a ha
    omega
  obtain ⟨F, out, h1, h2, h3⟩ := C56_exact_moderate fl H N g M hg hN hM hC hsz
  exact ⟨F, out, fun fuel hf => (C62_same_result fl N fuel g out hg (matching_arcs hM)).2 (h1 fuel hf), h2, h3⟩

/-- C62: the graphs of the pixel correspondence are of this kind: for every pair of edge maps, every pair of limits and
every random stream the solver run on the graph built from them has no bad memory access. -/
theorem C62_correspondence (fl : ℚ → ℚ) (H : RoundsNearest fl) (fuel h w : Nat) (b1 b2 : BMap) (md2 oc2 : ℚ) (xs : Nat → ℚ)
    (pos : Nat) (hx : ∀ i, 0 ≤ xs i ∧ xs i < 1) (hmd : 0 ≤ md2) (hoc : md2 < oc2) :
    let n := (nodes1 h w md2 b1 b2).length + (nodes2 h w md2 b1 b2).length
    let g := (matchGraph h w b1 b2 md2 oc2 xs pos).map (toArc n)
    0 < n → solve fl fuel (2 * n) g.length (graphBlk g) = .error .outOfFuel ∨
      ∃ M, IsPerfectMatching n g M ∧ solve fl fuel (2 * n) g.length (graphBlk g) = .ok (M.map triple) := by
  intro n g hn
  obtain ⟨_, hwf, _, _, ⟨M, hM⟩, hnz⟩ := C13_graph h w b1 b2 md2 oc2 xs pos hx hmd hoc
  exact C62_no_bad_access fl H n fuel g hwf (matching_arcs hM) (hnz hn)

/-- C62: an arc with an end outside the graph ends the program with a parse error, before any other array is filled from it. -/
theorem C62_bad_arc (fl : ℚ → ℚ) (N fuel : Nat) (g : List InArc) (hg : ¬ WellFormedGraph N g) :
    solve fl fuel (2 * N) g.length (graphBlk g) = .error .parseError := by
  unfold solve
  rw [parse_bad hg]
  rfl

/-- C62, finding: if all costs are zero the scaling loop does not run, no node is matched, and `store_results` uses a null
pointer. -/
theorem C62_zero_costs_null_pointer (fl : ℚ → ℚ) (H : RoundsNearest fl) (N fuel : Nat) (g : List InArc) (hg : WellFormedGraph N g)
    (hN : 0 < N) (harc : ∀ v, 1 ≤ v → v ≤ N → ∃ a ∈ g, a.tail = v) (hC : ∀ a ∈ g, a.cost = 0) (hf : 0 < fuel) :
    solve fl fuel (2 * N) g.length (graphBlk g) = .error .nullPointer := by
  have hmax : csaMaxCost g = 0 := by
    have : ∀ (l : List InArc), (∀ a ∈ l, a.cost = 0) → ∀ m, l.foldl (fun m a => max m a.cost.natAbs) m = m := by
      intro l hl
      induction l with
      | nil => intro m; rfl
      | cons a l ih =>
        intro m
        rw [List.foldl_cons, hl a List.mem_cons_self, ih (fun b hb => hl b (List.mem_cons_of_mem _ hb))]
        simp
    exact this g hC 0
  have hrun : csaRunF fl fuel (2 * N) g = some (csaInitF fl (adjOf N g)) := by
    rw [csaRunF_unfold hg, hmax]
    obtain ⟨f, rfl⟩ : ∃ f, fuel = f + 1 := ⟨fuel - 1, by omega⟩
    unfold mainLoopF
    rw [if_neg]
    have := minEpsF_nonneg H (2 * N)
    have e : fl ((0 : Nat) : ℚ) = 0 := by simpa using H.zero
    rw [e]
    exact not_lt.mpr this
  rw [solve_eq hg (adjOf_ne_nil harc), hrun]
  dsimp only
  cases hs : storeResults (adjOf N g) N (csaInitF fl (adjOf N g)) with
  | none => rfl
  | some out =>
    obtain ⟨k, hk⟩ := storeResults_matched hs 0 hN
    simp [csaInitF] at hk

/-! Witnesses. -/

/-- A graph with a node of five arcs (cached) and nodes of two arcs, and a perfect matching of it. -/
example : WellFormedGraph 5 [⟨1, 6, 4⟩, ⟨1, 7, 3⟩, ⟨1, 8, 2⟩, ⟨1, 9, 1⟩, ⟨1, 10, 0⟩, ⟨2, 6, 1⟩, ⟨3, 7, 1⟩, ⟨4, 8, 1⟩, ⟨5, 9, 1⟩, ⟨5, 10, 7⟩] ∧
    IsPerfectMatching 5 [⟨1, 6, 4⟩, ⟨1, 7, 3⟩, ⟨1, 8, 2⟩, ⟨1, 9, 1⟩, ⟨1, 10, 0⟩, ⟨2, 6, 1⟩, ⟨3, 7, 1⟩, ⟨4, 8, 1⟩, ⟨5, 9, 1⟩, ⟨5, 10, 7⟩]
      [⟨1, 10, 0⟩, ⟨2, 6, 1⟩, ⟨3, 7, 1⟩, ⟨4, 8, 1⟩, ⟨5, 9, 1⟩] ∧
    2100 * 5 ^ 2 * (5 * csaMaxCost [⟨1, 6, 4⟩, ⟨1, 7, 3⟩, ⟨1, 8, 2⟩, ⟨1, 9, 1⟩, ⟨1, 10, 0⟩, ⟨2, 6, 1⟩, ⟨3, 7, 1⟩, ⟨4, 8, 1⟩, ⟨5, 9, 1⟩, ⟨5, 10, 7⟩] + 9)
      ≤ 2 ^ 53 := by
  refine ⟨by unfold WellFormedGraph; decide, ⟨by decide, by decide, by decide⟩, by decide⟩

example : RoundsNearest nearestF64 := nearestF64_rounds

/-- The array-level run on a concrete graph. -/
example : solve id 40 4 4 (graphBlk [⟨1, 3, 5⟩, ⟨1, 4, 1⟩, ⟨2, 3, 1⟩, ⟨2, 4, 1⟩]) = .ok [(1, 4, 1), (2, 3, 1)] := by decide +kernel

/-- A bad arc, a graph whose costs are all zero. -/
example : ¬ WellFormedGraph 2 [⟨1, 3, 5⟩, ⟨3, 4, 1⟩] ∧ WellFormedGraph 1 [⟨1, 2, 0⟩] := by
  constructor <;> (unfold WellFormedGraph; decide)

end EdgeEval.Props
