import Verif.Lemmas.CsaFloatMain

/-!
# Property theorems C56: the assignment solver in floating point

`csaSolveF fl fuel n g` is the solver with every arithmetic operation on `double` rounded by `fl`; `csaRunF` is its final
state. `RoundsNearest fl` says that `fl` returns a nearest binary64 number (any rule for ties).
-/

namespace EdgeEval.Props

open EdgeEval

/-- C56: without rounding this is the solver of C16. -/
theorem C56_no_rounding (fuel n : Nat) (g : List InArc) : csaSolveF id fuel n g = csaSolve fuel n g := by
  have hch : ∀ rc deg eps po best nb, chooseF id rc deg eps po best nb = choose rc deg eps po best nb := by
    intros; rfl
  have hdp : ∀ adj eps po v s, doublePushF id adj eps po v s = doublePush adj eps po v s := by
    intros; rfl
  have hrl : ∀ adj eps po f s, refineLoopF id adj eps po f s = refineLoop adj eps po f s := by
    intro adj eps po f
    induction f with
    | zero => intro s; rfl
    | succ f ih =>
      intro s
      unfold refineLoopF refineLoop
      split
      · rfl
      · cases s.active with
        | nil => rfl
        | cons v rest =>
          simp only
          split
          · rfl
          · rw [ih, hdp]
  have hml : ∀ adj N po m fR f eps s, mainLoopF id adj N po m fR f eps s = mainLoop adj N po m fR f eps s := by
    intro adj N po m fR f
    induction f with
    | zero => intro _ _; rfl
    | succ f ih =>
      intro eps s
      unfold mainLoopF mainLoop refineF refine
      split
      · rw [hrl]
        have : updateEpsilonF id eps m = updateEpsilon eps m := rfl
        rw [this]
        cases refineLoop adj (updateEpsilon eps m) po fR (refineInit adj N s) with
        | none => rfl
        | some t => exact ih _ _
      · rfl
  unfold csaSolveF csaRunF csaSolve
  cases csaParse n g with
  | none => rfl
  | some adj =>
    simp only [Option.bind_eq_bind, Option.bind_some, hml]
    have e1 : poF id n = 2 * n * (scaleFactor + 1) := rfl
    have e2 : minEpsF id n = 2 / ((n : ℚ) + 1) := by unfold minEpsF; simp
    rw [e1, e2]
    rfl

/-- C56: whatever the rounding does — even if arithmetic were arbitrarily wrong — a result is a perfect matching of the
input graph. -/
theorem C56_valid (fl : ℚ → ℚ) (N fuel : Nat) (g out : List InArc) (hg : WellFormedGraph N g)
    (h : csaSolveF fl fuel (2 * N) g = some out) : IsPerfectMatching N g out :=
  (csaSolveF_perfect hg h).1

theorem totals {fl : ℚ → ℚ} (H : RoundsNearest fl) {N fuel B C : Nat} {g out : List InArc} {s : CsaState}
    (hg : WellFormedGraph N g) (h : csaSolveF fl fuel (2 * N) g = some out) (hs : csaRunF fl fuel (2 * N) g = some s)
    (hN : N < 2 ^ 52) (hB1 : 1 ≤ B) (hB : ∀ w, w < N → -(B : ℚ) ≤ s.p w) (hC : ∀ a ∈ g, a.cost.natAbs ≤ C)
    (hsz : B + C ≤ 2 ^ 53) {M : List InArc} (hM : IsPerfectMatching N g M) :
    (totalCost out : ℚ) ≤ totalCost M + N * (2 / (2 * N + 1) + 7 * (B + C) / 2 ^ 53) := by
  obtain ⟨_, s', hs', idle, hm, htot⟩ := csaSolveF_perfect hg h
  rw [hs] at hs'
  cases hs'
  obtain ⟨σ, hσ, hsσ⟩ := pmat_of_matching hg hM
  by_cases hN0 : N = 0
  · subst hN0
    rw [htot, ← hsσ]
    simp
  have hCL : CostLe (adjOf N g) N C := by
    intro v k _ hk
    obtain ⟨a, ha, _, e⟩ := adjOf_mem hk
    rw [e]
    have h2 : |(a.cost : ℚ)| = ((a.cost.natAbs : Nat) : ℚ) := by rw [Nat.cast_natAbs, Int.cast_abs]
    simp only
    rw [h2]
    exact_mod_cast hC a ha
  have hh := adjOf_headLt hg
  rw [csaRunF_unfold hg] at hs
  rcases mainLoopF_eopt H (M := B + C) (C := C) (by omega) hsz hCL hh (poF_nonneg H _) (minEpsF_nonneg H _) fuel fuel _
      (csaInitF fl (adjOf N g)) _ s (csaInitF_idle fl _ N) (csaInitF_pw H _ N) (.inr (.inl rfl)) hs
      (by intro w hw; push_cast; linarith [hB w hw]) with he | he
  · obtain ⟨k, hk⟩ := hm 0 (by omega)
    rw [he] at hk
    simp [csaInitF] at hk
  · have h1 := eopt_total idle hm he hh hσ
    rw [← htot, hsσ] at h1
    have h2 := minEpsF_le H N (by omega) (by omega)
    have h3 : (1 : ℚ) / 2 ^ 53 ≤ ((B + C : Nat) : ℚ) / 2 ^ 53 := by
      gcongr
      have : 1 ≤ B + C := by omega
      exact_mod_cast this
    have h4 : (N : ℚ) * (minEpsF fl (2 * N) + 6 * ((B + C : Nat) : ℚ) / 2 ^ 53) ≤
        N * (2 / (2 * N + 1) + 7 * (B + C) / 2 ^ 53) := by
      apply mul_le_mul_of_nonneg_left _ (by positivity)
      push_cast at h3 ⊢
      have e1 : (6 * (B + C) / 2 ^ 53 : ℚ) = 6 * ((B + C) / 2 ^ 53) := by ring
      have e2 : (7 * (B + C) / 2 ^ 53 : ℚ) = 7 * ((B + C) / 2 ^ 53) := by ring
      rw [e1, e2]
      linarith
    linarith

/-- C56: with rounding to nearest, the total cost of the result exceeds the cost of every other perfect matching by less
than `1 + 7 N (B + C) / 2^53`, where `B` bounds the prices in the final state (they start at 0 and only go down) and `C`
the costs. -/
theorem C56_near_optimal (fl : ℚ → ℚ) (H : RoundsNearest fl) (N fuel B C : Nat) (g out : List InArc) (s : CsaState)
    (hg : WellFormedGraph N g) (h : csaSolveF fl fuel (2 * N) g = some out) (hs : csaRunF fl fuel (2 * N) g = some s)
    (hN : N < 2 ^ 52) (hB1 : 1 ≤ B) (hB : ∀ w, w < N → -(B : ℚ) ≤ s.p w) (hC : ∀ a ∈ g, a.cost.natAbs ≤ C)
    (hsz : B + C ≤ 2 ^ 53) (M : List InArc) (hM : IsPerfectMatching N g M) :
    (totalCost out : ℚ) < totalCost M + 1 + 7 * N * (B + C) / 2 ^ 53 := by
  have h1 := totals H hg h hs hN hB1 hB hC hsz hM
  have h2 : (N : ℚ) * (2 / (2 * N + 1)) < 1 := by
    have := N_minEps N
    push_cast at this
    exact this
  have e : (N : ℚ) * (2 / (2 * N + 1) + 7 * (B + C) / 2 ^ 53) = N * (2 / (2 * N + 1)) + 7 * N * (B + C) / 2 ^ 53 := by ring
  rw [e] at h1
  linarith

/-- C56: if the final prices are small enough the rounding errors cannot matter: the result has exactly minimum cost. -/
theorem C56_exact_if_prices_small (fl : ℚ → ℚ) (H : RoundsNearest fl) (N fuel B C : Nat) (g out : List InArc)
    (s : CsaState) (hg : WellFormedGraph N g) (h : csaSolveF fl fuel (2 * N) g = some out)
    (hs : csaRunF fl fuel (2 * N) g = some s) (hB1 : 1 ≤ B) (hB : ∀ w, w < N → -(B : ℚ) ≤ s.p w)
    (hC : ∀ a ∈ g, a.cost.natAbs ≤ C) (hsz : 7 * N * (2 * N + 1) * (B + C) < 2 ^ 53) (M : List InArc)
    (hM : IsPerfectMatching N g M) : totalCost out ≤ totalCost M := by
  by_cases hN0 : N = 0
  · subst hN0
    have h1 := (csaSolveF_perfect hg h).1.2.1.length_eq
    have h2 := hM.2.1.length_eq
    have e1 : out = [] := by simpa using h1
    have e2 : M = [] := by simpa using h2
    rw [e1, e2]
  have hN1 : 1 ≤ N := by omega
  have hBC : 1 ≤ B + C := by omega
  have hbig : N ≤ 7 * N * (2 * N + 1) * (B + C) := by nlinarith [Nat.mul_le_mul (Nat.mul_le_mul (show N ≤ 7 * N by omega) (show 1 ≤ 2 * N + 1 by omega)) hBC]
  have hMle : 7 * (B + C) ≤ 7 * N * (2 * N + 1) * (B + C) := by
    apply Nat.mul_le_mul_right
    nlinarith
  have hNN : 7 * N * (2 * N + 1) ≤ 7 * N * (2 * N + 1) * (B + C) := Nat.le_mul_of_pos_right _ hBC
  have h21 : 7 * (2 * N + 1) ≤ 7 * N * (2 * N + 1) := by
    apply Nat.mul_le_mul_right
    omega
  have h1 := totals H hg h hs (by omega) hB1 hB hC (by omega) hM
  have h2 : (7 * N * (2 * N + 1) * (B + C) : ℚ) < 2 ^ 53 := by exact_mod_cast hsz
  have hd : (0 : ℚ) < 2 * N + 1 := by positivity
  have h3 : (N : ℚ) * (2 / (2 * N + 1) + 7 * (B + C) / 2 ^ 53) < 1 := by
    have e : (N : ℚ) * (2 / (2 * N + 1) + 7 * (B + C) / 2 ^ 53) =
        (2 * N + (7 * N * (2 * N + 1) * (B + C)) / 2 ^ 53) / (2 * N + 1) := by
      field_simp
    rw [e, div_lt_one hd]
    have : (7 * N * (2 * N + 1) * (B + C) / 2 ^ 53 : ℚ) < 1 := by
      rw [div_lt_one (by positivity)]; exact h2
    linarith
  have h4 : (totalCost out : ℚ) < ((totalCost M + 1 : Int) : ℚ) := by push_cast; linarith
  have := Int.cast_lt.mp h4
  omega

/-- C56: on every graph with a perfect matching and a non-zero cost and `N (600 N C + 5000) ≤ 2^53` (`C` the largest cost)
the solver computing with doubles stops, further fuel does not change its result, the prices never fall below
`-(98 N C + 825)`, and the result is a perfect matching whose total cost is at most 2 above the minimum. -/
theorem C56_stops (fl : ℚ → ℚ) (H : RoundsNearest fl) (N : Nat) (g M : List InArc) (hg : WellFormedGraph N g)
    (hN : 0 < N) (hM : IsPerfectMatching N g M) (hC : ∃ a ∈ g, a.cost ≠ 0)
    (hsz : N * (600 * (N * csaMaxCost g) + 5000) ≤ 2 ^ 53) :
    ∃ F s out, (∀ fuel, F ≤ fuel → csaRunF fl fuel (2 * N) g = some s) ∧
      (∀ fuel, F ≤ fuel → csaSolveF fl fuel (2 * N) g = some out) ∧
      (∀ w, w < N → -((98 * (N * csaMaxCost g) + 825 - csaMaxCost g : Nat) : ℚ) ≤ s.p w) ∧ IsPerfectMatching N g out ∧
      ∀ M', IsPerfectMatching N g M' → totalCost out ≤ totalCost M' + 2 := by
  obtain ⟨σ, hσ, _⟩ := pmat_of_matching hg hM
  have hC1 : 1 ≤ csaMaxCost g := by
    obtain ⟨a, ha, hne⟩ := hC
    have := maxCost_le g a ha
    have h2 : a.cost.natAbs ≠ 0 := by simpa using hne
    omega
  have hle := maxCost_le g
  have hcl := adjOf_costLe N g
  have hunf := fun fuel => csaRunF_unfold hg fl fuel
  have hcmax : ∀ fuel, csaRunF fl fuel (2 * N) g = mainLoopF fl (adjOf N g) N (poF fl (2 * N)) (minEpsF fl (2 * N)) fuel
    fuel (fl (csaMaxCost g)) (csaInitF fl (adjOf N g)) := hunf
  generalize csaMaxCost g = C at hC1 hle hcl hcmax hsz
  -- sizes
  have hNC : N * (N * C) * 600 + 5000 * N ≤ 2 ^ 53 := by
    have : N * (600 * (N * C) + 5000) = N * (N * C) * 600 + 5000 * N := by ring
    exact le_of_eq_of_le this.symm hsz
  have hNC1 : 1 ≤ N * C := Nat.one_le_iff_ne_zero.mpr (by positivity)
  have hNC2 : N * C ≤ N * (N * C) := Nat.le_mul_of_pos_left _ hN
  have hCN : C ≤ N * C := Nat.le_mul_of_pos_left _ hN
  have hNNC : N ≤ N * C := Nat.le_mul_of_pos_right _ hC1
  obtain ⟨P, hP⟩ : ∃ P, P = 98 * (N * C) + 825 := ⟨_, rfl⟩
  have hP6 : 6 * N * P ≤ 2 ^ 53 := by
    have e3 : 6 * N * P = N * (N * C) * 588 + 4950 * N := by rw [hP]; ring
    generalize N * (N * C) = A at e3 hNC
    linarith
  have hP2 : 2 * (2 * N + 1) * P ≤ 2 ^ 53 := by
    have e := Nat.mul_le_mul_right P (show 2 * (2 * N + 1) ≤ 6 * N by omega)
    omega
  have hP2q : (2 * (2 * N + 1) * P : ℚ) ≤ 2 ^ 53 := by exact_mod_cast hP2
  have hNq : (1 : ℚ) ≤ N := by exact_mod_cast hN
  have hCq : (1 : ℚ) ≤ C := by exact_mod_cast hC1
  have hPpos : (0 : ℚ) < P := by rw [hP]; positivity
  have hsmall : (P : ℚ) / 2 ^ 53 ≤ 1 / (2 * (2 * N + 1)) := by
    rw [div_le_div_iff₀ (by positivity) (by positivity)]
    linarith
  -- the constants of the solver
  have hpo : poF fl (2 * N) = 44 * N := by
    unfold poF scaleFactor
    have e1 : fl ((2 * N : Nat) : ℚ) = ((2 * N : Nat) : ℚ) := H.nat _ (by omega)
    have e2 : fl ((10 : ℚ) + 1) = 11 := by
      have := H.nat 11 (by norm_num)
      norm_num at this ⊢
      exact this
    have e3 : fl (2 * ((2 * N : Nat) : ℚ)) = ((4 * N : Nat) : ℚ) := by
      rw [show (2 : ℚ) * ((2 * N : Nat) : ℚ) = ((4 * N : Nat) : ℚ) by push_cast; ring]
      exact H.nat _ (by omega)
    rw [e1, e3, e2]
    rw [show ((4 * N : Nat) : ℚ) * 11 = ((44 * N : Nat) : ℚ) by push_cast; ring]
    rw [H.nat _ (by omega)]
    push_cast; ring
  have hQ : fl (poF fl (2 * N) + 1) ≤ ((44 * N + 1 : Nat) : ℚ) := by
    rw [hpo, show (44 * (N : ℚ)) + 1 = ((44 * N + 1 : Nat) : ℚ) by push_cast; ring, H.nat _ (by omega)]
  have hm1 := minEpsF_le H N hN (by omega)
  have hm2 : 1 / (2 * N + 1) ≤ minEpsF fl (2 * N) := by
    unfold minEpsF
    rw [H.nat _ (by omega)]
    have hb : (2 : ℚ) / ((2 * N + 1 : Nat) : ℚ) ≤ 1 := by
      rw [div_le_one (by positivity)]
      have : 2 ≤ 2 * N + 1 := by omega
      exact_mod_cast this
    have h0 : (0 : ℚ) ≤ 2 / ((2 * N + 1 : Nat) : ℚ) := by positivity
    have := H.err_of_res (x := 2 / ((2 * N + 1 : Nat) : ℚ)) (M := 1) (le_refl _)
      (by rw [abs_of_nonneg (H.nonneg h0)]; exact H.le_one hb)
    have h1 := (abs_le.mp this).1
    have h2 : (1 : ℚ) / 2 ^ 53 ≤ 1 / (2 * N + 1) := by
      apply one_div_le_one_div_of_le (by positivity)
      have : 2 * N + 1 ≤ 2 ^ 53 := by omega
      exact_mod_cast this
    have h3 : (2 : ℚ) / ((2 * N + 1 : Nat) : ℚ) = 2 * (1 / (2 * N + 1)) := by push_cast; ring
    rw [h3] at h1 ⊢
    linarith
  have hmf : IsF64 (minEpsF fl (2 * N)) := H.rep _
  have hd : (0 : ℚ) < 2 * N + 1 := by positivity
  have hmpos : 0 < minEpsF fl (2 * N) := lt_of_lt_of_le (by positivity) hm2
  have hmlt : minEpsF fl (2 * N) < C := by
    have h1 : (2 : ℚ) / (2 * N + 1) ≤ 2 / 3 := by
      apply div_le_div_of_nonneg_left (by norm_num) (by norm_num); linarith
    have h2 : (1 : ℚ) / 2 ^ 53 < 1 / 3 := by norm_num
    linarith
  have hflC : fl (C : ℚ) = C := H.nat C (by omega)
  have hes : (P : ℚ) / 2 ^ 53 ≤ minEpsF fl (2 * N) / 2 := by
    have h2 : (1 : ℚ) / (2 * (2 * N + 1)) = 1 / (2 * N + 1) / 2 := by field_simp
    linarith
  -- the total drop of the prices
  have hdrop : (C : ℚ) - P ≤ 0 - (15 : Nat) * (dropA N C P + dropQ N (44 * N + 1) * minEpsF fl (2 * N)) -
      dropQ N (44 * N + 1) * C / 8 := by
    have hA : dropA N C P ≤ (2 * N + 1) * (2 * C) + 8 := by
      unfold dropA
      have h1 : (2 * (N : ℚ) + 1) * (P / 2 ^ 53) ≤ 1 / 2 := by
        calc (2 * (N : ℚ) + 1) * (P / 2 ^ 53) ≤ (2 * N + 1) * (1 / (2 * (2 * N + 1))) :=
              mul_le_mul_of_nonneg_left hsmall hd.le
          _ = 1 / 2 := by field_simp
      have h2 : (P : ℚ) / 2 ^ 53 ≤ 1 / 6 := by
        refine hsmall.trans (one_div_le_one_div_of_le (by norm_num) ?_)
        linarith
      nlinarith
    have hq : dropQ N (44 * N + 1) * minEpsF fl (2 * N) ≤ 47 := by
      unfold dropQ
      push_cast
      have h1 : (2 * (N : ℚ) + 1 + (44 * N + 1) + 1) * minEpsF fl (2 * N) ≤
          (46 * N + 3) * (2 / (2 * N + 1) + 1 / 2 ^ 53) := by
        have : (2 * (N : ℚ) + 1 + (44 * N + 1) + 1) = 46 * N + 3 := by ring
        rw [this]
        exact mul_le_mul_of_nonneg_left hm1 (by positivity)
      have h2 : (46 * (N : ℚ) + 3) * (2 / (2 * N + 1)) ≤ 46 := by
        rw [mul_div_assoc', div_le_iff₀ hd]
        linarith
      have h3 : (46 * (N : ℚ) + 3) * (1 / 2 ^ 53) ≤ 1 := by
        rw [mul_one_div, div_le_one (by positivity)]
        have : 46 * N + 3 ≤ 2 ^ 53 := by omega
        exact_mod_cast this
      linarith
    have hq2 : dropQ N (44 * N + 1) = 46 * N + 3 := by unfold dropQ; push_cast; ring
    have hPq : (P : ℚ) = 98 * (N * C) + 825 := by rw [hP]; push_cast; ring
    rw [hPq]
    rw [hq2] at hq ⊢
    have hCN' : (C : ℚ) ≤ N * C := by exact_mod_cast hCN
    push_cast
    linarith
  have ctx : RunCtx fl (adjOf N g) N C P (44 * N + 1) (poF fl (2 * N)) σ :=
    ⟨H, hcl, adjOf_headLt hg, hσ, by omega, by
      have e1 : 5 ≤ 6 * N := by omega
      have := Nat.mul_le_mul_right P e1
      omega, poF_nonneg H _, hQ⟩
  have hr : (C : ℚ) ≤ minEpsF fl (2 * N) * 9 ^ 15 := by
    have h1 : (C : ℚ) * (2 * N + 1) ≤ 9 ^ 15 := by
      have : C * (2 * N + 1) ≤ 9 ^ 15 := by
        have e : C * (2 * N + 1) = 2 * (N * C) + C := by ring
        have e1 := Nat.mul_le_mul_right 600 hNC2
        have e2 : N * C * 600 ≤ 2 ^ 53 := e1.trans ((Nat.le_add_right _ _).trans hNC)
        have e3 : (2 : Nat) ^ 53 ≤ 9 ^ 15 * 100 := by norm_num
        have e4 : N * C * 600 ≤ 9 ^ 15 * 100 := e2.trans e3
        generalize 9 ^ 15 = K at e4 ⊢
        rw [e]
        linarith only [e4, hCN]
      exact_mod_cast this
    have h2 : (C : ℚ) ≤ 1 / (2 * N + 1) * 9 ^ 15 := by
      rw [div_mul_eq_mul_div, one_mul, le_div_iff₀ hd]
      exact h1
    refine h2.trans ?_
    gcongr
  obtain ⟨r, hr15⟩ : ∃ r : Nat, r = 15 := ⟨_, rfl⟩
  rw [← hr15] at hdrop hr
  obtain ⟨F, s, hs, hlow⟩ := mainLoopF_total ctx hmpos hmf hes r C 0 hr (le_refl _) hdrop
    (csaInitF fl (adjOf N g)) (csaInitF_idle fl _ N) (csaInitF_pw H _ N) (fun w _ => le_refl _)
  have hrun : ∀ fuel, max F (r + 1) ≤ fuel → csaRunF fl fuel (2 * N) g = some s := by
    intro fuel hf
    rw [hcmax, hflC]
    exact mainLoopF_mono _ _ _ _ _ F fuel ((le_max_left _ _).trans hf) _ _ ((le_max_right _ _).trans hf) _ _ _ hs
  have hmat := mainLoopF_matched F (r + 1) _ _ s (csaInitF_idle fl _ N) (.inl hmlt) hs
  have hidle := mainLoopF_cons F (r + 1) _ _ s (csaInitF_idle fl _ N) hs
  obtain ⟨out, e1, e2, _, _⟩ := storeResults_spec hg hmat (idleC_pmat hidle hmat (adjOf_headLt hg))
  have hsol : ∀ fuel, max F (r + 1) ≤ fuel → csaSolveF fl fuel (2 * N) g = some out := by
    intro fuel hf
    rw [csaSolveF_unfold hg, hrun fuel hf]
    exact e1
  have hPC : C ≤ P := by omega
  have hlow' : ∀ w, w < N → -((P - C : Nat) : ℚ) ≤ s.p w := by
    intro w hw
    have := hlow (by linarith) w hw
    push_cast [hPC]
    linarith
  refine ⟨max F (r + 1), s, out, hrun, hsol, fun w hw => ?_, e2, ?_⟩
  · rw [← hP]; exact hlow' w hw
  intro M' hM'
  have h1 := C56_near_optimal fl H N _ (P - C) C g out s hg (hsol _ (le_refl _)) (hrun _ (le_refl _)) (by omega)
    (by omega) hlow' hle (by rw [Nat.sub_add_cancel hPC]; omega) M' hM'
  have h2 : ((P - C : Nat) : ℚ) + C = P := by push_cast [hPC]; ring
  rw [h2] at h1
  have h3 : (7 * N * P / 2 ^ 53 : ℚ) ≤ 2 := by
    rw [div_le_iff₀ (by positivity)]
    have h4 : (6 * N * P : ℚ) ≤ 2 ^ 53 := by exact_mod_cast hP6
    linarith
  have h5 : (totalCost out : ℚ) < ((totalCost M' + 3 : Int) : ℚ) := by push_cast; linarith
  have := Int.cast_lt.mp h5
  omega

/-- C56: on graphs of moderate size the prices never fall below `-(98 N C + 825)`, so they stay far inside the range in
which doubles are exact to the needed precision; the run ends, and further fuel does not change it. -/
theorem C56_moderate_prices (fl : ℚ → ℚ) (H : RoundsNearest fl) (N : Nat) (g M : List InArc) (hg : WellFormedGraph N g)
    (hN : 0 < N) (hM : IsPerfectMatching N g M) (hC : ∃ a ∈ g, a.cost ≠ 0)
    (hsz : 2100 * N ^ 2 * (N * csaMaxCost g + 9) ≤ 2 ^ 53) :
    ∃ F s out, (∀ fuel, F ≤ fuel → csaRunF fl fuel (2 * N) g = some s) ∧
      (∀ fuel, F ≤ fuel → csaSolveF fl fuel (2 * N) g = some out) ∧
      (∀ w, w < N → -((98 * (N * csaMaxCost g) + 825 : Nat) : ℚ) ≤ s.p w) ∧ IsPerfectMatching N g out ∧
      ∀ M', IsPerfectMatching N g M' → totalCost out ≤ totalCost M' := by
  have hN2 : N ≤ N ^ 2 := by nlinarith
  obtain ⟨F, s, out, hrun, hsol, hlow, hpm, _⟩ := C56_stops fl H N g M hg hN hM hC (by
    have e1 : N * (600 * (N * csaMaxCost g) + 5000) ≤ N ^ 2 * (600 * (N * csaMaxCost g) + 5000) := Nat.mul_le_mul_right _ hN2
    have e2 : 2100 * N ^ 2 * (N * csaMaxCost g + 9) = N ^ 2 * (2100 * (N * csaMaxCost g) + 18900) := by ring
    have e3 : N ^ 2 * (600 * (N * csaMaxCost g) + 5000) ≤ N ^ 2 * (2100 * (N * csaMaxCost g) + 18900) :=
      Nat.mul_le_mul_left _ (by omega)
    exact e1.trans (e3.trans (le_of_eq_of_le e2.symm hsz)))
  have hC1 : 1 ≤ csaMaxCost g := by
    obtain ⟨a, ha, hne⟩ := hC
    have := maxCost_le g a ha
    have h2 : a.cost.natAbs ≠ 0 := by simpa using hne
    omega
  have hle := maxCost_le g
  generalize csaMaxCost g = C at *
  have hCN : C ≤ N * C := Nat.le_mul_of_pos_left _ hN
  have hPC : C ≤ 98 * (N * C) + 825 := by omega
  refine ⟨F, s, out, hrun, hsol, fun w hw => ?_, hpm, ?_⟩
  · have h1 := hlow w hw
    refine le_trans ?_ h1
    rw [neg_le_neg_iff]
    exact_mod_cast Nat.sub_le _ _
  · intro M' hM'
    refine C56_exact_if_prices_small fl H N F _ C g out s hg (hsol _ (le_refl _)) (hrun _ (le_refl _)) ?_ hlow
      hle ?_ M' hM'
    · omega
    · rw [Nat.sub_add_cancel hPC]
      have e1 : 7 * N * (2 * N + 1) ≤ 21 * N ^ 2 := by nlinarith
      have e2 : 7 * N * (2 * N + 1) * (98 * (N * C) + 825) ≤ 21 * N ^ 2 * (98 * (N * C) + 825) := Nat.mul_le_mul_right _ e1
      have e3 : 21 * N ^ 2 * (98 * (N * C) + 825) = N * C * N ^ 2 * 2058 + 17325 * N ^ 2 := by ring
      have e4 : 2100 * N ^ 2 * (N * C + 9) = N * C * N ^ 2 * 2100 + 18900 * N ^ 2 := by ring
      have e5 : 1 ≤ N ^ 2 := Nat.one_le_pow _ _ hN
      omega

/-- C56: for graphs of moderate size nothing has to be observed: on every graph with a perfect matching, a non-zero cost
and `2100 N² (N C + 9) ≤ 2^53` (`C` the largest cost), the solver computing with doubles stops and returns a perfect
matching of exactly minimum cost. -/
theorem C56_exact_moderate (fl : ℚ → ℚ) (H : RoundsNearest fl) (N : Nat) (g M : List InArc) (hg : WellFormedGraph N g)
    (hN : 0 < N) (hM : IsPerfectMatching N g M) (hC : ∃ a ∈ g, a.cost ≠ 0)
    (hsz : 2100 * N ^ 2 * (N * csaMaxCost g + 9) ≤ 2 ^ 53) :
    ∃ F out, (∀ fuel, F ≤ fuel → csaSolveF fl fuel (2 * N) g = some out) ∧ IsPerfectMatching N g out ∧
      ∀ M', IsPerfectMatching N g M' → totalCost out ≤ totalCost M' := by
  obtain ⟨F, _, out, _, h, _, h2, h3⟩ := C56_moderate_prices fl H N g M hg hN hM hC hsz
  exact ⟨F, out, h, h2, h3⟩

-- Witnesses. The graph of the example of C16 meets the hypotheses of `C56_exact_moderate` with the real rounding function,
-- and the run it gives meets those of the other theorems, with `B = 1805` and `C = 5`.
example : WellFormedGraph 2 [⟨1, 3, 5⟩, ⟨1, 4, 1⟩, ⟨2, 3, 1⟩, ⟨2, 4, 1⟩] ∧
    IsPerfectMatching 2 [⟨1, 3, 5⟩, ⟨1, 4, 1⟩, ⟨2, 3, 1⟩, ⟨2, 4, 1⟩] [⟨1, 3, 5⟩, ⟨2, 4, 1⟩] ∧
    (∃ a ∈ ([⟨1, 3, 5⟩, ⟨1, 4, 1⟩, ⟨2, 3, 1⟩, ⟨2, 4, 1⟩] : List InArc), a.cost ≠ 0) ∧
    2100 * 2 ^ 2 * (2 * csaMaxCost [⟨1, 3, 5⟩, ⟨1, 4, 1⟩, ⟨2, 3, 1⟩, ⟨2, 4, 1⟩] + 9) ≤ 2 ^ 53 := by
  refine ⟨by unfold WellFormedGraph; decide, ⟨by decide, by decide, by decide⟩, by decide, by decide⟩

example : ∃ fuel s out, csaSolveF nearestF64 fuel (2 * 2) [⟨1, 3, 5⟩, ⟨1, 4, 1⟩, ⟨2, 3, 1⟩, ⟨2, 4, 1⟩] = some out ∧
    csaRunF nearestF64 fuel (2 * 2) [⟨1, 3, 5⟩, ⟨1, 4, 1⟩, ⟨2, 3, 1⟩, ⟨2, 4, 1⟩] = some s ∧
    (∀ w, w < 2 → -((1805 : Nat) : ℚ) ≤ s.p w) ∧
    (∀ a ∈ ([⟨1, 3, 5⟩, ⟨1, 4, 1⟩, ⟨2, 3, 1⟩, ⟨2, 4, 1⟩] : List InArc), a.cost.natAbs ≤ 5) ∧
    7 * 2 * (2 * 2 + 1) * (1805 + 5) < 2 ^ 53 ∧ totalCost out = 2 := by
  obtain ⟨F, s, out, h1, h2, h3, h4, h5⟩ := C56_moderate_prices nearestF64 nearestF64_rounds 2
    [⟨1, 3, 5⟩, ⟨1, 4, 1⟩, ⟨2, 3, 1⟩, ⟨2, 4, 1⟩] [⟨1, 3, 5⟩, ⟨2, 4, 1⟩] (by unfold WellFormedGraph; decide) (by decide)
    ⟨by decide, by decide, by decide⟩ (by decide) (by decide)
  refine ⟨F, s, out, h2 F le_rfl, h1 F le_rfl, h3, by decide, by decide, ?_⟩
  have hle : totalCost out ≤ 2 := h5 [⟨1, 4, 1⟩, ⟨2, 3, 1⟩] ⟨by decide, by decide, by decide⟩
  obtain ⟨ha, hb, _⟩ := h4
  have hlen : out.length = 2 := by simpa using hb.length_eq
  match out, hlen with
  | [a, b], _ =>
    have hpos : ∀ a ∈ ([⟨1, 3, 5⟩, ⟨1, 4, 1⟩, ⟨2, 3, 1⟩, ⟨2, 4, 1⟩] : List InArc), 1 ≤ a.cost := by decide
    have h1 := hpos a (ha a (by simp))
    have h2 := hpos b (ha b (by simp))
    simp only [totalCost, List.map_cons, List.map_nil, List.sum_cons, List.sum_nil] at hle ⊢
    omega

end EdgeEval.Props
