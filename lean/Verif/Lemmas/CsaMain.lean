import Verif.Lemmas.CsaPush
import Verif.Spec.Matching
import Mathlib.Algebra.Order.Archimedean.Basic
import Mathlib.Data.Rat.Floor

/-! # The scaling loop and optimality of the result -/

namespace EdgeEval

/-- Invariant between refine phases. -/
structure Idle (adj : Nat → List Arc) (N : Nat) (s : CsaState) : Prop where
  mLR : ∀ v k, s.mL v = some k → v < N ∧ k < (adj v).length ∧ s.mR (hd adj v k) = some v
  mRL : ∀ w v, s.mR w = some v → ∃ k, s.mL v = some k ∧ hd adj v k = w
  act : s.active = []
  cache : ∀ v, v < N → ¬ (adj v).length < numBest + 1 →
    CacheOK (redCost adj s.p v) (adj v).length (s.best v) (s.nextBest v)

theorem CsaInv.idle {adj N eps p0 s} (inv : CsaInv adj N eps p0 s) (h : s.totalE = 0) :
    Idle adj N s :=
  ⟨inv.mLR, inv.mRL, List.length_eq_zero_iff.mp (inv.excess ▸ h), inv.cache⟩

theorem csaInit_idle (adj : Nat → List Arc) (N : Nat) : Idle adj N (csaInit adj) := by
  refine ⟨by simp [csaInit], by simp [csaInit], rfl, ?_⟩
  intro v _ hfew
  simp only [csaInit, if_neg hfew]
  exact (bestBuild_ok _ _ (by omega)).cache

theorem refineInit_inv {adj N s} (h : Idle adj N s) (eps : ℚ) :
    CsaInv adj N eps s.p (refineInit adj N s) ∧ (refineInit adj N s).p = s.p := by
  obtain ⟨h1, h2, h3, h4⟩ := h
  have key : ∀ m, ∀ s' : CsaState, s' = (List.range m).foldl (refineInitStep adj) { s with totalE := 0 } →
      (∀ v, s'.mL v = if v < m then none else s.mL v) ∧
      (∀ w v, s'.mR w = some v → m ≤ v ∧ s.mR w = some v) ∧
      s'.active = (List.range m).reverse ∧ s'.totalE = m ∧
      s'.p = s.p ∧ s'.best = s.best ∧ s'.nextBest = s.nextBest := by
    intro m
    induction m with
    | zero =>
      rintro s' rfl
      exact ⟨by simp, by simp, by simp [h3], rfl, rfl, rfl, rfl⟩
    | succ m ih =>
      rintro s' rfl
      obtain ⟨a1, a2, a3, a4, a5, a6, a7⟩ := ih _ rfl
      rw [List.range_succ, List.foldl_append]
      simp only [List.foldl_cons, List.foldl_nil]
      generalize (List.range m).foldl (refineInitStep adj) { s with totalE := 0 } = t at *
      unfold refineInitStep
      cases hm : t.mL m with
      | none =>
        simp only
        refine ⟨?_, ?_, by simp [a3], by simp [a4], a5, a6, a7⟩
        · intro v
          rw [a1 v]
          by_cases hv : v < m
          · rw [if_pos hv, if_pos (by omega)]
          · rw [if_neg hv]
            by_cases hvm : v = m
            · subst hvm
              rw [if_pos (by omega)]
              rw [a1, if_neg (lt_irrefl _)] at hm
              exact hm
            · rw [if_neg (by omega)]
        · intro w v hw
          obtain ⟨b1, b2⟩ := a2 w v hw
          refine ⟨?_, b2⟩
          by_contra hlt
          have hvm : v = m := by omega
          subst hvm
          obtain ⟨k, hk, _⟩ := h2 w v b2
          rw [a1, if_neg (lt_irrefl _), hk] at hm; cases hm
      | some k =>
        simp only
        have hsm : s.mL m = some k := by rw [a1, if_neg (lt_irrefl _)] at hm; exact hm
        refine ⟨?_, ?_, by simp [a3], by simp [a4], a5, a6, a7⟩
        · intro v
          simp only [upd]
          by_cases hvm : v = m
          · subst hvm; rw [if_pos rfl, if_pos (by omega)]
          · rw [if_neg hvm, a1 v]
            by_cases hv : v < m
            · rw [if_pos hv, if_pos (by omega)]
            · rw [if_neg hv, if_neg (by omega)]
        · intro w v hw
          simp only [upd] at hw
          split at hw
          · cases hw
          · rename_i hne
            obtain ⟨b1, b2⟩ := a2 w v hw
            refine ⟨?_, b2⟩
            by_contra hlt
            have hvm : v = m := by omega
            subst hvm
            obtain ⟨k', hk', hk''⟩ := h2 w v b2
            rw [hsm] at hk'; cases hk'
            exact hne hk''.symm
  obtain ⟨a1, a2, a3, a4, a5, a6, a7⟩ := key N (refineInit adj N s) rfl
  have hL : ∀ v, (refineInit adj N s).mL v = none := by
    intro v
    rw [a1]
    split
    · rfl
    · rename_i hv
      cases hm : s.mL v with
      | none => rfl
      | some k => exact absurd (h1 v k hm).1 hv
  have hR : ∀ w, (refineInit adj N s).mR w = none := by
    intro w
    cases hm : (refineInit adj N s).mR w with
    | none => rfl
    | some v =>
      obtain ⟨b1, b2⟩ := a2 w v hm
      obtain ⟨k, hk, _⟩ := h2 w v b2
      exact absurd (h1 v k hk).1 (by omega)
  refine ⟨⟨?_, ?_, ?_, ?_, ?_, ?_, ?_, ?_⟩, a5⟩
  · intro v k h; rw [hL] at h; cases h
  · intro w v h; rw [hR] at h; cases h
  · intro v k h; rw [hL] at h; cases h
  · intro v; rw [a3, hL]; simp
  · rw [a3]; exact List.nodup_reverse.mpr List.nodup_range
  · rw [a4, a3]; simp
  · intro v hv hfew; rw [a5, a6, a7]; exact h4 v hv hfew
  · intro w _; rw [a5]

theorem updateEpsilon_ge (eps m : ℚ) : m ≤ updateEpsilon eps m := by
  unfold updateEpsilon; split
  · exact le_refl _
  · rename_i h; exact not_lt.mp h

/-- Partial correctness of the scaling loop. -/
theorem mainLoop_inv {adj N po minEps} (hpo : 0 ≤ po) (hmin : 0 < minEps) (fuelR fuel : Nat) (eps : ℚ)
    (s s' : CsaState) (idle : Idle adj N s)
    (hs : minEps < eps ∨ (eps = minEps ∧ ∃ p0, CsaInv adj N minEps p0 s ∧ s.totalE = 0))
    (h : mainLoop adj N po minEps fuelR fuel eps s = some s') :
    ∃ p0, CsaInv adj N minEps p0 s' ∧ s'.totalE = 0 := by
  induction fuel generalizing eps s with
  | zero => simp [mainLoop] at h
  | succ f ih =>
    unfold mainLoop at h
    split at h
    · cases hr : refine adj N (updateEpsilon eps minEps) po fuelR s with
      | none => rw [hr] at h; cases h
      | some t =>
        rw [hr] at h
        simp only at h
        have hge := updateEpsilon_ge eps minEps
        have inv := refineLoop_inv (lt_of_lt_of_le hmin hge) hpo fuelR _ t
          (refineInit_inv idle (updateEpsilon eps minEps)).1 hr
        refine ih _ t (inv.1.idle inv.2) ?_ h
        rcases lt_or_eq_of_le hge with hlt | heq
        · exact .inl hlt
        · right
          refine ⟨heq.symm, s.p, ?_, inv.2⟩
          rw [← heq] at inv; exact inv.1
    · rename_i hle
      cases h
      rcases hs with hs | ⟨_, hs⟩
      · exact absurd hs hle
      · exact hs

theorem mainLoop_mono (adj : Nat → List Arc) (N : Nat) (po minEps : ℚ) (fR fR' : Nat) (hR : fR ≤ fR')
    (f f' : Nat) (hf : f ≤ f') (eps : ℚ) (s s' : CsaState)
    (h : mainLoop adj N po minEps fR f eps s = some s') :
    mainLoop adj N po minEps fR' f' eps s = some s' := by
  induction f generalizing eps s f' with
  | zero => simp [mainLoop] at h
  | succ f ih =>
    obtain ⟨g, rfl⟩ : ∃ g, f' = g + 1 := ⟨f' - 1, by omega⟩
    unfold mainLoop at h ⊢
    split at h
    · rename_i h0
      rw [if_pos h0]
      cases hr : refine adj N (updateEpsilon eps minEps) po fR s with
      | none => rw [hr] at h; cases h
      | some t =>
        rw [hr] at h
        have hr' : refine adj N (updateEpsilon eps minEps) po fR' s = some t :=
          refineLoop_mono adj _ po fR fR' hR _ _ hr
        rw [hr']
        exact ih g (by omega) _ t h
    · rename_i h0
      rw [if_neg h0]; exact h

/-- The scaling loop ends. -/
theorem mainLoop_total {adj N po minEps} (hpo : 0 ≤ po) (hmin : 0 < minEps) {σ : Nat → Nat}
    (hσ : PMat adj N σ) {C : ℚ} (hC : CostLe adj N C) (hh : HeadLt adj N) (k : Nat) (eps : ℚ)
    (hk : eps ≤ minEps * 10 ^ k) (s : CsaState) (idle : Idle adj N s) :
    ∃ F s', mainLoop adj N po minEps F (k + 1) eps s = some s' := by
  have hlow : ∀ p : Nat → ℚ, ∃ m0 : ℚ, ∀ w, w < N → m0 ≤ p w := by
    intro p
    induction N with
    | zero => exact ⟨0, by intro w hw; omega⟩
    | succ n ih =>
      clear ih
      have : ∀ n, ∃ m0 : ℚ, ∀ w, w < n → m0 ≤ p w := by
        intro n
        induction n with
        | zero => exact ⟨0, by intro w hw; omega⟩
        | succ n ih =>
          obtain ⟨m, hm⟩ := ih
          refine ⟨min m (p n), ?_⟩
          intro w hw
          by_cases h : w = n
          · subst h; exact min_le_right _ _
          · exact (min_le_left _ _).trans (hm w (by omega))
      exact this (n + 1)
  induction k generalizing eps s with
  | zero =>
    refine ⟨0, s, ?_⟩
    unfold mainLoop
    rw [if_neg]
    simpa using hk
  | succ k ih =>
    by_cases hle : eps > minEps
    · have hge := updateEpsilon_ge eps minEps
      have hpos : 0 < updateEpsilon eps minEps := lt_of_lt_of_le hmin hge
      have hinit := refineInit_inv idle (updateEpsilon eps minEps)
      obtain ⟨m0, hm0⟩ := hlow s.p
      obtain ⟨G, t, ht⟩ : ∃ G t, refineLoop adj (updateEpsilon eps minEps) po G
          (refineInit adj N s) = some t :=
        ⟨_, refineLoop_total hpos hpo hσ hC hh hm0 _ _ hinit.1 (Nat.lt_succ_self _)⟩
      have inv := refineLoop_inv hpos hpo _ _ t hinit.1 ht
      have hk' : updateEpsilon eps minEps ≤ minEps * 10 ^ k := by
        unfold updateEpsilon
        split
        · have : (1 : ℚ) ≤ 10 ^ k := one_le_pow₀ (by norm_num)
          nlinarith
        · unfold scaleFactor
          rw [pow_succ] at hk
          rw [div_le_iff₀ (by norm_num)]
          linarith
      obtain ⟨F, s', hs'⟩ := ih _ hk' t (inv.1.idle inv.2)
      refine ⟨max F G, s', ?_⟩
      · unfold mainLoop
        rw [if_pos hle]
        have hr : refine adj N (updateEpsilon eps minEps) po (max F G) s = some t :=
          refineLoop_mono adj _ po _ _ (le_max_right F G) _ _ ht
        rw [hr]
        exact mainLoop_mono adj N po minEps F _ (le_max_left _ _) _ _ (le_refl _) _ _ _ hs'
    · refine ⟨0, s, ?_⟩
      unfold mainLoop
      rw [if_neg hle]

/-- All left nodes are matched at the end of a refine phase. -/
theorem matched_all {adj N eps p0 s} (inv : CsaInv adj N eps p0 s) (h0 : s.totalE = 0) (v : Nat)
    (hv : v < N) : ∃ k, s.mL v = some k := by
  cases hm : s.mL v with
  | some k => exact ⟨k, rfl⟩
  | none =>
    have := (inv.act v).mpr ⟨hv, hm⟩
    have e : s.active = [] := List.length_eq_zero_iff.mp (by rw [← inv.excess]; exact h0)
    rw [e] at this
    simp at this

/-- The final matching, as a choice of arcs. -/
theorem final_pmat {adj N eps p0 s} (inv : CsaInv adj N eps p0 s) (h0 : s.totalE = 0)
    (hh : HeadLt adj N) : PMat adj N (fun v => (s.mL v).getD 0) := by
  have hget : ∀ v, v < N → s.mL v = some ((s.mL v).getD 0) := by
    intro v hv
    obtain ⟨k, hk⟩ := matched_all inv h0 v hv
    rw [hk]; rfl
  refine ⟨fun v hv => (inv.mLR v _ (hget v hv)).2.1, fun v hv => hh v _ hv (inv.mLR v _ (hget v hv)).2.1, ?_⟩
  intro v v' hv hv' he
  have h1 := (inv.mLR v _ (hget v hv)).2.2
  have h2 := (inv.mLR v' _ (hget v' hv')).2.2
  rw [he, h2] at h1
  cases h1; rfl

theorem pmat_sum_p {adj N σ} (hσ : PMat adj N σ) (p : Nat → ℚ) :
    ∑ v ∈ Finset.range N, p (hd adj v (σ v)) = ∑ w ∈ Finset.range N, p w := by
  have hinj : Set.InjOn (fun v => hd adj v (σ v)) (Finset.range N : Set Nat) := by
    intro a ha b hb hab
    exact hσ.inj a b (by simpa using ha) (by simpa using hb) hab
  have himg : (Finset.range N).image (fun v => hd adj v (σ v)) = Finset.range N := by
    apply Finset.eq_of_subset_of_card_le
    · intro w hw
      obtain ⟨v, hv, rfl⟩ := Finset.mem_image.mp hw
      exact Finset.mem_range.mpr (hσ.range v (Finset.mem_range.mp hv))
    · rw [Finset.card_image_of_injOn hinj]
  conv_rhs => rw [← himg]
  rw [Finset.sum_image hinj]

/-- ε-optimality with `N * eps < 1` and integer costs is optimality. -/
theorem final_optimal {adj N eps p0 s} (inv : CsaInv adj N eps p0 s) (h0 : s.totalE = 0)
    (hh : HeadLt adj N) (heps : N * eps < 1) {σ : Nat → Nat} (hσ : PMat adj N σ) :
    ∑ v ∈ Finset.range N, (arcAt adj v ((s.mL v).getD 0)).cost ≤
      ∑ v ∈ Finset.range N, (arcAt adj v (σ v)).cost := by
  have hτ := final_pmat inv h0 hh
  have hget : ∀ v, v < N → s.mL v = some ((s.mL v).getD 0) := by
    intro v hv
    obtain ⟨k, hk⟩ := matched_all inv h0 v hv
    rw [hk]; rfl
  have h1 : ∑ v ∈ Finset.range N, redCost adj s.p v ((s.mL v).getD 0) ≤
      ∑ v ∈ Finset.range N, (redCost adj s.p v (σ v) + eps) := by
    apply Finset.sum_le_sum
    intro v hv
    have hv' := Finset.mem_range.mp hv
    exact inv.eopt v _ (hget v hv') (σ v) (hσ.valid v hv')
  rw [Finset.sum_add_distrib, Finset.sum_const, Finset.card_range, nsmul_eq_mul] at h1
  have e : ∀ τ : Nat → Nat, PMat adj N τ → ∑ v ∈ Finset.range N, redCost adj s.p v (τ v) =
      ((∑ v ∈ Finset.range N, (arcAt adj v (τ v)).cost : Int) : ℚ) - ∑ w ∈ Finset.range N, s.p w := by
    intro τ hτ
    unfold redCost
    rw [Finset.sum_sub_distrib, ← pmat_sum_p hτ s.p]
    push_cast
    rfl
  rw [e _ hτ, e _ hσ] at h1
  have h2 : ((∑ v ∈ Finset.range N, (arcAt adj v ((s.mL v).getD 0)).cost : Int) : ℚ) <
      ((∑ v ∈ Finset.range N, (arcAt adj v (σ v)).cost + 1 : Int) : ℚ) := by
    push_cast at h1 ⊢
    linarith
  have h3 := Int.cast_lt.mp h2
  omega

/-! ### From the arc lists back to the input graph -/

theorem csaParse_ok {N : Nat} {g : List InArc} (hg : WellFormedGraph N g) :
    csaParse (2 * N) g = some fun v =>
      (g.filter (fun a => a.tail = v + 1)).map fun a => ⟨a.head - N - 1, a.cost⟩ := by
  unfold csaParse
  have e : 2 * N / 2 = N := by omega
  rw [e, if_pos]
  rw [List.all_eq_true]
  intro a ha
  obtain ⟨h1, h2, h3, h4⟩ := hg a ha
  simp [h1, h2, h3, h4]

/-- The arc lists built by `csaParse`. -/
def adjOf (N : Nat) (g : List InArc) : Nat → List Arc := fun v =>
  (g.filter (fun a => a.tail = v + 1)).map fun a => ⟨a.head - N - 1, a.cost⟩

theorem adjOf_mem {N : Nat} {g : List InArc} {v k : Nat} (hk : k < (adjOf N g v).length) :
    ∃ a ∈ g, a.tail = v + 1 ∧ arcAt (adjOf N g) v k = ⟨a.head - N - 1, a.cost⟩ := by
  have hmem : arcAt (adjOf N g) v k ∈ adjOf N g v := by
    unfold arcAt
    rw [List.getD_eq_getElem?_getD, List.getElem?_eq_getElem hk]
    exact List.getElem_mem hk
  simp only [adjOf, List.mem_map, List.mem_filter, decide_eq_true_eq] at hmem
  obtain ⟨a, ⟨h1, h2⟩, h3⟩ := hmem
  exact ⟨a, h1, h2, by rw [← h3]⟩

theorem adjOf_idx {N : Nat} {g : List InArc} {a : InArc} (ha : a ∈ g) {v : Nat} (hv : a.tail = v + 1) :
    ∃ k, k < (adjOf N g v).length ∧ arcAt (adjOf N g) v k = ⟨a.head - N - 1, a.cost⟩ := by
  have hmem : (⟨a.head - N - 1, a.cost⟩ : Arc) ∈ adjOf N g v := by
    simp only [adjOf, List.mem_map, List.mem_filter, decide_eq_true_eq]
    exact ⟨a, ⟨ha, hv⟩, rfl⟩
  obtain ⟨k, hk, e⟩ := List.getElem_of_mem hmem
  refine ⟨k, hk, ?_⟩
  unfold arcAt
  rw [List.getD_eq_getElem?_getD, List.getElem?_eq_getElem hk]
  exact e

theorem adjOf_headLt {N : Nat} {g : List InArc} (hg : WellFormedGraph N g) : HeadLt (adjOf N g) N := by
  intro v k _ hk
  obtain ⟨a, ha, _, e⟩ := adjOf_mem hk
  unfold hd
  rw [e]
  obtain ⟨h1, h2, h3, h4⟩ := hg a ha
  simp only
  omega

theorem maxCost_le (g : List InArc) : ∀ a ∈ g, a.cost.natAbs ≤ csaMaxCost g := by
  have key : ∀ (l : List InArc) (m : Nat), m ≤ l.foldl (fun m a => max m a.cost.natAbs) m ∧
      ∀ a ∈ l, a.cost.natAbs ≤ l.foldl (fun m a => max m a.cost.natAbs) m := by
    intro l
    induction l with
    | nil => intro m; simp
    | cons b l ih =>
      intro m
      obtain ⟨h1, h2⟩ := ih (max m b.cost.natAbs)
      refine ⟨(le_max_left _ _).trans h1, ?_⟩
      intro a ha
      rcases List.mem_cons.mp ha with rfl | ha
      · exact (le_max_right _ _).trans h1
      · exact h2 a ha
  exact (key g 0).2

theorem adjOf_costLe (N : Nat) (g : List InArc) : CostLe (adjOf N g) N (csaMaxCost g) := by
  intro v k _ hk
  obtain ⟨a, ha, _, e⟩ := adjOf_mem hk
  rw [e]
  have := maxCost_le g a ha
  simp only
  have h2 : |(a.cost : ℚ)| = ((a.cost.natAbs : Nat) : ℚ) := by
    rw [Nat.cast_natAbs, Int.cast_abs]
  rw [h2]
  exact_mod_cast this

theorem sum_range_list (N : Nat) (F : Nat → Int) :
    ∑ v ∈ Finset.range N, F v = ((List.range N).map F).sum := by
  induction N with
  | zero => rfl
  | succ n ih => rw [Finset.sum_range_succ, List.range_succ, ih]; simp

/-- A perfect matching of the input graph gives a choice of arcs with the same cost. -/
theorem pmat_of_matching {N : Nat} {g M : List InArc} (hg : WellFormedGraph N g)
    (hM : IsPerfectMatching N g M) : ∃ σ, PMat (adjOf N g) N σ ∧
      ∑ v ∈ Finset.range N, (arcAt (adjOf N g) v (σ v)).cost = totalCost M := by
  obtain ⟨m1, m2, m3⟩ := hM
  have hex : ∀ v, v < N → ∃ a ∈ M, a.tail = v + 1 := by
    intro v hv
    have : v + 1 ∈ M.map InArc.tail := m2.mem_iff.mpr (by simp [List.mem_range'_1]; omega)
    obtain ⟨a, ha, e⟩ := List.mem_map.mp this
    exact ⟨a, ha, e⟩
  have hex2 : ∀ v, ∃ k, v < N → ∃ a ∈ M, a.tail = v + 1 ∧ k < (adjOf N g v).length ∧
      arcAt (adjOf N g) v k = ⟨a.head - N - 1, a.cost⟩ := by
    intro v
    by_cases hv : v < N
    · obtain ⟨a, ha, e⟩ := hex v hv
      obtain ⟨k, hk, hk2⟩ := adjOf_idx (N := N) (m1 a ha) e
      exact ⟨k, fun _ => ⟨a, ha, e, hk, hk2⟩⟩
    · exact ⟨0, fun h => absurd h hv⟩
  choose σ hσ using hex2
  have htinj : ∀ a ∈ M, ∀ b ∈ M, a.tail = b.tail → a = b :=
    fun a ha b hb => List.inj_on_of_nodup_map (m2.nodup_iff.mpr List.nodup_range') ha hb
  have hhinj : ∀ a ∈ M, ∀ b ∈ M, a.head = b.head → a = b :=
    fun a ha b hb => List.inj_on_of_nodup_map (m3.nodup_iff.mpr List.nodup_range') ha hb
  refine ⟨σ, ⟨?_, ?_, ?_⟩, ?_⟩
  · intro v hv; obtain ⟨_, _, _, h, _⟩ := hσ v hv; exact h
  · intro v hv
    obtain ⟨a, ha, _, h, e⟩ := hσ v hv
    exact adjOf_headLt hg v _ hv h
  · intro v v' hv hv' he
    obtain ⟨a, ha, e1, _, e2⟩ := hσ v hv
    obtain ⟨b, hb, f1, _, f2⟩ := hσ v' hv'
    unfold hd at he
    rw [e2, f2] at he
    simp only at he
    have ga := hg a (m1 a ha)
    have gb := hg b (m1 b hb)
    have := hhinj a ha b hb (by omega)
    subst this
    omega
  · have hF : ∀ a ∈ M, a.cost = (arcAt (adjOf N g) (a.tail - 1) (σ (a.tail - 1))).cost := by
      intro a ha
      have ga := hg a (m1 a ha)
      obtain ⟨b, hb, f1, _, f2⟩ := hσ (a.tail - 1) (by omega)
      have := htinj a ha b hb (by omega)
      subst this
      rw [f2]
    unfold totalCost
    have e1 : M.map InArc.cost = (M.map InArc.tail).map
        (fun t => (arcAt (adjOf N g) (t - 1) (σ (t - 1))).cost) := by
      rw [List.map_map]
      apply List.map_congr_left
      intro a ha
      exact hF a ha
    rw [e1, (m2.map _).sum_eq, List.range'_eq_map_range, List.map_map, sum_range_list]
    congr 1
    apply List.map_congr_left
    intro i _
    simp

/-- The stored result is a perfect matching of the input graph, with the cost of the chosen arcs. -/
theorem storeResults_spec {N : Nat} {g : List InArc} (hg : WellFormedGraph N g) {s : CsaState}
    (hm : ∀ v, v < N → ∃ k, s.mL v = some k)
    (hp : PMat (adjOf N g) N (fun v => (s.mL v).getD 0)) :
    ∃ out, storeResults (adjOf N g) N s = some out ∧ IsPerfectMatching N g out ∧
      out.map InArc.tail = List.range' 1 N ∧
      totalCost out = ∑ v ∈ Finset.range N, (arcAt (adjOf N g) v ((s.mL v).getD 0)).cost := by
  let f : Nat → InArc := fun v => ⟨v + 1, (arcAt (adjOf N g) v ((s.mL v).getD 0)).head + 1 + N,
    (arcAt (adjOf N g) v ((s.mL v).getD 0)).cost⟩
  have hres : storeResults (adjOf N g) N s = some ((List.range N).map f) := by
    unfold storeResults
    have : ∀ l : List Nat, (∀ v ∈ l, v < N) → (l.mapM fun (v : Nat) => (s.mL v).map fun k =>
        (⟨v + 1, (arcAt (adjOf N g) v k).head + 1 + N, (arcAt (adjOf N g) v k).cost⟩ : InArc)) =
        some (l.map f) := by
      intro l
      induction l with
      | nil => intro _; rfl
      | cons v l ih =>
        intro h
        obtain ⟨k, hk⟩ := hm v (h v List.mem_cons_self)
        rw [List.mapM_cons, ih (fun x hx => h x (List.mem_cons_of_mem _ hx)), hk]
        simp [f, hk]
    exact this _ (fun v hv => List.mem_range.mp hv)
  have ht : ((List.range N).map f).map InArc.tail = List.range' 1 N := by
    rw [List.map_map, List.range'_eq_map_range]
    apply List.map_congr_left
    intro v _
    simp [f]; omega
  refine ⟨_, hres, ⟨?_, ?_, ?_⟩, ht, ?_⟩
  · intro a ha
    obtain ⟨v, hv, rfl⟩ := List.mem_map.mp ha
    have hv' := List.mem_range.mp hv
    obtain ⟨b, hb, e1, e2⟩ := adjOf_mem (hp.valid v hv')
    have gb := hg b hb
    have : f v = b := by
      simp only [f]
      rw [e2]
      obtain ⟨bt, bh, bc⟩ := b
      simp only at e1 gb ⊢
      subst e1
      simp only [InArc.mk.injEq, true_and, and_true]
      omega
    rw [this]; exact hb
  · rw [ht]
  · rw [List.map_map]
    have hnd : ((List.range N).map (InArc.head ∘ f)).Nodup := by
      apply List.Nodup.map_on _ List.nodup_range
      intro a ha b hb hab
      simp only [f, Function.comp] at hab
      exact hp.inj a b (List.mem_range.mp ha) (List.mem_range.mp hb) (by unfold hd; omega)
    apply (List.subperm_of_subset hnd ?_).perm_of_length_le
    · simp
    · intro x hx
      obtain ⟨v, hv, rfl⟩ := List.mem_map.mp hx
      have := hp.range v (List.mem_range.mp hv)
      unfold hd at this
      simp only [f, Function.comp, List.mem_range'_1] at this ⊢
      omega
  · unfold totalCost
    rw [List.map_map, sum_range_list]
    rfl

theorem csaSolve_unfold {N : Nat} {g : List InArc} (hg : WellFormedGraph N g) (fuel : Nat) :
    csaSolve fuel (2 * N) g =
      (mainLoop (adjOf N g) N (2 * ((2 * N : Nat) : ℚ) * (scaleFactor + 1)) (2 / (((2 * N : Nat) : ℚ) + 1)) fuel fuel
        (csaMaxCost g) (csaInit (adjOf N g))).bind (storeResults (adjOf N g) N) := by
  unfold csaSolve
  rw [csaParse_ok hg]
  have e : 2 * N / 2 = N := by omega
  rw [e]
  rfl

theorem minEps_pos (N : Nat) : (0 : ℚ) < 2 / (((2 * N : Nat) : ℚ) + 1) := by positivity

theorem N_minEps (N : Nat) : (N : ℚ) * (2 / (((2 * N : Nat) : ℚ) + 1)) < 1 := by
  rw [mul_div_assoc', div_lt_one (by positivity)]
  push_cast
  linarith

theorem minEps_lt (N C : Nat) (hN : 0 < N) (hC : 1 ≤ C) : 2 / (((2 * N : Nat) : ℚ) + 1) < (C : ℚ) := by
  rw [div_lt_iff₀ (by positivity)]
  have h1 : (1 : ℚ) ≤ N := by exact_mod_cast hN
  have h2 : (1 : ℚ) ≤ C := by exact_mod_cast hC
  push_cast
  nlinarith

end EdgeEval
