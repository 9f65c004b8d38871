import Verif.Lemmas.CsaFloatTotal

/-!
# The solver with rounding to nearest: the scaling loop ends
-/

namespace EdgeEval

variable {fl : ℚ → ℚ}

theorem cons_matched {adj N s} (inv : Cons adj N s) (h0 : s.totalE = 0) (v : Nat) (hv : v < N) : ∃ k, s.mL v = some k := by
  cases hm : s.mL v with
  | some k => exact ⟨k, rfl⟩
  | none =>
    have := (inv.act v).mpr ⟨hv, hm⟩
    have e : s.active = [] := List.length_eq_zero_iff.mp (by rw [← inv.excess]; exact h0)
    rw [e] at this
    simp at this

theorem mainLoopF_matched {adj N po minEps} (fuelR fuel : Nat) (eps : ℚ) (s s' : CsaState) (idle : IdleC adj N s)
    (hs : minEps < eps ∨ ∀ v, v < N → ∃ k, s.mL v = some k)
    (h : mainLoopF fl adj N po minEps fuelR fuel eps s = some s') : ∀ v, v < N → ∃ k, s'.mL v = some k := by
  induction fuel generalizing eps s with
  | zero => simp [mainLoopF] at h
  | succ f ih =>
    unfold mainLoopF at h
    split at h
    · cases hr : refineF fl adj N (updateEpsilonF fl eps minEps) po fuelR s with
      | none => rw [hr] at h; cases h
      | some t =>
        rw [hr] at h
        have inv := refineLoopF_cons fuelR _ t (refineInit_cons idle) hr
        exact ih _ t (inv.1.idle inv.2) (.inr (cons_matched inv.1 inv.2)) h
    · rename_i hle
      cases h
      rcases hs with hs | hs
      · exact absurd hs hle
      · exact hs

/-- Part of the drop of a phase that does not depend on epsilon. -/
def dropA (N C M : Nat) : ℚ := (2 * N + 1) * (2 * C + 11 * (M / 2 ^ 53)) + 14 * (M / 2 ^ 53)
/-- Factor of epsilon in the drop of a phase. -/
def dropQ (N Q : Nat) : ℚ := (2 * N + 1) + Q + 1

theorem phaseLow_eq (N C M Q : Nat) (eps m0 : ℚ) : phaseLow N C M Q eps m0 = m0 - dropA N C M - dropQ N Q * eps := by
  unfold phaseLow dropG dropX dropA dropQ; ring

theorem mainLoopF_total {adj : Nat → List Arc} {N C M Q : Nat} {po : ℚ} {σ : Nat → Nat} {minEps : ℚ}
    (ctx : RunCtx fl adj N C M Q po σ) (hmin : 0 < minEps) (hmf : IsF64 minEps)
    (hes : (M : ℚ) / 2 ^ 53 ≤ minEps / 2) (r : Nat) (eps m0 : ℚ) (hr : eps ≤ minEps * 9 ^ r)
    (hm : m0 ≤ 0) (hb : (C : ℚ) - M ≤ m0 - r * (dropA N C M + dropQ N Q * minEps) - dropQ N Q * eps / 8)
    (s : CsaState) (idle : IdleC adj N s) (pw : PW fl adj N s) (hm0 : ∀ w, w < N → m0 ≤ s.p w) :
    ∃ F s', mainLoopF fl adj N po minEps F (r + 1) eps s = some s' ∧
      ((0 < eps) → ∀ w, w < N → (C : ℚ) - M ≤ s'.p w) := by
  have H := ctx.H
  have hM1' : (1 : ℚ) ≤ M := by exact_mod_cast ctx.hM1
  have hA : 0 ≤ dropA N C M := by unfold dropA; positivity
  have hQ : 0 ≤ dropQ N Q := by unfold dropQ; positivity
  have hstop : ∀ (eps m0 : ℚ) (r : Nat) (s : CsaState), (C : ℚ) - M ≤ m0 - r * (dropA N C M + dropQ N Q * minEps) - dropQ N Q * eps / 8 →
      (∀ w, w < N → m0 ≤ s.p w) → 0 < eps → ∀ w, w < N → (C : ℚ) - M ≤ s.p w := by
    intro eps m0 r s hb hm0 he w hw
    have h1 := hm0 w hw
    have h2 : 0 ≤ r * (dropA N C M + dropQ N Q * minEps) := by positivity
    have h3 : 0 ≤ dropQ N Q * eps / 8 := by positivity
    linarith
  induction r generalizing eps m0 s with
  | zero =>
    refine ⟨0, s, ?_, fun he => hstop eps m0 0 s hb hm0 he⟩
    unfold mainLoopF
    rw [if_neg]
    simpa using hr
  | succ r ih =>
    by_cases hle : eps > minEps
    · have hge := updateEpsilonF_ge fl eps minEps
      have hpos : 0 < updateEpsilonF fl eps minEps := lt_of_lt_of_le hmin hge
      have h9 : fl (eps / scaleFactor) ≤ eps / 9 := by
        unfold scaleFactor
        have hbig : (2 : ℚ) ^ (-1022 : ℤ) ≤ |eps / 10| := by
          rw [abs_of_pos (by linarith)]
          have h1 : (1 : ℚ) / 2 ^ 53 ≤ M / 2 ^ 53 := by gcongr
          have h2 : (1 : ℚ) / 2 ^ 53 ≤ eps := by linarith
          have h3 : (2 : ℚ) ^ (-1022 : ℤ) ≤ 2 ^ (-57 : ℤ) := zpow_le_zpow_right₀ (by norm_num) (by norm_num)
          have h4 : (2 : ℚ) ^ (-57 : ℤ) ≤ (1 / 2 ^ 53) / 10 := by norm_num
          exact h3.trans (h4.trans (by linarith only [h2]))
        have h1 := (abs_le.mp (H.rel_err (eps / 10) hbig)).2
        rw [abs_of_pos (by linarith)] at h1
        have h2 : (1 : ℚ) / 2 ^ 53 * (eps / 10) ≤ 1 / 10 * (eps / 10) := by
          apply mul_le_mul_of_nonneg_right _ (by linarith)
          norm_num
        linarith
      have hcase : updateEpsilonF fl eps minEps = minEps ∨ updateEpsilonF fl eps minEps ≤ eps / 9 := by
        unfold updateEpsilonF
        split
        · exact .inl rfl
        · exact .inr h9
      have hef : IsF64 (updateEpsilonF fl eps minEps) := by
        unfold updateEpsilonF
        split
        · exact hmf
        · exact H.rep _
      generalize hE : updateEpsilonF fl eps minEps = e' at hge hpos hcase hef
      have hb' : (C : ℚ) - M ≤ (m0 - dropA N C M - dropQ N Q * e') - r * (dropA N C M + dropQ N Q * minEps) - dropQ N Q * e' / 8 := by
        push_cast at hb
        rcases hcase with h | h
        · rw [h]
          have : dropQ N Q * minEps ≤ dropQ N Q * eps := mul_le_mul_of_nonneg_left hle.le hQ
          linarith
        · have h1 : dropQ N Q * e' ≤ dropQ N Q * (eps / 9) := mul_le_mul_of_nonneg_left h hQ
          have h2 : 0 ≤ dropQ N Q * minEps := by positivity
          linarith
      have hL : (C : ℚ) - M ≤ phaseLow N C M Q e' m0 := by
        rw [phaseLow_eq]
        have h2 : 0 ≤ r * (dropA N C M + dropQ N Q * minEps) := by positivity
        have h3 : 0 ≤ dropQ N Q * e' / 8 := by positivity
        linarith
      have hqe : dropQ N Q * e' ≤ M := by
        rw [phaseLow_eq] at hL
        have : (0 : ℚ) ≤ C := by positivity
        linarith
      have hN0 : (0 : ℚ) ≤ N := by positivity
      have hQ0 : (0 : ℚ) ≤ Q := by positivity
      have heM : e' ≤ M := by
        unfold dropQ at hqe
        nlinarith
      have heQ : e' * Q ≤ M := by
        unfold dropQ at hqe
        nlinarith
      obtain ⟨t, ht, pinv⟩ := phase_total ctx hpos hef heM heQ (by linarith) hm0 hL _ _
        (phase_start (Q := Q) hpos.le idle pw hm0) (Nat.lt_succ_self _)
      have inv := refineLoopF_cons _ _ t (refineInit_cons idle) ht
      have hk' : e' ≤ minEps * 9 ^ r := by
        rcases hcase with h | h
        · rw [h]
          have : (1 : ℚ) ≤ 9 ^ r := one_le_pow₀ (by norm_num)
          nlinarith
        · rw [pow_succ] at hr
          linarith
      have hlow := fun w hw => pinv.low (p0 := s.p) hpos.le w hw
      rw [phaseLow_eq] at hlow
      have hm' : m0 - dropA N C M - dropQ N Q * e' ≤ 0 := by
        have : 0 ≤ dropQ N Q * e' := by positivity
        linarith
      obtain ⟨F, s', hs', hs2⟩ := ih e' (m0 - dropA N C M - dropQ N Q * e') hk' hm' hb' t (inv.1.idle inv.2) pinv.pw hlow
      refine ⟨max F (pot N (m0 - (N + 1) * dropG C M e') (e' / 2) (refineInit adj N s).p + 1), s', ?_, fun _ => hs2 hpos⟩
      unfold mainLoopF
      rw [if_pos hle, hE]
      have hr' : refineF fl adj N e' po (max F (pot N (m0 - (N + 1) * dropG C M e') (e' / 2) (refineInit adj N s).p + 1)) s =
          some t := refineLoopF_mono fl adj _ po _ _ (le_max_right _ _) _ _ ht
      rw [hr']
      exact mainLoopF_mono fl adj N po minEps F _ (le_max_left _ _) _ _ (le_refl _) _ _ _ hs'
    · refine ⟨0, s, ?_, fun he => hstop eps m0 _ s hb hm0 he⟩
      unfold mainLoopF
      rw [if_neg hle]

end EdgeEval
