import Verif.Lemmas.CsaFloatPrice

/-!
# The solver with rounding to nearest: bounds on the prices, termination
-/

namespace EdgeEval

variable {fl : ℚ → ℚ}

/-! ### Alternating walks (as in `CsaPush`, for the price-free invariant) -/

theorem walkC_lt {adj N s} (inv : Cons adj N s) (σ : Nat → Nat) {v0 : Nat} (h0 : v0 < N)
    (i v : Nat) (h : walk adj s σ v0 i = some v) : v < N := by
  cases i with
  | zero => simp only [walk, Option.some.injEq] at h; omega
  | succ i =>
    simp only [walk, Option.bind_eq_some_iff] at h
    obtain ⟨u, _, hu⟩ := h
    obtain ⟨k, hk, _⟩ := inv.mRL _ _ hu
    exact (inv.mLR _ _ hk).1

theorem walkC_inj {adj N s} (inv : Cons adj N s) {σ : Nat → Nat} (hσ : PMat adj N σ)
    {v0 : Nat} (h0 : v0 < N) (hun : s.mL v0 = none) (i j v : Nat) (hi : walk adj s σ v0 i = some v)
    (hj : walk adj s σ v0 j = some v) : i = j := by
  have hsucc : ∀ i v, walk adj s σ v0 (i + 1) = some v → ∃ k, s.mL v = some k := by
    intro i v h
    simp only [walk, Option.bind_eq_some_iff] at h
    obtain ⟨u, _, hu⟩ := h
    obtain ⟨k, hk, _⟩ := inv.mRL _ _ hu
    exact ⟨k, hk⟩
  induction i generalizing j v with
  | zero =>
    simp only [walk, Option.some.injEq] at hi
    subst hi
    cases j with
    | zero => rfl
    | succ j => obtain ⟨k, hk⟩ := hsucc j _ hj; rw [hun] at hk; cases hk
  | succ i ih =>
    cases j with
    | zero =>
      simp only [walk, Option.some.injEq] at hj
      subst hj
      obtain ⟨k, hk⟩ := hsucc i _ hi; rw [hun] at hk; cases hk
    | succ j =>
      simp only [walk, Option.bind_eq_some_iff] at hi hj
      obtain ⟨a, ha, ha'⟩ := hi
      obtain ⟨b, hb, hb'⟩ := hj
      obtain ⟨k1, e1, f1⟩ := inv.mRL _ _ ha'
      obtain ⟨k2, e2, f2⟩ := inv.mRL _ _ hb'
      rw [e1] at e2; cases e2
      have hab : a = b := hσ.inj a b (walkC_lt inv σ h0 i a ha) (walkC_lt inv σ h0 j b hb) (f1.symm.trans f2)
      subst hab
      rw [ih j a ha hb]

theorem walkC_ends {adj N s} (inv : Cons adj N s) {σ : Nat → Nat} (hσ : PMat adj N σ)
    {v0 : Nat} (h0 : v0 < N) (hun : s.mL v0 = none) :
    ∃ i v, i < N ∧ walk adj s σ v0 i = some v ∧ s.mR (hd adj v (σ v)) = none := by
  by_contra hcon
  push Not at hcon
  have hall : ∀ i, i ≤ N → ∃ v, walk adj s σ v0 i = some v := by
    intro i
    induction i with
    | zero => intro _; exact ⟨v0, rfl⟩
    | succ i ih =>
      intro hi
      obtain ⟨v, hv⟩ := ih (by omega)
      have := hcon i v (by omega) hv
      cases hm : s.mR (hd adj v (σ v)) with
      | none => exact absurd hm this
      | some u => exact ⟨u, by simp [walk, hv, hm]⟩
  choose f hf using hall
  let g : Fin (N + 1) → Fin N := fun i => ⟨f i.1 (by omega), walkC_lt inv σ h0 _ _ (hf i.1 (by omega))⟩
  have hg : Function.Injective g := by
    intro a b hab
    have : f a.1 (by omega) = f b.1 (by omega) := by simpa [g] using hab
    have h1 := hf a.1 (by omega)
    rw [this] at h1
    exact Fin.ext (walkC_inj inv hσ h0 hun _ _ _ h1 (hf b.1 (by omega)))
  have := Fintype.card_le_of_injective g hg
  simp at this

theorem priceC_bound {adj N s} (inv : Cons adj N s) {E : ℚ} (heo : EOpt adj E s) {p0 : Nat → ℚ}
    (hunt : ∀ w, s.mR w = none → s.p w = p0 w) {σ : Nat → Nat} (hσ : PMat adj N σ)
    {C m0 : ℚ} (hC : CostLe adj N C) (hE : 0 ≤ E) (hm0 : ∀ w, w < N → m0 ≤ p0 w) {v0 : Nat} (h0 : v0 < N)
    (hun : s.mL v0 = none) : m0 - N * (2 * C + E) ≤ s.p (hd adj v0 (σ v0)) := by
  obtain ⟨i, v, hi, hw, hnone⟩ := walkC_ends inv hσ h0 hun
  have hC0 : 0 ≤ C := (abs_nonneg _).trans (hC v0 (σ v0) h0 (hσ.valid v0 h0))
  have step : ∀ i v, walk adj s σ v0 i = some v →
      s.p (hd adj v (σ v)) ≤ s.p (hd adj v0 (σ v0)) + i * (2 * C + E) := by
    intro i
    induction i with
    | zero => intro v h; simp only [walk, Option.some.injEq] at h; subst h; simp
    | succ i ih =>
      intro v h
      have hvN := walkC_lt inv σ h0 _ _ h
      simp only [walk, Option.bind_eq_some_iff] at h
      obtain ⟨u, hu, hu'⟩ := h
      obtain ⟨k, hk, hkw⟩ := inv.mRL _ _ hu'
      have h1 := heo v k hk (σ v) (hσ.valid v hvN)
      unfold redCost at h1
      have e1 : (arcAt adj v k).head = hd adj u (σ u) := hkw
      have e2 : (arcAt adj v (σ v)).head = hd adj v (σ v) := rfl
      rw [e1, e2] at h1
      have h2 := abs_le.mp (hC v k hvN (inv.mLR v k hk).2.1)
      have h3 := abs_le.mp (hC v (σ v) hvN (hσ.valid v hvN))
      have h4 := ih u hu
      push_cast
      linarith [h2.1, h3.2]
  have h1 := step i v hw
  have hvN := walkC_lt inv σ h0 _ _ hw
  rw [hunt _ hnone] at h1
  have h2 := hm0 _ (hσ.range v hvN)
  have h3 : (i : ℚ) * (2 * C + E) ≤ N * (2 * C + E) := by
    apply mul_le_mul_of_nonneg_right
    · exact_mod_cast hi.le
    · linarith
  linarith

/-! ### How far a push lowers a price -/

section low

variable {adj : Nat → List Arc} {N : Nat} {eps : ℚ} {s : CsaState} {v : Nat} {sc : Scan} {M C : Nat}

theorem rcF_err (H : RoundsNearest fl) (hM1 : 1 ≤ M) (hM : 5 * M ≤ 2 ^ 53) (hC : CostLe adj N C) (hv : v < N)
    (hh : HeadLt adj N) (pw : PW fl adj N s) (hlow : ∀ w, w < N → (C : ℚ) - M ≤ s.p w) {k : Nat}
    (hk : k < (adj v).length) :
    |redCostF fl adj s.p v k| ≤ M ∧ |redCostF fl adj s.p v k - redCost adj s.p v k| ≤ M / 2 ^ 53 := by
  have hM1' : (1 : ℚ) ≤ M := by exact_mod_cast hM1
  have hrcb : |redCost adj s.p v k| ≤ M := by
    have h1 := abs_le.mp (hC v k hv hk)
    have h2 := hlow _ (hh v k hv hk)
    have h3 := pw.nonpos (hd adj v k)
    unfold redCost
    have e : (arcAt adj v k).head = hd adj v k := rfl
    rw [e, abs_le]
    have : (0 : ℚ) ≤ C := (abs_nonneg _).trans (hC v k hv hk)
    constructor <;> linarith [h1.1, h1.2]
  have := H.abs_le_nat (by omega) hrcb
  exact ⟨this, H.err_of_res hM1' this⟩

/-- One rounding of a number between `-k*M` and `k*M`. -/
theorem err_nat (H : RoundsNearest fl) (hM1 : 1 ≤ M) (hM : 5 * M ≤ 2 ^ 53) (k : Nat) (hk0 : 1 ≤ k) (hk : k ≤ 5) {x : ℚ}
    (hx : |x| ≤ k * M) : |fl x| ≤ k * M ∧ |fl x - x| ≤ k * (M / 2 ^ 53) := by
  have h1 : k * M ≤ 2 ^ 53 := (Nat.mul_le_mul_right M hk).trans hM
  have h2 := H.abs_le_nat (M := k * M) h1 (by push_cast; exact hx)
  push_cast at h2
  have h3 : (1 : ℚ) ≤ k * M := by
    have : 1 ≤ k * M := Nat.one_le_iff_ne_zero.mpr (by positivity)
    exact_mod_cast this
  have := H.err_of_res h3 h2
  rw [mul_div_assoc] at this
  exact ⟨h2, this⟩

theorem push_low (H : RoundsNearest fl) (hM1 : 1 ≤ M) (hM : 5 * M ≤ 2 ^ 53) (hC : CostLe adj N C) (hv : v < N)
    (hh : HeadLt adj N) (he : 0 ≤ eps) (heM : eps ≤ M) (pw : PW fl adj N s)
    (hsc : ScanOK (redCostF fl adj s.p v) (fun k => k < (adj v).length) sc)
    (hlow : ∀ w, w < N → (C : ℚ) - M ≤ s.p w) (j : Nat) (hj : j < (adj v).length) (hja : j ≠ sc.adm) :
    s.p (hd adj v j) - (2 * C + eps + 11 * (M / 2 ^ 53)) ≤
      fl (s.p (hd adj v sc.adm) - fl (fl (sc.second - sc.pref) + eps)) := by
  have hM1' : (1 : ℚ) ≤ M := by exact_mod_cast hM1
  obtain ⟨a1, a2⟩ := rcF_err H hM1 hM hC hv hh pw hlow hj
  obtain ⟨b1, b2⟩ := rcF_err H hM1 hM hC hv hh pw hlow hsc.mem
  have hsec := hsc.second j hj hja
  have hpref := hsc.pref_eq
  have hle := hsc.le
  rw [← hpref] at b1 b2
  obtain ⟨a1l, a1u⟩ := abs_le.mp a1
  obtain ⟨b1l, b1u⟩ := abs_le.mp b1
  obtain ⟨a2l, a2u⟩ := abs_le.mp a2
  obtain ⟨b2l, b2u⟩ := abs_le.mp b2
  have g1 := err_nat H hM1 hM 2 (by norm_num) (by norm_num) (x := sc.second - sc.pref)
    (by rw [abs_of_nonneg (by linarith)]; push_cast; linarith)
  have hgap0 : 0 ≤ fl (sc.second - sc.pref) := H.nonneg (sub_nonneg.mpr hle)
  set gap := fl (sc.second - sc.pref)
  rw [abs_of_nonneg hgap0] at g1
  push_cast at g1
  have g2 := err_nat H hM1 hM 3 (by norm_num) (by norm_num) (x := gap + eps)
    (by rw [abs_of_nonneg (by linarith)]; push_cast; linarith [g1.1])
  have hD0 : 0 ≤ fl (gap + eps) := H.nonneg (by linarith)
  set D := fl (gap + eps)
  rw [abs_of_nonneg hD0] at g2
  push_cast at g2
  have hp0 := pw.nonpos (hd adj v sc.adm)
  have hp1 := hlow _ (hh v sc.adm hv hsc.mem)
  have hC0 : (0 : ℚ) ≤ C := by positivity
  have g3 := err_nat H hM1 hM 4 (by norm_num) (by norm_num) (x := s.p (hd adj v sc.adm) - D)
    (by rw [abs_le]; push_cast; constructor <;> linarith [g2.1])
  push_cast at g3
  have c1 := abs_le.mp (hC v j hv hj)
  have c2 := abs_le.mp (hC v sc.adm hv hsc.mem)
  have ej : redCost adj s.p v j = ((arcAt adj v j).cost : ℚ) - s.p (hd adj v j) := rfl
  have ea : redCost adj s.p v sc.adm = ((arcAt adj v sc.adm).cost : ℚ) - s.p (hd adj v sc.adm) := rfl
  rw [ej] at a2l a2u
  rw [ea] at b2l b2u
  obtain ⟨g1l, g1u⟩ := abs_le.mp g1.2
  obtain ⟨g2l, g2u⟩ := abs_le.mp g2.2
  obtain ⟨g3l, g3u⟩ := abs_le.mp g3.2
  linarith [c1.1, c1.2, c2.1, c2.2]

theorem push_low_one (H : RoundsNearest fl) {po : ℚ} {Q : Nat} (hM1 : 1 ≤ M) (hM : 5 * M ≤ 2 ^ 53) (hC : CostLe adj N C)
    (hv : v < N) (hh : HeadLt adj N) (he : 0 ≤ eps) (heM : eps ≤ M) (pw : PW fl adj N s)
    (hone : (adj v).length = 1) (hpo : 0 ≤ po) (hQ : fl (po + 1) ≤ Q) (heQ : eps * Q ≤ M)
    (hlow : ∀ w, w < N → (C : ℚ) - M ≤ s.p w) {b0 : ℚ} (hb0 : b0 = redCostF fl adj s.p v 0) :
    s.p (hd adj v 0) - (eps * Q + eps + 14 * (M / 2 ^ 53)) ≤
      fl (s.p (hd adj v 0) - fl (fl (fl (b0 + fl (eps * fl (po + 1))) - b0) + eps)) := by
  have hM1' : (1 : ℚ) ≤ M := by exact_mod_cast hM1
  have hpos : (0 : ℚ) ≤ M / 2 ^ 53 := by positivity
  obtain ⟨b1, b2⟩ := rcF_err H hM1 hM hC hv hh pw hlow (show 0 < (adj v).length by omega)
  rw [← hb0] at b1 b2
  obtain ⟨b1l, b1u⟩ := abs_le.mp b1
  have hfl : 0 ≤ fl (po + 1) := H.nonneg (by linarith)
  have hx0 : 0 ≤ eps * fl (po + 1) := mul_nonneg he hfl
  have hx1 : eps * fl (po + 1) ≤ eps * Q := mul_le_mul_of_nonneg_left hQ he
  have f1 := err_nat H hM1 hM 1 (by norm_num) (by norm_num) (x := eps * fl (po + 1))
    (by rw [abs_of_nonneg hx0]; push_cast; linarith)
  have hY0 : 0 ≤ fl (eps * fl (po + 1)) := H.nonneg hx0
  set Y := fl (eps * fl (po + 1))
  rw [abs_of_nonneg hY0] at f1
  push_cast at f1
  have f2 := err_nat H hM1 hM 2 (by norm_num) (by norm_num) (x := b0 + Y)
    (by rw [abs_le]; push_cast; constructor <;> linarith [f1.1])
  push_cast at f2
  have hsec : b0 ≤ fl (b0 + Y) := by
    have := H.mono (show b0 ≤ b0 + Y by linarith)
    rwa [show fl b0 = b0 by rw [hb0]; exact H.exact (redCostF_f64 H adj s.p v 0)] at this
  set S := fl (b0 + Y)
  obtain ⟨f1l, f1u⟩ := abs_le.mp f1.2
  obtain ⟨f2l, f2u⟩ := abs_le.mp f2.2
  have f2b := (abs_le.mp f2.1).2
  have hS2 : S - b0 ≤ M + 3 * (M / 2 ^ 53) := by linarith [f1.1]
  have hsm : 3 * (M / 2 ^ 53 : ℚ) ≤ M := by
    have : (M / 2 ^ 53 : ℚ) ≤ M / 3 := by gcongr; norm_num
    linarith
  have f3 := err_nat H hM1 hM 2 (by norm_num) (by norm_num) (x := S - b0)
    (by rw [abs_of_nonneg (by linarith)]; push_cast; linarith)
  have hgap0 : 0 ≤ fl (S - b0) := H.nonneg (sub_nonneg.mpr hsec)
  set gap := fl (S - b0)
  rw [abs_of_nonneg hgap0] at f3
  push_cast at f3
  have g2 := err_nat H hM1 hM 3 (by norm_num) (by norm_num) (x := gap + eps)
    (by rw [abs_of_nonneg (by linarith)]; push_cast; linarith [f3.1])
  have hD0 : 0 ≤ fl (gap + eps) := H.nonneg (by linarith)
  set D := fl (gap + eps)
  rw [abs_of_nonneg hD0] at g2
  push_cast at g2
  have hp0 := pw.nonpos (hd adj v 0)
  have hp1 := hlow _ (hh v 0 hv (by omega))
  have hC0 : (0 : ℚ) ≤ C := by positivity
  have g3 := err_nat H hM1 hM 4 (by norm_num) (by norm_num) (x := s.p (hd adj v 0) - D)
    (by rw [abs_le]; push_cast; constructor <;> linarith [g2.1])
  push_cast at g3
  obtain ⟨f3l, f3u⟩ := abs_le.mp f3.2
  obtain ⟨g2l, g2u⟩ := abs_le.mp g2.2
  obtain ⟨g3l, g3u⟩ := abs_le.mp g3.2
  linarith

/-- A push lowers the price by at least half of epsilon. -/
theorem push_down (H : RoundsNearest fl) (hM1 : 1 ≤ M) (hef : IsF64 eps)
    (hes : (M : ℚ) / 2 ^ 53 ≤ eps / 2) (hle : sc.pref ≤ sc.second) {p p' : ℚ}
    (hp' : p' = fl (p - fl (fl (sc.second - sc.pref) + eps))) (hb : |p'| ≤ M) : p' ≤ p - eps / 2 := by
  have hM1' : (1 : ℚ) ≤ M := by exact_mod_cast hM1
  have hgap0 : 0 ≤ fl (sc.second - sc.pref) := H.nonneg (sub_nonneg.mpr hle)
  have hD : eps ≤ fl (fl (sc.second - sc.pref) + eps) := by
    have := H.mono (show eps ≤ fl (sc.second - sc.pref) + eps by linarith)
    rwa [H.exact hef] at this
  have := H.err_of_res (x := p - fl (fl (sc.second - sc.pref) + eps)) hM1' (by rw [← hp']; exact hb)
  rw [← hp'] at this
  have := (abs_le.mp this).2
  linarith

end low

/-! ### One refine phase -/

/-- The fixed data of a run. -/
structure RunCtx (fl : ℚ → ℚ) (adj : Nat → List Arc) (N C M Q : Nat) (po : ℚ) (σ : Nat → Nat) : Prop where
  H : RoundsNearest fl
  hC : CostLe adj N C
  hh : HeadLt adj N
  hσ : PMat adj N σ
  hM1 : 1 ≤ M
  hM : 5 * M ≤ 2 ^ 53
  hpo : 0 ≤ po
  hQ : fl (po + 1) ≤ Q

/-- The number of right nodes whose price is below `K`. -/
def cntBelow (N : Nat) (K : ℚ) (p : Nat → ℚ) : Nat := ((Finset.range N).filter fun w => p w < K).card

theorem cntBelow_le (N : Nat) (K : ℚ) (p : Nat → ℚ) : cntBelow N K p ≤ N := by
  have := Finset.card_filter_le (Finset.range N) (fun w => p w < K)
  rw [Finset.card_range] at this
  exact this

theorem cntBelow_mono (N : Nat) (K : ℚ) {p p' : Nat → ℚ} (h : ∀ w, p' w ≤ p w) : cntBelow N K p ≤ cntBelow N K p' := by
  apply Finset.card_le_card
  intro w hw
  simp only [Finset.mem_filter] at hw ⊢
  exact ⟨hw.1, lt_of_le_of_lt (h w) hw.2⟩

theorem cntBelow_succ {N : Nat} {K : ℚ} {p p' : Nat → ℚ} (h : ∀ w, p' w ≤ p w) {w : Nat} (hw : w < N) (h1 : K ≤ p w)
    (h2 : p' w < K) : cntBelow N K p + 1 ≤ cntBelow N K p' := by
  apply Finset.card_lt_card
  rw [Finset.ssubset_iff_of_subset]
  · refine ⟨w, ?_, ?_⟩
    · simp [hw, h2]
    · simp [h1]
  · intro y hy
    simp only [Finset.mem_filter] at hy ⊢
    exact ⟨hy.1, lt_of_le_of_lt (h y) hy.2⟩

/-- The largest drop of a price by one push, apart from nodes with one arc. -/
def dropG (C M : Nat) (eps : ℚ) : ℚ := 2 * C + eps + 11 * (M / 2 ^ 53)
/-- The drop for a node with one arc. -/
def dropX (M Q : Nat) (eps : ℚ) : ℚ := eps * Q + eps + 14 * (M / 2 ^ 53)

/-- Invariant of a phase that started with prices at least `m0`. -/
structure PhaseInv (fl : ℚ → ℚ) (adj : Nat → List Arc) (N C M Q : Nat) (eps m0 : ℚ) (p0 : Nat → ℚ) (s : CsaState) :
    Prop where
  cons : Cons adj N s
  pw : PW fl adj N s
  eo : EOpt adj (eps + 6 * M / 2 ^ 53) s
  unt : ∀ w, s.mR w = none → s.p w = p0 w
  chain : ∀ w, w < N → m0 - (N + 1) * dropG C M eps - dropX M Q eps -
    cntBelow N (m0 - (N + 1) * dropG C M eps) s.p * dropG C M eps ≤ s.p w

/-- The bound at the end of a phase. -/
def phaseLow (N C M Q : Nat) (eps m0 : ℚ) : ℚ := m0 - (2 * N + 1) * dropG C M eps - dropX M Q eps

section phase

variable {adj : Nat → List Arc} {N C M Q : Nat} {po : ℚ} {σ : Nat → Nat} {eps m0 : ℚ} {p0 : Nat → ℚ} {s : CsaState}

theorem dropG_nonneg (C M : Nat) (he : 0 ≤ eps) : 0 ≤ dropG C M eps := by unfold dropG; positivity
theorem dropX_nonneg (M Q : Nat) (he : 0 ≤ eps) : 0 ≤ dropX M Q eps := by unfold dropX; positivity

theorem PhaseInv.low (inv : PhaseInv fl adj N C M Q eps m0 p0 s) (he : 0 ≤ eps) (w : Nat) (hw : w < N) :
    phaseLow N C M Q eps m0 ≤ s.p w := by
  have h1 := inv.chain w hw
  have h2 : (cntBelow N (m0 - (N + 1) * dropG C M eps) s.p : ℚ) ≤ N := by exact_mod_cast cntBelow_le _ _ _
  have h3 := mul_le_mul_of_nonneg_right h2 (dropG_nonneg C M he)
  unfold phaseLow
  linarith

theorem phase_push (ctx : RunCtx fl adj N C M Q po σ) (he : 0 < eps) (hef : IsF64 eps) (heM : eps ≤ M) (heQ : eps * Q ≤ M)
    (hes : (M : ℚ) / 2 ^ 53 ≤ eps / 2) (hm0 : ∀ w, w < N → m0 ≤ p0 w) (hL : (C : ℚ) - M ≤ phaseLow N C M Q eps m0)
    {v : Nat} {rest : List Nat} (hact : s.active = v :: rest) (hne : adj v ≠ [])
    (inv : PhaseInv fl adj N C M Q eps m0 p0 s) :
    PhaseInv fl adj N C M Q eps m0 p0 (doublePushF fl adj eps po v { s with active := rest }) ∧
    pot N (m0 - (N + 1) * dropG C M eps) (eps / 2) (doublePushF fl adj eps po v { s with active := rest }).p <
      pot N (m0 - (N + 1) * dropG C M eps) (eps / 2) s.p := by
  obtain ⟨H, hC, hh, hσ, hM1, hM, hpo, hQ⟩ := ctx
  have hM1' : (1 : ℚ) ≤ M := by exact_mod_cast hM1
  have hpos : (0 : ℚ) ≤ M / 2 ^ 53 := by positivity
  have hv := (inv.cons.act v).mp (by rw [hact]; exact List.mem_cons_self)
  have hlow : ∀ w, w < N → (C : ℚ) - M ≤ s.p w := fun w hw => hL.trans (inv.low he.le w hw)
  have hC0 : (0 : ℚ) ≤ C := by positivity
  have hG0 := dropG_nonneg C M he.le
  have hX0 := dropX_nonneg M Q he.le
  obtain ⟨sc, best, nb, h1, h2, h1', h3, h4⟩ := push_facts H (rest := rest) he.le hpo hne hv.1 inv.pw
  have hadm := h1.mem
  have hwN := hh v sc.adm hv.1 hadm
  -- the price before the push
  have hK : m0 - (N + 1) * dropG C M eps ≤ s.p (hd adj v sc.adm) := by
    have hE0 : 0 ≤ eps + 6 * M / 2 ^ 53 := by positivity
    have hb := priceC_bound inv.cons inv.eo inv.unt hσ hC hE0 hm0 hv.1 hv.2
    have hmin := h1.min (σ v) (hσ.valid v hv.1)
    rw [h1.pref_eq] at hmin
    have a1 := abs_le.mp (rcF_err H hM1 hM hC hv.1 hh inv.pw hlow hadm).2
    have a2 := abs_le.mp (rcF_err H hM1 hM hC hv.1 hh inv.pw hlow (hσ.valid v hv.1)).2
    have c1 := abs_le.mp (hC v sc.adm hv.1 hadm)
    have c2 := abs_le.mp (hC v (σ v) hv.1 (hσ.valid v hv.1))
    have e1 : redCost adj s.p v sc.adm = ((arcAt adj v sc.adm).cost : ℚ) - s.p (hd adj v sc.adm) := rfl
    have e2 : redCost adj s.p v (σ v) = ((arcAt adj v (σ v)).cost : ℚ) - s.p (hd adj v (σ v)) := rfl
    rw [e1] at a1
    rw [e2] at a2
    have hEG : 2 * (C : ℚ) + (eps + 6 * M / 2 ^ 53) ≤ dropG C M eps := by
      unfold dropG
      have : (6 * M / 2 ^ 53 : ℚ) = 6 * (M / 2 ^ 53) := by ring
      rw [this]; linarith
    have hG2 : 2 * (C : ℚ) + 2 * (M / 2 ^ 53) ≤ dropG C M eps := by unfold dropG; linarith
    have hNE : (N : ℚ) * (2 * C + (eps + 6 * M / 2 ^ 53)) ≤ N * dropG C M eps :=
      mul_le_mul_of_nonneg_left hEG (by positivity)
    linarith [a1.1, a2.2, c1.1, c2.2]
  set x := fl (s.p (hd adj v sc.adm) - fl (fl (sc.second - sc.pref) + eps)) with hx
  have hp : ∀ w, upd s.p (hd adj v sc.adm) x w ≤ s.p w := upd_le h4
  have hpeq : (pushTo adj v sc.adm x best nb { s with active := rest }).p = upd s.p (hd adj v sc.adm) x := pushTo_p _ _ _ _ _ _ _
  -- the chain
  have hchain : ∀ w, w < N → m0 - (N + 1) * dropG C M eps - dropX M Q eps -
      cntBelow N (m0 - (N + 1) * dropG C M eps) (upd s.p (hd adj v sc.adm) x) * dropG C M eps ≤
      upd s.p (hd adj v sc.adm) x w := by
    have hcm := cntBelow_mono N (m0 - (N + 1) * dropG C M eps) hp
    have hcm' : (cntBelow N (m0 - (N + 1) * dropG C M eps) s.p : ℚ) * dropG C M eps ≤
        cntBelow N (m0 - (N + 1) * dropG C M eps) (upd s.p (hd adj v sc.adm) x) * dropG C M eps :=
      mul_le_mul_of_nonneg_right (by exact_mod_cast hcm) hG0
    intro w hw
    by_cases hww : w = hd adj v sc.adm
    · have hux : upd s.p (hd adj v sc.adm) x w = x := by simp [upd, hww]
      by_cases hxK : x < m0 - (N + 1) * dropG C M eps
      · have hcs := cntBelow_succ (K := m0 - (N + 1) * dropG C M eps) hp hwN hK (by simpa [upd] using hxK)
        have hcs' : ((cntBelow N (m0 - (N + 1) * dropG C M eps) s.p : ℚ) + 1) * dropG C M eps ≤
            cntBelow N (m0 - (N + 1) * dropG C M eps) (upd s.p (hd adj v sc.adm) x) * dropG C M eps :=
          mul_le_mul_of_nonneg_right (by exact_mod_cast hcs) hG0
        rw [hux]
        by_cases hone : (adj v).length = 1
        · have hs := h1' hone
          have hadm0 : sc.adm = 0 := by rw [hs]
          have := push_low_one H hM1 hM hC hv.1 hh he.le heM inv.pw hone hpo hQ heQ hlow rfl
          have hx' : x = fl (s.p (hd adj v 0) - fl (fl (fl (redCostF fl adj s.p v 0 + fl (eps * fl (po + 1))) -
              redCostF fl adj s.p v 0) + eps)) := by
            rw [hx, hs]
          rw [← hx'] at this
          rw [hadm0] at hK
          have hn : (0 : ℚ) ≤ cntBelow N (m0 - (N + 1) * dropG C M eps) (upd s.p (hd adj v sc.adm) x) * dropG C M eps := by
            positivity
          have hXd : dropX M Q eps = eps * Q + eps + 14 * (M / 2 ^ 53) := rfl
          linarith
        · have hdeg : 0 < (adj v).length := List.length_pos_iff.mpr hne
          obtain ⟨j, hj, hja⟩ : ∃ j, j < (adj v).length ∧ j ≠ sc.adm := by
            by_cases h0 : sc.adm = 0
            · exact ⟨1, by omega, by omega⟩
            · exact ⟨0, hdeg, fun e => h0 e.symm⟩
          have := push_low H hM1 hM hC hv.1 hh he.le heM inv.pw h1 hlow j hj hja
          rw [← hx] at this
          have hcj := inv.chain _ (hh v j hv.1 hj)
          have hGd : dropG C M eps = 2 * C + eps + 11 * (M / 2 ^ 53) := rfl
          linarith
      · rw [hux]
        have hn : (0 : ℚ) ≤ cntBelow N (m0 - (N + 1) * dropG C M eps) (upd s.p (hd adj v sc.adm) x) * dropG C M eps := by
          positivity
        linarith [not_lt.mp hxK]
    · have hux : upd s.p (hd adj v sc.adm) x w = s.p w := by simp [upd, hww]
      rw [hux]
      linarith [inv.chain w hw]
  have hlow' : ∀ w, w < N → (C : ℚ) - M ≤ upd s.p (hd adj v sc.adm) x w := by
    intro w hw
    have h5 := hchain w hw
    have h6 : (cntBelow N (m0 - (N + 1) * dropG C M eps) (upd s.p (hd adj v sc.adm) x) : ℚ) ≤ N := by
      exact_mod_cast cntBelow_le _ _ _
    have h7 := mul_le_mul_of_nonneg_right h6 hG0
    unfold phaseLow at hL
    linarith
  refine ⟨⟨doublePushF_cons hne hact inv.cons, ?_, ?_, ?_, ?_⟩, ?_⟩
  · rw [h3]; exact pushTo_pw H inv.pw (H.rep _) h4 h2
  · refine push_eopt H hM1 (by omega) hC hh he.le hpo hne inv.cons hact inv.pw inv.eo hlow ?_
    rw [h3, hpeq]; exact hlow'
  · rw [h3]
    intro w hw
    rw [pushTo_mR] at hw
    rw [hpeq]
    unfold upd at hw ⊢
    by_cases hww : w = hd adj v sc.adm
    · rw [if_pos hww] at hw; cases hw
    · rw [if_neg hww] at hw
      rw [if_neg hww]; exact inv.unt w hw
  · rw [h3, hpeq]; exact hchain
  · rw [h3, hpeq]
    have hxb : |x| ≤ M := by
      have h5 := hlow' _ hwN
      have h6 : upd s.p (hd adj v sc.adm) x (hd adj v sc.adm) = x := by simp [upd]
      rw [h6] at h5
      have h7 := inv.pw.nonpos (hd adj v sc.adm)
      rw [abs_le]
      constructor <;> linarith
    have hdown := push_down H hM1 hef hes h1.le hx hxb
    have := pot_lt (N := N) (K := m0 - (N + 1) * dropG C M eps) (p := s.p) (w := hd adj v sc.adm)
      (d := s.p (hd adj v sc.adm) - x) (half_pos he) hwN hK (by linarith)
    rw [sub_sub_cancel] at this
    exact this

theorem phase_total (ctx : RunCtx fl adj N C M Q po σ) (he : 0 < eps) (hef : IsF64 eps) (heM : eps ≤ M) (heQ : eps * Q ≤ M)
    (hes : (M : ℚ) / 2 ^ 53 ≤ eps / 2) (hm0 : ∀ w, w < N → m0 ≤ p0 w) (hL : (C : ℚ) - M ≤ phaseLow N C M Q eps m0)
    (fuel : Nat) (s : CsaState) (inv : PhaseInv fl adj N C M Q eps m0 p0 s)
    (hf : pot N (m0 - (N + 1) * dropG C M eps) (eps / 2) s.p < fuel) :
    ∃ s', refineLoopF fl adj eps po fuel s = some s' ∧ PhaseInv fl adj N C M Q eps m0 p0 s' := by
  induction fuel generalizing s with
  | zero => omega
  | succ f ih =>
    unfold refineLoopF
    split
    · exact ⟨s, rfl, inv⟩
    · rename_i h0
      cases hact : s.active with
      | nil => exact absurd (inv.cons.excess.trans (by rw [hact]; rfl)) h0
      | cons v rest =>
        have hv := (inv.cons.act v).mp (by rw [hact]; exact List.mem_cons_self)
        have hne : adj v ≠ [] := by
          intro e
          have := ctx.hσ.valid v hv.1
          rw [e] at this; simp at this
        simp only [hne, if_false]
        obtain ⟨inv', hlt⟩ := phase_push ctx he hef heM heQ hes hm0 hL hact hne inv
        exact ih _ inv' (by omega)

theorem phase_start (he : 0 ≤ eps) (idle : IdleC adj N s) (pw : PW fl adj N s) (hm0 : ∀ w, w < N → m0 ≤ s.p w) :
    PhaseInv fl adj N C M Q eps m0 s.p (refineInit adj N s) := by
  have heff := refineInit_effect idle
  refine ⟨refineInit_cons idle, refineInit_pw idle pw, refineInit_eopt idle _, fun w _ => by rw [heff.2.2.2.2.1], ?_⟩
  intro w hw
  rw [heff.2.2.2.2.1]
  have h1 := hm0 w hw
  have hG := dropG_nonneg C M he
  have hX := dropX_nonneg M Q he
  have h2 : (0 : ℚ) ≤ cntBelow N (m0 - (N + 1) * dropG C M eps) s.p * dropG C M eps := by positivity
  have h3 : (0 : ℚ) ≤ (N + 1) * dropG C M eps := by positivity
  linarith

end phase

theorem refineLoopF_mono (fl : ℚ → ℚ) (adj : Nat → List Arc) (eps po : ℚ) (f f' : Nat) (hle : f ≤ f')
    (s s' : CsaState) (h : refineLoopF fl adj eps po f s = some s') :
    refineLoopF fl adj eps po f' s = some s' := by
  induction f generalizing s f' with
  | zero => simp [refineLoopF] at h
  | succ f ih =>
    obtain ⟨g, rfl⟩ : ∃ g, f' = g + 1 := ⟨f' - 1, by omega⟩
    unfold refineLoopF at h ⊢
    split at h
    · rename_i h0; rw [if_pos h0]; exact h
    · rename_i h0
      rw [if_neg h0]
      split at h
      · cases h
      · rename_i v rest hact
        split at h
        · cases h
        · rename_i hne
          rw [if_neg hne]
          exact ih g (by omega) _ h

theorem mainLoopF_mono (fl : ℚ → ℚ) (adj : Nat → List Arc) (N : Nat) (po minEps : ℚ) (fR fR' : Nat) (hR : fR ≤ fR')
    (f f' : Nat) (hf : f ≤ f') (eps : ℚ) (s s' : CsaState)
    (h : mainLoopF fl adj N po minEps fR f eps s = some s') :
    mainLoopF fl adj N po minEps fR' f' eps s = some s' := by
  induction f generalizing eps s f' with
  | zero => simp [mainLoopF] at h
  | succ f ih =>
    obtain ⟨g, rfl⟩ : ∃ g, f' = g + 1 := ⟨f' - 1, by omega⟩
    unfold mainLoopF at h ⊢
    split at h
    · rename_i h0
      rw [if_pos h0]
      cases hr : refineF fl adj N (updateEpsilonF fl eps minEps) po fR s with
      | none => rw [hr] at h; cases h
      | some t =>
        rw [hr] at h
        have hr' : refineF fl adj N (updateEpsilonF fl eps minEps) po fR' s = some t :=
          refineLoopF_mono fl adj _ po fR fR' hR _ _ hr
        rw [hr']
        exact ih g (by omega) _ t h
    · rename_i h0
      rw [if_neg h0]; exact h

end EdgeEval
