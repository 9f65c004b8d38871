import Verif.Lemmas.CsaFloat
import Verif.Lemmas.Float

/-!
# The solver with rounding to nearest: prices and near-optimality
-/

namespace EdgeEval

variable {fl : ℚ → ℚ}

namespace RoundsNearest

/-- The error of one operation, relative to its result. -/
theorem err_res (H : RoundsNearest fl) (x : ℚ) : |fl x - x| ≤ max |fl x| 1 / 2 ^ 53 := by
  by_cases h : (2 : ℚ) ^ (-1022 : ℤ) ≤ |x|
  · have hx : 0 < |x| := lt_of_lt_of_le (by positivity) h
    have h1 : (2 : ℚ) ^ Int.log 2 |x| ≤ |x| := by simpa using Int.zpow_log_le_self (b := 2) (by norm_num) hx
    have h2 : |x| < (2 : ℚ) ^ (Int.log 2 |x| + 1) := by
      simpa using Int.lt_zpow_succ_log_self (b := 2) (by norm_num) |x|
    have h3 : -1022 ≤ Int.log 2 |x| := by
      have := lt_of_le_of_lt h h2
      rw [zpow_lt_zpow_iff_right₀ (by norm_num)] at this
      omega
    obtain ⟨y, hy, he⟩ := exists_near x (Int.log 2 |x| + 1) (by omega) h2
    have hF : IsF64 ((2 : ℚ) ^ Int.log 2 |x|) := ⟨1, Int.log 2 |x|, by norm_num, by omega, by simp⟩
    have h4 : (2 : ℚ) ^ Int.log 2 |x| ≤ |fl x| := by
      rcases abs_cases x with ⟨e, _⟩ | ⟨e, _⟩
      · have := H.mono (h1.trans_eq e)
        rw [H.exact hF] at this
        exact this.trans (le_abs_self _)
      · have h5 : x ≤ -(2 : ℚ) ^ Int.log 2 |x| := by linarith
        have := H.mono h5
        rw [H.exact (isF64_neg hF)] at this
        have := neg_le_abs (fl x)
        linarith
    calc |fl x - x| ≤ |y - x| := H.near x y hy
      _ ≤ (2 : ℚ) ^ (Int.log 2 |x| + 1 - 54) := he
      _ = 2 ^ Int.log 2 |x| / 2 ^ 53 := by
        rw [show Int.log 2 |x| + 1 - 54 = Int.log 2 |x| - 53 by ring, zpow_sub₀ (by norm_num)]; norm_num
      _ ≤ max |fl x| 1 / 2 ^ 53 := by
        gcongr
        exact h4.trans (le_max_left _ _)
  · push Not at h
    obtain ⟨y, hy, he⟩ := exists_near x (-1021) (by norm_num) (h.trans (by
      rw [zpow_lt_zpow_iff_right₀ (by norm_num)]; norm_num))
    calc |fl x - x| ≤ |y - x| := H.near x y hy
      _ ≤ (2 : ℚ) ^ (-1021 - 54 : ℤ) := he
      _ ≤ (2 : ℚ) ^ (-53 : ℤ) := by
        apply zpow_le_zpow_right₀ (by norm_num); norm_num
      _ = 1 / 2 ^ 53 := by norm_num
      _ ≤ max |fl x| 1 / 2 ^ 53 := by
        gcongr
        exact le_max_right _ _

theorem err_of_res (H : RoundsNearest fl) {x M : ℚ} (h1 : 1 ≤ M) (h : |fl x| ≤ M) : |fl x - x| ≤ M / 2 ^ 53 := by
  refine (H.err_res x).trans ?_
  gcongr
  exact max_le h h1

/-- Rounding does not leave an interval bounded by a whole number. -/
theorem abs_le_nat (H : RoundsNearest fl) {x : ℚ} {M : Nat} (hM : M ≤ 2 ^ 53) (h : |x| ≤ M) : |fl x| ≤ M := by
  obtain ⟨a, b⟩ := abs_le.mp h
  rw [abs_le]
  have h1 := H.mono a
  have h2 := H.mono b
  rw [H.exact (isF64_neg (isF64_nat M hM))] at h1
  rw [H.exact (isF64_nat M hM)] at h2
  exact ⟨h1, h2⟩

end RoundsNearest

theorem redCostF_f64 (H : RoundsNearest fl) (adj : Nat → List Arc) (p : Nat → ℚ) (v k : Nat) :
    IsF64 (redCostF fl adj p v k) := H.rep _

theorem scanAllF_ok (H : RoundsNearest fl) {rc : Nat → ℚ} (hrc : ∀ k, IsF64 (rc k)) (deg : Nat) (eps po : ℚ)
    (hd : 0 < deg) (he : 0 ≤ eps) (hpo : 0 ≤ po) :
    ScanOK rc (fun k => k < deg) (scanAllF fl rc deg eps po) := by
  have key : ∀ n, ScanOK rc (fun k => k < n + 1)
      ((List.range' 1 n).foldl (scanStep rc) ⟨rc 0, fl (rc 0 + fl (eps * fl (po + 1))), 0⟩) := by
    intro n
    induction n with
    | zero =>
      refine ⟨rfl, by simp, ?_, ?_, ?_⟩
      · have : 0 ≤ fl (eps * fl (po + 1)) := H.nonneg (mul_nonneg he (H.nonneg (by linarith)))
        simp only [List.range'_zero, List.foldl_nil]
        rw [← H.exact (hrc 0)]
        refine H.mono ?_
        rw [H.exact (hrc 0)]
        linarith
      · intro k hk
        have : k = 0 := by omega
        subst this; exact le_refl _
      · intro k hk hne
        have : k = 0 := by omega
        exact absurd this hne
    | succ n ih =>
      rw [List.range'_concat, List.foldl_append]
      refine (ih.step (k := 1 + 1 * n) (by omega)).congr ?_
      intro k; omega
  have := key (deg - 1)
  rw [show deg - 1 + 1 = deg by omega] at this
  exact this

/-- Part I of `double_push` finds a minimum of the rounded reduced costs and a lower bound of the rest. -/
theorem chooseF_ok (H : RoundsNearest fl) {rc : Nat → ℚ} (hrc : ∀ k, IsF64 (rc k)) (deg : Nat) (eps po : ℚ)
    (best : List Nat) (nb : ℚ) (hd : 0 < deg)
    (he : 0 ≤ eps) (hpo : 0 ≤ po) (hc : ¬ deg < numBest + 1 → CacheOK rc deg best nb) :
    ScanOK rc (fun k => k < deg) (chooseF fl rc deg eps po best nb).1 ∧
    (¬ deg < numBest + 1 →
      CacheOK rc deg (chooseF fl rc deg eps po best nb).2.1 (chooseF fl rc deg eps po best nb).2.2) := by
  by_cases hfew : deg < numBest + 1
  · unfold chooseF
    rw [if_pos hfew]
    exact ⟨scanAllF_ok H hrc deg eps po hd he hpo, fun h => absurd hfew h⟩
  · have e : chooseF fl rc deg eps po best nb = choose rc deg eps po best nb := by
      unfold chooseF choose
      rw [if_neg hfew, if_neg hfew]
    rw [e]
    exact choose_ok rc deg eps po best nb hd he hpo hc

/-- The part of the price invariant that needs no bound. -/
structure PW (fl : ℚ → ℚ) (adj : Nat → List Arc) (N : Nat) (s : CsaState) : Prop where
  cache : ∀ v, v < N → ¬ (adj v).length < numBest + 1 →
    CacheOK (redCostF fl adj s.p v) (adj v).length (s.best v) (s.nextBest v)
  f64 : ∀ w, IsF64 (s.p w)
  nonpos : ∀ w, s.p w ≤ 0

theorem redCostF_mono (H : RoundsNearest fl) (adj : Nat → List Arc) {p p' : Nat → ℚ} (h : ∀ w, p' w ≤ p w) (v k : Nat) :
    redCostF fl adj p v k ≤ redCostF fl adj p' v k := by
  unfold redCostF
  exact H.mono (by linarith [h (arcAt adj v k).head])

theorem csaInitF_pw (H : RoundsNearest fl) (adj : Nat → List Arc) (N : Nat) : PW fl adj N (csaInitF fl adj) := by
  refine ⟨?_, fun w => isF64_zero, fun w => le_refl _⟩
  intro v _ hfew
  simp only [csaInitF, if_neg hfew]
  exact (bestBuild_ok _ _ (by omega)).cache

/-- One double push in terms of the minimum it found. -/
theorem push_facts (H : RoundsNearest fl) {adj : Nat → List Arc} {N : Nat} {eps po : ℚ} {s : CsaState} {v : Nat}
    {rest : List Nat} (he : 0 ≤ eps) (hpo : 0 ≤ po) (hne : adj v ≠ []) (hv : v < N)
    (pw : PW fl adj N s) :
    ∃ sc best nb, ScanOK (redCostF fl adj s.p v) (fun k => k < (adj v).length) sc ∧
      (¬ (adj v).length < numBest + 1 → CacheOK (redCostF fl adj s.p v) (adj v).length best nb) ∧
      ((adj v).length = 1 → sc = ⟨redCostF fl adj s.p v 0,
          fl (redCostF fl adj s.p v 0 + fl (eps * fl (po + 1))), 0⟩) ∧
      doublePushF fl adj eps po v { s with active := rest } =
        pushTo adj v sc.adm (fl (s.p (hd adj v sc.adm) - fl (fl (sc.second - sc.pref) + eps))) best nb
          { s with active := rest } ∧
      fl (s.p (hd adj v sc.adm) - fl (fl (sc.second - sc.pref) + eps)) ≤ s.p (hd adj v sc.adm) := by
  have hdeg : 0 < (adj v).length := List.length_pos_iff.mpr hne
  obtain ⟨h1, h2⟩ := chooseF_ok H (redCostF_f64 H adj s.p v) (adj v).length eps po (s.best v) (s.nextBest v) hdeg he hpo
    (fun h => pw.cache v hv h)
  refine ⟨_, _, _, h1, h2, ?_, by rw [doublePushF_eq], ?_⟩
  · intro h
    unfold chooseF
    rw [if_pos (by rw [h]; decide)]
    unfold scanAllF
    rw [h]; rfl
  · have hgap := H.nonneg (sub_nonneg.mpr h1.le)
    have hD : 0 ≤ fl (fl ((chooseF fl (redCostF fl adj s.p v) (adj v).length eps po (s.best v) (s.nextBest v)).1.second -
        (chooseF fl (redCostF fl adj s.p v) (adj v).length eps po (s.best v) (s.nextBest v)).1.pref) + eps) :=
      H.nonneg (by linarith)
    have := H.mono (sub_le_self (s.p (hd adj v
      (chooseF fl (redCostF fl adj s.p v) (adj v).length eps po (s.best v) (s.nextBest v)).1.adm)) hD)
    rwa [H.exact (pw.f64 _)] at this

theorem upd_le {p : Nat → ℚ} {w : Nat} {x : ℚ} (h : x ≤ p w) (y : Nat) : upd p w x y ≤ p y := by
  unfold upd
  split
  · rename_i e; subst e; exact h
  · exact le_refl _

theorem pushTo_pw (H : RoundsNearest fl) {adj : Nat → List Arc} {N : Nat} {s : CsaState} {v k : Nat} {x : ℚ}
    {best : List Nat} {nb : ℚ} {rest : List Nat} (pw : PW fl adj N s) (hx : IsF64 x) (hle : x ≤ s.p (hd adj v k))
    (hc : ¬ (adj v).length < numBest + 1 → CacheOK (redCostF fl adj s.p v) (adj v).length best nb) :
    PW fl adj N (pushTo adj v k x best nb { s with active := rest }) := by
  have hmono : ∀ y, upd s.p (hd adj v k) x y ≤ s.p y := upd_le hle
  refine ⟨?_, ?_, ?_⟩
  · intro y hy hfew
    rw [pushTo_p, pushTo_best, pushTo_nextBest]
    show CacheOK (redCostF fl adj (upd s.p _ _) y) _ (upd s.best v best y) (upd s.nextBest v nb y)
    unfold upd
    by_cases hyv : y = v
    · subst hyv
      rw [if_pos rfl, if_pos rfl]
      exact (hc hfew).mono (redCostF_mono H adj hmono y)
    · rw [if_neg hyv, if_neg hyv]
      exact (pw.cache y hy hfew).mono (redCostF_mono H adj hmono y)
  · intro w
    rw [pushTo_p]
    show IsF64 (upd s.p _ _ w)
    unfold upd
    split
    · exact hx
    · exact pw.f64 w
  · intro w
    rw [pushTo_p]
    exact (hmono w).trans (pw.nonpos w)

theorem doublePushF_pw (H : RoundsNearest fl) {adj : Nat → List Arc} {N : Nat} {eps po : ℚ} {s : CsaState} {v : Nat}
    {rest : List Nat} (he : 0 ≤ eps) (hpo : 0 ≤ po) (hne : adj v ≠ []) (hv : v < N) (pw : PW fl adj N s) :
    PW fl adj N (doublePushF fl adj eps po v { s with active := rest }) ∧
    ∀ w, (doublePushF fl adj eps po v { s with active := rest }).p w ≤ s.p w := by
  obtain ⟨sc, best, nb, h1, h2, _, h3, h4⟩ := push_facts H (rest := rest) he hpo hne hv pw
  rw [h3]
  refine ⟨pushTo_pw H pw (H.rep _) h4 h2, ?_⟩
  intro w
  rw [pushTo_p]
  exact upd_le h4 w

theorem refineLoopF_pw (H : RoundsNearest fl) {adj N eps po} (he : 0 ≤ eps) (hpo : 0 ≤ po) (fuel : Nat)
    (s s' : CsaState) (cons : Cons adj N s) (pw : PW fl adj N s) (h : refineLoopF fl adj eps po fuel s = some s') :
    PW fl adj N s' ∧ ∀ w, s'.p w ≤ s.p w := by
  induction fuel generalizing s with
  | zero => simp [refineLoopF] at h
  | succ f ih =>
    unfold refineLoopF at h
    split at h
    · cases h; exact ⟨pw, fun w => le_refl _⟩
    · split at h
      · cases h
      · rename_i v rest hact
        split at h
        · cases h
        · rename_i hne
          have hv := (cons.act v).mp (by rw [hact]; exact List.mem_cons_self)
          obtain ⟨a, b⟩ := doublePushF_pw H (rest := rest) he hpo hne hv.1 pw
          obtain ⟨c, d⟩ := ih _ (doublePushF_cons hne hact cons) a h
          exact ⟨c, fun w => (d w).trans (b w)⟩

/-- Every matched arc is within `E` of the cheapest (exact reduced costs). -/
def EOpt (adj : Nat → List Arc) (E : ℚ) (s : CsaState) : Prop :=
  ∀ v k, s.mL v = some k → ∀ j, j < (adj v).length → redCost adj s.p v k ≤ redCost adj s.p v j + E

/-- The error of one double push. -/
theorem push_error (H : RoundsNearest fl) {adj : Nat → List Arc} {N : Nat} {eps : ℚ} {s : CsaState} {v : Nat}
    {sc : Scan} {M C : Nat} (hM1 : 1 ≤ M) (hM : M ≤ 2 ^ 53) (hC : CostLe adj N C) (hv : v < N) (hh : HeadLt adj N)
    (he : 0 ≤ eps) (pw : PW fl adj N s)
    (hsc : ScanOK (redCostF fl adj s.p v) (fun k => k < (adj v).length) sc)
    {p' : ℚ} (hp' : p' = fl (s.p (hd adj v sc.adm) - fl (fl (sc.second - sc.pref) + eps)))
    (hlow : ∀ w, w < N → (C : ℚ) - M ≤ s.p w) (hlow' : (C : ℚ) - M ≤ p') (j : Nat) (hj : j < (adj v).length)
    (hja : j ≠ sc.adm) :
    ((arcAt adj v sc.adm).cost : ℚ) - p' ≤ redCost adj s.p v j + eps + 6 * M / 2 ^ 53 := by
  have hM1' : (1 : ℚ) ≤ M := by exact_mod_cast hM1
  have hrcb : ∀ k, k < (adj v).length → |redCost adj s.p v k| ≤ M := by
    intro k hk
    have h1 := abs_le.mp (hC v k hv hk)
    have h2 := hlow _ (hh v k hv hk)
    have h3 := pw.nonpos (hd adj v k)
    unfold redCost
    have e : (arcAt adj v k).head = hd adj v k := rfl
    rw [e, abs_le]
    have : (0 : ℚ) ≤ C := (abs_nonneg _).trans (hC v k hv hk)
    constructor <;> linarith [h1.1, h1.2]
  have hrcF : ∀ k, k < (adj v).length →
      |redCostF fl adj s.p v k - redCost adj s.p v k| ≤ M / 2 ^ 53 := by
    intro k hk
    exact H.err_of_res hM1' (H.abs_le_nat hM (hrcb k hk))
  have hadm := hsc.mem
  -- the five roundings
  have e1 := abs_le.mp (hrcF sc.adm hadm)
  have e2 := abs_le.mp (hrcF j hj)
  have hsec := hsc.second j hj hja
  have hpref := hsc.pref_eq
  have hgap0 : 0 ≤ fl (sc.second - sc.pref) := H.nonneg (sub_nonneg.mpr hsc.le)
  set gap := fl (sc.second - sc.pref) with hg
  have hD0 : 0 ≤ fl (gap + eps) := H.nonneg (by linarith)
  set D := fl (gap + eps) with hD
  have hp'0 : p' ≤ 0 := by
    rw [hp']
    have := H.mono (show s.p (hd adj v sc.adm) - D ≤ 0 by linarith [pw.nonpos (hd adj v sc.adm)])
    rwa [H.zero] at this
  have hC0 : (0 : ℚ) ≤ C := (abs_nonneg _).trans (hC v j hv hj)
  have e5 : |p' - (s.p (hd adj v sc.adm) - D)| ≤ M / 2 ^ 53 := by
    rw [hp']
    refine H.err_of_res hM1' ?_
    rw [← hp', abs_le]
    constructor <;> linarith
  have e5' := abs_le.mp e5
  have hpos : (0 : ℚ) ≤ M / 2 ^ 53 := by positivity
  have hDle : D ≤ M + M / 2 ^ 53 := by
    have := pw.nonpos (hd adj v sc.adm)
    linarith [e5'.1, e5'.2]
  have e4 : |D - (gap + eps)| ≤ (M + M / 2 ^ 53) / 2 ^ 53 := by
    rw [hD]
    refine H.err_of_res (by linarith) ?_
    rw [← hD, abs_of_nonneg hD0]; exact hDle
  have e4' := abs_le.mp e4
  have hgle : gap ≤ M + 3 * (M / 2 ^ 53) := by
    have : (M + M / 2 ^ 53 : ℚ) / 2 ^ 53 ≤ 2 * (M / 2 ^ 53) := by
      rw [add_div]
      have : (M / 2 ^ 53 : ℚ) / 2 ^ 53 ≤ M / 2 ^ 53 := div_le_self hpos (by norm_num)
      linarith
    linarith [e4'.1, e4'.2]
  have e3 : |gap - (sc.second - sc.pref)| ≤ (M + 3 * (M / 2 ^ 53)) / 2 ^ 53 := by
    rw [hg]
    refine H.err_of_res (by linarith) ?_
    rw [← hg, abs_of_nonneg hgap0]; exact hgle
  have e3' := abs_le.mp e3
  have hsmall : (M + M / 2 ^ 53 : ℚ) / 2 ^ 53 + (M + 3 * (M / 2 ^ 53)) / 2 ^ 53 ≤ 3 * (M / 2 ^ 53) := by
    have h4 : (M / 2 ^ 53 : ℚ) / 2 ^ 53 ≤ (M / 2 ^ 53) / 4 := by
      gcongr
      norm_num
    have : (M + M / 2 ^ 53 : ℚ) / 2 ^ 53 + (M + 3 * (M / 2 ^ 53)) / 2 ^ 53 =
        2 * (M / 2 ^ 53) + 4 * ((M / 2 ^ 53) / 2 ^ 53) := by ring
    rw [this]; linarith
  have hadmrc : redCost adj s.p v sc.adm = ((arcAt adj v sc.adm).cost : ℚ) - s.p (hd adj v sc.adm) := rfl
  have h6 : (6 * M / 2 ^ 53 : ℚ) = 6 * (M / 2 ^ 53) := by ring
  rw [h6]
  rw [hadmrc] at e1
  linarith [e1.1, e2.2, e3'.2, e4'.2, e5'.1]

theorem push_eopt (H : RoundsNearest fl) {adj : Nat → List Arc} {N : Nat} {eps po : ℚ} {s : CsaState} {v : Nat}
    {rest : List Nat} {M C : Nat} (hM1 : 1 ≤ M) (hM : M ≤ 2 ^ 53) (hC : CostLe adj N C) (hh : HeadLt adj N)
    (he : 0 ≤ eps) (hpo : 0 ≤ po) (hne : adj v ≠ []) (cons : Cons adj N s) (hact : s.active = v :: rest)
    (pw : PW fl adj N s) (heo : EOpt adj (eps + 6 * M / 2 ^ 53) s)
    (hlow : ∀ w, w < N → (C : ℚ) - M ≤ s.p w)
    (hlow' : ∀ w, w < N → (C : ℚ) - M ≤ (doublePushF fl adj eps po v { s with active := rest }).p w) :
    EOpt adj (eps + 6 * M / 2 ^ 53) (doublePushF fl adj eps po v { s with active := rest }) := by
  have hv := (cons.act v).mp (by rw [hact]; exact List.mem_cons_self)
  obtain ⟨sc, best, nb, h1, h2, _, h3, h4⟩ := push_facts H (rest := rest) he hpo hne hv.1 pw
  rw [h3] at hlow' ⊢
  intro x k hx j hj
  have hmono : ∀ y, upd s.p (hd adj v sc.adm) (fl (s.p (hd adj v sc.adm) - fl (fl (sc.second - sc.pref) + eps))) y ≤ s.p y :=
    upd_le h4
  have hrc : ∀ y i, redCost adj s.p y i ≤ redCost adj (pushTo adj v sc.adm (fl (s.p (hd adj v sc.adm) - fl (fl (sc.second - sc.pref) + eps))) best nb
      { s with active := rest }).p y i := by
    intro y i
    rw [pushTo_p]
    unfold redCost
    have := hmono (arcAt adj y i).head
    linarith
  rcases pushTo_mL (s := { s with active := rest }) cons.mLR hx with ⟨rfl, rfl⟩ | ⟨_, a, b⟩
  · by_cases hja : j = sc.adm
    · subst hja
      have : (0 : ℚ) ≤ 6 * M / 2 ^ 53 := by positivity
      linarith
    · have hl := hlow' _ (hh x sc.adm hv.1 h1.mem)
      rw [pushTo_p] at hl
      have e : upd s.p (hd adj x sc.adm) (fl (s.p (hd adj x sc.adm) - fl (fl (sc.second - sc.pref) + eps))) (hd adj x sc.adm) =
        fl (s.p (hd adj x sc.adm) - fl (fl (sc.second - sc.pref) + eps)) := by simp [upd]
      have := push_error H hM1 hM hC hv.1 hh he pw h1 rfl hlow (by rw [← e]; exact hl) j hj hja
      have h5 := hrc x j
      have e2 : redCost adj (pushTo adj x sc.adm (fl (s.p (hd adj x sc.adm) - fl (fl (sc.second - sc.pref) + eps))) best nb
          { s with active := rest }).p x sc.adm = ((arcAt adj x sc.adm).cost : ℚ) -
          fl (s.p (hd adj x sc.adm) - fl (fl (sc.second - sc.pref) + eps)) := by
        rw [pushTo_p]
        unfold redCost
        have : (arcAt adj x sc.adm).head = hd adj x sc.adm := rfl
        rw [this]
        show _ - upd s.p _ _ _ = _
        rw [e]
      rw [e2]
      linarith
  · have e : redCost adj (pushTo adj v sc.adm (fl (s.p (hd adj v sc.adm) - fl (fl (sc.second - sc.pref) + eps))) best nb
        { s with active := rest }).p x k = redCost adj s.p x k := by
      rw [pushTo_p]
      unfold redCost upd
      rw [if_neg (show (arcAt adj x k).head ≠ hd adj v sc.adm from b)]
    rw [e]
    have := heo x k a j hj
    have := hrc x j
    linarith

theorem refineLoopF_eopt (H : RoundsNearest fl) {adj N eps po} {M C : Nat} (hM1 : 1 ≤ M) (hM : M ≤ 2 ^ 53)
    (hC : CostLe adj N C) (hh : HeadLt adj N) (he : 0 ≤ eps) (hpo : 0 ≤ po) (fuel : Nat)
    (s s' : CsaState) (cons : Cons adj N s) (pw : PW fl adj N s) (heo : EOpt adj (eps + 6 * M / 2 ^ 53) s)
    (h : refineLoopF fl adj eps po fuel s = some s') (hlow : ∀ w, w < N → (C : ℚ) - M ≤ s'.p w) :
    EOpt adj (eps + 6 * M / 2 ^ 53) s' := by
  induction fuel generalizing s with
  | zero => simp [refineLoopF] at h
  | succ f ih =>
    have h0 := h
    unfold refineLoopF at h
    split at h
    · cases h; exact heo
    · split at h
      · cases h
      · rename_i v rest hact
        split at h
        · cases h
        · rename_i hne
          have hv := (cons.act v).mp (by rw [hact]; exact List.mem_cons_self)
          obtain ⟨a, b⟩ := doublePushF_pw H (rest := rest) he hpo hne hv.1 pw
          have cons' : Cons adj N (doublePushF fl adj eps po v { s with active := rest }) := doublePushF_cons hne hact cons
          obtain ⟨_, c⟩ := refineLoopF_pw H he hpo f _ s' cons' a h
          obtain ⟨_, d⟩ := refineLoopF_pw H he hpo (f + 1) s s' cons pw h0
          exact ih _ cons' a (push_eopt H hM1 hM hC hh he hpo hne cons hact pw heo
            (fun w hw => (hlow w hw).trans (d w)) (fun w hw => (hlow w hw).trans (c w))) h

theorem refineInit_pw {adj N s} (idle : IdleC adj N s) (pw : PW fl adj N s) : PW fl adj N (refineInit adj N s) := by
  obtain ⟨_, _, _, _, a5, a6, a7⟩ := refineInit_effect idle
  refine ⟨?_, ?_, ?_⟩
  · intro v hv hfew; rw [a5, a6, a7]; exact pw.cache v hv hfew
  · intro w; rw [a5]; exact pw.f64 w
  · intro w; rw [a5]; exact pw.nonpos w

theorem refineInit_eopt {adj N s} (idle : IdleC adj N s) (E : ℚ) : EOpt adj E (refineInit adj N s) := by
  obtain ⟨hL, _⟩ := refineInit_effect idle
  intro v k h; rw [hL] at h; cases h

theorem updateEpsilonF_ge (fl : ℚ → ℚ) (eps m : ℚ) : m ≤ updateEpsilonF fl eps m := by
  unfold updateEpsilonF; split
  · exact le_refl _
  · rename_i h; exact not_lt.mp h

theorem mainLoopF_pw (H : RoundsNearest fl) {adj N po minEps} (hpo : 0 ≤ po) (hmin : 0 ≤ minEps) (fuelR fuel : Nat)
    (eps : ℚ) (s s' : CsaState) (idle : IdleC adj N s) (pw : PW fl adj N s)
    (h : mainLoopF fl adj N po minEps fuelR fuel eps s = some s') : PW fl adj N s' ∧ ∀ w, s'.p w ≤ s.p w := by
  induction fuel generalizing eps s with
  | zero => simp [mainLoopF] at h
  | succ f ih =>
    unfold mainLoopF at h
    split at h
    · cases hr : refineF fl adj N (updateEpsilonF fl eps minEps) po fuelR s with
      | none => rw [hr] at h; cases h
      | some t =>
        rw [hr] at h
        have he := hmin.trans (updateEpsilonF_ge fl eps minEps)
        have inv := refineLoopF_cons fuelR _ t (refineInit_cons idle) hr
        have ipw := refineLoopF_pw H he hpo fuelR _ t (refineInit_cons idle) (refineInit_pw idle pw) hr
        obtain ⟨a, b⟩ := ih _ t (inv.1.idle inv.2) ipw.1 h
        refine ⟨a, fun w => (b w).trans ((ipw.2 w).trans ?_)⟩
        rw [(refineInit_effect idle).2.2.2.2.1]
    · cases h; exact ⟨pw, fun w => le_refl _⟩

/-- The matching at the end of the scaling loop is nearly optimal arc by arc, unless the loop was never entered. -/
theorem mainLoopF_eopt (H : RoundsNearest fl) {adj N po minEps} {M C : Nat} (hM1 : 1 ≤ M) (hM : M ≤ 2 ^ 53)
    (hC : CostLe adj N C) (hh : HeadLt adj N) (hpo : 0 ≤ po) (hmin : 0 ≤ minEps) (fuelR fuel : Nat) (eps : ℚ)
    (s0 s s' : CsaState) (idle : IdleC adj N s) (pw : PW fl adj N s)
    (hs : minEps < eps ∨ s = s0 ∨ (eps = minEps ∧ EOpt adj (minEps + 6 * M / 2 ^ 53) s))
    (h : mainLoopF fl adj N po minEps fuelR fuel eps s = some s') (hlow : ∀ w, w < N → (C : ℚ) - M ≤ s'.p w) :
    s' = s0 ∨ EOpt adj (minEps + 6 * M / 2 ^ 53) s' := by
  induction fuel generalizing eps s with
  | zero => simp [mainLoopF] at h
  | succ f ih =>
    unfold mainLoopF at h
    split at h
    · cases hr : refineF fl adj N (updateEpsilonF fl eps minEps) po fuelR s with
      | none => rw [hr] at h; cases h
      | some t =>
        rw [hr] at h
        simp only at h
        have hge := updateEpsilonF_ge fl eps minEps
        have he := hmin.trans hge
        have inv := refineLoopF_cons fuelR _ t (refineInit_cons idle) hr
        have ipw := refineLoopF_pw H he hpo fuelR _ t (refineInit_cons idle) (refineInit_pw idle pw) hr
        have hl := (mainLoopF_pw H hpo hmin fuelR f _ t s' (inv.1.idle inv.2) ipw.1 h).2
        refine ih _ t (inv.1.idle inv.2) ipw.1 ?_ h
        rcases lt_or_eq_of_le hge with hlt | heq
        · exact .inl hlt
        · right; right
          refine ⟨heq.symm, ?_⟩
          have := refineLoopF_eopt H hM1 hM hC hh he hpo fuelR _ t (refineInit_cons idle) (refineInit_pw idle pw)
            (refineInit_eopt idle _) hr (fun w hw => (hlow w hw).trans (hl w))
          rwa [← heq] at this
    · rename_i hle
      cases h
      rcases hs with hs | hs | ⟨_, hs⟩
      · exact absurd hs hle
      · exact .inl hs
      · exact .inr hs

/-- Total cost of a nearly optimal matching. -/
theorem eopt_total {adj N E s} (idle : IdleC adj N s) (hm : ∀ v, v < N → ∃ k, s.mL v = some k) (heo : EOpt adj E s)
    (hh : HeadLt adj N) {σ : Nat → Nat} (hσ : PMat adj N σ) :
    ((∑ v ∈ Finset.range N, (arcAt adj v ((s.mL v).getD 0)).cost : Int) : ℚ) ≤
      ((∑ v ∈ Finset.range N, (arcAt adj v (σ v)).cost : Int) : ℚ) + N * E := by
  have hτ := idleC_pmat idle hm hh
  have hget : ∀ v, v < N → s.mL v = some ((s.mL v).getD 0) := by
    intro v hv
    obtain ⟨k, hk⟩ := hm v hv
    rw [hk]; rfl
  have h1 : ∑ v ∈ Finset.range N, redCost adj s.p v ((s.mL v).getD 0) ≤
      ∑ v ∈ Finset.range N, (redCost adj s.p v (σ v) + E) := by
    apply Finset.sum_le_sum
    intro v hv
    have hv' := Finset.mem_range.mp hv
    exact heo v _ (hget v hv') (σ v) (hσ.valid v hv')
  rw [Finset.sum_add_distrib, Finset.sum_const, Finset.card_range, nsmul_eq_mul] at h1
  have e : ∀ τ : Nat → Nat, PMat adj N τ → ∑ v ∈ Finset.range N, redCost adj s.p v (τ v) =
      ((∑ v ∈ Finset.range N, (arcAt adj v (τ v)).cost : Int) : ℚ) - ∑ w ∈ Finset.range N, s.p w := by
    intro τ hτ
    unfold redCost
    rw [Finset.sum_sub_distrib, ← pmat_sum_p hτ s.p]
    push_cast
    rfl
  rw [e _ hτ, e _ hσ] at h1
  linarith

theorem poF_nonneg (H : RoundsNearest fl) (n : Nat) : 0 ≤ poF fl n := by
  unfold poF scaleFactor
  have := H.nonneg (x := (n : ℚ)) (by positivity)
  have := H.nonneg (x := 2 * fl n) (by linarith)
  have := H.nonneg (x := (10 : ℚ) + 1) (by norm_num)
  exact H.nonneg (by positivity)

theorem minEpsF_nonneg (H : RoundsNearest fl) (n : Nat) : 0 ≤ minEpsF fl n := by
  unfold minEpsF
  have := H.nonneg (x := ((n + 1 : Nat) : ℚ)) (by positivity)
  exact H.nonneg (by positivity)

theorem minEpsF_le (H : RoundsNearest fl) (N : Nat) (hN : 0 < N) (hN' : 2 * N + 1 ≤ 2 ^ 53) :
    minEpsF fl (2 * N) ≤ 2 / (2 * N + 1) + 1 / 2 ^ 53 := by
  unfold minEpsF
  rw [H.nat _ hN']
  have hb : (2 : ℚ) / ((2 * N + 1 : Nat) : ℚ) ≤ 1 := by
    rw [div_le_one (by positivity)]
    have : 2 ≤ 2 * N + 1 := by omega
    exact_mod_cast this
  have h0 : (0 : ℚ) ≤ 2 / ((2 * N + 1 : Nat) : ℚ) := by positivity
  have := H.err_of_res (x := 2 / ((2 * N + 1 : Nat) : ℚ)) (M := 1) (le_refl _)
    (by rw [abs_of_nonneg (H.nonneg h0)]; exact H.le_one hb)
  have := (abs_le.mp this).2
  push_cast at this ⊢
  linarith

end EdgeEval
