import Verif.Lemmas.FloatClose

/-!
# C55 – the scores in binary64 arithmetic

Every statement holds for every rounding to nearest (`RoundsNearest`, any rule for ties).  `FloatM` is the model of the
code with a rounding after every float operation; `C55_exact` ties it to the exact model.  Sums of whole arrays
(`ndarray.sum`) may be taken in any order and bracketing (`SumsTo`).
-/

namespace EdgeEval.Props

open EdgeEval

variable {fl : ℚ → ℚ}

/-! ### Recall, precision, F -/

/-- C55: recall (precision is the same function) of whole numbers up to 2^53 is the correctly rounded quotient, lies in
[0, 1], is 0 only when nothing is matched and 1 only when everything is matched. -/
theorem C55_scores (H : RoundsNearest fl) (a b : ℕ) (hab : a ≤ b) (hb : b ≤ 2 ^ 53) :
    FloatM.recall fl a b = (if b = 0 then 0 else fl ((a : ℚ) / b)) ∧
    FloatM.precision fl a b = FloatM.recall fl a b ∧
    0 ≤ FloatM.recall fl a b ∧ FloatM.recall fl a b ≤ 1 ∧
    (FloatM.recall fl a b = 0 ↔ a = 0) ∧ (FloatM.recall fl a b = 1 ↔ a = b ∧ 0 < b) := by
  have h0 : (0 : ℚ) ≤ a := by positivity
  have h1 : (a : ℚ) ≤ b := by exact_mod_cast hab
  obtain ⟨u0, u1⟩ := FloatM.recall_unit H h0 h1 (isF64_nat b hb)
  have hv : FloatM.recall fl a b = (if b = 0 then 0 else fl ((a : ℚ) / b)) := by
    split
    · rename_i h; subst h
      have : a = 0 := by omega
      subst this
      simp [FloatM.recall, H.zero]
    · rename_i h
      exact FloatM.recall_pos H (isF64_nat b hb) (by exact_mod_cast h)
  refine ⟨hv, rfl, u0, u1, ?_, ?_⟩
  · rcases FloatM.recall_big H hab hb with h | h
    · exact ⟨fun _ => h.2, fun _ => h.1⟩
    · constructor
      · intro h'
        rw [h'] at h
        exact absurd h.1 (by norm_num)
      · intro h'; omega
  · constructor
    · intro h
      by_contra hc
      have hb0 : 0 < b := by
        rcases Nat.eq_zero_or_pos b with h' | h'
        · rw [hv, if_pos h'] at h; norm_num at h
        · exact h'
      have hlt : a + 1 ≤ b := by
        rcases Nat.lt_or_ge a b with h' | h'
        · exact h'
        · exact absurd ⟨le_antisymm hab h', hb0⟩ hc
      rw [hv, if_neg (by omega)] at h
      have hy : IsF64 (1 - 1 / 2 ^ 53) := ⟨2 ^ 53 - 1, -53, by norm_num, by norm_num, by norm_num⟩
      have hq : (a : ℚ) / b ≤ 1 - 1 / 2 ^ 53 := by
        have hbp : (0 : ℚ) < b := by exact_mod_cast hb0
        rw [div_le_iff₀ hbp]
        have h2 : (a : ℚ) + 1 ≤ b := by exact_mod_cast hlt
        have h3 : (b : ℚ) ≤ 2 ^ 53 := by exact_mod_cast hb
        have h4 : (1 : ℚ) / 2 ^ 53 * b ≤ 1 / 2 ^ 53 * 2 ^ 53 := mul_le_mul_of_nonneg_left h3 (by norm_num)
        have h5 : (1 : ℚ) / 2 ^ 53 * 2 ^ 53 = 1 := by norm_num
        nlinarith
      have := H.mono hq
      rw [H.exact hy, h] at this
      norm_num at this
    · rintro ⟨rfl, hb0⟩
      rw [hv, if_neg (by omega), div_self (by positivity), H.one]

example : FloatM.recall nearestF64 (3 : ℕ) (4 : ℕ) ≤ 1 := (C55_scores nearestF64_rounds 3 4 (by norm_num) (by norm_num)).2.2.2.1

/-- C55: the error bounds.  Recall and precision are within 2^-54 of the exact quotients, F is within 2^-50 of the
harmonic mean of the exact quotients, F lies in [0, 1], is 0 exactly when the exact one is, and is 1 for a perfect
prediction. -/
theorem C55_f1 (H : RoundsNearest fl) (cr sr cp sp : ℕ) (hr : cr ≤ sr) (hp : cp ≤ sp) (hsr : sr ≤ 2 ^ 53)
    (hsp : sp ≤ 2 ^ 53) :
    let x := FloatM.computeRPF fl cr sr cp sp
    let R : ℚ := if sr = 0 then 0 else (cr : ℚ) / sr
    let P : ℚ := if sp = 0 then 0 else (cp : ℚ) / sp
    |x.rcl - R| ≤ 1 / 2 ^ 54 ∧ |x.prc - P| ≤ 1 / 2 ^ 54 ∧ |x.f1 - Spec.harmonic R P| ≤ 1 / 2 ^ 50 ∧
    0 ≤ x.f1 ∧ x.f1 ≤ 1 ∧ (x.f1 = 0 ↔ cr = 0 ∨ cp = 0) ∧ (cr = sr → cp = sp → 0 < sr → 0 < sp → x.f1 = 1) := by
  intro x R P
  have eR : R = EdgeEval.recall cr sr := by
    rw [FloatM.recall_val _ _ (by positivity) (by exact_mod_cast hr)]
    simp only [R, Nat.cast_eq_zero]
  have eP : P = EdgeEval.recall cp sp := by
    rw [FloatM.recall_val _ _ (by positivity) (by exact_mod_cast hp)]
    simp only [P, Nat.cast_eq_zero]
  have s1 := FloatM.score_nat H hr hsr
  have s2 := FloatM.score_nat H hp hsp
  have hx1 : x.rcl = FloatM.recall fl cr sr := rfl
  have hx2 : x.prc = FloatM.recall fl cp sp := rfl
  have hx3 : x.f1 = FloatM.f1 fl (FloatM.recall fl cp sp) (FloatM.recall fl cr sr) := rfl
  have hF : Spec.harmonic R P = EdgeEval.f1 (EdgeEval.recall cp sp) (EdgeEval.recall cr sr) := by
    rw [f1_harmonic s2.nonneg' s1.nonneg', eR, eP]
  rw [hx1, hx2, hx3, hF, eR, eP]
  have herr := FloatM.f1_err H s2.ok s1.ok s2.rep
  refine ⟨s1.close, s2.close, FloatM.score_f1 H s2 s1, FloatM.f1_nonneg H s2.nonneg s1.nonneg,
    FloatM.f1_le_one H s2.nonneg s1.nonneg s2.le s1.le s2.rep, ?_, ?_⟩
  · have z1 := (C55_scores H cr sr hr hsr).2.2.2.2.1
    have z2 := (C55_scores H cp sp hp hsp).2.2.2.2.1
    rw [← z1, ← z2]
    have hz : EdgeEval.f1 (FloatM.recall fl cp sp) (FloatM.recall fl cr sr) = 0 ↔
        FloatM.recall fl cr sr = 0 ∨ FloatM.recall fl cp sp = 0 := by
      rw [f1_harmonic s2.nonneg s1.nonneg]
      unfold Spec.harmonic
      constructor
      · intro h
        by_contra hc
        rw [if_neg hc] at h
        push Not at hc
        have hp1 := lt_of_le_of_ne s1.nonneg (Ne.symm hc.1)
        have hp2 := lt_of_le_of_ne s2.nonneg (Ne.symm hc.2)
        have : (0 : ℚ) < 2 / (1 / FloatM.recall fl cr sr + 1 / FloatM.recall fl cp sp) := by positivity
        linarith
      · intro h; rw [if_pos h]
    rw [← hz]
    have hnn := EdgeEval.f1_nonneg s2.nonneg s1.nonneg
    obtain ⟨e1, e2⟩ := abs_le.mp herr
    constructor
    · intro h
      rw [h] at e1 e2
      have h5 : (5 : ℚ) / 2 ^ 53 ≤ 1 / 2 := by norm_num
      have := mul_le_mul_of_nonneg_right h5 hnn
      linarith
    · intro h
      rw [h] at e1 e2
      linarith
  · rintro rfl rfl h1 h2
    have o1 := (C55_scores H cr cr le_rfl hsr).2.2.2.2.2.mpr ⟨rfl, h1⟩
    have o2 := (C55_scores H cp cp le_rfl hsp).2.2.2.2.2.mpr ⟨rfl, h2⟩
    rw [o1, o2]
    unfold FloatM.f1 FloatM.f1Denom
    have t2 : fl 2 = 2 := H.exact isF64_two
    norm_num [t2, H.one, H.zero]

example : (FloatM.computeRPF nearestF64 (5 : ℕ) (5 : ℕ) (7 : ℕ) (7 : ℕ)).f1 = 1 :=
  (C55_f1 nearestF64_rounds 5 5 7 7 (by norm_num) (by norm_num) (by norm_num) (by norm_num)).2.2.2.2.2.2 rfl rfl
    (by norm_num) (by norm_num)

/-! ### Thresholds -/

/-- C55: an integer number of thresholds gives that many binary64 numbers, strictly increasing, strictly between 0 and 1,
each within 2^-50 of the ideal `(k+1)/(n+1)`. -/
theorem C55_thresholds (H : RoundsNearest fl) (n : ℕ) (h1 : 1 ≤ n) (hn : n < 2 ^ 48) :
    ∃ th, FloatM.checkThresholds fl (.int n) = .ok th ∧ th.length = n ∧ (∀ t ∈ th, IsF64 t) ∧
      (∀ k, k < n → |th.getD k 0 - ((k : ℚ) + 1) / ((n : ℚ) + 1)| ≤ 1 / 2 ^ 50) ∧
      (∀ k, k < n → 0 < th.getD k 0 ∧ th.getD k 0 < 1) ∧
      (∀ i j, i < j → j < n → th.getD i 0 < th.getD j 0) := by
  obtain ⟨th, e1, e2, e3, e4⟩ := FloatM.thresholds_close H h1 hn
  have hN : (1 : ℚ) / 2 ^ 48 ≤ 1 / ((n : ℚ) + 1) := by
    have := FloatM.inv_le (m := n + 1) hn (by omega)
    push_cast at this; exact this
  have e48 : (1 : ℚ) / 2 ^ 48 = 4 * (1 / 2 ^ 50) := by norm_num
  have hp : (0 : ℚ) < 1 / 2 ^ 50 := by norm_num
  rw [e48] at hN
  have hq : ∀ k : ℕ, ((k : ℚ) + 1) / ((n : ℚ) + 1) = (k + 1) * (1 / ((n : ℚ) + 1)) := by intro k; ring
  have hone : ((n : ℚ) + 1) * (1 / ((n : ℚ) + 1)) = 1 := by field_simp
  refine ⟨th, e1, e2, e3, e4, ?_, ?_⟩
  · intro k hk
    obtain ⟨a, b⟩ := abs_le.mp (e4 k hk)
    rw [hq] at a b
    set q := 1 / ((n : ℚ) + 1)
    have k0 : (0 : ℚ) ≤ k := by positivity
    have kn : (k : ℚ) + 1 ≤ n := by exact_mod_cast hk
    have q0 : 0 < q := by linarith
    have m1 : 0 ≤ (k : ℚ) * q := by positivity
    have m2 : ((k : ℚ) + 1) * q ≤ n * q := mul_le_mul_of_nonneg_right kn q0.le
    constructor <;> linarith
  · intro i j hij hj
    obtain ⟨a, b⟩ := abs_le.mp (e4 i (by omega))
    obtain ⟨c, d⟩ := abs_le.mp (e4 j hj)
    rw [hq] at a b c d
    set q := 1 / ((n : ℚ) + 1)
    have q0 : 0 < q := by linarith
    have kn : (i : ℚ) + 1 ≤ j := by exact_mod_cast hij
    have m2 : ((i : ℚ) + 1) * q ≤ j * q := mul_le_mul_of_nonneg_right kn q0.le
    linarith

example : ∃ th, FloatM.checkThresholds nearestF64 (.int (99 : ℕ)) = .ok th ∧ th.length = 99 := by
  obtain ⟨th, h1, h2, _⟩ := C55_thresholds nearestF64_rounds 99 (by norm_num) (by norm_num)
  exact ⟨th, h1, h2⟩

/-! ### A whole evaluation -/

/-- Pooled counts are whole numbers of at most 2^53. -/
theorem pooled_nat {n M : ℕ} {ss : List (String × Counts)} (hw : ∀ s ∈ ss, Spec.Whole n M s.2)
    (hM : ss.length * M ≤ 2 ^ 53) (f : (String × Counts) → ℕ) :
    (∃ a b : ℕ, (ss.map fun s => s.2.countR.getD (f s) 0).sum = a ∧ (ss.map fun s => s.2.sumR.getD (f s) 0).sum = b ∧
      a ≤ b ∧ b ≤ 2 ^ 53) ∧
    (∃ a b : ℕ, (ss.map fun s => s.2.countP.getD (f s) 0).sum = a ∧ (ss.map fun s => s.2.sumP.getD (f s) 0).sum = b ∧
      a ≤ b ∧ b ≤ 2 ^ 53) := by
  have gen : ∀ (l : List (String × Counts)) (g h : (String × Counts) → ℚ),
      (∀ s ∈ l, ∃ a b : ℕ, g s = a ∧ h s = b ∧ a ≤ b ∧ b ≤ M) →
      ∃ a b : ℕ, (l.map g).sum = a ∧ (l.map h).sum = b ∧ a ≤ b ∧ b ≤ l.length * M := by
    intro l g h hl
    induction l with
    | nil => exact ⟨0, 0, by simp, by simp, le_rfl, by simp⟩
    | cons s l ih =>
      obtain ⟨a, b, h1, h2, h3, h4⟩ := ih fun x hx => hl x (by simp [hx])
      obtain ⟨a', b', k1, k2, k3, k4⟩ := hl s (by simp)
      refine ⟨a' + a, b' + b, by simp [k1, h1], by simp [k2, h2], by omega, ?_⟩
      simp only [List.length_cons, Nat.add_mul, one_mul]; omega
  constructor
  · obtain ⟨a, b, h1, h2, h3, h4⟩ := gen ss _ _ fun s hs => (hw s hs).r (f s)
    exact ⟨a, b, h1, h2, h3, h4.trans hM⟩
  · obtain ⟨a, b, h1, h2, h3, h4⟩ := gen ss _ _ fun s hs => (hw s hs).p (f s)
    exact ⟨a, b, h1, h2, h3, h4.trans hM⟩

theorem zip_rows (fl : ℚ → ℚ) (th : List ℚ) (ss : List (String × Counts)) :
    List.zipWith (fun t (x : RPF) => (⟨t, x.rcl, x.prc, x.f1⟩ : ThresholdResult)) th (FloatM.pooledRPF fl th ss) =
      (List.range th.length).map fun k =>
        let x := FloatM.computeRPF fl (Spec.pooled Counts.countR ss k)
          (Spec.pooled Counts.sumR ss k) (Spec.pooled Counts.countP ss k) (Spec.pooled Counts.sumP ss k)
        (⟨th.getD k 0, x.rcl, x.prc, x.f1⟩ : ThresholdResult) := by
  apply List.ext_getElem
  · simp [FloatM.pooledRPF]
  · intro k h1 h2
    have : k < th.length := by simpa using h2
    simp [FloatM.pooledRPF, this]

/-- C55: an evaluation of samples with whole counts (pooled total at most 2^53) in binary64 never fails, and every number
in its result is in range: thresholds, per-image scores, ODS, OIS in [0, 1]; AP in [0, 100/101 + 2^-46]; AUC within 2^-44
of [0, 1].  ODS F is at least the F of every threshold. -/
theorem C55_evaluation (H : RoundsNearest fl) {sum : List ℚ → ℚ} (hS : ∀ l, SumsTo fl l (sum l)) {M : ℕ}
    {arg : ThresholdArg} {th : List ℚ} {ss : List (String × Counts)} (hth : FloatM.checkThresholds fl arg = .ok th)
    (hn : th ≠ []) (hw : ∀ s ∈ ss, Spec.Whole th.length M s.2) (hM : ss.length * M ≤ 2 ^ 53) :
    ∃ r t o, FloatM.calculateFromCounts fl sum arg ss = .ok (r, t, o) ∧
      r.map SampleResult.name = ss.map Prod.fst ∧ t.map ThresholdResult.threshold = th ∧
      (∀ x ∈ r, (0 ≤ x.recall ∧ x.recall ≤ 1) ∧ (0 ≤ x.precision ∧ x.precision ≤ 1) ∧ 0 ≤ x.f1 ∧ x.f1 ≤ 1) ∧
      (∀ x ∈ t, (0 ≤ x.recall ∧ x.recall ≤ 1) ∧ (0 ≤ x.precision ∧ x.precision ≤ 1) ∧ 0 ≤ x.f1 ∧ x.f1 ≤ 1) ∧
      ((0 ≤ o.odsRecall ∧ o.odsRecall ≤ 1) ∧ (0 ≤ o.odsPrecision ∧ o.odsPrecision ≤ 1) ∧ 0 ≤ o.odsF1 ∧ o.odsF1 ≤ 1) ∧
      (∀ x ∈ t, x.f1 ≤ o.odsF1) ∧
      ((0 ≤ o.oisRecall ∧ o.oisRecall ≤ 1) ∧ (0 ≤ o.oisPrecision ∧ o.oisPrecision ≤ 1) ∧ 0 ≤ o.oisF1 ∧ o.oisF1 ≤ 1) ∧
      (0 ≤ o.ap ∧ o.ap ≤ 100 / 101 + 1 / 2 ^ 46) ∧ (-(1 / 2 ^ 44) ≤ o.auc ∧ o.auc ≤ 1 + 1 / 2 ^ 44) := by
  have hpos := List.length_pos_iff.mpr hn
  obtain ⟨b, hb, hrun⟩ := FloatM.calc_ok H sum hth hpos hw hM
  -- every (recall, precision, F) triple of whole counts
  have trip : ∀ cr sr cp sp : ℚ, (∃ a b : ℕ, cr = a ∧ sr = b ∧ a ≤ b ∧ b ≤ 2 ^ 53) →
      (∃ a b : ℕ, cp = a ∧ sp = b ∧ a ≤ b ∧ b ≤ 2 ^ 53) →
      (IsF64 (FloatM.recall fl cr sr) ∧ 0 ≤ FloatM.recall fl cr sr ∧ FloatM.recall fl cr sr ≤ 1) ∧
      (IsF64 (FloatM.recall fl cp sp) ∧ 0 ≤ FloatM.recall fl cp sp ∧ FloatM.recall fl cp sp ≤ 1) ∧
      0 ≤ FloatM.f1 fl (FloatM.recall fl cp sp) (FloatM.recall fl cr sr) ∧
      FloatM.f1 fl (FloatM.recall fl cp sp) (FloatM.recall fl cr sr) ≤ 1 := by
    rintro _ _ _ _ ⟨a, b, rfl, rfl, h1, h2⟩ ⟨c, d, rfl, rfl, h3, h4⟩
    have s1 := FloatM.score_nat H h1 h2
    have s2 := FloatM.score_nat H h3 h4
    exact ⟨⟨s1.rep, s1.nonneg, s1.le⟩, ⟨s2.rep, s2.nonneg, s2.le⟩, FloatM.f1_nonneg H s2.nonneg s1.nonneg,
      FloatM.f1_le_one H s2.nonneg s1.nonneg s2.le s1.le s2.rep⟩
  have row := fun k => trip _ _ _ _ (pooled_nat hw hM fun _ => k).1 (pooled_nat hw hM fun _ => k).2
  have hr : ∀ x ∈ (FloatM.pooledRPF fl th ss).map RPF.rcl, IsF64 x ∧ 0 ≤ x ∧ x ≤ 1 := by
    intro x hx
    simp only [FloatM.pooledRPF, List.map_map, List.mem_map] at hx
    obtain ⟨k, _, rfl⟩ := hx
    exact (row k).1
  have hp : ∀ x ∈ (FloatM.pooledRPF fl th ss).map RPF.prc, IsF64 x ∧ 0 ≤ x ∧ x ≤ 1 := by
    intro x hx
    simp only [FloatM.pooledRPF, List.map_map, List.mem_map] at hx
    obtain ⟨k, _, rfl⟩ := hx
    exact (row k).2.1
  have gd : ∀ (l : List ℚ), (∀ x ∈ l, IsF64 x ∧ 0 ≤ x ∧ x ≤ 1) → ∀ i, IsF64 (l.getD i 0) ∧ 0 ≤ l.getD i 0 ∧ l.getD i 0 ≤ 1 := by
    intro l hl i
    rw [List.getD_eq_getElem?_getD]
    cases h : l[i]? with
    | none => exact ⟨isF64_zero, le_rfl, by norm_num⟩
    | some x => exact hl x (List.mem_of_getElem? h)
  have gr := gd _ hr
  have gp := gd _ hp
  refine ⟨_, _, _, hrun, ?_, ?_, ?_, ?_, ?_, ?_, ?_, ?_, ?_⟩
  · simp [FloatM.sampleRow, Function.comp_def]
  · rw [zip_rows]
    apply List.ext_getElem
    · simp
    · intro k h1 h2
      simp only [List.map_map, List.getElem_map, Function.comp_apply, List.getElem_range]
      simp [h2]
  · intro x hx
    obtain ⟨s, hs, rfl⟩ := List.mem_map.mp hx
    have hw1 := pooled_nat (ss := [s]) (M := M) (n := th.length) (by simpa using hw s hs) (by
      have : 1 ≤ ss.length := List.length_pos_of_mem hs
      simp only [List.length_singleton, one_mul]
      nlinarith) fun _ => FloatM.sampleBest fl s.2
    simp only [List.map_cons, List.map_nil, List.sum_singleton] at hw1
    obtain ⟨h1, h2, h3⟩ := trip _ _ _ _ hw1.1 hw1.2
    exact ⟨h1.2, h2.2, h3⟩
  · intro x hx
    rw [zip_rows] at hx
    obtain ⟨k, _, rfl⟩ := List.mem_map.mp hx
    exact ⟨(row k).1.2, (row k).2.1.2, (row k).2.2⟩
  · rcases hb.att with h | ⟨i, _, _, d, hd, h⟩
    · rw [h]
      exact ⟨(gr 0).2, (gp 0).2, FloatM.f1_nonneg H (gp 0).2.1 (gr 0).2.1,
        FloatM.f1_le_one H (gp 0).2.1 (gr 0).2.1 (gp 0).2.2 (gr 0).2.2 (gp 0).1⟩
    · have m1 := FloatM.mix_unit H (gr i).2 (gr (i - 1)).2 (FloatM.grid_mem H hd)
      have m2 := FloatM.mix_unit H (gp i).2 (gp (i - 1)).2 (FloatM.grid_mem H hd)
      rw [h]
      exact ⟨m1, m2, FloatM.f1_nonneg H m2.1 m1.1, FloatM.f1_le_one H m2.1 m1.1 m2.2 m1.2 (FloatM.mix_rep H _ _ _)⟩
  · intro x hx
    rw [zip_rows] at hx
    obtain ⟨k, hk, rfl⟩ := List.mem_map.mp hx
    have hk : k < th.length := by simpa using hk
    have e1 : ((FloatM.pooledRPF fl th ss).map RPF.rcl).getD k 0 = FloatM.recall fl (Spec.pooled Counts.countR ss k)
        (Spec.pooled Counts.sumR ss k) := by simp [FloatM.pooledRPF, hk, FloatM.computeRPF]
    have e2 : ((FloatM.pooledRPF fl th ss).map RPF.prc).getD k 0 = FloatM.precision fl (Spec.pooled Counts.countP ss k)
        (Spec.pooled Counts.sumP ss k) := by simp [FloatM.pooledRPF, hk, FloatM.computeRPF]
    rcases Nat.eq_zero_or_pos k with h0 | h0
    · have := hb.ge0
      subst h0
      rw [e1, e2] at this
      exact this
    · have := hb.ge k h0 (by omega) 1 (FloatM.one_mem_grid fl)
      simp only [FloatM.odsPoint, FloatM.mix_one H (gr k).1, FloatM.mix_one H (gp k).1] at this
      rw [e1, e2] at this
      exact this
  · have hbst := pooled_nat hw hM fun s => FloatM.sampleBest fl s.2
    obtain ⟨h1, h2, h3⟩ := trip _ _ _ _ hbst.1 hbst.2
    exact ⟨h1.2, h2.2, h3⟩
  · exact FloatM.ap_unit H fun p hp' => (hp p hp').2.2
  · exact FloatM.area_unit H hS hr hp

/-- Sequential summation, one of the sums covered by `SumsTo`. -/
def seqSum (fl : ℚ → ℚ) : List ℚ → ℚ
  | [] => 0
  | x :: l => fl (x + seqSum fl l)

theorem seqSum_sums (fl : ℚ → ℚ) (l : List ℚ) : SumsTo fl l (seqSum fl l) := by
  induction l with
  | nil => exact .nil
  | cons x l ih => exact .add (.one x) ih (List.Perm.refl _)

/-- A sample with whole counts at two thresholds. -/
def wholeSample : Counts := ⟨[3, 1], [4, 4], [3, 1], [5, 1]⟩

theorem wholeSample_whole : Spec.Whole 2 5 wholeSample := by
  refine ⟨rfl, rfl, rfl, rfl, ?_, ?_⟩
  · intro k
    match k with
    | 0 => exact ⟨3, 4, by norm_num [wholeSample], by norm_num [wholeSample], by norm_num, by norm_num⟩
    | 1 => exact ⟨1, 4, by norm_num [wholeSample], by norm_num [wholeSample], by norm_num, by norm_num⟩
    | k + 2 => exact ⟨0, 0, by simp [wholeSample], by simp [wholeSample], le_rfl, by norm_num⟩
  · intro k
    match k with
    | 0 => exact ⟨3, 5, by norm_num [wholeSample], by norm_num [wholeSample], by norm_num, by norm_num⟩
    | 1 => exact ⟨1, 1, by norm_num [wholeSample], by norm_num [wholeSample], by norm_num, by norm_num⟩
    | k + 2 => exact ⟨0, 0, by simp [wholeSample], by simp [wholeSample], le_rfl, by norm_num⟩

example : ∃ r t o, FloatM.calculateFromCounts nearestF64 (seqSum nearestF64) (.list [1/4, 3/4])
    [("a", wholeSample), ("b", wholeSample)] = .ok (r, t, o) ∧ o.odsF1 ≤ 1 := by
  obtain ⟨r, t, o, h, _, _, _, _, h2, _⟩ := C55_evaluation nearestF64_rounds (seqSum_sums nearestF64) (M := 5)
    (arg := .list [1/4, 3/4]) (th := [1/4, 3/4]) (ss := [("a", wholeSample), ("b", wholeSample)]) rfl (by simp)
    (by intro s hs; simp only [List.mem_cons, List.not_mem_nil, or_false] at hs
        rcases hs with rfl | rfl <;> exact wholeSample_whole) (by norm_num)
  exact ⟨r, t, o, h, h2.2.2.2⟩

/-- C55: the same evaluation in exact arithmetic and in binary64.  Every recall and precision of the threshold table is
the correctly rounded exact value, every F of the table and every best F of an image is within 2^-50 of the exact one,
and the ODS F is within 2^-47 of the exact one. -/
theorem C55_close (H : RoundsNearest fl) (sum : List ℚ → ℚ) {M : ℕ} {th : List ℚ} {ss : List (String × Counts)}
    (hn : th ≠ []) (hw : ∀ s ∈ ss, Spec.Whole th.length M s.2) (hM : ss.length * M ≤ 2 ^ 53) :
    ∃ r t o r' t' o', FloatM.calculateFromCounts fl sum (.list th) ss = .ok (r, t, o) ∧
      calculateFromCounts (.list th) ss = .ok (r', t', o') ∧
      (∀ (k : ℕ) (x x' : ThresholdResult), t[k]? = some x → t'[k]? = some x' → x.threshold = x'.threshold ∧ x.recall = fl x'.recall ∧
        x.precision = fl x'.precision ∧ |x.recall - x'.recall| ≤ 1 / 2 ^ 54 ∧
        |x.precision - x'.precision| ≤ 1 / 2 ^ 54 ∧ |x.f1 - x'.f1| ≤ 1 / 2 ^ 50) ∧
      t.length = th.length ∧ t'.length = th.length ∧
      (∀ (k : ℕ) (x x' : SampleResult), r[k]? = some x → r'[k]? = some x' → |x.f1 - x'.f1| ≤ 1 / 2 ^ 50) ∧
      r.length = ss.length ∧ r'.length = ss.length ∧
      |o.odsF1 - o'.odsF1| ≤ 1 / 2 ^ 47 := by
  have hpos := List.length_pos_iff.mpr hn
  obtain ⟨b, hb, hrun⟩ := FloatM.calc_ok H sum (arg := .list th) (th := th) rfl hpos hw hM
  obtain ⟨b', _, hb', hfin⟩ := finish_ok th ss hpos
  have hrun' := (calc_ok_iff (.list th) ss _).mpr ⟨th, rfl, hpos, fun s hs => FloatM.sameLen (hw s hs), hfin⟩
  have ezip : List.zipWith (fun t (x : RPF) => (⟨t, x.rcl, x.prc, x.f1⟩ : ThresholdResult)) th (pooledRPF th ss) =
      (List.range th.length).map fun k =>
        let x := computeRPF (Spec.pooled Counts.countR ss k)
          (Spec.pooled Counts.sumR ss k) (Spec.pooled Counts.countP ss k) (Spec.pooled Counts.sumP ss k)
        (⟨th.getD k 0, x.rcl, x.prc, x.f1⟩ : ThresholdResult) := by
    apply List.ext_getElem
    · simp [pooledRPF]
    · intro k h1 h2
      have : k < th.length := by simpa using h2
      simp [pooledRPF, this]
  have sc : ∀ c s : ℚ, (∃ a b : ℕ, c = a ∧ s = b ∧ a ≤ b ∧ b ≤ 2 ^ 53) →
      FloatM.Score (FloatM.recall fl c s) (recall c s) ∧ FloatM.recall fl c s = fl (recall c s) := by
    rintro _ _ ⟨a, b, rfl, rfl, h1, h2⟩
    exact ⟨FloatM.score_nat H h1 h2, FloatM.recall_round H (by positivity) (by exact_mod_cast h1) (isF64_nat b h2)⟩
  have scR := fun k => sc _ _ (pooled_nat hw hM fun _ => k).1
  have scP := fun k => sc _ _ (pooled_nat hw hM fun _ => k).2
  refine ⟨_, _, _, _, _, _, hrun, hrun', ?_, ?_, ?_, ?_, ?_, ?_, ?_⟩
  · intro k x x' hx hx'
    rw [zip_rows] at hx
    rw [ezip] at hx'
    by_cases hk : k < th.length
    · simp only [List.getElem?_map, List.getElem?_range hk, Option.map_some, Option.some.injEq] at hx hx'
      subst hx; subst hx'
      exact ⟨rfl, (scR k).2, (scP k).2, (scR k).1.close, (scP k).1.close, FloatM.score_f1 H (scP k).1 (scR k).1⟩
    · rw [List.getElem?_eq_none (by simpa using hk)] at hx
      simp at hx
  · simp [FloatM.pooledRPF]
  · simp [pooledRPF]
  · intro k x x' hx hx'
    simp only [accOf, List.getElem?_map] at hx hx'
    cases hs : ss[k]? with
    | none => rw [hs] at hx; simp at hx
    | some s =>
      have hmem := List.mem_of_getElem? hs
      rw [hs] at hx hx'
      simp only [Option.map_some, Option.some.injEq] at hx hx'
      subst hx; subst hx'
      have hsl := FloatM.sameLen (hw s hmem)
      have h1 : 1 ≤ ss.length := List.length_pos_of_mem hmem
      have hM1 : ([s] : List (String × Counts)).length * M ≤ 2 ^ 53 := by
        simp only [List.length_singleton, one_mul]; nlinarith
      have scS : ∀ j, FloatM.Score (FloatM.recall fl (s.2.countR.getD j 0) (s.2.sumR.getD j 0))
          (recall (s.2.countR.getD j 0) (s.2.sumR.getD j 0)) ∧
          FloatM.Score (FloatM.recall fl (s.2.countP.getD j 0) (s.2.sumP.getD j 0))
          (recall (s.2.countP.getD j 0) (s.2.sumP.getD j 0)) := by
        intro j
        have := pooled_nat (ss := [s]) (M := M) (n := th.length) (by simpa using hw s hmem) hM1 fun _ => j
        simp only [List.map_cons, List.map_nil, List.sum_singleton] at this
        exact ⟨(sc _ _ this.1).1, (sc _ _ this.2).1⟩
      obtain ⟨a1, a2⟩ := FloatM.sampleBest_lt (fl := fl) hsl hpos
      obtain ⟨c1, c2⟩ := sampleBest_lt hsl hpos
      have a3 := argmax_spec a1
      have c3 := argmax_spec c1
      have ga : ∀ j, j < th.length → ((FloatM.computeRPFArr fl s.2).map RPF.f1).getD j 0 =
          FloatM.f1 fl (FloatM.recall fl (s.2.countP.getD j 0) (s.2.sumP.getD j 0))
            (FloatM.recall fl (s.2.countR.getD j 0) (s.2.sumR.getD j 0)) := by
        intro j hj
        rw [List.getD_eq_getElem?_getD, List.getElem?_map, FloatM.computeRPFArr_getElem hsl hj]
        rfl
      have gc : ∀ j, j < th.length → ((computeRPFArr s.2).map RPF.f1).getD j 0 =
          f1 (recall (s.2.countP.getD j 0) (s.2.sumP.getD j 0)) (recall (s.2.countR.getD j 0) (s.2.sumR.getD j 0)) := by
        intro j hj
        rw [List.getD_eq_getElem?_getD, List.getElem?_map, computeRPFArr_getElem hsl hj]
        rfl
      have la : ((FloatM.computeRPFArr fl s.2).map RPF.f1).length = th.length := by
        rw [List.length_map, FloatM.computeRPFArr_length hsl]
      have lc : ((computeRPFArr s.2).map RPF.f1).length = th.length := by
        rw [List.length_map, computeRPFArr_length hsl]
      have m1 := a3.2.1 (sampleBest s.2) (by rw [la]; exact c2)
      have m2 := c3.2.1 (FloatM.sampleBest fl s.2) (by rw [lc]; exact a2)
      simp only [ga _ a2, ga _ c2] at m1
      simp only [gc _ a2, gc _ c2] at m2
      have d1 := abs_le.mp (FloatM.score_f1 H (scS (sampleBest s.2)).2 (scS (sampleBest s.2)).1)
      have d2 := abs_le.mp (FloatM.score_f1 H (scS (FloatM.sampleBest fl s.2)).2 (scS (FloatM.sampleBest fl s.2)).1)
      show |FloatM.f1 fl (FloatM.recall fl (s.2.countP.getD (FloatM.sampleBest fl s.2) 0)
            (s.2.sumP.getD (FloatM.sampleBest fl s.2) 0)) (FloatM.recall fl (s.2.countR.getD (FloatM.sampleBest fl s.2) 0)
            (s.2.sumR.getD (FloatM.sampleBest fl s.2) 0)) -
          f1 (recall (s.2.countP.getD (sampleBest s.2) 0) (s.2.sumP.getD (sampleBest s.2) 0))
            (recall (s.2.countR.getD (sampleBest s.2) 0) (s.2.sumR.getD (sampleBest s.2) 0))| ≤ _
      rw [abs_le]
      constructor
      · linarith [d1.1]
      · linarith [d2.2]
  · simp
  · simp [accOf]
  · refine FloatM.ods_close H ?_ ?_ hb hb'
    · intro k hk
      have hk : k < th.length := by omega
      have e2 : ((FloatM.pooledRPF fl th ss).map RPF.prc).getD k 0 = FloatM.recall fl (Spec.pooled Counts.countP ss k)
          (Spec.pooled Counts.sumP ss k) := by simp [FloatM.pooledRPF, hk, FloatM.computeRPF, FloatM.precision, FloatM.recall]
      have e3 : ((pooledRPF th ss).map RPF.prc).getD k 0 = recall (Spec.pooled Counts.countP ss k)
          (Spec.pooled Counts.sumP ss k) := by
        simp [pooledRPF, hk, computeRPF, precision, recall, precisionDenom, recallDenom]
      rw [e2, e3]
      exact (scP k).1
    · intro k hk
      have hk : k < th.length := by omega
      have e2 : ((FloatM.pooledRPF fl th ss).map RPF.rcl).getD k 0 = FloatM.recall fl (Spec.pooled Counts.countR ss k)
          (Spec.pooled Counts.sumR ss k) := by simp [FloatM.pooledRPF, hk, FloatM.computeRPF]
      have e3 : ((pooledRPF th ss).map RPF.rcl).getD k 0 = recall (Spec.pooled Counts.countR ss k)
          (Spec.pooled Counts.sumR ss k) := by simp [pooledRPF, hk, computeRPF]
      rw [e2, e3]
      exact (scR k).1

example : ∃ o o' : OverallResult, ∃ r t r' t', FloatM.calculateFromCounts nearestF64 (seqSum nearestF64) (.list [1/4, 3/4])
    [("a", wholeSample)] = .ok (r, t, o) ∧ calculateFromCounts (.list [1/4, 3/4]) [("a", wholeSample)] = .ok (r', t', o') ∧
    |o.odsF1 - o'.odsF1| ≤ 1 / 2 ^ 47 := by
  obtain ⟨r, t, o, r', t', o', h1, h2, _, _, _, _, _, _, h3⟩ := C55_close nearestF64_rounds (seqSum nearestF64) (M := 5)
    (th := [1/4, 3/4]) (ss := [("a", wholeSample)]) (by simp)
    (by intro s hs; simp only [List.mem_singleton] at hs; subst hs; exact wholeSample_whole) (by norm_num)
  exact ⟨o, o', r, t, r', t', h1, h2, h3⟩

/-- C55: the order in which the samples are processed does not change the threshold table or the overall result, bit for
bit (the accumulators hold whole numbers), and permutes the per-image rows. -/
theorem C55_order_independent (H : RoundsNearest fl) (sum : List ℚ → ℚ) {M : ℕ} {arg : ThresholdArg} {th : List ℚ}
    {ss ss' : List (String × Counts)} (hth : FloatM.checkThresholds fl arg = .ok th) (hn : th ≠ [])
    (hw : ∀ s ∈ ss, Spec.Whole th.length M s.2) (hM : ss.length * M ≤ 2 ^ 53) (hperm : ss.Perm ss') :
    ∃ r r' t o, FloatM.calculateFromCounts fl sum arg ss = .ok (r, t, o) ∧
      FloatM.calculateFromCounts fl sum arg ss' = .ok (r', t, o) ∧ r.Perm r' := by
  have hpos := List.length_pos_iff.mpr hn
  have hw' : ∀ s ∈ ss', Spec.Whole th.length M s.2 := fun s hs => hw s (hperm.mem_iff.mpr hs)
  have hM' : ss'.length * M ≤ 2 ^ 53 := by rw [← hperm.length_eq]; exact hM
  have hp : ∀ f, Spec.pooled f ss = Spec.pooled f ss' := by
    intro f; funext k
    exact (hperm.map _).sum_eq
  have hb : ∀ f : (String × Counts) → ℚ, (ss.map f).sum = (ss'.map f).sum := fun f => (hperm.map _).sum_eq
  have hrun : ∀ l : List (String × Counts), (∀ s ∈ l, Spec.Whole th.length M s.2) → l.length * M ≤ 2 ^ 53 →
      FloatM.calculateFromCounts fl sum arg l = FloatM.finishMetrics fl sum th (FloatM.accOf fl th l) := by
    intro l h1 h2
    have hl := FloatM.loop_ok H th l [] (by simpa using h1) hpos (by simpa using h2)
    rw [FloatM.accOf_nil, List.nil_append] at hl
    unfold FloatM.calculateFromCounts
    simp only [hth, hl, bind, Except.bind]
  have hacc : FloatM.accOf fl th ss' = { FloatM.accOf fl th ss with results := ss'.map (FloatM.sampleRow fl th) } := by
    simp only [FloatM.accOf, hp, hb]
  obtain ⟨b, _, h1⟩ := FloatM.calc_ok H sum hth hpos hw hM
  refine ⟨_, ss'.map (FloatM.sampleRow fl th), _, _, h1, ?_, hperm.map _⟩
  rw [hrun ss hw hM] at h1
  rw [hrun ss' hw' hM', hacc]
  unfold FloatM.finishMetrics at h1 ⊢
  simp only [bind, Except.bind] at h1 ⊢
  split at h1
  · simp at h1
  · simp only [pure, Except.pure, Except.ok.injEq, Prod.mk.injEq] at h1 ⊢
    exact ⟨trivial, h1.2.1, h1.2.2⟩

example : ∃ r r' t o, FloatM.calculateFromCounts nearestF64 (seqSum nearestF64) (.list [1/4, 3/4])
      [("a", wholeSample), ("b", wholeSample)] = .ok (r, t, o) ∧
    FloatM.calculateFromCounts nearestF64 (seqSum nearestF64) (.list [1/4, 3/4])
      [("b", wholeSample), ("a", wholeSample)] = .ok (r', t, o) ∧ r.Perm r' :=
  C55_order_independent nearestF64_rounds _ (M := 5) (th := [1/4, 3/4]) rfl (by simp)
    (by intro s hs; simp only [List.mem_cons, List.not_mem_nil, or_false] at hs
        rcases hs with rfl | rfl <;> exact wholeSample_whole) (by norm_num) (List.Perm.swap _ _ _)

/-! ### The exact model -/

theorem linspace_id (a b : ℚ) (n : ℕ) : FloatM.linspace id a b n = linspace a b n := by
  unfold FloatM.linspace linspace
  apply List.map_congr_left
  intro k _
  simp only [id]
  split
  · rfl
  · split
    · rename_i h1 h2
      have hk : (k : ℚ) = n - 1 := by
        have : (k : ℚ) + 1 = n := by exact_mod_cast h2
        linarith
      have : (n : ℚ) - 1 ≠ 0 := by
        have : (n : ℚ) ≠ 1 := by exact_mod_cast h1
        intro h; apply this; linarith
      rw [hk]; field_simp; ring
    · ring

theorem interpSeg_id (x right : ℚ) (pts : List (ℚ × ℚ)) : FloatM.interpSeg id x right pts = interpSeg x right pts := by
  induction pts with
  | nil => rfl
  | cons a rest ih =>
    obtain ⟨k, v⟩ := a
    cases rest with
    | nil => rfl
    | cons c rest =>
      obtain ⟨k', v'⟩ := c
      simp only [FloatM.interpSeg, interpSeg, ih, id]
      split
      · split
        · rename_i h; rw [h]; ring
        · ring
      · rfl

/-- C55: with exact arithmetic instead of rounding the float model is the model used for all other properties. -/
theorem C55_exact (arg : ThresholdArg) (ss : List (String × Counts)) :
    FloatM.calculateFromCounts id List.sum arg ss = calculateFromCounts arg ss := by
  have e1 : FloatM.checkThresholds id = checkThresholds := by
    funext a
    cases a <;> simp only [FloatM.checkThresholds, checkThresholds, linspace_id, id]
  have e2 : FloatM.addArr id = addArr := rfl
  have e3 : FloatM.computeRPF id = computeRPF := rfl
  have e4 : FloatM.computeRPFArr id = computeRPFArr := rfl
  have e5 : FloatM.sampleStep id = sampleStep := rfl
  have e6 : FloatM.interpolatedMaxScores id = interpolatedMaxScores := by
    have : FloatM.odsOuter id = odsOuter := by
      funext th rcl prc b i
      unfold FloatM.odsOuter odsOuter FloatM.odsInner odsInner
      rw [linspace_id]
      rfl
    unfold FloatM.interpolatedMaxScores interpolatedMaxScores
    rw [this]
    rfl
  have e7 : FloatM.arange01 id = arange01 := by
    unfold FloatM.arange01 arange01
    have : ⌈id ((1 : ℚ) / id (1 / 100))⌉.toNat = 100 := by norm_num; rfl
    rw [this]
    apply List.map_congr_left
    intro k _
    simp only [id]; ring
  have e8 : FloatM.areaPR id List.sum = areaPR := by
    funext r p
    have : ∀ x (pts : List (ℚ × ℚ)), FloatM.npInterp id x 0 0 pts = npInterp x 0 0 pts := by
      intro x pts
      cases pts with
      | nil => rfl
      | cons a rest => simp only [FloatM.npInterp, npInterp, interpSeg_id]
    unfold FloatM.areaPR areaPR
    rw [e7]
    simp only [id, this]
  have e9 : FloatM.averagePrecision id = averagePrecision := by
    funext r p
    unfold FloatM.averagePrecision averagePrecision
    rw [e7]
    rfl
  unfold FloatM.calculateFromCounts calculateFromCounts FloatM.finishMetrics finishMetrics
  rw [e1, e3, e4, e5, e6, e8, e9]

example : FloatM.calculateFromCounts id List.sum (.list [1/4, 3/4]) [("a", wholeSample)] =
    calculateFromCounts (.list [1/4, 3/4]) [("a", wholeSample)] := C55_exact _ _

/-! ### A rounding artefact in AP -/

theorem f64_eq {y : ℚ} (h : IsF64 y) (hlo : (1 : ℚ) / 4 < y) {m : ℤ} (h1 : ((m : ℚ) - 1) / 2 ^ 54 < y)
    (h2 : y < ((m : ℚ) + 1) / 2 ^ 54) : y = (m : ℚ) / 2 ^ 54 := by
  obtain ⟨z, rfl⟩ := isF64_multiple' h (-2) (by norm_num; linarith)
  have e : (2 : ℚ) ^ ((-2 : ℤ) - 52) = 1 / 2 ^ 54 := by norm_num
  rw [e] at h1 h2 ⊢
  have h1' : ((m : ℚ) - 1) < z := by
    rw [div_lt_iff₀ (by norm_num)] at h1
    have : (z : ℚ) * (1 / 2 ^ 54) * 2 ^ 54 = z := by ring_nf
    linarith
  have h2' : (z : ℚ) < m + 1 := by
    rw [lt_div_iff₀ (by norm_num)] at h2
    have : (z : ℚ) * (1 / 2 ^ 54) * 2 ^ 54 = z := by ring_nf
    linarith
  have : z = m := by
    have a : m - 1 < z := by exact_mod_cast h1'
    have b : z < m + 1 := by exact_mod_cast h2'
    omega
  rw [this]; ring

/-- C55, finding: the grid of recall levels is `k * 0.01` in floating point, and some of its points lie above the float
nearest to `k/100`.  A detector with recall exactly 7/20 = 35/100 therefore does not reach the grid point number 35. -/
theorem C55_grid_point_missed (H : RoundsNearest fl) :
    FloatM.recall fl (7 : ℕ) (20 : ℕ) < (FloatM.arange01 fl).getD 35 0 := by
  have e1 : FloatM.recall fl (7 : ℕ) (20 : ℕ) = 6305039478318694 / 2 ^ 54 := by
    rw [FloatM.recall_pos H (isF64_nat 20 (by norm_num)) (by norm_num)]
    have hy : IsF64 (6305039478318694 / 2 ^ 54) := ⟨3152519739159347, -53, by norm_num, by norm_num, by norm_num⟩
    have h1 := H.near (7 / 20) _ hy
    have h2 : |(6305039478318694 / 2 ^ 54 : ℚ) - 7 / 20| ≤ 41 / 100 / 2 ^ 54 := by
      rw [abs_le]; constructor <;> norm_num
    obtain ⟨a, b⟩ := abs_le.mp (h1.trans h2)
    have := f64_eq (m := 6305039478318694) (H.rep (7 / 20)) (by
      refine lt_of_lt_of_le ?_ (show (7 / 20 : ℚ) - 41 / 100 / 2 ^ 54 ≤ fl (7 / 20) by linarith)
      norm_num) (by
      refine lt_of_lt_of_le ?_ (show (7 / 20 : ℚ) - 41 / 100 / 2 ^ 54 ≤ fl (7 / 20) by linarith)
      norm_num) (by
      refine lt_of_le_of_lt (show fl (7 / 20) ≤ 7 / 20 + 41 / 100 / 2 ^ 54 by linarith) ?_
      norm_num)
    push_cast at this ⊢
    exact this
  have e2 : (FloatM.arange01 fl).getD 35 0 = 6305039478318695 / 2 ^ 54 := by
    rw [FloatM.arange01_eq H]
    have : ((List.range 100).map fun (k : Nat) => fl (k * fl (1 / 100))).getD 35 0 = fl (35 * fl (1 / 100)) := by simp
    rw [this, FloatM.hundredth H]
    have hy : IsF64 (6305039478318695 / 2 ^ 54) := ⟨6305039478318695, -54, by norm_num, by norm_num, by norm_num⟩
    have h1 := H.near (35 * (5764607523034235 / 2 ^ 59)) _ hy
    have h2 : |(6305039478318695 / 2 ^ 54 : ℚ) - 35 * (5764607523034235 / 2 ^ 59)| ≤ 47 / 100 / 2 ^ 54 := by
      rw [abs_le]; constructor <;> norm_num
    obtain ⟨a, b⟩ := abs_le.mp (h1.trans h2)
    have := f64_eq (m := 6305039478318695) (H.rep (35 * (5764607523034235 / 2 ^ 59))) (by
      refine lt_of_lt_of_le ?_ (show (35 * (5764607523034235 / 2 ^ 59) : ℚ) - 47 / 100 / 2 ^ 54 ≤ _ by linarith)
      norm_num) (by
      refine lt_of_lt_of_le ?_ (show (35 * (5764607523034235 / 2 ^ 59) : ℚ) - 47 / 100 / 2 ^ 54 ≤ _ by linarith)
      norm_num) (by
      refine lt_of_le_of_lt (show fl (35 * (5764607523034235 / 2 ^ 59)) ≤ 35 * (5764607523034235 / 2 ^ 59) + 47 / 100 / 2 ^ 54 by linarith) ?_
      norm_num)
    push_cast at this ⊢
    exact this
  rw [e1, e2]
  norm_num

/-- C55, finding: the effect on AP.  One image, one threshold, 7 of 20 boundary pixels found, no false positives: the exact
AP is 36/101, the computed one is at most 35/101 (up to rounding), a difference of almost 0.01. -/
theorem C55_ap_artefact (H : RoundsNearest fl) {sum : List ℚ → ℚ} :
    ∃ r t o r' t' o', FloatM.calculateFromCounts fl sum (.list [1/2]) [("a", ⟨[7], [20], [7], [7]⟩)] = .ok (r, t, o) ∧
      calculateFromCounts (.list [1/2]) [("a", ⟨[7], [20], [7], [7]⟩)] = .ok (r', t', o') ∧
      o'.ap = 36 / 101 ∧ o.ap ≤ 35 / 101 + 1 / 2 ^ 47 := by
  have hw : Spec.Whole 1 20 (⟨[7], [20], [7], [7]⟩ : Counts) := by
    refine ⟨rfl, rfl, rfl, rfl, ?_, ?_⟩
    · intro k
      match k with
      | 0 => exact ⟨7, 20, by norm_num, by norm_num, by norm_num, by norm_num⟩
      | k + 1 => exact ⟨0, 0, by simp, by simp, le_rfl, by norm_num⟩
    · intro k
      match k with
      | 0 => exact ⟨7, 7, by norm_num, by norm_num, by norm_num, by norm_num⟩
      | k + 1 => exact ⟨0, 0, by simp, by simp, le_rfl, by norm_num⟩
  have hws : ∀ s ∈ [(("a" : String), (⟨[7], [20], [7], [7]⟩ : Counts))], Spec.Whole ([1/2] : List ℚ).length 20 s.2 := by
    intro s hs; simp only [List.mem_singleton] at hs; subst hs; exact hw
  obtain ⟨b, hb, hrun⟩ := FloatM.calc_ok H sum (arg := .list [1/2]) (th := [1/2]) rfl (by simp) hws (by norm_num)
  obtain ⟨b', _, hb', hfin⟩ := finish_ok [1/2] [(("a" : String), (⟨[7], [20], [7], [7]⟩ : Counts))] (by simp)
  have hrun' := (calc_ok_iff (.list [1/2]) _ _).mpr ⟨[1/2], rfl, by simp, fun s hs => FloatM.sameLen (hws s hs), hfin⟩
  refine ⟨_, _, _, _, _, _, hrun, hrun', ?_, ?_⟩
  · have e : (pooledRPF [1/2] [(("a" : String), (⟨[7], [20], [7], [7]⟩ : Counts))]) = [⟨7 / 20, 1, 14 / 27⟩] := by
      decide +kernel
    simp only [e, List.map_cons, List.map_nil]
    decide +kernel
  · have e : FloatM.pooledRPF fl [1/2] [(("a" : String), (⟨[7], [20], [7], [7]⟩ : Counts))] =
        [FloatM.computeRPF fl 7 20 7 7] := by
      simp [FloatM.pooledRPF, Spec.pooled, List.range_succ]
    simp only [e, List.map_cons, List.map_nil, FloatM.computeRPF]
    have hp1 : FloatM.precision fl 7 7 = 1 := by
      have := (C55_scores H 7 7 le_rfl (by norm_num)).2.2.2.2.2.mpr ⟨rfl, by norm_num⟩
      exact_mod_cast this
    rw [hp1]
    have hmiss := C55_grid_point_missed H
    push_cast at hmiss
    unfold FloatM.averagePrecision
    have hr100 : List.range 100 = List.range 35 ++ (List.range 65).map (35 + ·) := by decide +kernel
    have hg35 : (FloatM.arange01 fl).getD 35 0 = fl (((35 : ℕ) : ℚ) * fl (1 / 100)) := by
      rw [FloatM.arange01_eq H]; simp
    rw [hg35] at hmiss
    rw [FloatM.arange01_eq H, hr100, List.map_append, List.foldl_append]
    set r := FloatM.recall fl 7 20 with hr
    have hg := FloatM.precAtRecall_unit (rcl := [r]) (prc := [1]) (by simp)
    have h1 := FloatM.ap_fold H (precAtRecall [r] [1]) hg
      ((List.range 35).map fun (k : Nat) => fl (k * fl (1 / 100))) 0 0 (by simp) le_rfl (by simp)
    have hrest : ∀ (l : List ℕ) (ap : ℚ), IsF64 ap → (∀ k ∈ l, 35 ≤ k) →
        ((l.map fun (k : Nat) => fl (k * fl (1 / 100))).foldl (fun ap t => fl (ap + fl (precAtRecall [r] [1] t / 101))) ap)
          = ap := by
      intro l
      induction l with
      | nil => intro ap _ _; rfl
      | cons k l ih =>
        intro ap hap hl
        have hk := hl k (by simp)
        have hlt : r < fl ((k : ℚ) * fl (1 / 100)) := by
          refine lt_of_lt_of_le hmiss (H.mono ?_)
          apply mul_le_mul_of_nonneg_right
          · exact_mod_cast hk
          · rw [FloatM.hundredth H]; norm_num
        have hz : precAtRecall [r] [1] (fl ((k : ℚ) * fl (1 / 100))) = 0 := by
          have hf : (List.zip [r] [(1 : ℚ)]).filter (fun x => decide (fl ((k : ℚ) * fl (1 / 100)) ≤ x.1)) = [] := by
            rw [List.filter_eq_nil_iff]
            intro x hx
            simp only [List.zip_cons_cons, List.zip_nil_left, List.mem_singleton] at hx
            subst hx
            simpa using hlt
          unfold precAtRecall
          rw [hf]
          rfl
        simp only [List.map_cons, List.foldl_cons, hz, zero_div, H.zero, add_zero, H.exact hap]
        exact ih ap hap fun j hj => hl j (by simp [hj])
    have hrep : IsF64 (((List.range 35).map fun (k : Nat) => fl (k * fl (1 / 100))).foldl
        (fun ap t => fl (ap + fl (precAtRecall [r] [1] t / 101))) 0) := by
      rw [show List.range 35 = List.range 34 ++ [34] by decide, List.map_append, List.foldl_append]
      exact H.rep _
    rw [hrest _ _ hrep (by intro k hk; obtain ⟨j, _, rfl⟩ := List.mem_map.mp hk; omega)]
    refine h1.2.trans ?_
    simp only [List.length_map, List.length_range]
    norm_num

example : RoundsNearest nearestF64 := nearestF64_rounds

end EdgeEval.Props
