import Verif.Lemmas.Calc

/-!
# Property theorems C01–C05, C07–C09 (scores)

`calculateFromCounts arg samples` is `calculate_metrics` after the per-sample evaluation; the theorems
about it hold for every successful run.
-/

namespace EdgeEval.Props

open EdgeEval

/-- Two thresholds, two images: the running non-vacuity witness. -/
def demo : List (String × Counts) :=
  [("a", ⟨[2, 1], [3, 3], [2, 1], [4, 1]⟩), ("b", ⟨[0, 1], [2, 2], [0, 1], [0, 1]⟩)]

theorem demo_sane : ∀ s ∈ demo, Spec.Sane 2 s.2 := by
  intro s hs
  simp only [demo, List.mem_cons, List.not_mem_nil, or_false] at hs
  rcases hs with rfl | rfl <;> refine ⟨rfl, rfl, rfl, rfl, ?_, ?_⟩ <;>
    intro k <;> match k with
    | 0 => norm_num
    | 1 => norm_num
    | k + 2 => simp

/-! ## C01 -/

/-- C01: the three divisions never have a zero denominator. -/
theorem C01_denominators_nonzero (s p r : ℚ) :
    recallDenom s ≠ 0 ∧ precisionDenom s ≠ 0 ∧ f1Denom p r ≠ 0 :=
  ⟨recallDenom_ne s, precisionDenom_ne s, f1Denom_ne p r⟩

/-- C01: values and ranges of recall, precision and F1 for all counts with `count ≤ sum`. -/
theorem C01_scores (cr sr cp sp : ℚ) (hr0 : 0 ≤ cr) (hr : cr ≤ sr) (hp0 : 0 ≤ cp) (hp : cp ≤ sp) :
    let x := computeRPF cr sr cp sp
    (x.rcl = if sr = 0 then 0 else cr / sr) ∧ (x.prc = if sp = 0 then 0 else cp / sp) ∧
    x.f1 = Spec.harmonic x.rcl x.prc ∧
    (0 ≤ x.rcl ∧ x.rcl ≤ 1) ∧ (0 ≤ x.prc ∧ x.prc ≤ 1) ∧ (0 ≤ x.f1 ∧ x.f1 ≤ 1) := by
  have r0 := recall_nonneg hr0 hr
  have r1 := recall_le_one hr0 hr
  have p0 := recall_nonneg hp0 hp
  have p1 := recall_le_one hp0 hp
  refine ⟨?_, ?_, f1_harmonic p0 r0, ⟨r0, r1⟩, ⟨p0, p1⟩, ⟨f1_nonneg p0 r0, f1_le_one ⟨p0, p1⟩ ⟨r0, r1⟩⟩⟩
  · split
    · rename_i h; subst h
      have : cr = 0 := le_antisymm hr hr0
      show recall cr 0 = 0
      rw [recall_zero, this]
    · rename_i h; exact recall_eq h
  · split
    · rename_i h; subst h
      have : cp = 0 := le_antisymm hp hp0
      show recall cp 0 = 0
      rw [recall_zero, this]
    · rename_i h; exact recall_eq h

example : computeRPF 3 4 3 6 = ⟨3/4, 1/2, 3/5⟩ ∧ computeRPF 0 0 0 0 = ⟨0, 0, 0⟩ := by
  constructor <;> norm_num [computeRPF, recall, precision, f1, recallDenom, precisionDenom, f1Denom]

/-! ## C02 -/

/-- C02: `f1` is the harmonic mean of its (non-negative) arguments; symmetric; `0` exactly when one
argument is `0`; between the two arguments; monotone in both. -/
theorem C02_f1_harmonic_mean (p r : ℚ) (hp : 0 ≤ p) (hr : 0 ≤ r) :
    f1 p r = Spec.harmonic p r ∧ f1 p r = f1 r p ∧ (f1 p r = 0 ↔ p = 0 ∨ r = 0) ∧
    min p r ≤ f1 p r ∧ f1 p r ≤ max p r ∧
    (∀ p' r', p ≤ p' → r ≤ r' → f1 p r ≤ f1 p' r') := by
  refine ⟨by rw [f1_comm, f1_harmonic hr hp], f1_comm p r, ?_, min_le_f1 hp hr, f1_le_max hp hr, ?_⟩
  · rw [f1_harmonic hp hr, Spec.harmonic]
    constructor
    · intro h
      by_contra hc
      push Not at hc
      rw [if_neg (by tauto)] at h
      have hp' : 0 < p := lt_of_le_of_ne hp (Ne.symm hc.1)
      have hr' : 0 < r := lt_of_le_of_ne hr (Ne.symm hc.2)
      have : 0 < 2 / (1 / r + 1 / p) := by positivity
      linarith
    · intro h; rw [if_pos (by tauto)]
  · intro p' r' h1 h2
    refine (f1_mono_left hp hr h1).trans ?_
    rw [f1_comm p' r, f1_comm p' r']
    exact f1_mono_left hr (hp.trans h1) h2

example : f1 (1/2) (1/4) = 1/3 := by norm_num [f1, f1Denom]

/-! ## C03 -/

/-- C03: an integer `n ≥ 0` gives exactly the `n` points `1/(n+1), …, n/(n+1)`. -/
theorem C03_int_grid (n : Nat) :
    checkThresholds (.int n) = .ok ((List.range n).map fun (k : Nat) => ((k : ℚ) + 1) / ((n : ℚ) + 1)) := by
  have h1 : ¬ ((n : Int) + 1 = 0) := by omega
  have h2 : ¬ ((n : Int) < 0) := by omega
  simp only [checkThresholds, if_neg h1, if_neg h2, Int.cast_natCast, Int.toNat_natCast, linspace,
    Except.ok.injEq]
  apply List.map_congr_left
  intro k hk
  rw [List.mem_range] at hk
  have hn : ((n : ℚ) + 1) ≠ 0 := by positivity
  split
  · rename_i h; subst h
    have : k = 0 := by omega
    subst this; norm_num
  · rename_i h
    have hn1 : ((n : ℚ) - 1) ≠ 0 := by
      intro hc
      apply h
      have : (n : ℚ) = 1 := by linarith
      exact_mod_cast this
    field_simp
    ring

/-- C03: the grid has `n` points, is strictly increasing, evenly spaced, symmetric about 1/2 and
strictly inside (0,1). -/
theorem C03_grid_shape (n : Nat) (th : List ℚ) (h : checkThresholds (.int n) = .ok th) :
    th.length = n ∧
    (∀ k, k < n → 0 < th.getD k 0 ∧ th.getD k 0 < 1) ∧
    (∀ k, k + 1 < n → th.getD (k + 1) 0 - th.getD k 0 = 1 / ((n : ℚ) + 1)) ∧
    (∀ i j, i < j → j < n → th.getD i 0 < th.getD j 0) ∧
    (∀ k, k < n → th.getD k 0 + th.getD (n - 1 - k) 0 = 1) := by
  rw [C03_int_grid] at h
  cases h
  have hn : (0 : ℚ) < (n : ℚ) + 1 := by positivity
  have e : ∀ k, k < n → ((List.range n).map fun (k : Nat) => ((k : ℚ) + 1) / ((n : ℚ) + 1)).getD k 0
      = ((k : ℚ) + 1) / ((n : ℚ) + 1) := by
    intro k hk; simp [hk]
  refine ⟨by simp, ?_, ?_, ?_, ?_⟩
  · intro k hk
    rw [e k hk]
    refine ⟨by positivity, ?_⟩
    rw [div_lt_one hn]
    have : (k : ℚ) < n := by exact_mod_cast hk
    linarith
  · intro k hk
    rw [e _ hk, e _ (by omega)]
    field_simp; push_cast; ring
  · intro i j hij hj
    rw [e _ hj, e _ (by omega)]
    have : (i : ℚ) < j := by exact_mod_cast hij
    apply div_lt_div_of_pos_right _ hn
    linarith
  · intro k hk
    rw [e _ hk, e _ (by omega)]
    have : ((n - 1 - k : Nat) : ℚ) = n - 1 - k := by
      rw [Nat.cast_sub (by omega), Nat.cast_sub (by omega)]; simp
    rw [this]
    field_simp; ring

/-- C03: the remaining argument kinds: negative integers, nested lists and any other type (numpy
arrays included, although the docstring of `calculate_metrics` lists them) raise; a float gives a
one-point grid; a flat list is used as it is. -/
theorem C03_other_arguments :
    checkThresholds (.int (-1)) = .error .zeroDivisionError ∧
    (∀ n : Int, n < -1 → checkThresholds (.int n) = .error .valueError) ∧
    (∀ x, checkThresholds (.float x) = .ok [x]) ∧
    (∀ xs, checkThresholds (.list xs) = .ok xs) ∧
    checkThresholds .nested = .error .valueError ∧
    checkThresholds .other = .error .valueError := by
  refine ⟨rfl, ?_, fun _ => rfl, fun _ => rfl, rfl, rfl⟩
  intro n hn
  have h1 : ¬ (n + 1 = 0) := by omega
  have h2 : n < 0 := by omega
  simp [checkThresholds, h1, h2]

example : checkThresholds (.int 3) = .ok [1/4, 2/4, 3/4] := by
  rw [show (3 : Int) = ((3 : Nat) : Int) by rfl, C03_int_grid]; norm_num [List.range_succ]

/-! ## C04 -/

/-- The point reached after a fraction `d` of the way from evaluated point `i-1` to `i`. -/
def lerp (l : List ℚ) (i : Nat) (d : ℚ) : ℚ := l.getD (i - 1) 0 + d * (l.getD i 0 - l.getD (i - 1) 0)

/-- C04: for a non-empty threshold list and equally long, non-negative recall/precision lists the
search succeeds; the F it returns is that of the recall and precision it returns, is at least the F of
every evaluated threshold and of all 101 points sampled on every segment, and is attained either at
the first threshold or at one of the sampled points. -/
theorem C04_ods (th rcl prc : List ℚ) (hn : th ≠ []) (hr : rcl.length = th.length)
    (hp : prc.length = th.length) (hr0 : ∀ x ∈ rcl, 0 ≤ x) (hp0 : ∀ x ∈ prc, 0 ≤ x) :
    ∃ b, interpolatedMaxScores th rcl prc = .ok b ∧
      b.f1 = Spec.harmonic b.rcl b.prc ∧
      (∀ i, i < th.length → Spec.harmonic (rcl.getD i 0) (prc.getD i 0) ≤ b.f1) ∧
      (∀ i k : Nat, 1 ≤ i → i < th.length → k ≤ 100 →
        Spec.harmonic (lerp rcl i (k / 100)) (lerp prc i (k / 100)) ≤ b.f1) ∧
      ((b.threshold = th.getD 0 0 ∧ b.rcl = rcl.getD 0 0 ∧ b.prc = prc.getD 0 0) ∨
        ∃ i k : Nat, 1 ≤ i ∧ i < th.length ∧ k ≤ 100 ∧ b.threshold = lerp th i (k / 100) ∧
          b.rcl = lerp rcl i (k / 100) ∧ b.prc = lerp prc i (k / 100)) := by
  have hlen : 0 < th.length := List.length_pos_iff.mpr hn
  have g : ∀ (l : List ℚ), (∀ x ∈ l, 0 ≤ x) → ∀ i, 0 ≤ l.getD i 0 := by
    intro l hl i
    by_cases h : i < l.length
    · have : l.getD i 0 = l[i] := by simp [h]
      rw [this]; exact hl _ (List.getElem_mem h)
    · simp [h]
  have gl : ∀ (l : List ℚ), (∀ x ∈ l, 0 ≤ x) → ∀ (i k : Nat), k ≤ 100 → 0 ≤ lerp l i (k / 100) := by
    intro l hl i k hk
    have a := g l hl i
    have b := g l hl (i - 1)
    have hk' : (k : ℚ) ≤ 100 := by exact_mod_cast hk
    have hk0 : (0 : ℚ) ≤ k := by positivity
    unfold lerp
    nlinarith
  have elerp : ∀ (l : List ℚ) (i : Nat) (d : ℚ),
      l.getD i 0 * d + l.getD (i - 1) 0 * (1 - d) = lerp l i d := by
    intro l i d; unfold lerp; ring
  obtain ⟨b, h1, h2⟩ := ods_main th rcl prc hr hp hlen
  have hpt : ∀ i k : Nat, 1 ≤ i → i < th.length → k ≤ 100 →
        Spec.harmonic (lerp rcl i (k / 100)) (lerp prc i (k / 100)) ≤ b.f1 := by
    intro i k hi hit hk
    have := h2.ge i hi (by omega) k hk
    simp only [odsPoint, elerp] at this
    rwa [f1_harmonic (gl prc hp0 i k hk) (gl rcl hr0 i k hk)] at this
  refine ⟨b, h1, ?_, ?_, hpt, ?_⟩
  · rcases h2.att with h | ⟨i, k, _, _, hk, h⟩
    · rw [h]; exact f1_harmonic (g _ hp0 _) (g _ hr0 _)
    · rw [h]; simp only [odsPoint, elerp]
      exact f1_harmonic (gl prc hp0 i k hk) (gl rcl hr0 i k hk)
  · intro i hi
    rcases Nat.eq_zero_or_pos i with h0 | h0
    · subst h0
      rw [← f1_harmonic (g _ hp0 _) (g _ hr0 _)]; exact h2.ge0
    · have := hpt i 100 h0 hi (le_refl _)
      simpa [lerp] using this
  · rcases h2.att with h | ⟨i, k, hi, him, hk, h⟩
    · left; rw [h]; exact ⟨rfl, rfl, rfl⟩
    · right
      refine ⟨i, k, hi, by omega, hk, ?_⟩
      rw [h]; simp only [odsPoint, elerp]; exact ⟨trivial, trivial, trivial⟩

/-- C04: an empty threshold list raises `IndexError`. -/
theorem C04_empty (rcl prc : List ℚ) : interpolatedMaxScores [] rcl prc = .error .indexError := rfl

/-- C04 for the whole pipeline: the ODS block of any successful run. -/
theorem C04_ods_of_run {arg : ThresholdArg} {ss : List (String × Counts)} {r : List SampleResult}
    {t : List ThresholdResult} {o : OverallResult} {th : List ℚ}
    (h : calculateFromCounts arg ss = .ok (r, t, o)) (hth : checkThresholds arg = .ok th)
    (hs : ∀ s ∈ ss, Spec.Sane th.length s.2) :
    (∀ x ∈ t, x.f1 ≤ o.odsF1) ∧ o.odsF1 = Spec.harmonic o.odsRecall o.odsPrecision ∧
    (0 ≤ o.odsF1 ∧ o.odsF1 ≤ 1) ∧ (0 ≤ o.odsRecall ∧ o.odsRecall ≤ 1) ∧
    (0 ≤ o.odsPrecision ∧ o.odsPrecision ≤ 1) ∧
    (∃ lo ∈ th, ∃ hi ∈ th, min lo hi ≤ o.odsThreshold ∧ o.odsThreshold ≤ max lo hi) := by
  have hrange := rows_range h hth hs
  obtain ⟨hn, hsl, ⟨b, hb, e1, e2, e3, e4⟩, hr, et, _⟩ := calc_shape h hth
  have tl : t.length = th.length := by rw [et]; simp
  have gr : ∀ i, i < th.length → (0 ≤ (t.map ThresholdResult.recall).getD i 0 ∧
      (t.map ThresholdResult.recall).getD i 0 ≤ 1) ∧
      (0 ≤ (t.map ThresholdResult.precision).getD i 0 ∧
      (t.map ThresholdResult.precision).getD i 0 ≤ 1) := by
    intro i hi
    rw [map_getD _ _ _ (by omega), map_getD _ _ _ (by omega)]
    exact hrange _ (List.getElem_mem _)
  have conv : ∀ (lo hi : ℚ) (k : Nat), k ≤ 100 →
      min lo hi ≤ hi * ((k:ℚ)/100) + lo * (1 - (k:ℚ)/100) ∧
      hi * ((k:ℚ)/100) + lo * (1 - (k:ℚ)/100) ≤ max lo hi := by
    intro lo hi k hk
    have hk' : (k : ℚ) ≤ 100 := by exact_mod_cast hk
    have hk0 : (0 : ℚ) ≤ k := by positivity
    constructor
    · have a := min_le_left lo hi
      have b := min_le_right lo hi
      nlinarith
    · have a := le_max_left lo hi
      have b := le_max_right lo hi
      nlinarith
  have hbr : (0 ≤ b.rcl ∧ b.rcl ≤ 1) ∧ (0 ≤ b.prc ∧ b.prc ≤ 1) ∧ b.f1 = f1 b.prc b.rcl ∧
      (∃ lo ∈ th, ∃ hi ∈ th, min lo hi ≤ b.threshold ∧ b.threshold ≤ max lo hi) := by
    have memth : ∀ i, i < th.length → th.getD i 0 ∈ th := by
      intro i hi
      have : th.getD i 0 = th[i] := by simp [hi]
      rw [this]; exact List.getElem_mem _
    rcases hb.att with hh | ⟨i, k, hi, him, hk, hh⟩
    · rw [hh]
      exact ⟨(gr 0 hn).1, (gr 0 hn).2, rfl, _, memth 0 hn, _, memth 0 hn, by simp⟩
    · rw [hh]
      have gi := gr i (by omega)
      have gi' := gr (i-1) (by omega)
      simp only [odsPoint]
      have hk' : (k : ℚ) ≤ 100 := by exact_mod_cast hk
      have hk0 : (0 : ℚ) ≤ k := by positivity
      have c1 := conv ((t.map ThresholdResult.recall).getD (i-1) 0)
        ((t.map ThresholdResult.recall).getD i 0) k hk
      have c2 := conv ((t.map ThresholdResult.precision).getD (i-1) 0)
        ((t.map ThresholdResult.precision).getD i 0) k hk
      refine ⟨⟨(le_min gi'.1.1 gi.1.1).trans c1.1, c1.2.trans (max_le gi'.1.2 gi.1.2)⟩,
        ⟨(le_min gi'.2.1 gi.2.1).trans c2.1, c2.2.trans (max_le gi'.2.2 gi.2.2)⟩, trivial,
        _, memth (i-1) (by omega), _, memth i (by omega), conv _ _ k hk⟩
  obtain ⟨q1, q2, q3, q4⟩ := hbr
  rw [e1, e2, e3, e4]
  refine ⟨?_, by rw [q3]; exact f1_harmonic q2.1 q1.1, ?_, q1, q2, q4⟩
  · intro x hx
    obtain ⟨i, hi⟩ := List.getElem?_of_mem hx
    obtain ⟨hil, hie⟩ := List.getElem?_eq_some_iff.mp hi
    have hf : x.f1 = f1 x.precision x.recall := by
      rw [et] at hx
      obtain ⟨k, _, rfl⟩ := List.mem_map.mp hx
      rfl
    rw [hf, ← hie]
    rcases Nat.eq_zero_or_pos i with h0 | h0
    · subst h0
      have := hb.ge0
      rwa [map_getD _ _ _ (by omega), map_getD _ _ _ (by omega)] at this
    · have := hb.ge i h0 (by omega) 100 (le_refl _)
      rw [show ((100 : Nat) : ℚ) / 100 = 1 by norm_num, odsPoint_one] at this
      rwa [map_getD _ _ _ (by omega), map_getD _ _ _ (by omega)] at this
  · rw [q3]; exact ⟨f1_nonneg q2.1 q1.1, f1_le_one q2 q1⟩

/-! ## C05 -/

/-- C05: `calculate_metrics` succeeds exactly when the threshold argument is accepted, gives at least
one threshold, and every sample has one count per threshold. -/
theorem C05_success_iff (arg : ThresholdArg) (ss : List (String × Counts)) :
    (∃ x, calculateFromCounts arg ss = .ok x) ↔
      ∃ th, checkThresholds arg = .ok th ∧ th ≠ [] ∧ ∀ s ∈ ss,
        s.2.countR.length = th.length ∧ s.2.sumR.length = th.length ∧
        s.2.countP.length = th.length ∧ s.2.sumP.length = th.length := by
  constructor
  · rintro ⟨x, hx⟩
    obtain ⟨th, h1, h2, h3, _⟩ := (calc_ok_iff _ _ _).mp hx
    exact ⟨th, h1, List.length_pos_iff.mp h2, h3⟩
  · rintro ⟨th, h1, h2, h3⟩
    have hn := List.length_pos_iff.mpr h2
    obtain ⟨b, _, _, k3⟩ := finish_ok th ss hn
    exact ⟨_, (calc_ok_iff _ _ _).mpr ⟨th, h1, hn, h3, k3⟩⟩

/-- C05: the per-threshold table is computed from pooled counts: recall at threshold `k` is the total
of the matched counts divided by the total of the ground-truth counts, and so on. -/
theorem C05_table_pools_counts {arg : ThresholdArg} {ss : List (String × Counts)}
    {r : List SampleResult} {t : List ThresholdResult} {o : OverallResult} {th : List ℚ}
    (h : calculateFromCounts arg ss = .ok (r, t, o)) (hth : checkThresholds arg = .ok th) :
    t.length = th.length ∧ ∀ k, k < th.length → ∃ x, t[k]? = some x ∧ x.threshold = th.getD k 0 ∧
      x.recall = recall (Spec.pooled Counts.countR ss k) (Spec.pooled Counts.sumR ss k) ∧
      x.precision = precision (Spec.pooled Counts.countP ss k) (Spec.pooled Counts.sumP ss k) ∧
      x.f1 = f1 x.precision x.recall := by
  obtain ⟨_, _, _, _, et, _⟩ := calc_shape h hth
  rw [et]
  refine ⟨by simp, fun k hk => ⟨_, by simp only [List.getElem?_map, List.getElem?_range hk]; rfl, rfl, rfl, rfl, rfl⟩⟩

/-- C05: permuting the samples permutes the per-sample table and changes nothing else. -/
theorem C05_order_independent (arg : ThresholdArg) (ss ss' : List (String × Counts))
    (hperm : ss.Perm ss') (r : List SampleResult) (t : List ThresholdResult) (o : OverallResult)
    (h : calculateFromCounts arg ss = .ok (r, t, o)) :
    ∃ r', calculateFromCounts arg ss' = .ok (r', t, o) ∧ r.Perm r' := by
  obtain ⟨th, h1, h2, h3, h4⟩ := (calc_ok_iff _ _ _).mp h
  have hp : ∀ f, Spec.pooled f ss = Spec.pooled f ss' := by
    intro f; funext k
    exact (hperm.map _).sum_eq
  have hb : ∀ f : (String × Counts) → ℚ, (ss.map f).sum = (ss'.map f).sum :=
    fun f => (hperm.map _).sum_eq
  have hacc : accOf th ss' = { accOf th ss with results := ss'.map (sampleRow th) } := by
    simp only [accOf, hp, hb]
  refine ⟨ss'.map (sampleRow th), (calc_ok_iff _ _ _).mpr ⟨th, h1, h2, ?_, ?_⟩, ?_⟩
  · intro s hs; exact h3 s (hperm.symm.subset hs)
  · rw [hacc]; exact finish_results h4
  · obtain ⟨_, _, _, hr, _⟩ := calc_shape h h1
    rw [hr]; exact hperm.map _

/-- C05: a sample whose counts are all zero (for instance a class absent from the image, skipped)
changes neither the per-threshold table nor the overall scores. -/
theorem C05_zero_sample_neutral (arg : ThresholdArg) (ss : List (String × Counts)) (name : String)
    (r : List SampleResult) (t : List ThresholdResult) (o : OverallResult) (th : List ℚ)
    (h : calculateFromCounts arg ss = .ok (r, t, o)) (hth : checkThresholds arg = .ok th) :
    let z := List.replicate th.length (0 : ℚ)
    ∃ row, calculateFromCounts arg (ss ++ [(name, ⟨z, z, z, z⟩)]) = .ok (r ++ [row], t, o) := by
  intro z
  obtain ⟨th', h1, h2, h3, h4⟩ := (calc_ok_iff _ _ _).mp h
  rw [hth] at h1; cases h1
  obtain ⟨_, _, _, hr, _⟩ := calc_shape h hth
  have hz : ∀ k, z.getD k 0 = 0 := by
    intro k
    simp only [z, List.getD_eq_getElem?_getD, List.getElem?_replicate]
    split <;> rfl
  have hacc : accOf th (ss ++ [(name, ⟨z, z, z, z⟩)]) =
      { accOf th ss with results := ss.map (sampleRow th) ++ [sampleRow th (name, ⟨z, z, z, z⟩)] } := by
    have hp : ∀ f : Counts → List ℚ, f ⟨z, z, z, z⟩ = z →
        Spec.pooled f (ss ++ [(name, ⟨z, z, z, z⟩)]) = Spec.pooled f ss := by
      intro f hf; funext k; simp only [Spec.pooled, List.map_append, List.sum_append, List.map_cons,
        List.map_nil, List.sum_cons, List.sum_nil, hf, hz, add_zero]
    simp only [accOf, hp Counts.countR rfl, hp Counts.sumR rfl, hp Counts.countP rfl,
      hp Counts.sumP rfl, List.map_append, List.sum_append, List.map_cons, List.map_nil,
      List.sum_cons, List.sum_nil, hz, add_zero]
  refine ⟨sampleRow th (name, ⟨z, z, z, z⟩), (calc_ok_iff _ _ _).mpr ⟨th, hth, h2, ?_, ?_⟩⟩
  · intro s hs
    rcases List.mem_append.mp hs with hs | hs
    · exact h3 s hs
    · simp only [List.mem_singleton] at hs
      subst hs; simp [SameLen, z]
  · rw [hacc, hr]; exact finish_results h4

example : ∃ x, calculateFromCounts (.int 2) demo = .ok x := by
  rw [C05_success_iff]
  refine ⟨_, C03_int_grid 2, by simp [List.range_succ], ?_⟩
  intro s hs
  simp only [demo, List.mem_cons, List.not_mem_nil, or_false] at hs
  rcases hs with rfl | rfl <;> simp

/-! ## C07 -/

/-- C07: each row of the per-sample table is the sample's earliest threshold of maximal F, with the
recall, precision and F of that threshold; the OIS scores are those of the counts pooled at these
thresholds. -/
theorem C07_ois {arg : ThresholdArg} {ss : List (String × Counts)} {r : List SampleResult}
    {t : List ThresholdResult} {o : OverallResult} {th : List ℚ}
    (h : calculateFromCounts arg ss = .ok (r, t, o)) (hth : checkThresholds arg = .ok th)
    (hs : ∀ s ∈ ss, Spec.Sane th.length s.2) :
    ∃ best : Counts → Nat,
      (∀ s ∈ ss, Spec.FirstMax (Spec.fAt s.2) th.length (best s.2)) ∧
      r = ss.map (fun s => ⟨s.1, th.getD (best s.2) 0, Spec.recAt s.2 (best s.2),
        Spec.precAt s.2 (best s.2), Spec.fAt s.2 (best s.2)⟩) ∧
      o.oisRecall = recall (ss.map fun s => s.2.countR.getD (best s.2) 0).sum
        (ss.map fun s => s.2.sumR.getD (best s.2) 0).sum ∧
      o.oisPrecision = precision (ss.map fun s => s.2.countP.getD (best s.2) 0).sum
        (ss.map fun s => s.2.sumP.getD (best s.2) 0).sum ∧
      o.oisF1 = Spec.harmonic o.oisRecall o.oisPrecision ∧
      (0 ≤ o.oisRecall ∧ o.oisRecall ≤ 1) ∧ (0 ≤ o.oisPrecision ∧ o.oisPrecision ≤ 1) ∧
      (0 ≤ o.oisF1 ∧ o.oisF1 ≤ 1) := by
  obtain ⟨hn, hsl, _, hr, _, e1, e2, e3, _⟩ := calc_shape h hth
  have hfat : ∀ s ∈ ss, ∀ k, f1 (Spec.precAt s.2 k) (Spec.recAt s.2 k) = Spec.fAt s.2 k := by
    intro s hss k
    have := hs s hss
    exact f1_harmonic (recall_nonneg (this.p k).1 (this.p k).2) (recall_nonneg (this.r k).1 (this.r k).2)
  have bR := sum_best_mono Counts.countR Counts.sumR hs (fun c hc k => hc.r k) sampleBest
  have bP := sum_best_mono Counts.countP Counts.sumP hs (fun c hc k => hc.p k) sampleBest
  refine ⟨sampleBest, ?_, ?_, e1, e2, ?_⟩
  · intro s hss
    obtain ⟨hb1, hb2⟩ := sampleBest_lt (hsl s hss) hn
    obtain ⟨q1, q2, q3⟩ := argmax_spec hb1
    have ev : ∀ j, j < th.length →
        ((computeRPFArr s.2).map RPF.f1).getD j 0 = Spec.fAt s.2 j := by
      intro j hj
      have hl := computeRPFArr_length (hsl s hss)
      rw [map_getD _ _ _ (by omega)]
      have := computeRPFArr_getElem (hsl s hss) hj
      obtain ⟨_, e⟩ := List.getElem?_eq_some_iff.mp this
      rw [e, ← hfat s hss j]; rfl
    refine ⟨hb2, ?_, ?_⟩
    · intro j hj
      have := q2 j (by simpa [computeRPFArr_length (hsl s hss)] using hj)
      simp only at this
      rwa [ev j hj, ev _ hb2] at this
    · intro j hj
      have := q3 j hj
      simp only at this
      rwa [ev j (by omega), ev _ hb2] at this
  · rw [hr]
    apply List.map_congr_left
    intro s hss
    simp only [sampleRow, SampleResult.mk.injEq, true_and]
    exact ⟨rfl, rfl, hfat s hss _⟩
  · have r0 : 0 ≤ o.oisRecall := by rw [e1]; exact recall_nonneg bR.1 bR.2
    have r1 : o.oisRecall ≤ 1 := by rw [e1]; exact recall_le_one bR.1 bR.2
    have p0 : 0 ≤ o.oisPrecision := by rw [e2]; exact recall_nonneg bP.1 bP.2
    have p1 : o.oisPrecision ≤ 1 := by rw [e2]; exact recall_le_one bP.1 bP.2
    refine ⟨by rw [e3]; exact f1_harmonic p0 r0, ⟨r0, r1⟩, ⟨p0, p1⟩, ?_⟩
    rw [e3]; exact ⟨f1_nonneg p0 r0, f1_le_one ⟨p0, p1⟩ ⟨r0, r1⟩⟩

/-- C07: with a single image the OIS F is at most the ODS F (ODS also searches between thresholds). -/
theorem C07_single_image_ois_le_ods {arg : ThresholdArg} {s : String × Counts}
    {r : List SampleResult} {t : List ThresholdResult} {o : OverallResult} {th : List ℚ}
    (h : calculateFromCounts arg [s] = .ok (r, t, o)) (hth : checkThresholds arg = .ok th)
    (hs : Spec.Sane th.length s.2) : o.oisF1 ≤ o.odsF1 := by
  have hs' : ∀ x ∈ [s], Spec.Sane th.length x.2 := by simpa using hs
  obtain ⟨best, h1, _, h3, h4, h5, _⟩ := C07_ois h hth hs'
  obtain ⟨g1, _⟩ := C04_ods_of_run h hth hs'
  have hb := (h1 s (by simp)).1
  obtain ⟨_, k2⟩ := C05_table_pools_counts h hth
  obtain ⟨x, x1, _, x3, x4, x5⟩ := k2 (best s.2) hb
  have := g1 x (List.mem_of_getElem? x1)
  refine le_trans (le_of_eq ?_) this
  simp only [List.map_cons, List.map_nil, List.sum_cons, List.sum_nil, add_zero] at h3 h4
  simp only [Spec.pooled, List.map_cons, List.map_nil, List.sum_cons, List.sum_nil, add_zero] at x3 x4
  rw [h5, x5, x3, x4, ← h3, ← h4]
  refine (f1_harmonic ?_ ?_).symm
  · rw [h4]; exact recall_nonneg (hs.p _).1 (hs.p _).2
  · rw [h3]; exact recall_nonneg (hs.r _).1 (hs.r _).2

/-- C07, finding: over several images the "optimal image scale" F can be *smaller* than the F of one
fixed threshold for the whole data set (so OIS ≥ ODS, often taken for granted, is false). -/
theorem C07_ois_can_be_below_fixed_threshold :
    ∃ (ss : List (String × Counts)) (r : List SampleResult) (t : List ThresholdResult)
      (o : OverallResult), (∀ s ∈ ss, Spec.Sane 2 s.2) ∧
      calculateFromCounts (.int 2) ss = .ok (r, t, o) ∧ ∃ x ∈ t, o.oisF1 < x.f1 := by
  let ss : List (String × Counts) :=
    [("a", ⟨[0, 1], [1, 1], [0, 1], [3, 2]⟩), ("b", ⟨[0, 0], [2, 2], [0, 0], [1, 0]⟩)]
  have hsane : ∀ s ∈ ss, Spec.Sane 2 s.2 := by
    intro s hs
    simp only [ss, List.mem_cons, List.not_mem_nil, or_false] at hs
    rcases hs with rfl | rfl <;> refine ⟨rfl, rfl, rfl, rfl, ?_, ?_⟩ <;>
      intro k <;> match k with
      | 0 => norm_num
      | 1 => norm_num
      | k + 2 => simp
  obtain ⟨⟨r, t, o⟩, hx⟩ := (C05_success_iff (.int 2) ss).mpr ⟨_, C03_int_grid 2, by simp [List.range_succ], by
    intro s hs
    obtain ⟨a, b, c, d, _⟩ := hsane s hs
    simpa using ⟨a, b, c, d⟩⟩
  refine ⟨ss, r, t, o, hsane, hx, ?_⟩
  have hth := C03_int_grid 2
  obtain ⟨_, _, _, _, _, e1, e2, e3, _⟩ := calc_shape hx hth
  obtain ⟨_, k2⟩ := C05_table_pools_counts hx hth
  obtain ⟨x, x1, _, x3, x4, x5⟩ := k2 1 (by simp)
  refine ⟨x, List.mem_of_getElem? x1, ?_⟩
  have b1 : sampleBest ⟨[0, 1], [1, 1], [0, 1], [3, 2]⟩ = 1 := by decide +kernel
  have b2 : sampleBest ⟨[0, 0], [2, 2], [0, 0], [1, 0]⟩ = 0 := by decide +kernel
  rw [x5, x3, x4, e3, e1, e2]
  simp only [ss, accOf, Spec.pooled, List.map_cons, List.map_nil, List.sum_cons, List.sum_nil, b1, b2]
  norm_num [recall, precision, f1, recallDenom, precisionDenom, f1Denom]

example : (∀ s ∈ demo, Spec.Sane 2 s.2) ∧ ∃ x, calculateFromCounts (.int 2) demo = .ok x := by
  refine ⟨demo_sane, ?_⟩
  rw [C05_success_iff]
  refine ⟨_, C03_int_grid 2, by simp [List.range_succ], ?_⟩
  intro s hs
  obtain ⟨a, b, c, d, _⟩ := demo_sane s hs
  simpa using ⟨a, b, c, d⟩

/-! ## C08 -/

/-- C08: AP is 1/101 of the sum, over the 100 recall levels 0, 0.01, …, 0.99, of the best precision
among thresholds reaching that recall (0 if none does). -/
theorem C08_ap_formula {arg : ThresholdArg} {ss : List (String × Counts)} {r : List SampleResult}
    {t : List ThresholdResult} {o : OverallResult} {th : List ℚ}
    (h : calculateFromCounts arg ss = .ok (r, t, o)) (hth : checkThresholds arg = .ok th) :
    ∃ best : Nat → ℚ, o.ap = ((List.range 100).map best).sum / 101 ∧
      ∀ j, 0 ≤ best j ∧ (∀ x ∈ t, (j : ℚ) / 100 ≤ x.recall → x.precision ≤ best j) ∧
        (best j = 0 ∨ ∃ x ∈ t, (j : ℚ) / 100 ≤ x.recall ∧ x.precision = best j) := by
  obtain ⟨_, _, _, _, _, _, _, _, _, e⟩ := calc_shape h hth
  refine ⟨fun j => precAtRecall (t.map ThresholdResult.recall) (t.map ThresholdResult.precision)
    ((j : ℚ) / 100), ?_, ?_⟩
  · rw [e, averagePrecision_eq, sum_map_div, arange01, List.map_map]
    rfl
  · intro j
    refine ⟨precAtRecall_nonneg _ _ _, ?_, ?_⟩
    · intro x hx hj
      obtain ⟨k, hk⟩ := List.getElem?_of_mem hx
      obtain ⟨hkl, hke⟩ := List.getElem?_eq_some_iff.mp hk
      have := le_precAtRecall (r := t.map ThresholdResult.recall)
        (p := t.map ThresholdResult.precision) (t := (j : ℚ) / 100) (k := k)
        (by simpa using hkl) (by simpa using hkl)
      rw [map_getD _ _ _ hkl, map_getD _ _ _ hkl, hke] at this
      exact this hj
    · rcases precAtRecall_att (t.map ThresholdResult.recall) (t.map ThresholdResult.precision)
        ((j : ℚ) / 100) with h | ⟨k, k1, _, k3, k4⟩
      · exact .inl h
      · right
        have hkl : k < t.length := by simpa using k1
        rw [map_getD _ _ _ hkl] at k3 k4
        exact ⟨t[k], List.getElem_mem _, k3, k4.symm⟩

/-- C08: AP is between 0 and 100/101, in particular strictly below 1. -/
theorem C08_ap_bounds {arg : ThresholdArg} {ss : List (String × Counts)} {r : List SampleResult}
    {t : List ThresholdResult} {o : OverallResult} {th : List ℚ}
    (h : calculateFromCounts arg ss = .ok (r, t, o)) (hth : checkThresholds arg = .ok th)
    (hs : ∀ s ∈ ss, Spec.Sane th.length s.2) : 0 ≤ o.ap ∧ o.ap ≤ 100 / 101 := by
  obtain ⟨best, h1, h2⟩ := C08_ap_formula h hth
  have hr := rows_range h hth hs
  have hb : ∀ j, best j ≤ 1 := by
    intro j
    rcases (h2 j).2.2 with h | ⟨x, hx, _, h⟩
    · rw [h]; norm_num
    · rw [← h]; exact (hr x hx).2.2
  have h0 : 0 ≤ ((List.range 100).map best).sum := by
    apply List.sum_nonneg
    intro x hx
    obtain ⟨j, _, rfl⟩ := List.mem_map.mp hx
    exact (h2 j).1
  have h3 : ((List.range 100).map best).sum ≤ 100 := by
    refine (sum_map_le (g := fun _ => (1 : ℚ)) fun x _ => hb x).trans ?_
    rw [sum_map_const]; norm_num
  rw [h1]
  constructor
  · positivity
  · linarith

/-- C08, finding: a detector that at some threshold reaches recall 1 with precision 1 gets
AP = 100/101, not 1. -/
theorem C08_perfect_detector_ap {arg : ThresholdArg} {ss : List (String × Counts)}
    {r : List SampleResult} {t : List ThresholdResult} {o : OverallResult} {th : List ℚ}
    (h : calculateFromCounts arg ss = .ok (r, t, o)) (hth : checkThresholds arg = .ok th)
    (hs : ∀ s ∈ ss, Spec.Sane th.length s.2)
    (hperf : ∃ x ∈ t, x.recall = 1 ∧ x.precision = 1) : o.ap = 100 / 101 := by
  obtain ⟨best, h1, h2⟩ := C08_ap_formula h hth
  obtain ⟨x, hx, hx1, hx2⟩ := hperf
  refine le_antisymm (C08_ap_bounds h hth hs).2 ?_
  have : ((List.range 100).map fun _ => (1 : ℚ)).sum ≤ ((List.range 100).map best).sum := by
    apply sum_map_le
    intro j hj
    rw [List.mem_range] at hj
    have := (h2 j).2.1 x hx (by
      rw [hx1, div_le_one (by norm_num)]
      have : (j : ℚ) < 100 := by exact_mod_cast hj
      linarith)
    rwa [hx2] at this
  rw [sum_map_const] at this
  rw [h1]
  simp only [List.length_range] at this
  norm_num at this ⊢
  linarith

/-- C08: raising recalls and precisions of a curve never lowers AP. -/
theorem C08_ap_monotone (r p r' p' : List ℚ) (hl : r.length = p.length) (hl' : r'.length = p'.length)
    (hll : r.length = r'.length)
    (hr : ∀ k, k < r.length → r.getD k 0 ≤ r'.getD k 0)
    (hp : ∀ k, k < r.length → p.getD k 0 ≤ p'.getD k 0) :
    averagePrecision r p ≤ averagePrecision r' p' := by
  rw [averagePrecision_eq, averagePrecision_eq]
  apply sum_map_le
  intro t _
  have : precAtRecall r p t ≤ precAtRecall r' p' t := by
    rcases precAtRecall_att r p t with h | ⟨k, k1, k2, k3, k4⟩
    · rw [h]; exact precAtRecall_nonneg _ _ _
    · rw [k4]
      exact (hp k k1).trans (le_precAtRecall (by omega) (by omega) (k3.trans (hr k k1)))
  exact div_le_div_of_nonneg_right this (by norm_num)

/-- One image, every pixel matched at the only threshold: the perfect detector. -/
def perfect : List (String × Counts) := [("a", ⟨[5], [5], [5], [5]⟩)]

theorem perfect_run : ∃ r o, calculateFromCounts (.int 1) perfect = .ok (r, [⟨1/2, 1, 1, 1⟩], o) ∧
    (∀ s ∈ perfect, Spec.Sane 1 s.2) := by
  have hs : ∀ s ∈ perfect, Spec.Sane 1 s.2 := by
    intro s hs
    simp only [perfect, List.mem_cons, List.not_mem_nil, or_false] at hs
    subst hs
    refine ⟨rfl, rfl, rfl, rfl, ?_, ?_⟩ <;> intro k <;> match k with
      | 0 => norm_num
      | k + 1 => simp
  have hth := C03_int_grid 1
  obtain ⟨⟨r, t, o⟩, hx⟩ := (C05_success_iff (.int 1) perfect).mpr ⟨_, hth, by simp [List.range_succ], by
    intro s h
    obtain ⟨a, b, c, d, _⟩ := hs s h
    simpa using ⟨a, b, c, d⟩⟩
  obtain ⟨_, _, _, _, et, _⟩ := calc_shape hx hth
  refine ⟨r, o, ?_, hs⟩
  rw [hx, et]
  simp only [perfect, Spec.pooled]
  norm_num [computeRPF, recall, precision, f1, recallDenom, precisionDenom, f1Denom, List.range_succ]

example : ∃ r t o, calculateFromCounts (.int 1) perfect = .ok (r, t, o) ∧
    ∃ x ∈ t, x.recall = 1 ∧ x.precision = 1 := by
  obtain ⟨r, o, h, _⟩ := perfect_run
  exact ⟨r, _, o, h, _, List.mem_singleton_self _, rfl, rfl⟩

/-! ## C09 -/

/-- C09: AUC lies in [0,1]. -/
theorem C09_auc_bounds {arg : ThresholdArg} {ss : List (String × Counts)} {r : List SampleResult}
    {t : List ThresholdResult} {o : OverallResult} {th : List ℚ}
    (h : calculateFromCounts arg ss = .ok (r, t, o)) (hth : checkThresholds arg = .ok th)
    (hs : ∀ s ∈ ss, Spec.Sane th.length s.2) : 0 ≤ o.auc ∧ o.auc ≤ 1 := by
  obtain ⟨_, _, _, _, _, _, _, _, e, _⟩ := calc_shape h hth
  rw [e]
  apply areaPR_bounds
  intro x hx
  obtain ⟨y, hy, rfl⟩ := List.mem_map.mp hx
  exact (rows_range h hth hs y hy).2

/-- C09, finding: whenever all thresholds have the same recall AUC is 0, whatever the precisions. -/
theorem C09_auc_zero_of_constant_recall {arg : ThresholdArg} {ss : List (String × Counts)}
    {r : List SampleResult} {t : List ThresholdResult} {o : OverallResult} {th : List ℚ}
    (h : calculateFromCounts arg ss = .ok (r, t, o)) (hth : checkThresholds arg = .ok th)
    (hc : ∀ x ∈ t, ∀ y ∈ t, x.recall = y.recall) : o.auc = 0 := by
  obtain ⟨hn, _, _, _, et, _, _, _, e, _⟩ := calc_shape h hth
  rw [e]
  have : t ≠ [] := by
    intro h0; rw [h0] at et
    have := congrArg List.length et
    simp at this; omega
  obtain ⟨x0, hx0⟩ := List.exists_mem_of_ne_nil t this
  apply areaPR_const x0.recall
  intro x hx
  obtain ⟨y, hy, rfl⟩ := List.mem_map.mp hx
  exact hc y hy x0 hx0

/-- C09: a perfect detector (recall = precision = 1 at every threshold) reports AUC 0 — a run of the
model exhibits it. -/
theorem C09_perfect_detector_auc_zero :
    ∃ r t o, calculateFromCounts (.int 1) perfect = .ok (r, t, o) ∧
      (∀ x ∈ t, x.recall = 1 ∧ x.precision = 1) ∧ o.auc = 0 := by
  obtain ⟨r, o, h, _⟩ := perfect_run
  refine ⟨r, _, o, h, by simp, ?_⟩
  exact C09_auc_zero_of_constant_recall h (C03_int_grid 1) (by simp)

/-- C09: when two thresholds have different recalls, AUC is the 100-point left Riemann sum of the
piecewise linear curve through the points (recall, precision) – for equal recalls the earliest
threshold – extended by 0 outside the range of recalls.  (The four clauses determine `g` at every
point.) -/
theorem C09_auc_formula {arg : ThresholdArg} {ss : List (String × Counts)} {r : List SampleResult}
    {t : List ThresholdResult} {o : OverallResult} {th : List ℚ}
    (h : calculateFromCounts arg ss = .ok (r, t, o)) (hth : checkThresholds arg = .ok th)
    (hd : ∃ x ∈ t, ∃ y ∈ t, x.recall ≠ y.recall) :
    ∃ g : ℚ → ℚ, o.auc = ((List.range 100).map fun (j : Nat) => g ((j : ℚ) / 100)).sum / 100 ∧
      (∀ x, (∀ y ∈ t, x < y.recall) → g x = 0) ∧ (∀ x, (∀ y ∈ t, y.recall < x) → g x = 0) ∧
      (∀ (k : Nat) (a : ThresholdResult), t[k]? = some a →
        (∀ j b, j < k → t[j]? = some b → b.recall ≠ a.recall) → g a.recall = a.precision) ∧
      (∀ (i j : Nat) (a b : ThresholdResult), t[i]? = some a → t[j]? = some b →
        (∀ k c, k < i → t[k]? = some c → c.recall ≠ a.recall) →
        (∀ k c, k < j → t[k]? = some c → c.recall ≠ b.recall) →
        a.recall < b.recall → (∀ c ∈ t, ¬ (a.recall < c.recall ∧ c.recall < b.recall)) →
        ∀ x, a.recall ≤ x → x ≤ b.recall →
          g x = a.precision + (b.precision - a.precision) / (b.recall - a.recall) * (x - a.recall)) := by
  obtain ⟨hn, _, _, _, et, _, _, _, e, _⟩ := calc_shape h hth
  set R := t.map ThresholdResult.recall with hR
  set P := t.map ThresholdResult.precision with hP
  have hl : R.length = P.length := by simp [R, P]
  have gR : ∀ (k : Nat) (a : ThresholdResult), t[k]? = some a →
      k < R.length ∧ R.getD k 0 = a.recall ∧ P.getD k 0 = a.precision := by
    intro k a hk
    have hkl := (List.getElem?_eq_some_iff.mp hk).1
    exact ⟨by simpa [R] using hkl, by simp [R, hk], by simp [P, hk]⟩
  have gF : ∀ (k : Nat) (a : ThresholdResult), t[k]? = some a →
      (∀ j b, j < k → t[j]? = some b → b.recall ≠ a.recall) →
      (a.recall, a.precision) ∈ uniqueFirst R P := by
    intro k a hk hf
    obtain ⟨k1, k2, k3⟩ := gR k a hk
    rw [← k2, ← k3]
    apply uniqueFirst_first hl k1
    intro j hj
    have hjl : j < t.length := by simp [R] at k1; omega
    have hj' : t[j]? = some t[j] := by simp [hjl]
    rw [(gR j _ hj').2.1, k2]
    exact hf j _ hj hj'
  have gM : ∀ y ∈ uniqueFirst R P, ∃ c ∈ t, c.recall = y.1 := by
    intro y hy
    have := (List.of_mem_zip (uniqueFirst_mem hy)).1
    obtain ⟨c, hc, hc'⟩ := List.mem_map.mp this
    exact ⟨c, hc, hc'⟩
  have hlen : (uniqueFirst R P).length > 1 := by
    obtain ⟨x, hx, y, hy, hne⟩ := hd
    obtain ⟨i, hi⟩ := List.getElem?_of_mem hx
    obtain ⟨j, hj⟩ := List.getElem?_of_mem hy
    obtain ⟨i1, i2, _⟩ := gR i x hi
    obtain ⟨j1, j2, _⟩ := gR j y hj
    exact uniqueFirst_length hl i1 j1 (by rw [i2, j2]; exact hne)
  refine ⟨fun x => npInterp x 0 0 (uniqueFirst R P), ?_, ?_, ?_, ?_, ?_⟩
  · rw [e]; unfold areaPR; simp only
    rw [if_pos hlen, arange01, List.map_map]
    have : ((fun x => npInterp x 0 0 (uniqueFirst R P)) ∘ fun (k : Nat) => (k : ℚ) / 100) =
      fun (j : Nat) => npInterp ((j : ℚ) / 100) 0 0 (uniqueFirst R P) := rfl
    rw [this]; ring
  · intro x hx
    apply npInterp_lt
    intro y hy
    obtain ⟨c, hc, hc'⟩ := gM y hy
    rw [← hc']; exact hx c hc
  · intro x hx
    apply npInterp_gt
    intro y hy
    obtain ⟨c, hc, hc'⟩ := gM y hy
    rw [← hc']; exact hx c hc
  · intro k a hk hf
    exact npInterp_at (uniqueFirst_sorted R P) (gF k a hk hf)
  · intro i j a b hi hj fi fj hab hno x hx hx'
    apply npInterp_between (uniqueFirst_sorted R P) (gF i a hi fi) (gF j b hj fj) hab _ hx hx'
    intro y hy
    obtain ⟨c, hc, hc'⟩ := gM y hy
    rw [← hc']; exact hno c hc

example : ∃ r t o, calculateFromCounts (.int 2) demo = .ok (r, t, o) ∧
    ∃ x ∈ t, ∃ y ∈ t, x.precision ≠ y.precision := by
  have hth := C03_int_grid 2
  obtain ⟨⟨r, t, o⟩, hx⟩ := (C05_success_iff (.int 2) demo).mpr ⟨_, hth, by simp [List.range_succ], by
    intro s h
    obtain ⟨a, b, c, d, _⟩ := demo_sane s h
    simpa using ⟨a, b, c, d⟩⟩
  obtain ⟨_, k2⟩ := C05_table_pools_counts hx hth
  obtain ⟨x, x1, _, _, x4, _⟩ := k2 0 (by simp)
  obtain ⟨y, y1, _, _, y4, _⟩ := k2 1 (by simp)
  refine ⟨r, t, o, hx, x, List.mem_of_getElem? x1, y, List.mem_of_getElem? y1, ?_⟩
  rw [x4, y4]
  norm_num [Spec.pooled, demo, precision, precisionDenom]

/-- Two thresholds with different recalls: the hypothesis of `C09_auc_formula` is met. -/
example : ∃ r t o, calculateFromCounts (.int 2) [("a", ⟨[2, 1], [3, 3], [2, 1], [4, 1]⟩)] =
    .ok (r, t, o) ∧ ∃ x ∈ t, ∃ y ∈ t, x.recall ≠ y.recall := by
  have hth := C03_int_grid 2
  obtain ⟨⟨r, t, o⟩, hx⟩ := (C05_success_iff (.int 2)
    [("a", ⟨[2, 1], [3, 3], [2, 1], [4, 1]⟩)]).mpr ⟨_, hth, by simp [List.range_succ], by simp⟩
  obtain ⟨_, k2⟩ := C05_table_pools_counts hx hth
  obtain ⟨x, x1, _, x4, _⟩ := k2 0 (by simp)
  obtain ⟨y, y1, _, y4, _⟩ := k2 1 (by simp)
  refine ⟨r, t, o, hx, x, List.mem_of_getElem? x1, y, List.mem_of_getElem? y1, ?_⟩
  rw [x4, y4]
  norm_num [Spec.pooled, recall, recallDenom]

end EdgeEval.Props
