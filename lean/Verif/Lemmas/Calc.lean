import Verif.Lemmas.Metrics

namespace EdgeEval

/-! ### argmax -/

theorem argmaxAux_spec (f : Nat → ℚ) (xs : List ℚ) (i bi : Nat) (hbi : bi < i)
    (hx : ∀ k (h : k < xs.length), xs[k] = f (i + k))
    (h1 : ∀ j, j < i → f j ≤ f bi) (h2 : ∀ j, j < bi → f j < f bi) :
    Spec.FirstMax f (i + xs.length) (argmaxAux xs i bi (f bi)) := by
  induction xs generalizing i bi with
  | nil => exact ⟨by simpa [argmaxAux] using hbi, by simpa [argmaxAux] using h1, by simpa [argmaxAux] using h2⟩
  | cons x xs ih =>
    have hx0 : x = f i := by
      have := hx 0 (by simp)
      simpa only [List.getElem_cons_zero, Nat.add_zero] using this
    have hxs : ∀ k (h : k < xs.length), xs[k] = f (i + 1 + k) := by
      intro k h
      have := hx (k+1) (by simpa using h)
      simp only [List.getElem_cons_succ] at this
      rw [this]; congr 1; omega
    rw [show i + (x :: xs).length = i + 1 + xs.length by simp; omega]
    simp only [argmaxAux]
    split
    · rename_i hlt
      rw [hx0]
      rw [hx0] at hlt
      apply ih (i+1) i (by omega) hxs
      · intro j hj
        rcases Nat.lt_or_ge j i with h | h
        · exact (h1 j h).trans hlt.le
        · have : j = i := by omega
          subst this; exact le_refl _
      · intro j hj; exact lt_of_le_of_lt (h1 j hj) hlt
    · rename_i hlt
      apply ih (i+1) bi (by omega) hxs
      · intro j hj
        rcases Nat.lt_or_ge j i with h | h
        · exact h1 j h
        · have : j = i := by omega
          subst this; rw [← hx0]; exact not_lt.mp hlt
      · exact h2

theorem argmax_spec {l : List ℚ} {k : Nat} (h : argmax l = .ok k) :
    Spec.FirstMax (fun j => l.getD j 0) l.length k := by
  cases l with
  | nil => simp [argmax] at h
  | cons x xs =>
    simp only [argmax, Except.ok.injEq] at h
    subst h
    have := argmaxAux_spec (fun j => (x :: xs).getD j 0) xs 1 0 (by omega)
      (by intro k h; rw [Nat.add_comm]; simp [h])
      (by intro j hj; have : j = 0 := by omega
          subst this; exact le_refl _)
      (by intro j hj; omega)
    simpa [Nat.add_comm] using this

theorem argmax_isSome {l : List ℚ} (h : 0 < l.length) : ∃ k, argmax l = .ok k ∧ k < l.length := by
  cases l with
  | nil => simp at h
  | cons x xs => exact ⟨_, rfl, (argmax_spec (l := x :: xs) rfl).1⟩

/-! ### The sample loop -/

/-- All four arrays have length `n`. -/
def SameLen (n : Nat) (c : Counts) : Prop :=
  c.countR.length = n ∧ c.sumR.length = n ∧ c.countP.length = n ∧ c.sumP.length = n

theorem computeRPFArr_length {n : Nat} {c : Counts} (h : SameLen n c) :
    (computeRPFArr c).length = n := by
  obtain ⟨h1, h2, h3, h4⟩ := h
  simp [computeRPFArr, h1, h2, h3, h4]

theorem computeRPFArr_getElem {n : Nat} {c : Counts} (h : SameLen n c) {k : Nat} (hk : k < n) :
    (computeRPFArr c)[k]? = some (computeRPF (c.countR.getD k 0) (c.sumR.getD k 0)
      (c.countP.getD k 0) (c.sumP.getD k 0)) := by
  obtain ⟨h1, h2, h3, h4⟩ := h
  simp [computeRPFArr, h1, h2, h3, h4, hk]

theorem computeRPFArr_eq {n : Nat} {c : Counts} (h : SameLen n c) :
    computeRPFArr c = (List.range n).map fun k => computeRPF (c.countR.getD k 0) (c.sumR.getD k 0)
      (c.countP.getD k 0) (c.sumP.getD k 0) := by
  apply List.ext_getElem?
  intro k
  by_cases hk : k < n
  · rw [computeRPFArr_getElem h hk]; simp [hk]
  · rw [List.getElem?_eq_none (by rw [computeRPFArr_length h]; omega),
      List.getElem?_eq_none (by simp; omega)]

/-- What the loop does with one sample, given the index of its best threshold. -/
def sampleBest (c : Counts) : Nat :=
  match argmax ((computeRPFArr c).map RPF.f1) with
  | .ok k => k
  | .error _ => 0

/-- The result row of a sample. -/
def sampleRow (th : List ℚ) (s : String × Counts) : SampleResult :=
  let k := sampleBest s.2
  let b := computeRPF (s.2.countR.getD k 0) (s.2.sumR.getD k 0)
      (s.2.countP.getD k 0) (s.2.sumP.getD k 0)
  ⟨s.1, th.getD k 0, b.rcl, b.prc, b.f1⟩

theorem sampleBest_lt {n : Nat} {c : Counts} (h : SameLen n c) (hn : 0 < n) :
    argmax ((computeRPFArr c).map RPF.f1) = .ok (sampleBest c) ∧ sampleBest c < n := by
  obtain ⟨k, hk, hk'⟩ := argmax_isSome (l := (computeRPFArr c).map RPF.f1)
    (by simpa [computeRPFArr_length h] using hn)
  have : sampleBest c = k := by unfold sampleBest; rw [hk]
  rw [this]
  exact ⟨hk, by simpa [computeRPFArr_length h] using hk'⟩

theorem addArr_ok {a b c : List ℚ} : addArr a b = .ok c ↔
    a.length = b.length ∧ c = List.zipWith (· + ·) a b := by
  unfold addArr; split <;> simp_all [eq_comm]

theorem sampleStep_ok {th : List ℚ} {a : Acc} {s : String × Counts}
    (h1 : a.countR.length = th.length) (h2 : a.sumR.length = th.length)
    (h3 : a.countP.length = th.length) (h4 : a.sumP.length = th.length)
    (hs : SameLen th.length s.2) (hn : 0 < th.length) :
    sampleStep th a s = .ok ⟨List.zipWith (· + ·) a.countR s.2.countR,
      List.zipWith (· + ·) a.sumR s.2.sumR, List.zipWith (· + ·) a.countP s.2.countP,
      List.zipWith (· + ·) a.sumP s.2.sumP,
      a.bestCountR + s.2.countR.getD (sampleBest s.2) 0,
      a.bestSumR + s.2.sumR.getD (sampleBest s.2) 0,
      a.bestCountP + s.2.countP.getD (sampleBest s.2) 0,
      a.bestSumP + s.2.sumP.getD (sampleBest s.2) 0,
      a.results ++ [sampleRow th s]⟩ := by
  obtain ⟨hb1, hb2⟩ := sampleBest_lt hs hn
  have hg := computeRPFArr_getElem hs hb2
  have hg' : getItem (computeRPFArr s.2) (sampleBest s.2) = .ok _ := getItem_ok.mpr hg
  obtain ⟨e1, e2, e3, e4⟩ := hs
  have a1 : addArr a.countR s.2.countR = .ok _ := addArr_ok.mpr ⟨by omega, rfl⟩
  have a2 : addArr a.sumR s.2.sumR = .ok _ := addArr_ok.mpr ⟨by omega, rfl⟩
  have a3 : addArr a.countP s.2.countP = .ok _ := addArr_ok.mpr ⟨by omega, rfl⟩
  have a4 : addArr a.sumP s.2.sumP = .ok _ := addArr_ok.mpr ⟨by omega, rfl⟩
  have g1 := getItem_lt (l := s.2.countR) (i := sampleBest s.2) (by omega)
  have g2 := getItem_lt (l := s.2.sumR) (i := sampleBest s.2) (by omega)
  have g3 := getItem_lt (l := s.2.countP) (i := sampleBest s.2) (by omega)
  have g4 := getItem_lt (l := s.2.sumP) (i := sampleBest s.2) (by omega)
  have g5 := getItem_lt (l := th) (i := sampleBest s.2) (by omega)
  simp only [sampleStep, a1, a2, a3, a4, hb1, bind, Except.bind, g1, g2, g3, g4, g5, hg']
  rfl

theorem sampleStep_inv {th : List ℚ} {a a' : Acc} {s : String × Counts}
    (h1 : a.countR.length = th.length) (h2 : a.sumR.length = th.length)
    (h3 : a.countP.length = th.length) (h4 : a.sumP.length = th.length)
    (h : sampleStep th a s = .ok a') : SameLen th.length s.2 ∧ 0 < th.length := by
  have hs : SameLen th.length s.2 := by
    unfold sampleStep at h
    by_cases c1 : a.countR.length = s.2.countR.length
    · by_cases c2 : a.sumR.length = s.2.sumR.length
      · by_cases c3 : a.countP.length = s.2.countP.length
        · by_cases c4 : a.sumP.length = s.2.sumP.length
          · exact ⟨by omega, by omega, by omega, by omega⟩
          · simp [addArr, c1, c2, c3, c4, bind, Except.bind] at h
        · simp [addArr, c1, c2, c3, bind, Except.bind] at h
      · simp [addArr, c1, c2, bind, Except.bind] at h
    · simp [addArr, c1, bind, Except.bind] at h
  refine ⟨hs, ?_⟩
  by_contra hn
  have hl : computeRPFArr s.2 = [] := List.length_eq_zero_iff.mp (by rw [computeRPFArr_length hs]; omega)
  obtain ⟨e1, e2, e3, e4⟩ := hs
  have a1 : addArr a.countR s.2.countR = .ok _ := addArr_ok.mpr ⟨by omega, rfl⟩
  have a2 : addArr a.sumR s.2.sumR = .ok _ := addArr_ok.mpr ⟨by omega, rfl⟩
  have a3 : addArr a.countP s.2.countP = .ok _ := addArr_ok.mpr ⟨by omega, rfl⟩
  have a4 : addArr a.sumP s.2.sumP = .ok _ := addArr_ok.mpr ⟨by omega, rfl⟩
  simp [sampleStep, a1, a2, a3, a4, hl, argmax, bind, Except.bind] at h

/-- Closed form of the accumulators after a list of samples. -/
def accOf (th : List ℚ) (ss : List (String × Counts)) : Acc :=
  ⟨(List.range th.length).map (Spec.pooled Counts.countR ss),
   (List.range th.length).map (Spec.pooled Counts.sumR ss),
   (List.range th.length).map (Spec.pooled Counts.countP ss),
   (List.range th.length).map (Spec.pooled Counts.sumP ss),
   (ss.map fun s => s.2.countR.getD (sampleBest s.2) 0).sum,
   (ss.map fun s => s.2.sumR.getD (sampleBest s.2) 0).sum,
   (ss.map fun s => s.2.countP.getD (sampleBest s.2) 0).sum,
   (ss.map fun s => s.2.sumP.getD (sampleBest s.2) 0).sum,
   ss.map (sampleRow th)⟩

theorem pooled_snoc (f : Counts → List ℚ) (ss : List (String × Counts)) (s : String × Counts)
    (n : Nat) (h : (f s.2).length = n) :
    List.zipWith (· + ·) ((List.range n).map (Spec.pooled f ss)) (f s.2) =
      (List.range n).map (Spec.pooled f (ss ++ [s])) := by
  apply List.ext_getElem
  · simp [h]
  · intro k h1 h2
    simp only [List.length_map, List.length_range] at h2
    simp [Spec.pooled, h, h2]

theorem accOf_snoc {th : List ℚ} {ss : List (String × Counts)} {s : String × Counts}
    (hs : SameLen th.length s.2) (hn : 0 < th.length) :
    sampleStep th (accOf th ss) s = .ok (accOf th (ss ++ [s])) := by
  rw [sampleStep_ok (by simp [accOf]) (by simp [accOf]) (by simp [accOf]) (by simp [accOf]) hs hn]
  obtain ⟨e1, e2, e3, e4⟩ := hs
  simp only [accOf, pooled_snoc _ _ _ _ e1, pooled_snoc _ _ _ _ e2, pooled_snoc _ _ _ _ e3,
    pooled_snoc _ _ _ _ e4, List.map_append, List.map_cons, List.map_nil, List.sum_append,
    List.sum_cons, List.sum_nil, add_zero]

theorem accOf_nil (th : List ℚ) : accOf th [] = Acc.init th.length := by
  have : ∀ f, (List.range th.length).map (Spec.pooled f []) = List.replicate th.length 0 := by
    intro f
    have e : Spec.pooled f [] = fun _ => 0 := by funext k; simp [Spec.pooled]
    rw [e]; simp
  simp only [accOf, Acc.init, List.map_nil, List.sum_nil, this]

theorem loop_ok (th : List ℚ) (ss pre : List (String × Counts))
    (h : ∀ s ∈ ss, SameLen th.length s.2) (hn : 0 < th.length) :
    ss.foldlM (sampleStep th) (accOf th pre) = .ok (accOf th (pre ++ ss)) := by
  induction ss generalizing pre with
  | nil => simp [pure, Except.pure]
  | cons s ss ih =>
    rw [List.foldlM_cons, accOf_snoc (h s (by simp)) hn]
    have := ih (pre ++ [s]) (fun x hx => h x (by simp [hx]))
    rw [List.append_assoc, List.singleton_append] at this
    exact this

theorem loop_inv (th : List ℚ) (ss pre : List (String × Counts)) (a : Acc)
    (h : ss.foldlM (sampleStep th) (accOf th pre) = .ok a) :
    (∀ s ∈ ss, SameLen th.length s.2) ∧ (ss ≠ [] → 0 < th.length) := by
  induction ss generalizing pre with
  | nil => simp
  | cons s ss ih =>
    rw [List.foldlM_cons] at h
    cases hs : sampleStep th (accOf th pre) s with
    | error e => rw [hs] at h; simp [bind, Except.bind] at h
    | ok a' =>
      obtain ⟨g1, g2⟩ := sampleStep_inv (by simp [accOf]) (by simp [accOf]) (by simp [accOf])
        (by simp [accOf]) hs
      rw [accOf_snoc g1 g2] at h
      obtain ⟨k1, k2⟩ := ih _ h
      refine ⟨?_, fun _ => g2⟩
      intro x hx
      rcases List.mem_cons.mp hx with rfl | hx
      · exact g1
      · exact k1 x hx

theorem interpolatedMaxScores_nil (r p : List ℚ) :
    interpolatedMaxScores [] r p = .error .indexError := rfl

/-- The (recall, precision, F) table computed from pooled counts. -/
def pooledRPF (th : List ℚ) (ss : List (String × Counts)) : List RPF :=
  (List.range th.length).map fun k => computeRPF (Spec.pooled Counts.countR ss k)
    (Spec.pooled Counts.sumR ss k) (Spec.pooled Counts.countP ss k) (Spec.pooled Counts.sumP ss k)

theorem accOf_rpf (th : List ℚ) (ss : List (String × Counts)) :
    computeRPFArr ⟨(accOf th ss).countR, (accOf th ss).sumR, (accOf th ss).countP,
      (accOf th ss).sumP⟩ = pooledRPF th ss := by
  rw [computeRPFArr_eq (n := th.length) (by simp [SameLen, accOf])]
  unfold pooledRPF
  apply List.map_congr_left
  intro k hk
  rw [List.mem_range] at hk
  simp [accOf, hk]

/-- `calculate_metrics` succeeds exactly on well-shaped non-degenerate input, and its result in closed
form. -/
theorem calc_ok_iff (arg : ThresholdArg) (ss : List (String × Counts))
    (x : List SampleResult × List ThresholdResult × OverallResult) :
    calculateFromCounts arg ss = .ok x ↔
      ∃ th, checkThresholds arg = .ok th ∧ 0 < th.length ∧ (∀ s ∈ ss, SameLen th.length s.2) ∧
        finishMetrics th (accOf th ss) = .ok x := by
  unfold calculateFromCounts
  cases hth : checkThresholds arg with
  | error e => simp [bind, Except.bind]
  | ok th =>
    simp only [bind, Except.bind, Except.ok.injEq, exists_eq_left']
    rw [← accOf_nil]
    constructor
    · intro h
      cases hl : ss.foldlM (sampleStep th) (accOf th []) with
      | error e => rw [hl] at h; simp at h
      | ok a =>
        obtain ⟨k1, k2⟩ := loop_inv th ss [] a hl
        rw [hl] at h
        simp only at h
        have hn : 0 < th.length := by
          by_contra hn
          have : th = [] := List.length_eq_zero_iff.mp (by omega)
          subst this
          simp [finishMetrics, interpolatedMaxScores_nil, bind, Except.bind] at h
        rw [loop_ok th ss [] k1 hn] at hl
        cases hl
        exact ⟨hn, k1, by simpa using h⟩
    · rintro ⟨hn, k1, h⟩
      rw [loop_ok th ss [] k1 hn]
      simpa using h

theorem finish_ok (th : List ℚ) (ss : List (String × Counts)) (hn : 0 < th.length) :
    ∃ b, interpolatedMaxScores th ((pooledRPF th ss).map RPF.rcl) ((pooledRPF th ss).map RPF.prc)
        = .ok b ∧
      OdsInv th ((pooledRPF th ss).map RPF.rcl) ((pooledRPF th ss).map RPF.prc) (th.length - 1) b ∧
      finishMetrics th (accOf th ss) = .ok ((accOf th ss).results,
        List.zipWith (fun t (x : RPF) => (⟨t, x.rcl, x.prc, x.f1⟩ : ThresholdResult)) th
          (pooledRPF th ss),
        ⟨b.threshold, b.rcl, b.prc, b.f1,
          (computeRPF (accOf th ss).bestCountR (accOf th ss).bestSumR (accOf th ss).bestCountP
            (accOf th ss).bestSumP).rcl,
          (computeRPF (accOf th ss).bestCountR (accOf th ss).bestSumR (accOf th ss).bestCountP
            (accOf th ss).bestSumP).prc,
          (computeRPF (accOf th ss).bestCountR (accOf th ss).bestSumR (accOf th ss).bestCountP
            (accOf th ss).bestSumP).f1,
          areaPR ((pooledRPF th ss).map RPF.rcl) ((pooledRPF th ss).map RPF.prc),
          averagePrecision ((pooledRPF th ss).map RPF.rcl) ((pooledRPF th ss).map RPF.prc)⟩) := by
  obtain ⟨b, h1, h2⟩ := ods_main th ((pooledRPF th ss).map RPF.rcl) ((pooledRPF th ss).map RPF.prc)
    (by simp [pooledRPF]) (by simp [pooledRPF]) hn
  refine ⟨b, h1, h2, ?_⟩
  unfold finishMetrics
  simp only [accOf_rpf, h1]
  rfl

/-! ### Average precision -/

theorem foldl_max_le {l : List ℚ} {a c : ℚ} (ha : a ≤ c) (h : ∀ x ∈ l, x ≤ c) :
    l.foldl max a ≤ c := by
  induction l generalizing a with
  | nil => simpa
  | cons x xs ih => exact ih (max_le ha (h x (by simp))) (fun y hy => h y (by simp [hy]))

theorem le_foldl_max_init (l : List ℚ) (a : ℚ) : a ≤ l.foldl max a := by
  induction l generalizing a with
  | nil => simp
  | cons x xs ih => exact (le_max_left _ _).trans (ih _)

theorem le_foldl_max {l : List ℚ} {a x : ℚ} (h : x ∈ l) : x ≤ l.foldl max a := by
  induction l generalizing a with
  | nil => simp at h
  | cons y ys ih =>
    rcases List.mem_cons.mp h with rfl | h
    · exact (le_max_right _ _).trans (le_foldl_max_init _ _)
    · exact ih h

theorem foldl_max_mem (l : List ℚ) (a : ℚ) : l.foldl max a = a ∨ l.foldl max a ∈ l := by
  induction l generalizing a with
  | nil => simp
  | cons y ys ih =>
    rcases ih (max a y) with h | h
    · rcases le_total a y with hh | hh
      · right; rw [List.foldl_cons, h, max_eq_right hh]; simp
      · left; rw [List.foldl_cons, h, max_eq_left hh]
    · right; exact List.mem_cons_of_mem _ h

theorem foldl_add_eq_sum {α : Type} (l : List α) (f : α → ℚ) (a : ℚ) :
    l.foldl (fun ap t => ap + f t) a = a + (l.map f).sum := by
  induction l generalizing a with
  | nil => simp
  | cons x xs ih => simp only [List.foldl_cons, List.map_cons, List.sum_cons, ih]; ring

theorem averagePrecision_eq (r p : List ℚ) :
    averagePrecision r p = (arange01.map fun t => precAtRecall r p t / 101).sum := by
  unfold averagePrecision
  rw [foldl_add_eq_sum arange01 (fun t => precAtRecall r p t / 101) 0, zero_add]

theorem precAtRecall_nonneg (r p : List ℚ) (t : ℚ) : 0 ≤ precAtRecall r p t :=
  le_foldl_max_init _ _

theorem precAtRecall_le {r p : List ℚ} {t c : ℚ} (h0 : 0 ≤ c) (h : ∀ x ∈ p, x ≤ c) :
    precAtRecall r p t ≤ c := by
  apply foldl_max_le h0
  intro x hx
  simp only [List.mem_map, List.mem_filter] at hx
  obtain ⟨⟨a, b⟩, ⟨h1, _⟩, rfl⟩ := hx
  exact h _ (List.of_mem_zip h1).2

theorem le_precAtRecall {r p : List ℚ} {t : ℚ} {k : Nat} (hr : k < r.length) (hp : k < p.length)
    (ht : t ≤ r.getD k 0) : p.getD k 0 ≤ precAtRecall r p t := by
  apply le_foldl_max
  simp only [List.mem_map, List.mem_filter, decide_eq_true_eq]
  refine ⟨(r.getD k 0, p.getD k 0), ⟨?_, ht⟩, rfl⟩
  have : (List.zip r p)[k]? = some (r.getD k 0, p.getD k 0) := by
    simp [hr, hp]
  exact List.mem_of_getElem? this

theorem precAtRecall_att (r p : List ℚ) (t : ℚ) : precAtRecall r p t = 0 ∨
    ∃ k, k < r.length ∧ k < p.length ∧ t ≤ r.getD k 0 ∧ precAtRecall r p t = p.getD k 0 := by
  rcases foldl_max_mem (((List.zip r p).filter fun x => decide (t ≤ x.1)).map Prod.snd) 0 with h | h
  · exact .inl h
  · right
    simp only [List.mem_map, List.mem_filter, decide_eq_true_eq] at h
    obtain ⟨⟨a, b⟩, ⟨h1, h2⟩, h3⟩ := h
    obtain ⟨k, hk⟩ := List.getElem?_of_mem h1
    rw [List.getElem?_zip_eq_some] at hk
    obtain ⟨hk1, hk2⟩ := hk
    have l1 : k < r.length := (List.getElem?_eq_some_iff.mp hk1).1
    have l2 : k < p.length := (List.getElem?_eq_some_iff.mp hk2).1
    refine ⟨k, l1, l2, ?_, ?_⟩
    · simp only [List.getD_eq_getElem?_getD, hk1, Option.getD_some]; exact h2
    · simp only [List.getD_eq_getElem?_getD, hk2, Option.getD_some]; exact h3.symm

theorem sum_map_le {α : Type} {l : List α} {f g : α → ℚ} (h : ∀ x ∈ l, f x ≤ g x) :
    (l.map f).sum ≤ (l.map g).sum := by
  induction l with
  | nil => simp
  | cons x xs ih =>
    simp only [List.map_cons, List.sum_cons]
    exact add_le_add (h x (by simp)) (ih fun y hy => h y (by simp [hy]))

theorem sum_map_const {α : Type} (l : List α) (c : ℚ) : (l.map fun _ => c).sum = l.length * c := by
  induction l with
  | nil => simp
  | cons x xs ih => simp only [List.map_cons, List.sum_cons, ih, List.length_cons]; push_cast; ring

theorem sum_map_div {α : Type} (l : List α) (f : α → ℚ) (c : ℚ) :
    (l.map fun x => f x / c).sum = (l.map f).sum / c := by
  induction l with
  | nil => simp
  | cons x xs ih => simp only [List.map_cons, List.sum_cons, ih]; ring

theorem arange01_length : arange01.length = 100 := by simp [arange01]

/-! ### Interpolation and AUC -/

/-- Strictly increasing keys. -/
def KeySorted : List (ℚ × ℚ) → Prop
  | [] => True
  | [_] => True
  | a :: b :: rest => a.1 < b.1 ∧ KeySorted (b :: rest)

theorem insertUniq_mem {k v : ℚ} {l : List (ℚ × ℚ)} {x : ℚ × ℚ} (h : x ∈ insertUniq k v l) :
    x = (k, v) ∨ x ∈ l := by
  induction l with
  | nil => simpa [insertUniq] using h
  | cons a l ih =>
    obtain ⟨k', v'⟩ := a
    simp only [insertUniq] at h
    split at h
    · simpa using h
    · split at h
      · exact .inr h
      · rcases List.mem_cons.mp h with rfl | h
        · simp
        · rcases ih h with h | h
          · exact .inl h
          · exact .inr (List.mem_cons_of_mem _ h)

theorem interp_bounds {lo hi x : ℚ} (h0 : lo ≤ 0) (h1 : 0 ≤ hi) :
    ∀ (k v : ℚ) (pts : List (ℚ × ℚ)), KeySorted ((k, v) :: pts) → k ≤ x →
      (∀ y ∈ (k, v) :: pts, lo ≤ y.2 ∧ y.2 ≤ hi) →
      lo ≤ interpSeg x 0 ((k, v) :: pts) ∧ interpSeg x 0 ((k, v) :: pts) ≤ hi := by
  intro k v pts
  induction pts generalizing k v with
  | nil =>
    intro _ _ hb
    simp only [interpSeg]
    split
    · exact hb (k, v) (by simp)
    · exact ⟨h0, h1⟩
  | cons a pts ih =>
    obtain ⟨k', v'⟩ := a
    intro hs hk hb
    simp only [interpSeg]
    split
    · rename_i hlt
      have hkk : k < k' := hs.1
      have hv := hb (k, v) (by simp)
      have hv' := hb (k', v') (by simp)
      have hd : 0 < k' - k := by linarith
      set w := (x - k) / (k' - k) with hw
      have hw0 : 0 ≤ w := div_nonneg (by linarith) hd.le
      have hw1 : w ≤ 1 := by rw [hw, div_le_one hd]; linarith
      have e : v + (v' - v) / (k' - k) * (x - k) = v * (1 - w) + v' * w := by
        rw [hw]; field_simp; ring
      rw [e]
      simp only at hv hv'
      constructor <;> nlinarith
    · rename_i hlt
      exact ih k' v' hs.2 (not_lt.mp hlt) (fun y hy => hb y (by simp_all))

theorem insertUniq_head {k v : ℚ} (l : List (ℚ × ℚ)) (c : ℚ) (hc : c < k)
    (hl : ∀ y ∈ l.head?, c < y.1) : ∀ y ∈ (insertUniq k v l).head?, c < y.1 := by
  cases l with
  | nil => simpa [insertUniq] using hc
  | cons a l =>
    obtain ⟨k', v'⟩ := a
    simp only [insertUniq]
    have : c < k' := by simpa using hl
    split
    · simpa using hc
    · split <;> simpa using this

theorem keySorted_cons {a : ℚ × ℚ} {l : List (ℚ × ℚ)} :
    KeySorted (a :: l) ↔ (∀ y ∈ l.head?, a.1 < y.1) ∧ KeySorted l := by
  cases l with
  | nil => simp [KeySorted]
  | cons b l => simp [KeySorted]

theorem insertUniq_sorted {k v : ℚ} {l : List (ℚ × ℚ)} (h : KeySorted l) :
    KeySorted (insertUniq k v l) := by
  induction l with
  | nil => simp [insertUniq, KeySorted]
  | cons a l ih =>
    obtain ⟨k', v'⟩ := a
    simp only [insertUniq]
    split
    · rename_i h'; exact keySorted_cons.mpr ⟨by simpa using h', h⟩
    · split
      · exact h
      · rename_i h1 h2
        rw [keySorted_cons] at h ⊢
        refine ⟨insertUniq_head l k' ?_ h.1, ih h.2⟩
        exact lt_of_le_of_ne (not_lt.mp h1) (Ne.symm h2)

theorem uniqueFold_sorted (kv acc : List (ℚ × ℚ)) (h : KeySorted acc) :
    KeySorted (kv.foldl (fun acc kv => insertUniq kv.1 kv.2 acc) acc) := by
  induction kv generalizing acc with
  | nil => exact h
  | cons x xs ih => exact ih _ (insertUniq_sorted h)

theorem uniqueFirst_sorted (r p : List ℚ) : KeySorted (uniqueFirst r p) :=
  uniqueFold_sorted _ _ trivial

theorem uniqueFold_mem (kv acc : List (ℚ × ℚ)) {x : ℚ × ℚ}
    (h : x ∈ kv.foldl (fun acc kv => insertUniq kv.1 kv.2 acc) acc) : x ∈ acc ∨ x ∈ kv := by
  induction kv generalizing acc with
  | nil => exact .inl h
  | cons y ys ih =>
    rcases ih _ h with h | h
    · rcases insertUniq_mem h with rfl | h
      · right; simp
      · exact .inl h
    · right; simp [h]

theorem uniqueFirst_mem {r p : List ℚ} {x : ℚ × ℚ} (h : x ∈ uniqueFirst r p) : x ∈ List.zip r p := by
  rcases uniqueFold_mem _ _ h with h | h
  · simp at h
  · exact h

theorem npInterp_bounds {hi x : ℚ} {pts : List (ℚ × ℚ)} (hs : KeySorted pts) (h1 : 0 ≤ hi)
    (hb : ∀ y ∈ pts, 0 ≤ y.2 ∧ y.2 ≤ hi) : 0 ≤ npInterp x 0 0 pts ∧ npInterp x 0 0 pts ≤ hi := by
  cases pts with
  | nil => exact ⟨le_refl _, h1⟩
  | cons a rest =>
    obtain ⟨k, v⟩ := a
    simp only [npInterp]
    split
    · exact ⟨le_refl _, h1⟩
    · rename_i h
      exact interp_bounds (le_refl 0) h1 k v rest hs (not_lt.mp h) hb

theorem areaPR_bounds {r p : List ℚ} (hp : ∀ x ∈ p, 0 ≤ x ∧ x ≤ 1) :
    0 ≤ areaPR r p ∧ areaPR r p ≤ 1 := by
  unfold areaPR
  simp only
  split
  · have hb : ∀ y ∈ uniqueFirst r p, 0 ≤ y.2 ∧ y.2 ≤ 1 :=
      fun y hy => hp _ (List.of_mem_zip (uniqueFirst_mem hy)).2
    have hI := fun x => npInterp_bounds (x := x) (uniqueFirst_sorted r p) (by norm_num) hb
    have h0 : 0 ≤ (arange01.map fun x => npInterp x 0 0 (uniqueFirst r p)).sum := by
      apply List.sum_nonneg
      intro y hy
      obtain ⟨x, _, rfl⟩ := List.mem_map.mp hy
      exact (hI x).1
    have h1 : (arange01.map fun x => npInterp x 0 0 (uniqueFirst r p)).sum ≤ 100 := by
      refine (sum_map_le (g := fun _ => (1 : ℚ)) fun x _ => (hI x).2).trans ?_
      rw [sum_map_const, arange01_length]; norm_num
    constructor <;> linarith
  · exact ⟨le_refl _, zero_le_one⟩

theorem uniqueFold_const (c : ℚ) (kv : List (ℚ × ℚ)) (v : ℚ) (h : ∀ x ∈ kv, x.1 = c) :
    kv.foldl (fun acc kv => insertUniq kv.1 kv.2 acc) [(c, v)] = [(c, v)] := by
  induction kv with
  | nil => rfl
  | cons x xs ih =>
    rw [List.foldl_cons, h x (by simp)]
    simp only [insertUniq, lt_self_iff_false, if_false, if_true]
    exact ih fun y hy => h y (by simp [hy])

theorem areaPR_const (c : ℚ) (r p : List ℚ) (h : ∀ x ∈ r, x = c) : areaPR r p = 0 := by
  have : (uniqueFirst r p).length ≤ 1 := by
    unfold uniqueFirst
    have hz : ∀ x ∈ List.zip r p, x.1 = c := fun x hx => h _ (List.of_mem_zip hx).1
    cases hzip : List.zip r p with
    | nil => simp
    | cons x xs =>
      rw [hzip] at hz
      rw [List.foldl_cons, hz x (by simp), insertUniq, uniqueFold_const c xs _
        (fun y hy => hz y (by simp [hy]))]
      simp
  unfold areaPR
  simp only
  rw [if_neg (by omega)]

/-! Key lookup: what `np.unique(return_index)` keeps. -/

theorem insertUniq_keeps {k v : ℚ} {l : List (ℚ × ℚ)} {x : ℚ × ℚ} (h : x ∈ l) :
    x ∈ insertUniq k v l := by
  induction l with
  | nil => simp at h
  | cons a l ih =>
    obtain ⟨k', v'⟩ := a
    simp only [insertUniq]
    split
    · exact List.mem_cons_of_mem _ h
    · split
      · exact h
      · rcases List.mem_cons.mp h with rfl | h
        · simp
        · exact List.mem_cons_of_mem _ (ih h)

theorem insertUniq_new {k v : ℚ} {l : List (ℚ × ℚ)} (h : ∀ y ∈ l, y.1 ≠ k) :
    (k, v) ∈ insertUniq k v l := by
  induction l with
  | nil => simp [insertUniq]
  | cons a l ih =>
    obtain ⟨k', v'⟩ := a
    simp only [insertUniq]
    split
    · simp
    · split
      · rename_i h2; exact absurd h2.symm (h (k', v') (by simp))
      · exact List.mem_cons_of_mem _ (ih fun y hy => h y (by simp [hy]))

theorem uniqueFold_keeps (kv acc : List (ℚ × ℚ)) {x : ℚ × ℚ} (h : x ∈ acc) :
    x ∈ kv.foldl (fun acc kv => insertUniq kv.1 kv.2 acc) acc := by
  induction kv generalizing acc with
  | nil => exact h
  | cons y ys ih => exact ih _ (insertUniq_keeps h)

/-- The first occurrence of a key survives. -/
theorem uniqueFold_first (pre post acc : List (ℚ × ℚ)) (k v : ℚ) (h : ∀ y ∈ pre, y.1 ≠ k)
    (ha : ∀ y ∈ acc, y.1 ≠ k) :
    (k, v) ∈ (pre ++ (k, v) :: post).foldl (fun acc kv => insertUniq kv.1 kv.2 acc) acc := by
  induction pre generalizing acc with
  | nil =>
    simp only [List.nil_append, List.foldl_cons]
    exact uniqueFold_keeps _ _ (insertUniq_new ha)
  | cons y ys ih =>
    simp only [List.cons_append, List.foldl_cons]
    apply ih _ (fun z hz => h z (by simp [hz]))
    intro z hz
    rcases insertUniq_mem hz with rfl | hz
    · exact h y (by simp)
    · exact ha z hz

theorem keySorted_head_le {k0 v0 k v : ℚ} {rest : List (ℚ × ℚ)}
    (hs : KeySorted ((k0, v0) :: rest)) (h : (k, v) ∈ (k0, v0) :: rest) : k0 ≤ k := by
  induction rest generalizing k0 v0 with
  | nil => simp only [List.mem_singleton, Prod.mk.injEq] at h; exact h.1.symm.le
  | cons c rest ih2 =>
    rcases List.mem_cons.mp h with h | h
    · cases h; exact le_refl _
    · exact (hs.1).le.trans (ih2 (k0 := c.1) (v0 := c.2) hs.2 h)

/-- Interpolation passes through the given points. -/
theorem interpSeg_at {pts : List (ℚ × ℚ)} {k v : ℚ} (hs : KeySorted pts) (h : (k, v) ∈ pts) :
    interpSeg k 0 pts = v := by
  induction pts with
  | nil => simp at h
  | cons a rest ih =>
    obtain ⟨k0, v0⟩ := a
    cases rest with
    | nil =>
      simp only [List.mem_singleton, Prod.mk.injEq] at h
      simp [interpSeg, h.1, h.2]
    | cons b rest =>
      obtain ⟨k1, v1⟩ := b
      simp only [interpSeg]
      rcases List.mem_cons.mp h with h | h
      · cases h
        rw [if_pos hs.1]; simp
      · have hge : k1 ≤ k := keySorted_head_le hs.2 h
        rw [if_neg (not_lt.mpr hge)]
        exact ih hs.2 h

theorem npInterp_at {pts : List (ℚ × ℚ)} {k v : ℚ} (hs : KeySorted pts) (h : (k, v) ∈ pts) :
    npInterp k 0 0 pts = v := by
  cases pts with
  | nil => simp at h
  | cons a rest =>
    obtain ⟨k0, v0⟩ := a
    simp only [npInterp]
    rw [if_neg (not_lt.mpr (keySorted_head_le hs h))]
    exact interpSeg_at hs h

end EdgeEval

namespace EdgeEval

theorem keySorted_unique {pts : List (ℚ × ℚ)} {k v v' : ℚ} (hs : KeySorted pts)
    (h : (k, v) ∈ pts) (h' : (k, v') ∈ pts) : v = v' := by
  rw [← interpSeg_at hs h, ← interpSeg_at hs h']

theorem keySorted_mem_tail {k0 v0 k v : ℚ} {rest : List (ℚ × ℚ)}
    (h : (k, v) ∈ (k0, v0) :: rest) (hk : k0 < k) : (k, v) ∈ rest := by
  rcases List.mem_cons.mp h with h | h
  · cases h; exact absurd hk (lt_irrefl _)
  · exact h

theorem interpSeg_between {pts : List (ℚ × ℚ)} {k v k' v' x : ℚ} (hs : KeySorted pts)
    (h : (k, v) ∈ pts) (h' : (k', v') ∈ pts) (hk : k < k')
    (hno : ∀ y ∈ pts, ¬ (k < y.1 ∧ y.1 < k')) (hx : k ≤ x) (hx' : x ≤ k') :
    interpSeg x 0 pts = v + (v' - v) / (k' - k) * (x - k) := by
  induction pts with
  | nil => simp at h
  | cons a rest ih =>
    obtain ⟨k0, v0⟩ := a
    have hk0 : k0 ≤ k := keySorted_head_le hs h
    have h't : (k', v') ∈ rest := keySorted_mem_tail h' (lt_of_le_of_lt hk0 hk)
    cases rest with
    | nil => simp at h't
    | cons b rest =>
      obtain ⟨k1, v1⟩ := b
      have h01 : k0 < k1 := hs.1
      simp only [interpSeg]
      rcases List.mem_cons.mp h with h | h
      · cases h
        have h1 : k1 ≤ k' := keySorted_head_le hs.2 h't
        have h2 : k1 = k' := by
          by_contra hne
          exact hno (k1, v1) (by simp) ⟨h01, lt_of_le_of_ne h1 hne⟩
        subst h2
        have h3 : v1 = v' := keySorted_unique hs.2 (by simp) h't
        subst h3
        split
        · rfl
        · have hxk : x = k1 := le_antisymm hx' (not_lt.mp (by assumption))
          subst hxk
          rw [interpSeg_at hs.2 (by simp : (x, v1) ∈ (x, v1) :: rest)]
          have : x - k ≠ 0 := by linarith
          field_simp; ring
      · have hk1 : k1 ≤ k := keySorted_head_le hs.2 h
        rw [if_neg (not_lt.mpr (hk1.trans hx))]
        exact ih hs.2 h h't (fun y hy => hno y (List.mem_cons_of_mem _ hy))

theorem interpSeg_gt {pts : List (ℚ × ℚ)} {x : ℚ} (h : ∀ y ∈ pts, y.1 < x) :
    interpSeg x 0 pts = 0 := by
  induction pts with
  | nil => rfl
  | cons a rest ih =>
    obtain ⟨k0, v0⟩ := a
    cases rest with
    | nil =>
      have : k0 < x := h (k0, v0) (by simp)
      simp [interpSeg, this.ne']
    | cons b rest =>
      obtain ⟨k1, v1⟩ := b
      have : k1 < x := h (k1, v1) (by simp)
      simp only [interpSeg]
      rw [if_neg (not_lt.mpr this.le)]
      exact ih fun y hy => h y (List.mem_cons_of_mem _ hy)

theorem npInterp_between {pts : List (ℚ × ℚ)} {k v k' v' x : ℚ} (hs : KeySorted pts)
    (h : (k, v) ∈ pts) (h' : (k', v') ∈ pts) (hk : k < k')
    (hno : ∀ y ∈ pts, ¬ (k < y.1 ∧ y.1 < k')) (hx : k ≤ x) (hx' : x ≤ k') :
    npInterp x 0 0 pts = v + (v' - v) / (k' - k) * (x - k) := by
  cases pts with
  | nil => simp at h
  | cons a rest =>
    obtain ⟨k0, v0⟩ := a
    simp only [npInterp]
    rw [if_neg (not_lt.mpr ((keySorted_head_le hs h).trans hx))]
    exact interpSeg_between hs h h' hk hno hx hx'

theorem npInterp_gt {pts : List (ℚ × ℚ)} {x : ℚ} (h : ∀ y ∈ pts, y.1 < x) :
    npInterp x 0 0 pts = 0 := by
  cases pts with
  | nil => rfl
  | cons a rest =>
    obtain ⟨k0, v0⟩ := a
    simp only [npInterp]
    rw [if_neg (not_lt.mpr (h (k0, v0) (by simp)).le)]
    exact interpSeg_gt h

theorem npInterp_lt {pts : List (ℚ × ℚ)} {x : ℚ} (h : ∀ y ∈ pts, x < y.1) :
    npInterp x 0 0 pts = 0 := by
  cases pts with
  | nil => rfl
  | cons a rest =>
    obtain ⟨k0, v0⟩ := a
    simp only [npInterp]
    rw [if_pos (h (k0, v0) (by simp))]

/-- Row `k` of the table is the first with its recall: it is kept by `np.unique`. -/
theorem uniqueFirst_first {r p : List ℚ} {k : Nat} (hl : r.length = p.length) (hk : k < r.length)
    (hf : ∀ j, j < k → r.getD j 0 ≠ r.getD k 0) :
    (r.getD k 0, p.getD k 0) ∈ uniqueFirst r p := by
  have hz : (List.zip r p)[k]? = some (r.getD k 0, p.getD k 0) := by
    simp [hk, hl ▸ hk]
  obtain ⟨hlt, hge⟩ := List.getElem?_eq_some_iff.mp hz
  have hsplit : List.zip r p = (List.zip r p).take k ++ (r.getD k 0, p.getD k 0) :: (List.zip r p).drop (k+1) := by
    rw [← hge, List.getElem_cons_drop, List.take_append_drop]
  unfold uniqueFirst
  rw [hsplit]
  apply uniqueFold_first
  · intro y hy
    obtain ⟨j, hj⟩ := List.getElem?_of_mem hy
    rw [List.getElem?_take] at hj
    split at hj
    · rename_i hjk
      rw [List.getElem?_zip_eq_some] at hj
      have := hf j hjk
      rw [List.getD_eq_getElem?_getD, hj.1] at this
      simpa using this
    · simp at hj
  · simp

theorem uniqueFirst_idx {r p : List ℚ} {x : ℚ × ℚ} (h : x ∈ uniqueFirst r p) :
    ∃ k, k < r.length ∧ x.1 = r.getD k 0 := by
  obtain ⟨k, hk⟩ := List.getElem?_of_mem (uniqueFirst_mem h)
  obtain ⟨a, b⟩ := x
  rw [List.getElem?_zip_eq_some] at hk
  refine ⟨k, (List.getElem?_eq_some_iff.mp hk.1).1, ?_⟩
  rw [List.getD_eq_getElem?_getD, hk.1]; rfl

theorem length_le_one_of_key {l : List (ℚ × ℚ)} (hs : KeySorted l) (c : ℚ) (h : ∀ y ∈ l, y.1 = c) :
    l.length ≤ 1 := by
  cases l with
  | nil => simp
  | cons a l =>
    cases l with
    | nil => simp
    | cons b l =>
      have := hs.1
      rw [h a (by simp), h b (by simp)] at this
      exact absurd this (lt_irrefl _)

theorem uniqueFirst_length {r p : List ℚ} (hl : r.length = p.length) {i j : Nat}
    (hi : i < r.length) (hj : j < r.length) (hne : r.getD i 0 ≠ r.getD j 0) :
    1 < (uniqueFirst r p).length := by
  -- first occurrences of the two keys
  have first : ∀ i, i < r.length → ∃ k, k < r.length ∧ r.getD k 0 = r.getD i 0 ∧
      ∀ j, j < k → r.getD j 0 ≠ r.getD k 0 := by
    intro i
    induction i using Nat.strong_induction_on with
    | _ i ih =>
      intro hi
      by_cases hc : ∃ j, j < i ∧ r.getD j 0 = r.getD i 0
      · obtain ⟨j, hj, he⟩ := hc
        obtain ⟨k, h1, h2, h3⟩ := ih j hj (by omega)
        exact ⟨k, h1, h2.trans he, h3⟩
      · exact ⟨i, hi, rfl, fun j hj he => hc ⟨j, hj, he⟩⟩
  obtain ⟨a, a1, a2, a3⟩ := first i hi
  obtain ⟨b, b1, b2, b3⟩ := first j hj
  have ma := uniqueFirst_first hl a1 a3
  have mb := uniqueFirst_first hl b1 b3
  rw [a2] at ma
  rw [b2] at mb
  by_contra hlen
  match hu : uniqueFirst r p with
  | [] => rw [hu] at ma; simp at ma
  | [y] =>
    rw [hu] at ma mb
    simp only [List.mem_singleton] at ma mb
    rw [← mb] at ma
    exact hne (Prod.mk.inj ma).1
  | y :: z :: l => rw [hu] at hlen; simp at hlen

theorem map_getD {α : Type} (l : List α) (f : α → ℚ) (k : Nat) (hk : k < l.length) :
    (l.map f).getD k 0 = f (l[k]) := by
  simp [hk]

end EdgeEval

namespace EdgeEval

/-- Everything the property theorems need about a successful run. -/
theorem calc_shape {arg : ThresholdArg} {ss : List (String × Counts)} {r : List SampleResult}
    {t : List ThresholdResult} {o : OverallResult} {th : List ℚ}
    (h : calculateFromCounts arg ss = .ok (r, t, o)) (hth : checkThresholds arg = .ok th) :
    0 < th.length ∧ (∀ s ∈ ss, SameLen th.length s.2) ∧
    (∃ b, OdsInv th (t.map ThresholdResult.recall) (t.map ThresholdResult.precision)
        (th.length - 1) b ∧ o.odsThreshold = b.threshold ∧ o.odsRecall = b.rcl ∧
        o.odsPrecision = b.prc ∧ o.odsF1 = b.f1) ∧
    r = ss.map (sampleRow th) ∧
    t = (List.range th.length).map (fun k =>
      let x := computeRPF (Spec.pooled Counts.countR ss k)
        (Spec.pooled Counts.sumR ss k) (Spec.pooled Counts.countP ss k) (Spec.pooled Counts.sumP ss k)
      ⟨th.getD k 0, x.rcl, x.prc, x.f1⟩) ∧
    o.oisRecall = recall (accOf th ss).bestCountR (accOf th ss).bestSumR ∧
    o.oisPrecision = precision (accOf th ss).bestCountP (accOf th ss).bestSumP ∧
    o.oisF1 = f1 o.oisPrecision o.oisRecall ∧
    o.auc = areaPR (t.map ThresholdResult.recall) (t.map ThresholdResult.precision) ∧
    o.ap = averagePrecision (t.map ThresholdResult.recall) (t.map ThresholdResult.precision) := by
  rw [calc_ok_iff] at h
  obtain ⟨th', h1, h2, h3, h4⟩ := h
  rw [hth] at h1
  cases h1
  obtain ⟨b, k1, k2, k3⟩ := finish_ok th ss h2
  rw [k3] at h4
  simp only [Except.ok.injEq, Prod.mk.injEq] at h4
  obtain ⟨e1, e2, e3⟩ := h4
  have et : t = (List.range th.length).map (fun k =>
      let x := computeRPF (Spec.pooled Counts.countR ss k)
        (Spec.pooled Counts.sumR ss k) (Spec.pooled Counts.countP ss k) (Spec.pooled Counts.sumP ss k)
      ⟨th.getD k 0, x.rcl, x.prc, x.f1⟩) := by
    rw [← e2]
    apply List.ext_getElem?
    intro k
    by_cases hk : k < th.length
    · simp [pooledRPF, hk]
    · rw [List.getElem?_eq_none (by simp; omega), List.getElem?_eq_none (by simp; omega)]
  have er : t.map ThresholdResult.recall = (pooledRPF th ss).map RPF.rcl := by
    rw [et]; simp [pooledRPF]
  have ep : t.map ThresholdResult.precision = (pooledRPF th ss).map RPF.prc := by
    rw [et]; simp [pooledRPF]
  refine ⟨h2, h3, ⟨b, ?_, ?_⟩, e1.symm, et, ?_⟩
  · rw [er, ep]; exact k2
  · rw [← e3]; simp
  · rw [er, ep, ← e3]; simp [computeRPF]

theorem pooled_mono {n : Nat} {ss : List (String × Counts)} (f g : Counts → List ℚ)
    (h : ∀ s ∈ ss, Spec.Sane n s.2)
    (hfg : ∀ c, Spec.Sane n c → ∀ k, 0 ≤ (f c).getD k 0 ∧ (f c).getD k 0 ≤ (g c).getD k 0) (k : Nat) :
    0 ≤ Spec.pooled f ss k ∧ Spec.pooled f ss k ≤ Spec.pooled g ss k := by
  constructor
  · apply List.sum_nonneg
    intro x hx
    obtain ⟨s, hs, rfl⟩ := List.mem_map.mp hx
    exact (hfg s.2 (h s hs) k).1
  · exact sum_map_le fun s hs => (hfg s.2 (h s hs) k).2

theorem sum_best_mono {n : Nat} {ss : List (String × Counts)} (f g : Counts → List ℚ)
    (h : ∀ s ∈ ss, Spec.Sane n s.2)
    (hfg : ∀ c, Spec.Sane n c → ∀ k, 0 ≤ (f c).getD k 0 ∧ (f c).getD k 0 ≤ (g c).getD k 0)
    (best : Counts → Nat) :
    0 ≤ (ss.map fun s => (f s.2).getD (best s.2) 0).sum ∧
    (ss.map fun s => (f s.2).getD (best s.2) 0).sum ≤ (ss.map fun s => (g s.2).getD (best s.2) 0).sum := by
  constructor
  · apply List.sum_nonneg
    intro x hx
    obtain ⟨s, hs, rfl⟩ := List.mem_map.mp hx
    exact (hfg s.2 (h s hs) _).1
  · exact sum_map_le fun s hs => (hfg s.2 (h s hs) _).2

/-- Range of every row of the table when all samples are sane. -/
theorem rows_range {arg : ThresholdArg} {ss : List (String × Counts)} {r : List SampleResult}
    {t : List ThresholdResult} {o : OverallResult} {th : List ℚ}
    (h : calculateFromCounts arg ss = .ok (r, t, o)) (hth : checkThresholds arg = .ok th)
    (hs : ∀ s ∈ ss, Spec.Sane th.length s.2) :
    ∀ x ∈ t, (0 ≤ x.recall ∧ x.recall ≤ 1) ∧ (0 ≤ x.precision ∧ x.precision ≤ 1) := by
  obtain ⟨_, _, _, _, et, _⟩ := calc_shape h hth
  rw [et]
  intro x hx
  obtain ⟨k, _, rfl⟩ := List.mem_map.mp hx
  have a := pooled_mono Counts.countR Counts.sumR hs (fun c hc k => hc.r k) k
  have b := pooled_mono Counts.countP Counts.sumP hs (fun c hc k => hc.p k) k
  exact ⟨⟨recall_nonneg a.1 a.2, recall_le_one a.1 a.2⟩,
    ⟨recall_nonneg b.1 b.2, recall_le_one b.1 b.2⟩⟩

theorem f1_le_one {p r : ℚ} (hp : 0 ≤ p ∧ p ≤ 1) (hr : 0 ≤ r ∧ r ≤ 1) : f1 p r ≤ 1 :=
  (f1_le_max hp.1 hr.1).trans (max_le hp.2 hr.2)

end EdgeEval

namespace EdgeEval

theorem finish_results {th : List ℚ} {a : Acc} {rs r : List SampleResult} {t : List ThresholdResult}
    {o : OverallResult} (h : finishMetrics th a = .ok (r, t, o)) :
    finishMetrics th { a with results := rs } = .ok (rs, t, o) := by
  unfold finishMetrics at h ⊢
  simp only [bind, Except.bind] at h ⊢
  split at h
  · simp at h
  · simp only [pure, Except.pure, Except.ok.injEq, Prod.mk.injEq] at h ⊢
    exact ⟨trivial, h.2.1, h.2.2⟩

end EdgeEval
