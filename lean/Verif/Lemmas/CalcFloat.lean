import Verif.Lemmas.MetricsFloat

/-!
# `calculate_metrics` in floating point: the loops
-/

namespace EdgeEval.FloatM

open EdgeEval

variable {fl : ℚ → ℚ}

/-! ### ODS -/

/-- The point sampled between consecutive thresholds. -/
def odsPoint (fl : ℚ → ℚ) (t1 t0 r1 r0 p1 p0 d : ℚ) : Best :=
  ⟨mix fl t1 t0 d, mix fl r1 r0 d, mix fl p1 p0 d, f1 fl (mix fl p1 p0 d) (mix fl r1 r0 d)⟩

theorem odsFold (t1 t0 r1 r0 p1 p0 : ℚ) (ds : List ℚ) (b : Best) :
    let b' := ds.foldl (odsStep fl t1 t0 r1 r0 p1 p0) b
    b.f1 ≤ b'.f1 ∧ (∀ d ∈ ds, (odsPoint fl t1 t0 r1 r0 p1 p0 d).f1 ≤ b'.f1) ∧
      (b' = b ∨ ∃ d ∈ ds, b' = odsPoint fl t1 t0 r1 r0 p1 p0 d) := by
  induction ds generalizing b with
  | nil => simp
  | cons d ds ih =>
    simp only [List.foldl_cons]
    obtain ⟨h1, h2, h3⟩ := ih (odsStep fl t1 t0 r1 r0 p1 p0 b d)
    have hs : b.f1 ≤ (odsStep fl t1 t0 r1 r0 p1 p0 b d).f1 ∧
        (odsPoint fl t1 t0 r1 r0 p1 p0 d).f1 ≤ (odsStep fl t1 t0 r1 r0 p1 p0 b d).f1 ∧
        (odsStep fl t1 t0 r1 r0 p1 p0 b d = b ∨
          odsStep fl t1 t0 r1 r0 p1 p0 b d = odsPoint fl t1 t0 r1 r0 p1 p0 d) := by
      simp only [odsStep, odsPoint]
      split
      · rename_i h; exact ⟨h.le, le_refl _, .inr rfl⟩
      · rename_i h; exact ⟨le_refl _, not_lt.mp h, .inl rfl⟩
    refine ⟨hs.1.trans h1, ?_, ?_⟩
    · intro e he
      rcases List.mem_cons.mp he with rfl | he
      · exact hs.2.1.trans h1
      · exact h2 e he
    · rcases h3 with h3 | ⟨e, he, h3⟩
      · rcases hs.2.2 with h | h
        · left; rw [h3, h]
        · right; exact ⟨d, by simp, by rw [h3, h]⟩
      · right; exact ⟨e, by simp [he], h3⟩

/-- Loop invariant of `interpolated_max_scores` after the outer indices `1..m`. -/
structure OdsInv (fl : ℚ → ℚ) (th rcl prc : List ℚ) (m : Nat) (b : Best) : Prop where
  ge : ∀ i, 1 ≤ i → i ≤ m → ∀ d ∈ linspace fl 0 1 101,
    (odsPoint fl (th.getD i 0) (th.getD (i-1) 0) (rcl.getD i 0) (rcl.getD (i-1) 0) (prc.getD i 0)
      (prc.getD (i-1) 0) d).f1 ≤ b.f1
  ge0 : f1 fl (prc.getD 0 0) (rcl.getD 0 0) ≤ b.f1
  att : b = ⟨th.getD 0 0, rcl.getD 0 0, prc.getD 0 0, f1 fl (prc.getD 0 0) (rcl.getD 0 0)⟩ ∨
    ∃ i : Nat, 1 ≤ i ∧ i ≤ m ∧ ∃ d ∈ linspace fl 0 1 101,
    b = odsPoint fl (th.getD i 0) (th.getD (i-1) 0) (rcl.getD i 0) (rcl.getD (i-1) 0) (prc.getD i 0)
      (prc.getD (i-1) 0) d

theorem odsLoop (th rcl prc : List ℚ) (hr : rcl.length = th.length) (hp : prc.length = th.length)
    (n m : Nat) (b : Best) (hm : m + n < th.length) (hb : OdsInv fl th rcl prc m b) :
    ∃ b', (List.range' (m+1) n).foldlM (odsOuter fl th rcl prc) b = .ok b' ∧
      OdsInv fl th rcl prc (m+n) b' := by
  induction n generalizing m b with
  | zero => exact ⟨b, rfl, hb⟩
  | succ n ih =>
    have e : odsOuter fl th rcl prc b (m+1) = .ok (odsInner fl (th.getD (m+1) 0) (th.getD m 0)
        (rcl.getD (m+1) 0) (rcl.getD m 0) (prc.getD (m+1) 0) (prc.getD m 0) b) := by
      simp only [odsOuter, Nat.add_sub_cancel]
      rw [getItem_lt (by omega), getItem_lt (by omega), getItem_lt (by omega),
        getItem_lt (by omega), getItem_lt (by omega), getItem_lt (by omega)]
      rfl
    rw [List.range'_succ, List.foldlM_cons, e]
    have := odsFold (fl := fl) (th.getD (m+1) 0) (th.getD m 0)
        (rcl.getD (m+1) 0) (rcl.getD m 0) (prc.getD (m+1) 0) (prc.getD m 0) (linspace fl 0 1 101) b
    obtain ⟨h1, h2, h3⟩ := this
    have hinv : OdsInv fl th rcl prc (m+1) (odsInner fl (th.getD (m+1) 0) (th.getD m 0)
        (rcl.getD (m+1) 0) (rcl.getD m 0) (prc.getD (m+1) 0) (prc.getD m 0) b) := by
      refine ⟨?_, hb.ge0.trans h1, ?_⟩
      · intro i hi him d hd
        rcases Nat.lt_or_ge m i with h | h
        · have : i = m + 1 := by omega
          subst this
          exact h2 _ hd
        · exact (hb.ge i hi h d hd).trans h1
      · rcases h3 with h3 | ⟨d, hd, h3⟩
        · unfold odsInner; rw [h3]
          rcases hb.att with h | ⟨i, a, b, d, hd, c⟩
          · exact .inl h
          · exact .inr ⟨i, a, by omega, d, hd, c⟩
        · exact .inr ⟨m+1, by omega, le_refl _, d, hd, h3⟩
    obtain ⟨b', h4, h5⟩ := ih (m+1) _ (by omega) hinv
    refine ⟨b', h4, ?_⟩
    rw [show m + (n+1) = m + 1 + n by omega]; exact h5

theorem ods_main (th rcl prc : List ℚ) (hr : rcl.length = th.length) (hp : prc.length = th.length)
    (hn : 0 < th.length) :
    ∃ b, interpolatedMaxScores fl th rcl prc = .ok b ∧ OdsInv fl th rcl prc (th.length - 1) b := by
  have h0 : OdsInv fl th rcl prc 0 ⟨th.getD 0 0, rcl.getD 0 0, prc.getD 0 0,
      f1 fl (prc.getD 0 0) (rcl.getD 0 0)⟩ :=
    ⟨fun i h1 h2 => by omega, le_refl _, .inl rfl⟩
  obtain ⟨b, h1, h2⟩ := odsLoop th rcl prc hr hp (th.length - 1) 0 _ (by omega) h0
  refine ⟨b, ?_, by simpa using h2⟩
  unfold interpolatedMaxScores
  rw [getItem_lt (by omega), getItem_lt (by omega), getItem_lt (by omega)]
  exact h1

/-! ### The sample loop -/

theorem computeRPFArr_length {n : Nat} {c : Counts} (h : SameLen n c) :
    (computeRPFArr fl c).length = n := by
  obtain ⟨h1, h2, h3, h4⟩ := h
  simp [computeRPFArr, h1, h2, h3, h4]

theorem computeRPFArr_getElem {n : Nat} {c : Counts} (h : SameLen n c) {k : Nat} (hk : k < n) :
    (computeRPFArr fl c)[k]? = some (computeRPF fl (c.countR.getD k 0) (c.sumR.getD k 0)
      (c.countP.getD k 0) (c.sumP.getD k 0)) := by
  obtain ⟨h1, h2, h3, h4⟩ := h
  simp [computeRPFArr, h1, h2, h3, h4, hk]

theorem computeRPFArr_eq {n : Nat} {c : Counts} (h : SameLen n c) :
    computeRPFArr fl c = (List.range n).map fun k => computeRPF fl (c.countR.getD k 0) (c.sumR.getD k 0)
      (c.countP.getD k 0) (c.sumP.getD k 0) := by
  apply List.ext_getElem?
  intro k
  by_cases hk : k < n
  · rw [computeRPFArr_getElem h hk]; simp [hk]
  · rw [List.getElem?_eq_none (by rw [computeRPFArr_length h]; omega),
      List.getElem?_eq_none (by simp; omega)]

/-- The index of the best threshold of a sample. -/
def sampleBest (fl : ℚ → ℚ) (c : Counts) : Nat :=
  match argmax ((computeRPFArr fl c).map RPF.f1) with
  | .ok k => k
  | .error _ => 0

/-- The result row of a sample. -/
def sampleRow (fl : ℚ → ℚ) (th : List ℚ) (s : String × Counts) : SampleResult :=
  let k := sampleBest fl s.2
  let b := computeRPF fl (s.2.countR.getD k 0) (s.2.sumR.getD k 0)
      (s.2.countP.getD k 0) (s.2.sumP.getD k 0)
  ⟨s.1, th.getD k 0, b.rcl, b.prc, b.f1⟩

theorem sampleBest_lt {n : Nat} {c : Counts} (h : SameLen n c) (hn : 0 < n) :
    argmax ((computeRPFArr fl c).map RPF.f1) = .ok (sampleBest fl c) ∧ sampleBest fl c < n := by
  obtain ⟨k, hk, hk'⟩ := argmax_isSome (l := (computeRPFArr fl c).map RPF.f1)
    (by simpa [computeRPFArr_length h] using hn)
  have : sampleBest fl c = k := by unfold sampleBest; rw [hk]
  rw [this]
  exact ⟨hk, by simpa [computeRPFArr_length h] using hk'⟩

theorem addArr_ok {a b c : List ℚ} : addArr fl a b = .ok c ↔
    a.length = b.length ∧ c = List.zipWith (fun x y => fl (x + y)) a b := by
  unfold addArr; split <;> simp_all [eq_comm]

theorem sampleStep_ok {th : List ℚ} {a : Acc} {s : String × Counts}
    (h1 : a.countR.length = th.length) (h2 : a.sumR.length = th.length)
    (h3 : a.countP.length = th.length) (h4 : a.sumP.length = th.length)
    (hs : SameLen th.length s.2) (hn : 0 < th.length) :
    sampleStep fl th a s = .ok ⟨List.zipWith (fun x y => fl (x + y)) a.countR s.2.countR,
      List.zipWith (fun x y => fl (x + y)) a.sumR s.2.sumR, List.zipWith (fun x y => fl (x + y)) a.countP s.2.countP,
      List.zipWith (fun x y => fl (x + y)) a.sumP s.2.sumP,
      fl (a.bestCountR + s.2.countR.getD (sampleBest fl s.2) 0),
      fl (a.bestSumR + s.2.sumR.getD (sampleBest fl s.2) 0),
      fl (a.bestCountP + s.2.countP.getD (sampleBest fl s.2) 0),
      fl (a.bestSumP + s.2.sumP.getD (sampleBest fl s.2) 0),
      a.results ++ [sampleRow fl th s]⟩ := by
  obtain ⟨hb1, hb2⟩ := sampleBest_lt (fl := fl) hs hn
  have hg := computeRPFArr_getElem (fl := fl) hs hb2
  have hg' : getItem (computeRPFArr fl s.2) (sampleBest fl s.2) = .ok _ := getItem_ok.mpr hg
  obtain ⟨e1, e2, e3, e4⟩ := hs
  have a1 : addArr fl a.countR s.2.countR = .ok _ := addArr_ok.mpr ⟨by omega, rfl⟩
  have a2 : addArr fl a.sumR s.2.sumR = .ok _ := addArr_ok.mpr ⟨by omega, rfl⟩
  have a3 : addArr fl a.countP s.2.countP = .ok _ := addArr_ok.mpr ⟨by omega, rfl⟩
  have a4 : addArr fl a.sumP s.2.sumP = .ok _ := addArr_ok.mpr ⟨by omega, rfl⟩
  have g1 := getItem_lt (l := s.2.countR) (i := sampleBest fl s.2) (by omega)
  have g2 := getItem_lt (l := s.2.sumR) (i := sampleBest fl s.2) (by omega)
  have g3 := getItem_lt (l := s.2.countP) (i := sampleBest fl s.2) (by omega)
  have g4 := getItem_lt (l := s.2.sumP) (i := sampleBest fl s.2) (by omega)
  have g5 := getItem_lt (l := th) (i := sampleBest fl s.2) (by omega)
  simp only [sampleStep, a1, a2, a3, a4, hb1, bind, Except.bind, g1, g2, g3, g4, g5, hg']
  rfl

/-- One of the four arrays: its entries are whole numbers of at most `M`. -/
def WholeArr (M : Nat) (f : Counts → List ℚ) (c : Counts) : Prop := ∀ k, ∃ a : Nat, (f c).getD k 0 = a ∧ a ≤ M

theorem sameLen {n M : Nat} {c : Counts} (h : Spec.Whole n M c) : SameLen n c := ⟨h.lenCR, h.lenSR, h.lenCP, h.lenSP⟩

theorem arrs {n M : Nat} {c : Counts} (h : Spec.Whole n M c) :
    WholeArr M Counts.countR c ∧ WholeArr M Counts.sumR c ∧ WholeArr M Counts.countP c ∧
      WholeArr M Counts.sumP c := by
  refine ⟨fun k => ?_, fun k => ?_, fun k => ?_, fun k => ?_⟩
  · obtain ⟨a, b, h1, h2, h3, h4⟩ := h.r k; exact ⟨a, h1, h3.trans h4⟩
  · obtain ⟨a, b, h1, h2, h3, h4⟩ := h.r k; exact ⟨b, h2, h4⟩
  · obtain ⟨a, b, h1, h2, h3, h4⟩ := h.p k; exact ⟨a, h1, h3.trans h4⟩
  · obtain ⟨a, b, h1, h2, h3, h4⟩ := h.p k; exact ⟨b, h2, h4⟩

theorem sum_whole {α : Type} {M : Nat} (l : List α) (g : α → ℚ) (h : ∀ s ∈ l, ∃ a : Nat, g s = a ∧ a ≤ M) :
    ∃ b : Nat, (l.map g).sum = b ∧ b ≤ l.length * M := by
  induction l with
  | nil => exact ⟨0, by simp, by simp⟩
  | cons x l ih =>
    obtain ⟨b, hb, hb'⟩ := ih fun s hs => h s (by simp [hs])
    obtain ⟨a, ha, ha'⟩ := h x (by simp)
    refine ⟨a + b, by simp [ha, hb], ?_⟩
    simp only [List.length_cons, Nat.add_mul, one_mul]
    omega

/-- Closed form of the accumulators after a list of samples: the sums are exact. -/
def accOf (fl : ℚ → ℚ) (th : List ℚ) (ss : List (String × Counts)) : Acc :=
  ⟨(List.range th.length).map (Spec.pooled Counts.countR ss),
   (List.range th.length).map (Spec.pooled Counts.sumR ss),
   (List.range th.length).map (Spec.pooled Counts.countP ss),
   (List.range th.length).map (Spec.pooled Counts.sumP ss),
   (ss.map fun s => s.2.countR.getD (sampleBest fl s.2) 0).sum,
   (ss.map fun s => s.2.sumR.getD (sampleBest fl s.2) 0).sum,
   (ss.map fun s => s.2.countP.getD (sampleBest fl s.2) 0).sum,
   (ss.map fun s => s.2.sumP.getD (sampleBest fl s.2) 0).sum,
   ss.map (sampleRow fl th)⟩

theorem pooled_snoc (H : RoundsNearest fl) {M n : Nat} (f : Counts → List ℚ) (ss : List (String × Counts))
    (s : String × Counts) (h : (f s.2).length = n) (hw : ∀ x ∈ ss ++ [s], WholeArr M f x.2)
    (hM : (ss.length + 1) * M ≤ 2 ^ 53) :
    List.zipWith (fun x y => fl (x + y)) ((List.range n).map (Spec.pooled f ss)) (f s.2) =
      (List.range n).map (Spec.pooled f (ss ++ [s])) := by
  apply List.ext_getElem
  · simp [h]
  · intro k h1 h2
    simp only [List.length_map, List.length_range] at h2
    have e : Spec.pooled f ss k + (f s.2).getD k 0 = Spec.pooled f (ss ++ [s]) k := by simp [Spec.pooled]
    obtain ⟨b, hb, hb'⟩ := sum_whole (ss ++ [s]) (fun x => (f x.2).getD k 0) fun x hx => hw x hx k
    have hx : fl (Spec.pooled f (ss ++ [s]) k) = Spec.pooled f (ss ++ [s]) k := by
      have : Spec.pooled f (ss ++ [s]) k = b := hb
      rw [this]
      refine H.nat b (hb'.trans ?_)
      simpa using hM
    have hg : (f s.2)[k]'(by omega) = (f s.2).getD k 0 := by simp [h, h2]
    simp only [List.getElem_zipWith, List.getElem_map, List.getElem_range, hg, e, hx]

theorem best_snoc (H : RoundsNearest fl) {M : Nat} (f : Counts → List ℚ) (ss : List (String × Counts))
    (s : String × Counts) (hw : ∀ x ∈ ss ++ [s], WholeArr M f x.2) (hM : (ss.length + 1) * M ≤ 2 ^ 53) :
    fl ((ss.map fun x => (f x.2).getD (sampleBest fl x.2) 0).sum + (f s.2).getD (sampleBest fl s.2) 0) =
      ((ss ++ [s]).map fun x => (f x.2).getD (sampleBest fl x.2) 0).sum := by
  obtain ⟨b, hb, hb'⟩ := sum_whole (ss ++ [s]) (fun x => (f x.2).getD (sampleBest fl x.2) 0) fun x hx => hw x hx _
  have e : (ss.map fun x => (f x.2).getD (sampleBest fl x.2) 0).sum + (f s.2).getD (sampleBest fl s.2) 0 =
      ((ss ++ [s]).map fun x => (f x.2).getD (sampleBest fl x.2) 0).sum := by simp
  rw [e, hb]
  refine H.nat b (hb'.trans ?_)
  simpa using hM

theorem accOf_snoc (H : RoundsNearest fl) {M : Nat} {th : List ℚ} {ss : List (String × Counts)}
    {s : String × Counts} (hw : ∀ x ∈ ss ++ [s], Spec.Whole th.length M x.2) (hn : 0 < th.length)
    (hM : (ss.length + 1) * M ≤ 2 ^ 53) :
    sampleStep fl th (accOf fl th ss) s = .ok (accOf fl th (ss ++ [s])) := by
  have hs := sameLen (hw s (by simp))
  rw [sampleStep_ok (by simp [accOf]) (by simp [accOf]) (by simp [accOf]) (by simp [accOf]) hs hn]
  obtain ⟨e1, e2, e3, e4⟩ := hs
  have w1 : ∀ x ∈ ss ++ [s], WholeArr M Counts.countR x.2 := fun x hx => (arrs (hw x hx)).1
  have w2 : ∀ x ∈ ss ++ [s], WholeArr M Counts.sumR x.2 := fun x hx => (arrs (hw x hx)).2.1
  have w3 : ∀ x ∈ ss ++ [s], WholeArr M Counts.countP x.2 := fun x hx => (arrs (hw x hx)).2.2.1
  have w4 : ∀ x ∈ ss ++ [s], WholeArr M Counts.sumP x.2 := fun x hx => (arrs (hw x hx)).2.2.2
  simp only [accOf, pooled_snoc H Counts.countR ss s e1 w1 hM, pooled_snoc H Counts.sumR ss s e2 w2 hM,
    pooled_snoc H Counts.countP ss s e3 w3 hM, pooled_snoc H Counts.sumP ss s e4 w4 hM,
    best_snoc H Counts.countR ss s w1 hM, best_snoc H Counts.sumR ss s w2 hM,
    best_snoc H Counts.countP ss s w3 hM, best_snoc H Counts.sumP ss s w4 hM, List.map_append, List.map_cons,
    List.map_nil]

theorem accOf_nil (th : List ℚ) : accOf fl th [] = Acc.init th.length := by
  have : ∀ f, (List.range th.length).map (Spec.pooled f []) = List.replicate th.length 0 := by
    intro f
    have e : Spec.pooled f [] = fun _ => 0 := by funext k; simp [Spec.pooled]
    rw [e]; simp
  simp only [accOf, Acc.init, List.map_nil, List.sum_nil, this]

theorem loop_ok (H : RoundsNearest fl) {M : Nat} (th : List ℚ) (ss pre : List (String × Counts))
    (h : ∀ s ∈ pre ++ ss, Spec.Whole th.length M s.2) (hn : 0 < th.length)
    (hM : (pre.length + ss.length) * M ≤ 2 ^ 53) :
    ss.foldlM (sampleStep fl th) (accOf fl th pre) = .ok (accOf fl th (pre ++ ss)) := by
  induction ss generalizing pre with
  | nil => simp [pure, Except.pure]
  | cons s ss ih =>
    have hle : (pre.length + 1) * M ≤ 2 ^ 53 := by
      refine le_trans (Nat.mul_le_mul_right M ?_) hM
      simp
    rw [List.foldlM_cons, accOf_snoc H (M := M) (fun x hx => h x (by
      simp only [List.mem_append, List.mem_cons] at hx ⊢; tauto)) hn hle]
    have := ih (pre ++ [s]) (fun x hx => h x (by
      simp only [List.mem_append, List.mem_cons] at hx ⊢; tauto))
      (by rw [show (pre ++ [s]).length + ss.length = pre.length + (s :: ss).length by simp; omega]; exact hM)
    rw [List.append_assoc, List.singleton_append] at this
    exact this

/-- The (recall, precision, F) table computed from pooled counts. -/
def pooledRPF (fl : ℚ → ℚ) (th : List ℚ) (ss : List (String × Counts)) : List RPF :=
  (List.range th.length).map fun k => computeRPF fl (Spec.pooled Counts.countR ss k)
    (Spec.pooled Counts.sumR ss k) (Spec.pooled Counts.countP ss k) (Spec.pooled Counts.sumP ss k)

theorem accOf_rpf (th : List ℚ) (ss : List (String × Counts)) :
    computeRPFArr fl ⟨(accOf fl th ss).countR, (accOf fl th ss).sumR, (accOf fl th ss).countP,
      (accOf fl th ss).sumP⟩ = pooledRPF fl th ss := by
  rw [computeRPFArr_eq (n := th.length) (by simp [SameLen, accOf])]
  unfold pooledRPF
  apply List.map_congr_left
  intro k hk
  rw [List.mem_range] at hk
  simp [accOf, hk]

/-- The result of a run. -/
theorem calc_ok (H : RoundsNearest fl) (sum : List ℚ → ℚ) {M : Nat} {arg : ThresholdArg} {th : List ℚ}
    {ss : List (String × Counts)} (hth : checkThresholds fl arg = .ok th) (hn : 0 < th.length)
    (hw : ∀ s ∈ ss, Spec.Whole th.length M s.2) (hM : ss.length * M ≤ 2 ^ 53) :
    ∃ b, OdsInv fl th ((pooledRPF fl th ss).map RPF.rcl) ((pooledRPF fl th ss).map RPF.prc) (th.length - 1) b ∧
      calculateFromCounts fl sum arg ss = .ok (ss.map (sampleRow fl th),
        List.zipWith (fun t (x : RPF) => (⟨t, x.rcl, x.prc, x.f1⟩ : ThresholdResult)) th (pooledRPF fl th ss),
        ⟨b.threshold, b.rcl, b.prc, b.f1,
          recall fl (accOf fl th ss).bestCountR (accOf fl th ss).bestSumR,
          precision fl (accOf fl th ss).bestCountP (accOf fl th ss).bestSumP,
          f1 fl (precision fl (accOf fl th ss).bestCountP (accOf fl th ss).bestSumP)
            (recall fl (accOf fl th ss).bestCountR (accOf fl th ss).bestSumR),
          areaPR fl sum ((pooledRPF fl th ss).map RPF.rcl) ((pooledRPF fl th ss).map RPF.prc),
          averagePrecision fl ((pooledRPF fl th ss).map RPF.rcl) ((pooledRPF fl th ss).map RPF.prc)⟩) := by
  obtain ⟨b, h1, h2⟩ := ods_main (fl := fl) th ((pooledRPF fl th ss).map RPF.rcl)
    ((pooledRPF fl th ss).map RPF.prc) (by simp [pooledRPF]) (by simp [pooledRPF]) hn
  refine ⟨b, h2, ?_⟩
  have hl := loop_ok H th ss [] (by simpa using hw) hn (by simpa using hM)
  rw [accOf_nil, List.nil_append] at hl
  unfold calculateFromCounts
  simp only [hth, hl, bind, Except.bind]
  unfold finishMetrics
  simp only [accOf_rpf, h1]
  rfl

end EdgeEval.FloatM
