import Verif.Lemmas.MatchFloatCost
import Verif.Props.CsaFloat
import Verif.Props.MatchQuality

/-!
# Property theorems C57: the pixel correspondence in floating point

`correspondPixelsF fl sq fuel …` is `correspond_pixels` with every operation on `double` rounded by `fl` and square roots
taken by `sq`; `RoundsNearest fl` and `SqrtNearest sq` say that results are nearest binary64 numbers (any rule for ties).
-/

namespace EdgeEval.Props

open EdgeEval Finset

/-- The arguments the floating-point statements are about: two images of the same non-empty shape, at most 131072 rows and
columns; `max_dist` and `outlier_cost` are doubles, `max_dist` is not absurdly small and `outlier_cost` exceeds 1 by more
than a few units in the last place. -/
structure FloatArgs (i0 i1 : Img ℚ) (maxDist oc : ℚ) : Prop where
  rows_eq : i0.rows = i1.rows
  cols_eq : i0.cols = i1.cols
  rows_pos : 0 < i0.rows
  cols_pos : 0 < i0.cols
  rows_le : i0.rows ≤ 2 ^ 17
  cols_le : i0.cols ≤ 2 ^ 17
  dist_f64 : IsF64 maxDist
  oc_f64 : IsF64 oc
  dist_ge : (1 / 2 : ℚ) ^ 400 ≤ maxDist
  oc_ge : 1 + 1 / 2 ^ 49 ≤ oc

section
variable {fl sq : ℚ → ℚ} {i0 i1 : Img ℚ} {maxDist oc : ℚ}

/-- The square of the tolerance, as computed. -/
def limSq (fl sq : ℚ → ℚ) (img : Img ℚ) (maxDist : ℚ) : ℚ :=
  fl (tolF fl sq img.rows img.cols maxDist * tolF fl sq img.rows img.cols maxDist)

/-- The outlier weight, as computed. -/
def owF (fl sq : ℚ → ℚ) (img : Img ℚ) (maxDist oc : ℚ) : Nat := outlierWeightF fl (ocF fl sq img.rows img.cols maxDist oc)

theorem FloatArgs.nonempty (A : FloatArgs i0 i1 maxDist oc) : 0 < i0.rows ∨ 0 < i0.cols := .inl A.rows_pos

theorem FloatArgs.pos (A : FloatArgs i0 i1 maxDist oc) : 0 < maxDist := lt_of_lt_of_le (by positivity) A.dist_ge

theorem FloatArgs.good (A : FloatArgs i0 i1 maxDist oc) (H : RoundsNearest fl) (S : SqrtNearest sq) :
    GoodTol fl sq (tolF fl sq i0.rows i0.cols maxDist) (ocF fl sq i0.rows i0.cols maxDist oc) :=
  goodTol H S A.nonempty A.dist_ge A.oc_ge

theorem FloatArgs.run (A : FloatArgs i0 i1 maxDist oc) (H : RoundsNearest fl) (S : SqrtNearest sq)
    (small : Nat → Nat → Bool) (xs : Nat → ℚ) (pos : Nat) (hx : ∀ i, 0 ≤ xs i ∧ xs i ≤ 1 - 1 / 2 ^ 48) :
    ∃ ys : Nat → ℚ, (∀ i, 0 ≤ ys i ∧ ys i < 1) ∧ ∃ p, ∀ fuel,
    correspondPixelsF fl sq small fuel i0 i1 maxDist oc xs pos =
      .ok ((matchWith (csaSolveF fl fuel) i0.rows i0.cols (fun y x => i0.at_ y x ≠ 0) (fun y x => i1.at_ y x ≠ 0)
        (limSq fl sq i0 maxDist) ((((owF fl sq i0 maxDist oc : Nat) : ℚ) / 100) ^ 2)
          ys p).map fun r =>
        ⟨r.m1, r.m2, matchCostF fl sq i0.rows i0.cols (fun y x => i0.at_ y x ≠ 0) (fun y x => i1.at_ y x ≠ 0)
          (tolF fl sq i0.rows i0.cols maxDist) (ocF fl sq i0.rows i0.cols maxDist oc) r.mt,
          ocF fl sq i0.rows i0.cols maxDist oc⟩) := by
  obtain ⟨ys, hy, p, hm⟩ := matchEdgeMapsF_eq H S A.rows_le A.cols_le (A.good H S) small (fun y x => i0.at_ y x ≠ 0)
    (fun y x => i1.at_ y x ≠ 0) xs pos hx
  refine ⟨ys, hy, p, fun fuel => ?_⟩
  unfold correspondPixelsF corrCheck
  have ho : 1 < oc := lt_of_lt_of_le (by norm_num) A.oc_ge
  rw [if_neg (not_not.mpr ⟨A.rows_eq, A.cols_eq⟩), if_neg (not_le.mpr A.pos), if_neg (not_le.mpr ho),
    if_neg (by have := A.rows_pos; have := A.cols_pos; omega)]
  simp only [H.exact A.dist_f64, H.exact A.oc_f64, hm, limSq, owF]

theorem FloatArgs.lim0 (_A : FloatArgs i0 i1 maxDist oc) (H : RoundsNearest fl) : 0 ≤ limSq fl sq i0 maxDist :=
  H.nonneg (mul_self_nonneg _)

theorem FloatArgs.limlt (A : FloatArgs i0 i1 maxDist oc) (H : RoundsNearest fl) (S : SqrtNearest sq) :
    limSq fl sq i0 maxDist <
      (((owF fl sq i0 maxDist oc : Nat) : ℚ) / 100) ^ 2 := (A.good H S).lim

theorem FloatArgs.tol_pos (A : FloatArgs i0 i1 maxDist oc) : 0 < maxDist * diagonal i0.rows i0.cols := by
  have h1 := diagonal_ge_one A.nonempty
  have h2 : (0 : ℝ) < maxDist := by exact_mod_cast A.pos
  positivity

theorem FloatArgs.lim_upper (A : FloatArgs i0 i1 maxDist oc) (H : RoundsNearest fl) (S : SqrtNearest sq) {d : Nat}
    (h : (d : ℚ) ≤ limSq fl sq i0 maxDist) :
    √(d : ℝ) ≤ maxDist * diagonal i0.rows i0.cols * (1 + 1 / 2 ^ 50) := by
  have hl := (limF_nr (fl := fl) (sq := sq) H S A.nonempty A.dist_ge).2
  have h1 : (d : ℝ) ≤ (limSq fl sq i0 maxDist : ℝ) := by exact_mod_cast h
  have ht := A.tol_pos
  unfold exactTol at hl
  generalize (maxDist : ℝ) * diagonal i0.rows i0.cols = t at *
  apply Real.sqrt_le_iff.mpr
  refine ⟨by positivity, h1.trans (hl.trans ?_)⟩
  rw [mul_pow]
  apply mul_le_mul_of_nonneg_left _ (by positivity)
  norm_num

theorem FloatArgs.lim_lower (A : FloatArgs i0 i1 maxDist oc) (H : RoundsNearest fl) (S : SqrtNearest sq) {d : Nat}
    (h : √(d : ℝ) ≤ maxDist * diagonal i0.rows i0.cols * (1 - 1 / 2 ^ 50)) : (d : ℚ) ≤ limSq fl sq i0 maxDist := by
  have hl := (limF_nr (fl := fl) (sq := sq) H S A.nonempty A.dist_ge).1
  have ht := A.tol_pos
  unfold exactTol at hl
  have h1 : (d : ℝ) ≤ (limSq fl sq i0 maxDist : ℝ) := by
    refine le_trans ?_ hl
    generalize (maxDist : ℝ) * diagonal i0.rows i0.cols = t at *
    have h2 := (Real.sqrt_le_iff.mp h).2
    refine h2.trans ?_
    rw [mul_pow]
    apply mul_le_mul_of_nonneg_left _ (by positivity)
    norm_num
  exact_mod_cast h1

end

/-- C57: every non-zero entry of the first match image sits on an edge pixel of the first map, decodes (column-major,
1-based) to an edge pixel of the second map whose entry decodes back to it, at a distance of at most `max_dist` times the
image diagonal, up to a relative error of `2^-50`; and vice versa. -/
theorem C57_matching (fl sq : ℚ → ℚ) (H : RoundsNearest fl) (S : SqrtNearest sq) (fuel : Nat) (i0 i1 : Img ℚ)
    (maxDist oc : ℚ) (small : Nat → Nat → Bool) (xs : Nat → ℚ) (pos : Nat)
    (hx : ∀ i, 0 ≤ xs i ∧ xs i ≤ 1 - 1 / 2 ^ 48) (A : FloatArgs i0 i1 maxDist oc)
    (r : CorrOutF) (hr : correspondPixelsF fl sq small fuel i0 i1 maxDist oc xs pos = .ok (some r)) :
    (∀ y x, y < i0.rows → x < i0.cols → r.o0 y x ≠ 0 →
      ∃ y' x', y' = (r.o0 y x - 1) % i0.rows ∧ x' = (r.o0 y x - 1) / i0.rows ∧
        y' < i0.rows ∧ x' < i0.cols ∧ i0.at_ y x ≠ 0 ∧ i1.at_ y' x' ≠ 0 ∧
        r.o0 y x = x' * i0.rows + y' + 1 ∧ r.o1 y' x' = x * i0.rows + y + 1 ∧
        euclid x y x' y' ≤ maxDist * diagonal i0.rows i0.cols * (1 + 1 / 2 ^ 50)) ∧
    (∀ y x, y < i0.rows → x < i0.cols → r.o1 y x ≠ 0 →
      ∃ y' x', y' = (r.o1 y x - 1) % i0.rows ∧ x' = (r.o1 y x - 1) / i0.rows ∧
        y' < i0.rows ∧ x' < i0.cols ∧ i1.at_ y x ≠ 0 ∧ i0.at_ y' x' ≠ 0 ∧
        r.o1 y x = x' * i0.rows + y' + 1 ∧ r.o0 y' x' = x * i0.rows + y + 1 ∧
        euclid x y x' y' ≤ maxDist * diagonal i0.rows i0.cols * (1 + 1 / 2 ^ 50)) := by
  obtain ⟨xs, hx, pos, run⟩ := A.run H S small xs pos hx
  rw [run] at hr
  simp only [Except.ok.injEq] at hr
  obtain ⟨m, hm, rfl⟩ := Option.map_eq_some_iff.mp hr
  obtain ⟨hg, e1, e2⟩ := matchWith_good (csaSolveF_valid fl fuel) hx (A.lim0 H) (A.limlt H S) hm
  simp only
  rw [e1, e2]
  constructor
  · intro y x hy hxx hne
    rw [encode_ne_zero (fun q hq => (hg.ok _ q hq).1.2.2)] at hne
    obtain ⟨q, hq⟩ := hne
    have ok := hg.ok _ q hq
    have hq2 := (hg.sym _ _).mp hq
    have c1 := encode_eq (h := i0.rows) (b := fun y x => i0.at_ y x ≠ 0) hq ok.1.2.2
    have c2 := encode_eq (h := i0.rows) (b := fun y x => i1.at_ y x ≠ 0) (m := m.mt.m2) (x := q.1) (y := q.2) hq2 ok.2.1.2.2
    have hdist := A.lim_upper H S ok.2.2
    rw [euclid_eq] at hdist
    refine ⟨q.2, q.1, ?_, ?_, ok.2.1.2.1, ok.2.1.1, ?_, ?_, c1, c2, hdist⟩
    · rw [c1, decode_mod ok.2.1.2.1]
    · rw [c1, decode_div ok.2.1.2.1]
    · simpa using ok.1.2.2
    · simpa using ok.2.1.2.2
  · intro y x hy hxx hne
    rw [encode_ne_zero (fun q hq => (hg.ok q _ ((hg.sym _ _).mpr hq)).2.1.2.2)] at hne
    obtain ⟨q, hq⟩ := hne
    have hq1 := (hg.sym _ _).mpr hq
    have ok := hg.ok _ _ hq1
    have c1 := encode_eq (h := i0.rows) (b := fun y x => i1.at_ y x ≠ 0) hq ok.2.1.2.2
    have c2 := encode_eq (h := i0.rows) (b := fun y x => i0.at_ y x ≠ 0) (m := m.mt.m1) (x := q.1) (y := q.2) hq1 ok.1.2.2
    have hdist := A.lim_upper H S ok.2.2
    rw [pixDist2_comm, euclid_eq] at hdist
    refine ⟨q.2, q.1, ?_, ?_, ok.1.2.1, ok.1.1, ?_, ?_, c1, c2, hdist⟩
    · rw [c1, decode_mod ok.1.2.1]
    · rw [c1, decode_div ok.1.2.1]
    · simpa using ok.2.1.2.2
    · simpa using ok.1.2.2

/-- C57: hence no two pixels of a map are matched to the same pixel of the other. -/
theorem C57_injective (fl sq : ℚ → ℚ) (H : RoundsNearest fl) (S : SqrtNearest sq) (fuel : Nat) (i0 i1 : Img ℚ)
    (maxDist oc : ℚ) (small : Nat → Nat → Bool) (xs : Nat → ℚ) (pos : Nat)
    (hx : ∀ i, 0 ≤ xs i ∧ xs i ≤ 1 - 1 / 2 ^ 48) (A : FloatArgs i0 i1 maxDist oc)
    (r : CorrOutF) (hr : correspondPixelsF fl sq small fuel i0 i1 maxDist oc xs pos = .ok (some r))
    (y x y2 x2 : Nat) (hy : y < i0.rows) (hxx : x < i0.cols) (hy2 : y2 < i0.rows) (hx2 : x2 < i0.cols)
    (hne : r.o0 y x ≠ 0) (he : r.o0 y x = r.o0 y2 x2) : y = y2 ∧ x = x2 := by
  obtain ⟨h1, _⟩ := C57_matching fl sq H S fuel i0 i1 maxDist oc small xs pos hx A r hr
  obtain ⟨a, b, ha, hb, h3, _, _, _, _, h4, _⟩ := h1 y x hy hxx hne
  obtain ⟨a', b', ha', hb', _, _, _, _, _, h5, _⟩ := h1 y2 x2 hy2 hx2 (he ▸ hne)
  have e1 : a = a' := by rw [ha, ha', he]
  have e2 : b = b' := by rw [hb, hb', he]
  subst e1 e2
  rw [h4] at h5
  constructor
  · rw [← decode_mod (a := x) hy, h5, decode_mod hy2]
  · rw [← decode_div (a := x) hy, h5, decode_div hy2]

/-- C57: the weight handed to the solver for a pair of pixels of an image of this size is the true distance in hundredths of
a pixel, correctly rounded: the two roundings in `rint(sqrt(d2) * 100)` never push it to a neighbouring integer. -/
theorem C57_weight (fl sq : ℚ → ℚ) (H : RoundsNearest fl) (S : SqrtNearest sq) (d2 : Nat) (hd : d2 ≤ 2 ^ 35) :
    |(weightF fl sq d2 : ℝ) - 100 * √(d2 : ℝ)| < 1 / 2 := by
  rw [weightF_eq H S hd, mul_comm]
  have := C11_rint d2
  push_cast
  exact this

theorem nodes1_le (i0 i1 : Img ℚ) (md2 : ℚ) : (nodes1 i0.rows i0.cols md2
      (fun y x => i0.at_ y x ≠ 0) (fun y x => i1.at_ y x ≠ 0)).length ≤ (edgePixels i0).card := by
  rw [card_edgePixels]
  refine (List.subperm_of_subset (nodup_nodes1 ..) ?_).length_le
  intro p hp
  have := mem_nodes1.mp hp
  rw [List.mem_filter, mem_pixels]
  exact ⟨⟨this.1, this.2.1⟩, this.2.2.1⟩

theorem nodes2_le (i0 i1 : Img ℚ) (hs1 : i0.rows = i1.rows) (hs2 : i0.cols = i1.cols) (md2 : ℚ) :
    (nodes2 i0.rows i0.cols md2 (fun y x => i0.at_ y x ≠ 0) (fun y x => i1.at_ y x ≠ 0)).length ≤ (edgePixels i1).card := by
  rw [card_edgePixels]
  refine (List.subperm_of_subset (nodup_nodes2 ..) ?_).length_le
  intro p hp
  have := mem_nodes2.mp hp
  rw [List.mem_filter, mem_pixels, ← hs1, ← hs2]
  exact ⟨⟨this.1, this.2.1⟩, this.2.2.1⟩

theorem csaMaxCost_le {g : List InArc} {C : Nat} (h : ∀ a ∈ g, a.cost.natAbs ≤ C) : csaMaxCost g ≤ C := by
  have key : ∀ (l : List InArc) (m : Nat), m ≤ C → (∀ a ∈ l, a.cost.natAbs ≤ C) →
      l.foldl (fun m a => max m a.cost.natAbs) m ≤ C := by
    intro l
    induction l with
    | nil => intro m hm _; simpa using hm
    | cons b l ih =>
      intro m hm hl
      rw [List.foldl_cons]
      exact ih _ (max_le hm (hl b (by simp))) fun a ha => hl a (by simp [ha])
  exact key g 0 (Nat.zero_le _) h

theorem csaSolveF_mono {fl : ℚ → ℚ} {N f f' : Nat} {g out : List InArc} (hg : WellFormedGraph N g) (hff : f ≤ f')
    (h : csaSolveF fl f (2 * N) g = some out) : csaSolveF fl f' (2 * N) g = some out := by
  rw [csaSolveF_unfold hg] at h ⊢
  obtain ⟨s, hs, ho⟩ := Option.bind_eq_some_iff.mp h
  rw [csaRunF_unfold hg] at hs ⊢
  rw [mainLoopF_mono _ _ _ _ _ f f' hff _ _ hff _ _ _ hs]
  exact ho

section
variable {fl sq : ℚ → ℚ} {i0 i1 : Img ℚ} {maxDist oc : ℚ}

theorem rint100_le_ow {d ow : Nat} (h : (d : ℚ) < ((ow : ℚ) / 100) ^ 2) : rint100 d ≤ ow := by
  have h1 : (d : ℝ) < ((ow : ℝ) / 100) ^ 2 := by
    have : ((d : ℚ) : ℝ) < ((((ow : ℚ) / 100) ^ 2 : ℚ) : ℝ) := by exact_mod_cast h
    push_cast at this
    exact this
  have h2 : √(d : ℝ) < (ow : ℝ) / 100 := by
    have h0 : (0 : ℝ) ≤ (ow : ℝ) / 100 := by positivity
    exact (Real.sqrt_lt' (lt_of_le_of_ne h0 (fun hc => by
      rw [← hc] at h1
      have : (0 : ℝ) ≤ d := by positivity
      norm_num at h1
      linarith))).mpr h1
  have h3 := (abs_lt.mp (C11_rint d)).2
  have h4 : (rint100 d : ℝ) < (ow : ℝ) + 1 := by linarith
  have h5 : rint100 d < ow + 1 := by exact_mod_cast h4
  omega

theorem FloatArgs.ow_le (A : FloatArgs i0 i1 maxDist oc) (H : RoundsNearest fl) (S : SqrtNearest sq) {C : Nat}
    (hC : 10001 * (oc * maxDist * diagonal i0.rows i0.cols) + 100 ≤ (C : ℝ)) : 100 * owF fl sq i0 maxDist oc ≤ C := by
  have ho1 : 1 ≤ oc := le_trans (by norm_num) A.oc_ge
  have h1 := (ocF_nr (fl := fl) (sq := sq) H S A.nonempty A.dist_ge ho1).2
  have ht := A.tol_pos
  have ho : (1 : ℝ) ≤ oc := by exact_mod_cast ho1
  have e : (oc : ℝ) * maxDist * diagonal i0.rows i0.cols = oc * exactTol i0.rows i0.cols maxDist := by
    unfold exactTol; ring
  rw [e] at hC
  have htot : 0 < (oc : ℝ) * exactTol i0.rows i0.cols maxDist := mul_pos (by linarith) ht
  generalize (oc : ℝ) * exactTol i0.rows i0.cols maxDist = z at *
  have h2 : (owF fl sq i0 maxDist oc : ℝ) ≤ z * 100 * (1 + 1 / 2 ^ 53) ^ 4 + 1 := by
    unfold owF outlierWeightF
    generalize hv : fl (ocF fl sq i0.rows i0.cols maxDist oc * (multiplier : Nat)) = v at h1
    have h3 : (⌈v⌉.toNat : ℝ) < v + 1 := by
      have hv0 : (0 : ℝ) < v := h1.pos (by positivity)
      have hv0' : 0 < v := by exact_mod_cast hv0
      have h4 : (0 : ℤ) ≤ ⌈v⌉ := Int.ceil_nonneg hv0'.le
      have h5 : ((⌈v⌉.toNat : ℤ) : ℚ) < v + 1 := by
        rw [Int.toNat_of_nonneg h4]
        exact Int.ceil_lt_add_one v
      have h6 : (((⌈v⌉.toNat : ℤ) : ℚ) : ℝ) < ((v + 1 : ℚ) : ℝ) := by exact_mod_cast h5
      push_cast at h6
      exact h6
    have h7 := h1.2
    linarith
  have h3 : (100 * owF fl sq i0 maxDist oc : ℝ) ≤ C := by
    refine le_trans ?_ hC
    have h4 : z * 100 * (1 + 1 / 2 ^ 53) ^ 4 ≤ z * 100 * (10001 / 10000) := by
      apply mul_le_mul_of_nonneg_left _ (by positivity)
      norm_num
    linarith
  exact_mod_cast h3

/-- The graph handed to the solver, in floating point. -/
theorem FloatArgs.solve (A : FloatArgs i0 i1 maxDist oc) (H : RoundsNearest fl) (S : SqrtNearest sq) {xs : Nat → ℚ}
    {pos : Nat} (hx : ∀ i, 0 ≤ xs i ∧ xs i < 1) {C E : Nat}
    (hC : 10001 * (oc * maxDist * diagonal i0.rows i0.cols) + 100 ≤ (C : ℝ))
    (hE : (edgePixels i0).card + (edgePixels i1).card ≤ E) (hsz : E * (600 * (E * C) + 5000) ≤ 2 ^ 53) :
    let n := (nodes1 i0.rows i0.cols (limSq fl sq i0 maxDist) (fun y x => i0.at_ y x ≠ 0) (fun y x => i1.at_ y x ≠ 0)).length +
      (nodes2 i0.rows i0.cols (limSq fl sq i0 maxDist) (fun y x => i0.at_ y x ≠ 0) (fun y x => i1.at_ y x ≠ 0)).length
    let g := (matchGraph i0.rows i0.cols (fun y x => i0.at_ y x ≠ 0) (fun y x => i1.at_ y x ≠ 0) (limSq fl sq i0 maxDist)
      ((((owF fl sq i0 maxDist oc : Nat) : ℚ) / 100) ^ 2) xs pos).map (toArc n)
    0 < n → ∃ F out, (∀ fuel, F ≤ fuel → csaSolveF fl fuel (2 * n) g = some out) ∧
      (∀ M, IsPerfectMatching n g M → totalCost out ≤ totalCost M + 2) ∧
      (2100 * E ^ 2 * (E * C + 9) ≤ 2 ^ 53 → ∀ M, IsPerfectMatching n g M → totalCost out ≤ totalCost M) ∧
      WellFormedGraph n g := by
  intro n g hn
  have l0 := A.lim0 (sq := sq) H
  have ll := A.limlt H S
  obtain ⟨_, hwf, _, _, ⟨M, hM⟩, hnz⟩ := C13_graph i0.rows i0.cols (fun y x => i0.at_ y x ≠ 0) (fun y x => i1.at_ y x ≠ 0)
    (limSq fl sq i0 maxDist) ((((owF fl sq i0 maxDist oc : Nat) : ℚ) / 100) ^ 2) xs pos hx l0 ll
  have hmax : csaMaxCost g ≤ C := by
    refine (csaMaxCost_le ?_).trans (A.ow_le H S hC)
    intro a ha
    obtain ⟨e, he, rfl⟩ := List.mem_map.mp ha
    have hk := graph_kind hx he
    rw [outlierWeight_hundredth] at hk
    generalize owF fl sq i0 maxDist oc = ow at *
    simp only [toArc]
    cases hk with
    | real me hme he =>
      have := rint100_le_ow (lt_of_le_of_lt (mem_realEdges.mp hme).2.2.2 ll)
      rw [he]; simp only [Int.natAbs_natCast]; omega
    | out1 i j hi hj hne he => rw [he]; simp only [Int.natAbs_natCast]; omega
    | out2 i j hi hj hne he => rw [he]; simp only [Int.natAbs_natCast]; omega
    | oo i j hi hj he => rw [he]; simp only [Int.natAbs_natCast]; omega
    | ov1 i hi he => rw [he]; simp only [Int.natAbs_natCast, multiplier]; omega
    | ov2 i hi he => rw [he]; simp only [Int.natAbs_natCast, multiplier]; omega
  have hnE : n ≤ E := by
    have h1 := nodes1_le i0 i1 (limSq fl sq i0 maxDist)
    have h2 := nodes2_le i0 i1 A.rows_eq A.cols_eq (limSq fl sq i0 maxDist)
    omega
  have hs1 : n * (600 * (n * csaMaxCost g) + 5000) ≤ E * (600 * (E * C) + 5000) := by gcongr
  obtain ⟨F, s, out, _, h2, _, _, h4⟩ := C56_stops fl H n g M hwf hn hM (hnz hn) (hs1.trans hsz)
  refine ⟨F, out, h2, h4, fun hex M' hM' => ?_, hwf⟩
  have hs2 : 2100 * n ^ 2 * (n * csaMaxCost g + 9) ≤ 2100 * E ^ 2 * (E * C + 9) := by gcongr
  obtain ⟨F', out', h2', _, h4'⟩ := C56_exact_moderate fl H n g M hwf hn hM (hnz hn) (hs2.trans hex)
  have := h2 (max F F') (le_max_left _ _)
  rw [h2' (max F F') (le_max_right _ _)] at this
  cases this
  exact h4' M' hM'

end

/-- C57: on accepted arguments and images of moderate size the call returns (no assertion fires, the solver stops), for
every random stream: `E` bounds the number of edge pixels of both images together, `C` the outlier cost in hundredths of
hundredths of a pixel. -/
theorem C57_total (fl sq : ℚ → ℚ) (H : RoundsNearest fl) (S : SqrtNearest sq) (i0 i1 : Img ℚ)
    (maxDist oc : ℚ) (small : Nat → Nat → Bool) (xs : Nat → ℚ) (pos : Nat)
    (hx : ∀ i, 0 ≤ xs i ∧ xs i ≤ 1 - 1 / 2 ^ 48) (A : FloatArgs i0 i1 maxDist oc) (C E : Nat)
    (hC : 10001 * (oc * maxDist * diagonal i0.rows i0.cols) + 100 ≤ (C : ℝ))
    (hE : (edgePixels i0).card + (edgePixels i1).card ≤ E) (hsz : E * (600 * (E * C) + 5000) ≤ 2 ^ 53) :
    ∃ F r, ∀ fuel, F ≤ fuel → correspondPixelsF fl sq small fuel i0 i1 maxDist oc xs pos = .ok (some r) := by
  have l0 := A.lim0 (sq := sq) H
  have ll := A.limlt H S
  obtain ⟨xs, hx, pos, run⟩ := A.run H S small xs pos hx
  have heq := fun fuel => matchWith_eq (h := i0.rows) (w := i0.cols) (b1 := fun y x => i0.at_ y x ≠ 0)
    (b2 := fun y x => i1.at_ y x ≠ 0) (pos := pos) (csaSolveF_valid fl fuel) hx l0 ll
  simp only at heq
  simp only [run, heq]
  split
  · exact ⟨0, _, fun fuel _ => rfl⟩
  · rename_i hn
    obtain ⟨F, out, h1, _⟩ := A.solve H S (pos := pos) hx hC hE hsz (by omega)
    exact ⟨F, _, fun fuel hf => by rw [h1 fuel hf]; rfl⟩

section
variable {fl sq : ℚ → ℚ} {i0 i1 : Img ℚ} {maxDist oc : ℚ}

/-- The optimality of whatever the solver returned, at any fuel. -/
theorem FloatArgs.opt (A : FloatArgs i0 i1 maxDist oc) (H : RoundsNearest fl) (S : SqrtNearest sq) {xs : Nat → ℚ}
    {pos : Nat} (hx : ∀ i, 0 ≤ xs i ∧ xs i < 1) {C E : Nat}
    (hC : 10001 * (oc * maxDist * diagonal i0.rows i0.cols) + 100 ≤ (C : ℝ))
    (hE : (edgePixels i0).card + (edgePixels i1).card ≤ E) (hsz : E * (600 * (E * C) + 5000) ≤ 2 ^ 53) (fuel : Nat) :
    let n := (nodes1 i0.rows i0.cols (limSq fl sq i0 maxDist) (fun y x => i0.at_ y x ≠ 0) (fun y x => i1.at_ y x ≠ 0)).length +
      (nodes2 i0.rows i0.cols (limSq fl sq i0 maxDist) (fun y x => i0.at_ y x ≠ 0) (fun y x => i1.at_ y x ≠ 0)).length
    let g := (matchGraph i0.rows i0.cols (fun y x => i0.at_ y x ≠ 0) (fun y x => i1.at_ y x ≠ 0) (limSq fl sq i0 maxDist)
      ((((owF fl sq i0 maxDist oc : Nat) : ℚ) / 100) ^ 2) xs pos).map (toArc n)
    ∀ out M, csaSolveF fl fuel (2 * n) g = some out → IsPerfectMatching n g M →
      totalCost out ≤ totalCost M + (2 : Nat) ∧ (2100 * E ^ 2 * (E * C + 9) ≤ 2 ^ 53 → totalCost out ≤ totalCost M + (0 : Nat)) := by
  intro n g out M hout hM
  by_cases hn : n = 0
  · have h1 := hM.2.1.length_eq
    have hg := graph_range (b1 := fun y x => decide (i0.at_ y x ≠ 0)) (b2 := fun y x => decide (i1.at_ y x ≠ 0)) (h := i0.rows) (w := i0.cols) (md2 := limSq fl sq i0 maxDist)
      (oc2 := ((((owF fl sq i0 maxDist oc : Nat) : ℚ) / 100) ^ 2)) (pos := pos) hx
    have h2 := (csaSolveF_valid fl fuel n g out
      (wellFormed_graph fun e he => ⟨(hg e he).1, (hg e he).2.1⟩) hout).2.1.length_eq
    rw [hn] at h1 h2
    have e1 : out = [] := by simpa using h2
    have e2 : M = [] := by simpa using h1
    rw [e1, e2]
    simp
  · obtain ⟨F, out', h1, h2, h3, hwf⟩ := A.solve H S (pos := pos) hx hC hE hsz (by omega)
    have := csaSolveF_mono hwf (le_max_left fuel F) hout
    rw [h1 _ (le_max_right fuel F)] at this
    cases this
    exact ⟨h2 M hM, fun hex => by simpa using h3 hex M hM⟩

theorem FloatArgs.ow_ge (A : FloatArgs i0 i1 maxDist oc) (H : RoundsNearest fl) (S : SqrtNearest sq) :
    oc * (maxDist * diagonal i0.rows i0.cols) * 100 * (1 - 1 / 2 ^ 50) ≤ (owF fl sq i0 maxDist oc : ℝ) := by
  have ho1 : 1 ≤ oc := le_trans (by norm_num) A.oc_ge
  have h1 := (ocF_nr (fl := fl) (sq := sq) H S A.nonempty A.dist_ge ho1).2.1
  have ht := A.tol_pos
  have ho : (1 : ℝ) ≤ oc := by exact_mod_cast ho1
  have h2 : (fl (ocF fl sq i0.rows i0.cols maxDist oc * (multiplier : Nat)) : ℝ) ≤ (owF fl sq i0 maxDist oc : ℝ) := by
    have h2 : fl (ocF fl sq i0.rows i0.cols maxDist oc * (multiplier : Nat)) ≤ (owF fl sq i0 maxDist oc : ℚ) := by
      unfold owF outlierWeightF
      refine (Int.le_ceil _).trans ?_
      have := Int.self_le_toNat ⌈fl (ocF fl sq i0.rows i0.cols maxDist oc * (multiplier : Nat))⌉
      exact_mod_cast this
    exact_mod_cast h2
  refine le_trans (le_trans ?_ h1) h2
  unfold exactTol
  apply mul_le_mul_of_nonneg_left _ (by positivity)
  norm_num

end

/-- C57: when one of the maps has at most six edge pixels, the outlier cost is at least seven times the tolerance (the
default is one hundred times) and the tolerance is at least one pixel, no one-to-one correspondence between edge pixels that
are closer than the tolerance (by a relative `2^-50`) pairs more pixels than the result does; the other map may have
any number of edge pixels up to the size limit. -/
theorem C57_maximum_small (fl sq : ℚ → ℚ) (H : RoundsNearest fl) (S : SqrtNearest sq) (fuel : Nat) (i0 i1 : Img ℚ)
    (maxDist oc : ℚ) (small : Nat → Nat → Bool) (xs : Nat → ℚ) (pos : Nat)
    (hx : ∀ i, 0 ≤ xs i ∧ xs i ≤ 1 - 1 / 2 ^ 48) (A : FloatArgs i0 i1 maxDist oc) (C E : Nat)
    (hC : 10001 * (oc * maxDist * diagonal i0.rows i0.cols) + 100 ≤ (C : ℝ))
    (hE : (edgePixels i0).card + (edgePixels i1).card ≤ E) (hsz : E * (600 * (E * C) + 5000) ≤ 2 ^ 53)
    (hsix : (edgePixels i0).card ≤ 6 ∨ (edgePixels i1).card ≤ 6) (hseven : 7 ≤ oc)
    (htol : 1 ≤ maxDist * diagonal i0.rows i0.cols)
    (r : CorrOutF) (hr : correspondPixelsF fl sq small fuel i0 i1 maxDist oc xs pos = .ok (some r))
    (M : Finset ((Nat × Nat) × (Nat × Nat)))
    (hM : ∀ e ∈ M, e.1 ∈ edgePixels i0 ∧ e.2 ∈ edgePixels i1 ∧
      euclid e.1.2 e.1.1 e.2.2 e.2.1 ≤ maxDist * diagonal i0.rows i0.cols * (1 - 1 / 2 ^ 50))
    (hM1 : ∀ e ∈ M, ∀ f ∈ M, e.1 = f.1 → e = f) (hM2 : ∀ e ∈ M, ∀ f ∈ M, e.2 = f.2 → e = f) :
    M.card ≤ ((edgePixels i0).filter fun p => r.o0 p.1 p.2 ≠ 0).card := by
  obtain ⟨xs, hx, pos, run⟩ := A.run H S small xs pos hx
  rw [run] at hr
  simp only [Except.ok.injEq] at hr
  obtain ⟨m, hm, rfl⟩ := Option.map_eq_some_iff.mp hr
  have l0 := A.lim0 (sq := sq) H
  have ll := A.limlt H S
  obtain ⟨hg, e1, e2⟩ := matchWith_good (csaSolveF_valid fl fuel) hx l0 ll hm
  have hopt := A.opt H S (pos := pos) hx hC hE hsz fuel
  refine maximum_core (csaSolveF_valid fl fuel) hx l0 ll i0 i1 A.rows_eq A.cols_eq 2
    (fun out M hout hM => (hopt out M hout hM).1) hm hg e1 hsix ?_ M ?_ hM1 hM2
  · intro d hd
    rw [outlierWeight_hundredth]
    have h1 := (abs_lt.mp (C11_rint d)).2
    have h2 := A.lim_upper H S hd
    have h3 := A.ow_ge H S (oc := oc)
    have h7 : (7 : ℝ) ≤ oc := by exact_mod_cast hseven
    generalize (maxDist : ℝ) * diagonal i0.rows i0.cols = t at *
    have h4 : 7 * t * 100 * (1 - 1 / 2 ^ 50) ≤ (owF fl sq i0 maxDist oc : ℝ) := by
      refine le_trans ?_ h3
      apply mul_le_mul_of_nonneg_right _ (by norm_num)
      apply mul_le_mul_of_nonneg_right _ (by norm_num)
      apply mul_le_mul_of_nonneg_right h7 (by linarith)
    have h5 : (6 * ((rint100 d : ℝ) + 2)) < (owF fl sq i0 maxDist oc : ℝ) := by
      norm_num at h2 h4
      linarith
    exact_mod_cast h5
  · intro e he
    obtain ⟨a, b, c⟩ := hM e he
    refine ⟨a, b, ?_⟩
    have h1 := A.lim_lower (fl := fl) (sq := sq) H S (d := pixDist2 (e.1.2, e.1.1) (e.2.2, e.2.1)) (by
      rw [euclid_eq]; exact c)
    rw [pixDist2_rat] at h1
    exact h1

/-- C57: an edge map with at most six edge pixels compared with itself matches every edge pixel to itself, at cost 0. -/
theorem C57_self_match_small (fl sq : ℚ → ℚ) (H : RoundsNearest fl) (S : SqrtNearest sq) (fuel : Nat) (img : Img ℚ)
    (maxDist oc : ℚ) (small : Nat → Nat → Bool) (xs : Nat → ℚ) (pos : Nat)
    (hx : ∀ i, 0 ≤ xs i ∧ xs i ≤ 1 - 1 / 2 ^ 48) (A : FloatArgs img img maxDist oc)
    (hC : oc * maxDist * diagonal img.rows img.cols ≤ 10 ^ 5) (hsix : (edgePixels img).card ≤ 6)
    (r : CorrOutF) (hr : correspondPixelsF fl sq small fuel img img maxDist oc xs pos = .ok (some r)) :
    (∀ y x, y < img.rows → x < img.cols → img.at_ y x ≠ 0 →
      r.o0 y x = x * img.rows + y + 1 ∧ r.o1 y x = x * img.rows + y + 1) ∧ r.cost = 0 := by
  obtain ⟨xs, hx, pos, run⟩ := A.run H S small xs pos hx
  rw [run] at hr
  simp only [Except.ok.injEq] at hr
  obtain ⟨m, hm, rfl⟩ := Option.map_eq_some_iff.mp hr
  have l0 := A.lim0 (sq := sq) H
  have ll := A.limlt H S
  obtain ⟨hg, e1, e2⟩ := matchWith_good (csaSolveF_valid fl fuel) hx l0 ll hm
  have hopt := A.opt H S (pos := pos) hx (C := 1000100100) (E := 12) (by push_cast; linarith) (by omega) (by norm_num) fuel
  have key : ∀ p : Pix, p.1 < img.cols → p.2 < img.rows → img.at_ p.2 p.1 ≠ 0 → m.mt.m1 p = some p :=
    fun p hpx hpy hpe => self_core (csaSolveF_valid fl fuel) hx l0 ll img 0 (by norm_num) (outlierWeight_pos l0 ll)
      (fun out M hout hM => (hopt out M hout hM).2 (by norm_num)) hm hsix p hpx hpy hpe
  have key2 : ∀ p : Pix, p.1 < img.cols → p.2 < img.rows → img.at_ p.2 p.1 ≠ 0 → m.mt.m2 p = some p :=
    fun p a b c => (hg.sym p p).mp (key p a b c)
  simp only
  constructor
  · intro y x hy hxx he
    rw [e1, e2]
    have hb : (decide (img.at_ y x ≠ 0)) = true := by simpa using he
    exact ⟨encode_eq (key (x, y) hxx hy he) hb, encode_eq (key2 (x, y) hxx hy he) hb⟩
  · unfold matchCostF
    split
    · rfl
    · have step : ∀ (mm : Option Pix) (p : Pix), (img.at_ p.2 p.1 ≠ 0 → mm = some p) →
          costStep fl sq (ocF fl sq img.rows img.cols maxDist oc) (decide (img.at_ p.2 p.1 ≠ 0)) p mm 0 = 0 := by
        intro mm p h
        unfold costStep
        split
        · rename_i hb
          rw [h (by simpa using hb)]
          simp only [pixDist2_self, Nat.cast_zero, S.zero, mul_zero, H.zero, add_zero]
        · rfl
      have : ∀ l : List Pix, (∀ p ∈ l, p.1 < img.cols ∧ p.2 < img.rows) →
          l.foldl (fun cost p => costStep fl sq (ocF fl sq img.rows img.cols maxDist oc) (decide (img.at_ p.2 p.1 ≠ 0)) p
            (m.mt.m2 p) (costStep fl sq (ocF fl sq img.rows img.cols maxDist oc) (decide (img.at_ p.2 p.1 ≠ 0)) p
              (m.mt.m1 p) cost)) 0 = 0 := by
        intro l
        induction l with
        | nil => intro _; rfl
        | cons p l ih =>
          intro hl
          have hp := hl p (by simp)
          rw [List.foldl_cons, step _ _ (key p hp.1 hp.2), step _ _ (key2 p hp.1 hp.2)]
          exact ih fun q hq => hl q (by simp [hq])
      exact this _ fun p hp => mem_pixels.mp hp

/-- C57: the returned cost. When some pair of edge pixels is closer than the tolerance (by a relative `2^-50`), the cost is,
up to one rounding per edge pixel and two more, the returned outlier cost for every unmatched edge pixel of either map plus
the Euclidean distance of each matched pair; and the returned outlier cost is `outlier_cost * max_dist * diagonal` up to
three roundings. -/
theorem C57_cost (fl sq : ℚ → ℚ) (H : RoundsNearest fl) (S : SqrtNearest sq) (fuel : Nat) (i0 i1 : Img ℚ)
    (maxDist oc : ℚ) (small : Nat → Nat → Bool) (xs : Nat → ℚ) (pos : Nat)
    (hx : ∀ i, 0 ≤ xs i ∧ xs i ≤ 1 - 1 / 2 ^ 48) (A : FloatArgs i0 i1 maxDist oc)
    (r : CorrOutF) (hr : correspondPixelsF fl sq small fuel i0 i1 maxDist oc xs pos = .ok (some r))
    (hsome : ∃ p ∈ edgePixels i0, ∃ q ∈ edgePixels i1,
      euclid p.2 p.1 q.2 q.1 ≤ maxDist * diagonal i0.rows i0.cols * (1 - 1 / 2 ^ 50)) :
    let exactOc : ℝ := oc * maxDist * diagonal i0.rows i0.cols
    let exact : ℝ := r.oc * ((edgePixels i0).filter fun p => r.o0 p.1 p.2 = 0).card +
      r.oc * ((edgePixels i1).filter fun p => r.o1 p.1 p.2 = 0).card +
      ∑ p ∈ (edgePixels i0).filter (fun p => r.o0 p.1 p.2 ≠ 0),
        euclid p.2 p.1 ((r.o0 p.1 p.2 - 1) / i0.rows) ((r.o0 p.1 p.2 - 1) % i0.rows)
    let n := (edgePixels i0).card + (edgePixels i1).card + 2
    (exactOc * (1 - 1 / 2 ^ 53) ^ 3 ≤ r.oc ∧ r.oc ≤ exactOc * (1 + 1 / 2 ^ 53) ^ 3) ∧
    exact * (1 - 1 / 2 ^ 53) ^ n ≤ r.cost ∧ r.cost ≤ exact * (1 + 1 / 2 ^ 53) ^ n := by
  obtain ⟨xs, hx, pos, run⟩ := A.run H S small xs pos hx
  rw [run] at hr
  simp only [Except.ok.injEq] at hr
  obtain ⟨m, hm, rfl⟩ := Option.map_eq_some_iff.mp hr
  have l0 := A.lim0 (sq := sq) H
  have ll := A.limlt H S
  obtain ⟨hg, e1, e2⟩ := matchWith_good (csaSolveF_valid fl fuel) hx l0 ll hm
  have ho1 : 1 ≤ oc := le_trans (by norm_num) A.oc_ge
  have T := A.good H S
  have htolF := (tolF_nr (fl := fl) (sq := sq) H S A.nonempty A.dist_ge).2
  simp only
  refine ⟨?_, ?_⟩
  · have := (ocF_nr (fl := fl) (sq := sq) H S A.nonempty A.dist_ge ho1).1
    have e : (oc : ℝ) * maxDist * diagonal i0.rows i0.cols = oc * exactTol i0.rows i0.cols maxDist := by
      unfold exactTol; ring
    rw [e]
    exact this
  · rw [← cost_formula A.rows_eq A.cols_eq hg e1 e2]
    unfold matchCostF
    rw [nodes1F_eq H A.rows_le A.cols_le T.nonneg, nodes2F_eq H A.rows_le A.cols_le T.nonneg,
      realEdgesF_eq H A.rows_le A.cols_le T.nonneg, if_neg]
    · have := costFold_nr H S (oc := ocF fl sq i0.rows i0.cols maxDist oc) (htolF.trans T.lt.le)
        (fun y x => decide (i0.at_ y x ≠ 0)) (fun y x => decide (i1.at_ y x ≠ 0)) m.mt (pixels i0.rows i0.cols)
        (cost := 0) (s := 0) (k := 0) (le_refl _) (by simp [Nr]) (.inl rfl)
      have c1 := card_edgePixels i1
      rw [← A.rows_eq, ← A.cols_eq] at c1
      rw [zero_add, zero_add, ← card_edgePixels i0, ← c1] at this
      exact this
    · rw [announced_zero_iff]
      obtain ⟨p, hp, q, hq, hd⟩ := hsome
      simp only [edgePixels, mem_filter, mem_product, mem_range] at hp hq
      rw [← A.rows_eq, ← A.cols_eq] at hq
      have : (p.2, p.1) ∈ nodes1 i0.rows i0.cols (limSq fl sq i0 maxDist) (fun y x => i0.at_ y x ≠ 0)
          (fun y x => i1.at_ y x ≠ 0) := by
        rw [mem_nodes1]
        refine ⟨hp.1.2, hp.1.1, by simpa using hp.2, (q.2, q.1), hq.1.2, hq.1.1, by simpa using hq.2, ?_⟩
        exact A.lim_lower H S (by rw [euclid_eq]; exact hd)
      have := List.length_pos_of_mem this
      unfold limSq at this
      omega

/-- C57 (finding): when every pair of edge pixels is farther apart than the tolerance (by a relative `2^-50`) the call
returns cost 0 and no match, although every edge pixel is unmatched. -/
theorem C57_nothing_matchable (fl sq : ℚ → ℚ) (H : RoundsNearest fl) (S : SqrtNearest sq) (fuel : Nat) (i0 i1 : Img ℚ)
    (maxDist oc : ℚ) (small : Nat → Nat → Bool) (xs : Nat → ℚ) (pos : Nat)
    (hx : ∀ i, 0 ≤ xs i ∧ xs i ≤ 1 - 1 / 2 ^ 48) (A : FloatArgs i0 i1 maxDist oc)
    (hnone : ∀ p ∈ edgePixels i0, ∀ q ∈ edgePixels i1,
      maxDist * diagonal i0.rows i0.cols * (1 + 1 / 2 ^ 50) < euclid p.2 p.1 q.2 q.1) :
    correspondPixelsF fl sq small fuel i0 i1 maxDist oc xs pos =
      .ok (some ⟨fun _ _ => 0, fun _ _ => 0, 0, ocF fl sq i0.rows i0.cols maxDist oc⟩) := by
  have l0 := A.lim0 (sq := sq) H
  have ll := A.limlt H S
  have T := A.good H S
  have key : ∀ p q : Pix, (p.1 < i0.cols ∧ p.2 < i0.rows ∧ i0.at_ p.2 p.1 ≠ 0) →
      (q.1 < i0.cols ∧ q.2 < i0.rows ∧ i1.at_ q.2 q.1 ≠ 0) → ¬ ((pixDist2 p q : ℚ) ≤ limSq fl sq i0 maxDist) := by
    intro p q hp hq hle
    have h1 := A.lim_upper H S hle
    rw [euclid_eq] at h1
    have h2 := hnone (p.2, p.1) (by simp [edgePixels, hp]) (q.2, q.1) (by
      simp [edgePixels, ← A.rows_eq, ← A.cols_eq, hq])
    exact absurd h1 (not_le.mpr h2)
  have hz : (nodes1 i0.rows i0.cols (limSq fl sq i0 maxDist) (fun y x => i0.at_ y x ≠ 0) (fun y x => i1.at_ y x ≠ 0)).length +
      (nodes2 i0.rows i0.cols (limSq fl sq i0 maxDist) (fun y x => i0.at_ y x ≠ 0) (fun y x => i1.at_ y x ≠ 0)).length = 0 := by
    by_contra hne
    by_cases h1 : 0 < (nodes1 i0.rows i0.cols (limSq fl sq i0 maxDist) (fun y x => i0.at_ y x ≠ 0)
        (fun y x => i1.at_ y x ≠ 0)).length
    · obtain ⟨p, hp⟩ := List.exists_mem_of_length_pos h1
      obtain ⟨a, b, c, q, d, e, f, g⟩ := mem_nodes1.mp hp
      exact key p q ⟨a, b, by simpa using c⟩ ⟨d, e, by simpa using f⟩ g
    · have h2 : 0 < (nodes2 i0.rows i0.cols (limSq fl sq i0 maxDist) (fun y x => i0.at_ y x ≠ 0)
        (fun y x => i1.at_ y x ≠ 0)).length := by omega
      obtain ⟨q, hq⟩ := List.exists_mem_of_length_pos h2
      obtain ⟨a, b, c, p, d, e, f, g⟩ := mem_nodes2.mp hq
      exact key p q ⟨d, e, by simpa using f⟩ ⟨a, b, by simpa using c⟩ g
  obtain ⟨xs, hx, pos, run⟩ := A.run H S small xs pos hx
  have heq := matchWith_eq (h := i0.rows) (w := i0.cols) (b1 := fun y x => i0.at_ y x ≠ 0)
    (b2 := fun y x => i1.at_ y x ≠ 0) (pos := pos) (csaSolveF_valid fl fuel) hx l0 ll
  simp only [if_pos hz] at heq
  rw [run, heq]
  simp only [Option.map_some]
  unfold matchCostF
  rw [nodes1F_eq H A.rows_le A.cols_le T.nonneg, nodes2F_eq H A.rows_le A.cols_le T.nonneg,
      realEdgesF_eq H A.rows_le A.cols_le T.nonneg, if_pos]
  rw [announced_zero_iff]
  exact hz

/-! ## Witnesses, with the actual nearest rounding and square root -/

/-- A row with edges in columns 0 and 1, and a row with edges in columns 1 and 2. -/
def rowA : Img ℚ := ⟨1, 4, fun _ x => if x = 0 ∨ x = 1 then 1 else 0⟩
def rowB : Img ℚ := ⟨1, 4, fun _ x => if x = 1 ∨ x = 2 then 1 else 0⟩

theorem f64_quarter : IsF64 (1 / 4) := ⟨1, -2, by norm_num, by norm_num, by norm_num⟩

theorem f64_hundred : IsF64 100 := ⟨100, 0, by norm_num, by norm_num, by norm_num⟩

theorem quarter_ge : (1 / 2 : ℚ) ^ 400 ≤ 1 / 4 := by
  have : (1 / 2 : ℚ) ^ 400 ≤ (1 / 2) ^ 2 := pow_le_pow_of_le_one (by norm_num) (by norm_num) (by norm_num)
  exact this.trans (by norm_num)

theorem rowArgs : FloatArgs rowA rowB (1 / 4) 100 :=
  ⟨rfl, rfl, Nat.one_pos, Nat.succ_pos _, by norm_num [rowA], by norm_num [rowA], f64_quarter, f64_hundred, quarter_ge, by norm_num⟩

theorem rowSelfArgs : FloatArgs rowA rowA (1 / 4) 100 :=
  ⟨rfl, rfl, Nat.one_pos, Nat.succ_pos _, by norm_num [rowA], by norm_num [rowA], f64_quarter, f64_hundred, quarter_ge, by norm_num⟩

theorem diag14 : (4.12 : ℝ) ≤ diagonal 1 4 ∧ diagonal 1 4 ≤ 4.124 := by
  unfold diagonal
  constructor
  · apply Real.le_sqrt_of_sq_le; norm_num
  · apply Real.sqrt_le_iff.mpr; norm_num

theorem edges_rowA : edgePixels rowA = {(0, 0), (0, 1)} := by decide +kernel

theorem edges_rowB : edgePixels rowB = {(0, 1), (0, 2)} := by decide +kernel

/-- The hypotheses of all the theorems are met at once: in floating point the call returns on `rowA`, `rowB` with a
tolerance of about 1.03 pixels for every random stream, both pixels are matched (0 with 1 and 1 with 2, although 1 with 1
would be nearer). -/
example (small : Nat → Nat → Bool) (xs : Nat → ℚ) (pos : Nat)
    (hx : ∀ i, 0 ≤ xs i ∧ xs i ≤ 1 - 1 / 2 ^ 48) : ∃ F r, ∀ fuel, F ≤ fuel →
    correspondPixelsF nearestF64 sqrtF64 small fuel rowA rowB (1 / 4) 100 xs pos = .ok (some r) ∧
      r.o0 0 0 ≠ 0 ∧ r.o0 0 1 ≠ 0 := by
  have hd := diag14
  have e1 : rowA.rows = 1 := rfl
  have e2 : rowA.cols = 4 := rfl
  have hC : 10001 * (((100 : ℚ) : ℝ) * ((1 / 4 : ℚ) : ℝ) * diagonal rowA.rows rowA.cols) + 100 ≤ ((1031303 : Nat) : ℝ) := by
    rw [e1, e2]; push_cast; linarith
  have hE : (edgePixels rowA).card + (edgePixels rowB).card ≤ 4 := by rw [edges_rowA, edges_rowB]; decide
  obtain ⟨F, r, h⟩ := C57_total nearestF64 sqrtF64 nearestF64_rounds sqrtF64_nearest rowA rowB (1 / 4) 100 small xs pos hx rowArgs
    1031303 4 hC hE (by norm_num)
  refine ⟨F, r, fun fuel hf => ⟨h fuel hf, ?_⟩⟩
  have hone : (1 : ℝ) ≤ ((1 / 4 : ℚ) : ℝ) * diagonal rowA.rows rowA.cols * (1 - 1 / 2 ^ 50) := by
    rw [e1, e2]
    have h1 : ((1 / 4 : ℚ) : ℝ) * 4.12 ≤ ((1 / 4 : ℚ) : ℝ) * diagonal 1 4 :=
      mul_le_mul_of_nonneg_left hd.1 (by norm_num)
    refine le_trans ?_ (mul_le_mul_of_nonneg_right h1 (by norm_num))
    norm_num
  have hle := C57_maximum_small nearestF64 sqrtF64 nearestF64_rounds sqrtF64_nearest fuel rowA rowB (1 / 4) 100 small xs pos hx
    rowArgs 1031303 4 hC hE (by norm_num) (.inl (by rw [edges_rowA]; decide)) (by norm_num)
    (by rw [e1, e2]; push_cast; linarith) r (h fuel hf)
    {((0, 0), (0, 1)), ((0, 1), (0, 2))}
    (by
      intro e he
      simp only [mem_insert, mem_singleton] at he
      rw [edges_rowA, edges_rowB]
      rcases he with rfl | rfl
      · refine ⟨by decide, by decide, le_trans ?_ hone⟩
        simp [euclid]
      · refine ⟨by decide, by decide, le_trans ?_ hone⟩
        norm_num [euclid]) (by decide) (by decide)
  rw [edges_rowA] at hle
  have h2 : ({((0, 0), (0, 1)), ((0, 1), (0, 2))} : Finset ((Nat × Nat) × (Nat × Nat))).card = 2 := by decide
  rw [h2] at hle
  have heq : ({(0, 0), (0, 1)} : Finset (Nat × Nat)).filter (fun p => r.o0 p.1 p.2 ≠ 0) = {(0, 0), (0, 1)} :=
    Finset.eq_of_subset_of_card_le (Finset.filter_subset _ _) (by simpa using hle)
  have := Finset.filter_eq_self.1 heq
  exact ⟨this (0, 0) (by simp), this (0, 1) (by simp)⟩

/-- A map against itself: cost exactly 0. -/
example (small : Nat → Nat → Bool) (xs : Nat → ℚ) (pos : Nat)
    (hx : ∀ i, 0 ≤ xs i ∧ xs i ≤ 1 - 1 / 2 ^ 48) (fuel : Nat) (r : CorrOutF)
    (hr : correspondPixelsF nearestF64 sqrtF64 small fuel rowA rowA (1 / 4) 100 xs pos = .ok (some r)) :
    r.o0 0 1 = 2 ∧ r.cost = 0 := by
  have hd := diag14
  have h := C57_self_match_small nearestF64 sqrtF64 nearestF64_rounds sqrtF64_nearest fuel rowA (1 / 4) 100 small xs pos hx
    rowSelfArgs (by
      have e1 : rowA.rows = 1 := rfl
      have e2 : rowA.cols = 4 := rfl
      rw [e1, e2]; push_cast; linarith) (by rw [edges_rowA]; decide) r hr
  exact ⟨(h.1 0 1 (by decide) (by decide) (by decide +kernel)).1, h.2⟩

/-- Two single pixels two columns apart, beyond the tolerance: cost 0 although both are unmatched. -/
example (small : Nat → Nat → Bool) (xs : Nat → ℚ) (hx : ∀ i, 0 ≤ xs i ∧ xs i ≤ 1 - 1 / 2 ^ 48) :
    correspondPixelsF nearestF64 sqrtF64 small 0 ⟨1, 4, fun _ x => if x = 0 then 1 else 0⟩
      ⟨1, 4, fun _ x => if x = 2 then 1 else 0⟩ (1 / 4) 100 xs 0 =
      .ok (some ⟨fun _ _ => 0, fun _ _ => 0, 0, ocF nearestF64 sqrtF64 1 4 (1 / 4) 100⟩) := by
  refine C57_nothing_matchable nearestF64 sqrtF64 nearestF64_rounds sqrtF64_nearest 0 _ _ (1 / 4) 100 small xs 0 hx
    ⟨rfl, rfl, Nat.one_pos, Nat.succ_pos _, by norm_num, by norm_num, f64_quarter, f64_hundred, quarter_ge, by norm_num⟩ ?_
  have s0 : edgePixels ⟨1, 4, fun _ x => if x = 0 then 1 else 0⟩ = {(0, 0)} := by decide +kernel
  have s1 : edgePixels ⟨1, 4, fun _ x => if x = 2 then 1 else 0⟩ = {(0, 2)} := by decide +kernel
  rw [s0, s1]
  intro p hp q hq
  rw [mem_singleton] at hp hq
  subst hp hq
  have hd := diag14
  have e : euclid 0 0 2 0 = 2 := by
    unfold euclid; norm_num
    rw [show (4 : ℝ) = 2 ^ 2 by norm_num]
    exact Real.sqrt_sq (by norm_num)
  simp only
  rw [e]
  have h1 : ((1 / 4 : ℚ) : ℝ) * diagonal 1 4 ≤ ((1 / 4 : ℚ) : ℝ) * 4.124 := mul_le_mul_of_nonneg_left hd.2 (by norm_num)
  refine lt_of_le_of_lt (mul_le_mul_of_nonneg_right h1 (by norm_num)) ?_
  norm_num

end EdgeEval.Props
