import Verif.Lemmas.MatchCost
import Mathlib.Algebra.Order.Round

/-!
# Property theorems C11, C13, C15, C40: pixel correspondence

`correspondPixels` is the model of `correspond_pixels`; `xs` is an arbitrary stream of random numbers in
`[0,1)` and `pos` the position in it; `fuel` bounds the solver loops.
-/

namespace EdgeEval.Props

open EdgeEval Finset

/-! ## The integer square roots used by the model are the C ones -/

/-- `ceil(√q)`. -/
theorem C11_ceilSqrt (q : ℚ) : (ceilSqrt q : ℤ) = ⌈√(q : ℝ)⌉ := by
  symm
  rw [Int.ceil_eq_iff]
  have key : ∀ k : Nat, √(q : ℝ) ≤ k ↔ ceilSqrt q ≤ k := by
    intro k
    rw [ceilSqrt_le_iff, Real.sqrt_le_left (by positivity), sq]
    constructor
    · intro h; exact_mod_cast h
    · intro h; exact_mod_cast h
  constructor
  · by_contra hc
    push Not at hc
    rcases Nat.eq_zero_or_pos (ceilSqrt q) with h0 | hpos
    · rw [h0] at hc
      push_cast at hc
      have := Real.sqrt_nonneg (q : ℝ)
      linarith
    · have e : (((ceilSqrt q : ℕ) : ℤ) : ℝ) - 1 = ((ceilSqrt q - 1 : ℕ) : ℝ) := by
        rw [Nat.cast_sub hpos]; simp
      rw [e, key] at hc
      omega
  · have := (key (ceilSqrt q)).mpr (le_refl _)
    simpa using this

/-- `rint(√d2 * 100)`: the model's integer is strictly nearer than 1/2, so ties never matter. -/
theorem C11_rint (d2 : Nat) : |(rint100 d2 : ℝ) - √(d2 : ℝ) * 100| < 1 / 2 := by
  have e : √(d2 : ℝ) * 100 = √((10000 * d2 : Nat) : ℝ) := by
    rw [Nat.cast_mul, Real.sqrt_mul (by positivity)]
    have : √((10000 : Nat) : ℝ) = 100 := by
      rw [show ((10000 : Nat) : ℝ) = 100 ^ 2 by norm_num, Real.sqrt_sq (by norm_num)]
    rw [this]; ring
  rw [e]
  unfold rint100
  simp only
  generalize 10000 * d2 = m
  have a := Nat.sqrt_le m
  have b := Nat.lt_succ_sqrt m
  simp only [Nat.succ_eq_add_one] at b
  generalize Nat.sqrt m = s at *
  have a' : (s : ℝ) * s ≤ m := by exact_mod_cast a
  have b' : (m : ℝ) < (s + 1) * (s + 1) := by exact_mod_cast b
  have hs : (0 : ℝ) ≤ s := by positivity
  have r0 := Real.sqrt_nonneg (m : ℝ)
  have rr := Real.mul_self_sqrt (show (0 : ℝ) ≤ m by positivity)
  generalize √(m : ℝ) = r at *
  rw [abs_lt]
  split
  · rename_i h
    have h' : (s : ℝ) * s + s + 1 ≤ m := by exact_mod_cast h
    push_cast
    constructor <;> nlinarith
  · rename_i h
    have h' : (m : ℝ) ≤ s * s + s := by exact_mod_cast not_lt.mp h
    constructor <;> nlinarith

/-! ## C40 -/

/-- C40: `correspond_pixels` raises `ValueError` exactly for different shapes, `max_dist ≤ 0`,
`outlier_cost ≤ 1` or an image without pixels, and raises nothing else. -/
theorem C40_argument_checks (fuel : Nat) (i0 i1 : Img ℚ) (maxDist oc : ℚ) (xs : Nat → ℚ) (pos : Nat) :
    ((∃ e, correspondPixels fuel i0 i1 maxDist oc xs pos = .error e) ↔
      (i0.rows ≠ i1.rows ∨ i0.cols ≠ i1.cols) ∨ maxDist ≤ 0 ∨ oc ≤ 1 ∨ i0.rows = 0 ∨ i0.cols = 0) ∧
    ∀ e, correspondPixels fuel i0 i1 maxDist oc xs pos = .error e → e = .valueError := by
  unfold correspondPixels corrCheck
  by_cases h1 : i0.rows = i1.rows ∧ i0.cols = i1.cols
  · rw [if_neg (not_not.mpr h1)]
    by_cases h2 : maxDist ≤ 0
    · simp [h2, eq_comm]
    · by_cases h3 : oc ≤ 1
      · simp [h2, h3, eq_comm]
      · by_cases h4 : i0.rows = 0 ∨ i0.cols = 0
        · rw [if_neg h2, if_neg h3, if_pos h4]
          simp [h4, eq_comm]
        · rw [if_neg h2, if_neg h3, if_neg h4]
          simp [h1, h2, h3, h4]
          push Not at h4
          rw [← h1.1, ← h1.2]
          exact h4
  · rw [if_pos h1]
    refine ⟨?_, by simp [eq_comm]⟩
    simp only [exists_eq', true_iff, Except.error.injEq]
    left
    by_contra hc
    push Not at hc
    exact h1 hc

example : correspondPixels 5 ⟨2, 3, fun _ _ => 1⟩ ⟨3, 2, fun _ _ => 1⟩ 1 2 (fun _ => 0) 0 =
    .error .valueError := rfl

example : ∃ e, correspondPixels 5 ⟨0, 3, fun _ _ => 1⟩ ⟨0, 3, fun _ _ => 1⟩ 1 2 (fun _ => 0) 0 = .error e :=
  (C40_argument_checks _ _ _ _ _ _ _).1.2 (.inr (.inr (.inr (.inl rfl))))

/-! ## C11 -/

theorem corr_ok {fuel : Nat} {i0 i1 : Img ℚ} {maxDist oc : ℚ} {xs : Nat → ℚ} {pos : Nat}
    {o : Option CorrOut} (h : correspondPixels fuel i0 i1 maxDist oc xs pos = .ok o) :
    i0.rows = i1.rows ∧ i0.cols = i1.cols ∧ 0 < maxDist ∧ 1 < oc ∧
    o = (matchEdgeMaps fuel i0.rows i0.cols (fun y x => i0.at_ y x ≠ 0) (fun y x => i1.at_ y x ≠ 0)
      (maxDist2 i0.rows i0.cols maxDist) (oc ^ 2 * maxDist2 i0.rows i0.cols maxDist) xs pos).map fun r =>
        ⟨r.m1, r.m2, matchCost i0.rows i0.cols (fun y x => i0.at_ y x ≠ 0) (fun y x => i1.at_ y x ≠ 0)
          (maxDist2 i0.rows i0.cols maxDist) (oc ^ 2 * maxDist2 i0.rows i0.cols maxDist) r.mt,
          √((oc ^ 2 * maxDist2 i0.rows i0.cols maxDist : ℚ) : ℝ)⟩ := by
  have hc := (C40_argument_checks fuel i0 i1 maxDist oc xs pos).1
  rw [h] at hc
  have : ¬ ((i0.rows ≠ i1.rows ∨ i0.cols ≠ i1.cols) ∨ maxDist ≤ 0 ∨ oc ≤ 1 ∨ i0.rows = 0 ∨ i0.cols = 0) := by
    rw [← hc]; simp
  push Not at this
  obtain ⟨⟨a, b⟩, c, d, e1, e2⟩ := this
  have e : ¬ (i0.rows = 0 ∨ i0.cols = 0) := by rintro (h | h) <;> contradiction
  refine ⟨a, b, c, d, ?_⟩
  unfold correspondPixels corrCheck at h
  rw [if_neg (not_not.mpr ⟨a, b⟩), if_neg (not_le.mpr c), if_neg (not_le.mpr d), if_neg e] at h
  simp only [Except.ok.injEq] at h
  exact h.symm

/-- Euclidean distance of the pixels in column `x`, row `y` and column `x'`, row `y'`. -/
noncomputable def euclid (x y x' y' : Nat) : ℝ := √(((x : ℝ) - x') ^ 2 + ((y : ℝ) - y') ^ 2)

/-- The image diagonal. -/
noncomputable def diagonal (rows cols : Nat) : ℝ := √((rows : ℝ) ^ 2 + (cols : ℝ) ^ 2)

theorem euclid_eq (p q : Pix) : √(pixDist2 p q : ℝ) = euclid p.1 p.2 q.1 q.2 := by
  unfold euclid
  congr 1
  have h := pixDist2_cast p q
  have : ((pixDist2 p q : Int) : ℝ) = ((((p.1 : Int) - q.1) * ((p.1 : Int) - q.1) + ((p.2 : Int) - q.2) * ((p.2 : Int) - q.2) : Int) : ℝ) := by
    rw [h]
  push_cast at this
  rw [this]; ring

theorem sqrt_maxDist2 {rows cols : Nat} {maxDist : ℚ} (hd : 0 ≤ maxDist) :
    √((maxDist2 rows cols maxDist : ℚ) : ℝ) = maxDist * diagonal rows cols := by
  unfold maxDist2 diagonal
  push_cast
  rw [Real.sqrt_mul (by positivity), Real.sqrt_sq (by exact_mod_cast hd)]
  ring_nf

theorem dist_le {rows cols : Nat} {maxDist : ℚ} (hd : 0 ≤ maxDist) {p q : Pix}
    (h : (pixDist2 p q : ℚ) ≤ maxDist2 rows cols maxDist) :
    euclid p.1 p.2 q.1 q.2 ≤ maxDist * diagonal rows cols := by
  rw [← euclid_eq, ← sqrt_maxDist2 hd]
  apply Real.sqrt_le_sqrt
  have : ((pixDist2 p q : ℚ) : ℝ) ≤ ((maxDist2 rows cols maxDist : ℚ) : ℝ) := by exact_mod_cast h
  simpa using this

theorem maxDist2_pos {rows cols : Nat} {maxDist : ℚ} (hd : 0 < maxDist) (hne : 0 < rows ∨ 0 < cols) :
    0 < maxDist2 rows cols maxDist := by
  unfold maxDist2
  apply mul_pos (by positivity)
  have : 0 < rows * rows + cols * cols := by
    rcases hne with h | h
    · have := Nat.mul_pos h h; omega
    · have := Nat.mul_pos h h; omega
  exact_mod_cast this

theorem match_pre {fuel : Nat} {h w : Nat} {b1 b2 : BMap} {md2 oc2 : ℚ} {xs : Nat → ℚ} {pos : Nat}
    {r : MatchOut} (hr : matchEdgeMaps fuel h w b1 b2 md2 oc2 xs pos = some r) :
    0 ≤ md2 ∧ md2 < oc2 := by
  unfold matchEdgeMaps matchWith at hr
  by_contra hc
  rw [if_pos hc] at hr
  simp at hr

/-- C11: every non-zero entry of the first match image sits on an edge pixel of the first map, decodes
(column-major, 1-based) to an edge pixel of the second map, whose entry decodes back to it, at Euclidean
distance at most `max_dist` times the image diagonal; and vice versa. -/
theorem C11_matching (fuel : Nat) (i0 i1 : Img ℚ) (maxDist oc : ℚ) (xs : Nat → ℚ) (pos : Nat)
    (hx : ∀ i, 0 ≤ xs i ∧ xs i < 1) (r : CorrOut)
    (hr : correspondPixels fuel i0 i1 maxDist oc xs pos = .ok (some r)) :
    (∀ y x, y < i0.rows → x < i0.cols → r.o0 y x ≠ 0 →
      ∃ y' x', y' = (r.o0 y x - 1) % i0.rows ∧ x' = (r.o0 y x - 1) / i0.rows ∧
        y' < i0.rows ∧ x' < i0.cols ∧ i0.at_ y x ≠ 0 ∧ i1.at_ y' x' ≠ 0 ∧
        r.o0 y x = x' * i0.rows + y' + 1 ∧ r.o1 y' x' = x * i0.rows + y + 1 ∧
        euclid x y x' y' ≤ maxDist * diagonal i0.rows i0.cols) ∧
    (∀ y x, y < i0.rows → x < i0.cols → r.o1 y x ≠ 0 →
      ∃ y' x', y' = (r.o1 y x - 1) % i0.rows ∧ x' = (r.o1 y x - 1) / i0.rows ∧
        y' < i0.rows ∧ x' < i0.cols ∧ i1.at_ y x ≠ 0 ∧ i0.at_ y' x' ≠ 0 ∧
        r.o1 y x = x' * i0.rows + y' + 1 ∧ r.o0 y' x' = x * i0.rows + y + 1 ∧
        euclid x y x' y' ≤ maxDist * diagonal i0.rows i0.cols) := by
  obtain ⟨-, -, hd, -, ho⟩ := corr_ok hr
  obtain ⟨m, hm, rfl⟩ := Option.map_eq_some_iff.mp ho.symm
  obtain ⟨hp1, hp2⟩ := match_pre hm
  obtain ⟨hg, e1, e2⟩ := matchEdgeMaps_good hx hp1 hp2 hm
  simp only
  rw [e1, e2]
  constructor
  · intro y x hy hxx hne
    rw [encode_ne_zero (fun q hq => (hg.ok _ q hq).1.2.2)] at hne
    obtain ⟨q, hq⟩ := hne
    have ok := hg.ok _ q hq
    have hq2 := (hg.sym _ _).mp hq
    have c1 := encode_eq (h := i0.rows) (b := fun y x => i0.at_ y x ≠ 0) hq ok.1.2.2
    have c2 := encode_eq (h := i0.rows) (b := fun y x => i1.at_ y x ≠ 0) (m := m.mt.m2) (x := q.1) (y := q.2) hq2 ok.2.1.2.2
    refine ⟨q.2, q.1, ?_, ?_, ok.2.1.2.1, ok.2.1.1, ?_, ?_, c1, c2, dist_le hd.le ok.2.2⟩
    · rw [c1, decode_mod ok.2.1.2.1]
    · rw [c1, decode_div ok.2.1.2.1]
    · simpa using ok.1.2.2
    · simpa using ok.2.1.2.2
  · intro y x hy hxx hne
    rw [encode_ne_zero (fun q hq => (hg.ok q _ ((hg.sym _ _).mpr hq)).2.1.2.2)] at hne
    obtain ⟨q, hq⟩ := hne
    have hq1 := (hg.sym _ _).mpr hq
    have ok := hg.ok _ _ hq1
    have c1 := encode_eq (h := i0.rows) (b := fun y x => i1.at_ y x ≠ 0) hq ok.2.1.2.2
    have c2 := encode_eq (h := i0.rows) (b := fun y x => i0.at_ y x ≠ 0) (m := m.mt.m1) (x := q.1) (y := q.2) hq1 ok.1.2.2
    refine ⟨q.2, q.1, ?_, ?_, ok.1.2.1, ok.1.1, ?_, ?_, c1, c2, ?_⟩
    · rw [c1, decode_mod ok.1.2.1]
    · rw [c1, decode_div ok.1.2.1]
    · simpa using ok.2.1.2.2
    · simpa using ok.1.2.2
    · have := ok.2.2
      rw [pixDist2_comm] at this
      exact dist_le hd.le this

/-- C11: hence no two pixels of a map are matched to the same pixel of the other. -/
theorem C11_injective (fuel : Nat) (i0 i1 : Img ℚ) (maxDist oc : ℚ) (xs : Nat → ℚ) (pos : Nat)
    (hx : ∀ i, 0 ≤ xs i ∧ xs i < 1) (r : CorrOut)
    (hr : correspondPixels fuel i0 i1 maxDist oc xs pos = .ok (some r))
    (y x y2 x2 : Nat) (hy : y < i0.rows) (hxx : x < i0.cols) (hy2 : y2 < i0.rows) (hx2 : x2 < i0.cols)
    (hne : r.o0 y x ≠ 0) (he : r.o0 y x = r.o0 y2 x2) : y = y2 ∧ x = x2 := by
  obtain ⟨h1, _⟩ := C11_matching fuel i0 i1 maxDist oc xs pos hx r hr
  obtain ⟨a, b, ha, hb, h3, _, _, _, _, h4, _⟩ := h1 y x hy hxx hne
  obtain ⟨a', b', ha', hb', _, _, _, _, _, h5, _⟩ := h1 y2 x2 hy2 hx2 (he ▸ hne)
  have e1 : a = a' := by rw [ha, ha', he]
  have e2 : b = b' := by rw [hb, hb', he]
  subst e1 e2
  rw [h4] at h5
  constructor
  · rw [← decode_mod (a := x) hy, h5, decode_mod hy2]
  · rw [← decode_div (a := x) hy, h5, decode_div hy2]

/-- C11: on accepted arguments and a non-empty image the call returns (no assertion fires, the solver
stops), for every random stream. -/
theorem C11_total (i0 i1 : Img ℚ) (maxDist oc : ℚ) (xs : Nat → ℚ) (pos : Nat)
    (hx : ∀ i, 0 ≤ xs i ∧ xs i < 1) (hs : i0.rows = i1.rows ∧ i0.cols = i1.cols) (hd : 0 < maxDist)
    (ho : 1 < oc) (hne : 0 < i0.rows ∧ 0 < i0.cols) :
    ∃ F r, ∀ fuel, F ≤ fuel → correspondPixels fuel i0 i1 maxDist oc xs pos = .ok (some r) := by
  have hp := maxDist2_pos (rows := i0.rows) (cols := i0.cols) hd (.inl hne.1)
  obtain ⟨F, r, h⟩ := matchEdgeMaps_total (h := i0.rows) (w := i0.cols)
    (b1 := fun y x => i0.at_ y x ≠ 0) (b2 := fun y x => i1.at_ y x ≠ 0) (pos := pos)
    (oc2 := oc ^ 2 * maxDist2 i0.rows i0.cols maxDist) hx hp.le (lt_mul_of_one_lt_left hp (one_lt_pow₀ ho two_ne_zero))
  refine ⟨F, ⟨r.m1, r.m2, matchCost i0.rows i0.cols (fun y x => i0.at_ y x ≠ 0) (fun y x => i1.at_ y x ≠ 0)
          (maxDist2 i0.rows i0.cols maxDist) (oc ^ 2 * maxDist2 i0.rows i0.cols maxDist) r.mt,
          √((oc ^ 2 * maxDist2 i0.rows i0.cols maxDist : ℚ) : ℝ)⟩, fun fuel hf => ?_⟩
  unfold correspondPixels corrCheck
  rw [if_neg (not_not.mpr hs), if_neg (not_le.mpr hd), if_neg (not_le.mpr ho), if_neg (by omega)]
  simp only
  rw [h fuel hf]
  rfl

/-! ## C13 -/

/-- C13: the graph handed to the solver has the announced number of arcs, all node ids in range, no
duplicate arc, non-negative costs not all zero, and a perfect matching; for every pair of maps and every
random stream. -/
theorem C13_graph (h w : Nat) (b1 b2 : BMap) (md2 oc2 : ℚ) (xs : Nat → ℚ) (pos : Nat)
    (hx : ∀ i, 0 ≤ xs i ∧ xs i < 1) (hmd : 0 ≤ md2) (hoc : md2 < oc2) :
    let n1 := (nodes1 h w md2 b1 b2).length
    let n2 := (nodes2 h w md2 b1 b2).length
    let n := n1 + n2
    let g := (matchGraph h w b1 b2 md2 oc2 xs pos).map (toArc n)
    g.length = announcedM n1 n2 (realEdges h w md2 b1 b2).length ∧
    WellFormedGraph n g ∧ (g.map fun a => (a.tail, a.head)).Nodup ∧ (∀ a ∈ g, 0 ≤ a.cost) ∧
    (∃ M, IsPerfectMatching n g M) ∧ (0 < n → ∃ a ∈ g, a.cost ≠ 0) := by
  intro n1 n2 n g
  have hrange := graph_range (b1 := b1) (b2 := b2) (h := h) (w := w) (md2 := md2) (oc2 := oc2) (pos := pos) hx
  refine ⟨?_, wellFormed_graph fun e he => ⟨(hrange e he).1, (hrange e he).2.1⟩, ?_, ?_,
    ⟨_, overlay_perfect _ _ (outlierWeight oc2) _ (overlay_sub _ _ _ _ xs pos)⟩, ?_⟩
  · rw [List.length_map]; exact buildGraph_length _ _ _ _ xs pos hx
  · have hnd := buildGraph_nodup (pos := pos) (ow := outlierWeight oc2) hx realEdges_range (nodup_realEdges h w md2 b1 b2)
    have : (g.map fun a => (a.tail, a.head)) =
        ((matchGraph h w b1 b2 md2 oc2 xs pos).map fun e => (e.i, e.j)).map fun x => (x.1 + 1, x.2 + 1 + n) := by
      simp only [g, List.map_map]; rfl
    rw [this]
    exact hnd.map (fun a b hab => by
      simp only [Prod.mk.injEq] at hab
      ext <;> omega)
  · intro a ha
    obtain ⟨e, he, rfl⟩ := List.mem_map.mp ha
    exact (hrange e he).2.2
  · intro hn
    have hpos := outlierWeight_pos hmd hoc
    have hsub := overlay_sub n1 n2 (outlierWeight oc2) (realEdges h w md2 b1 b2) xs pos
    by_cases h1 : 0 < n1
    · refine ⟨toArc n ⟨0, n2 + 0, (outlierWeight oc2 * multiplier : Nat)⟩, List.mem_map_of_mem (hsub _ ?_), ?_⟩
      · unfold overlay
        rw [List.mem_append]; left
        exact List.mem_map.mpr ⟨0, List.mem_range.mpr h1, rfl⟩
      · simp only [toArc, multiplier]; omega
    · refine ⟨toArc n ⟨n1 + 0, 0, (outlierWeight oc2 * multiplier : Nat)⟩, List.mem_map_of_mem (hsub _ ?_), ?_⟩
      · unfold overlay
        rw [List.mem_append]; right
        exact List.mem_map.mpr ⟨0, List.mem_range.mpr (by omega), rfl⟩
      · simp only [toArc, multiplier]; omega

/-- C13: hence no assertion of `matchEdgeMaps` fires: the run is exactly "no matchable pixel: zeros;
otherwise decode the solver's answer on this graph". -/
theorem C13_no_assertion_fires (fuel h w : Nat) (b1 b2 : BMap) (md2 oc2 : ℚ) (xs : Nat → ℚ) (pos : Nat)
    (hx : ∀ i, 0 ≤ xs i ∧ xs i < 1) (hmd : 0 ≤ md2) (hoc : md2 < oc2) :
    matchEdgeMaps fuel h w b1 b2 md2 oc2 xs pos = none ↔
      0 < (nodes1 h w md2 b1 b2).length + (nodes2 h w md2 b1 b2).length ∧
      csaSolve fuel (2 * ((nodes1 h w md2 b1 b2).length + (nodes2 h w md2 b1 b2).length))
        ((matchGraph h w b1 b2 md2 oc2 xs pos).map
          (toArc ((nodes1 h w md2 b1 b2).length + (nodes2 h w md2 b1 b2).length))) = none := by
  have := matchEdgeMaps_eq (h := h) (w := w) (b1 := b1) (b2 := b2) (pos := pos) hx hmd hoc fuel
  simp only at this
  rw [this]
  split
  · simp; omega
  · rename_i hn
    simp only [Option.map_eq_none_iff]
    constructor
    · exact fun h => ⟨by omega, h⟩
    · exact fun h => h.2

/-- Two diagonal strokes of three pixels, one pixel apart: 6 real edges, 6 matchable pixels on the two
sides together, and the hypotheses hold. -/
example : (nodes1 3 4 1 (fun y x => x == y) (fun y x => x == y + 1)).length = 3 ∧
    (realEdges 3 4 1 (fun y x => x == y) (fun y x => x == y + 1)).length = 5 ∧
    (matchGraph 3 4 (fun y x => x == y) (fun y x => x == y + 1) 1 4 (fun _ => 1 / 2) 0).length = 32 := by
  decide +kernel

/-! ## C15 -/

/-- Edge pixels of `img` (as pairs row, column). -/
def edgePixels (img : Img ℚ) : Finset (Nat × Nat) :=
  (range img.rows ×ˢ range img.cols).filter fun p => img.at_ p.1 p.2 ≠ 0

/-- There are two edge pixels, one of each map, within the distance tolerance. -/
def SomeMatchable (i0 i1 : Img ℚ) (maxDist : ℚ) : Prop :=
  ∃ p ∈ edgePixels i0, ∃ q ∈ edgePixels i1,
    ((((p.1 : ℚ) - q.1) ^ 2 + ((p.2 : ℚ) - q.2) ^ 2)) ≤ maxDist2 i0.rows i0.cols maxDist

theorem pixDist2_rat (p q : Pix) :
    (pixDist2 p q : ℚ) = ((p.2 : ℚ) - q.2) ^ 2 + ((p.1 : ℚ) - q.1) ^ 2 := by
  have h : ((pixDist2 p q : Int) : ℚ) = ((((p.1 : Int) - q.1) * ((p.1 : Int) - q.1) + ((p.2 : Int) - q.2) * ((p.2 : Int) - q.2) : Int) : ℚ) := by
    rw [pixDist2_cast]
  push_cast at h
  rw [h]; ring

theorem someMatchable_iff {i0 i1 : Img ℚ} (hs : i0.rows = i1.rows ∧ i0.cols = i1.cols) {maxDist : ℚ} :
    SomeMatchable i0 i1 maxDist ↔
      (nodes1 i0.rows i0.cols (maxDist2 i0.rows i0.cols maxDist) (fun y x => i0.at_ y x ≠ 0)
        (fun y x => i1.at_ y x ≠ 0)).length + (nodes2 i0.rows i0.cols (maxDist2 i0.rows i0.cols maxDist)
        (fun y x => i0.at_ y x ≠ 0) (fun y x => i1.at_ y x ≠ 0)).length ≠ 0 := by
  generalize hmd : maxDist2 i0.rows i0.cols maxDist = md2
  constructor
  · rintro ⟨p, hp, q, hq, hle⟩
    simp only [edgePixels, mem_filter, mem_product, mem_range] at hp hq
    rw [← hs.1, ← hs.2] at hq
    have : (p.2, p.1) ∈ nodes1 i0.rows i0.cols md2 (fun y x => i0.at_ y x ≠ 0) (fun y x => i1.at_ y x ≠ 0) := by
      rw [mem_nodes1]
      refine ⟨hp.1.2, hp.1.1, by simpa using hp.2, (q.2, q.1), hq.1.2, hq.1.1, by simpa using hq.2, ?_⟩
      rw [pixDist2_rat, ← hmd]
      exact hle
    have := List.length_pos_of_mem this
    omega
  · intro hne
    have key : ∃ p q : Pix, (p.1 < i0.cols ∧ p.2 < i0.rows ∧ i0.at_ p.2 p.1 ≠ 0) ∧
        (q.1 < i0.cols ∧ q.2 < i0.rows ∧ i1.at_ q.2 q.1 ≠ 0) ∧ (pixDist2 p q : ℚ) ≤ md2 := by
      by_cases h1 : 0 < (nodes1 i0.rows i0.cols md2 (fun y x => i0.at_ y x ≠ 0) (fun y x => i1.at_ y x ≠ 0)).length
      · obtain ⟨p, hp⟩ := List.exists_mem_of_length_pos h1
        obtain ⟨a, b, c, q, d, e, f, g⟩ := mem_nodes1.mp hp
        exact ⟨p, q, ⟨a, b, by simpa using c⟩, ⟨d, e, by simpa using f⟩, g⟩
      · have h2 : 0 < (nodes2 i0.rows i0.cols md2 (fun y x => i0.at_ y x ≠ 0) (fun y x => i1.at_ y x ≠ 0)).length := by omega
        obtain ⟨q, hq⟩ := List.exists_mem_of_length_pos h2
        obtain ⟨a, b, c, p, d, e, f, g⟩ := mem_nodes2.mp hq
        exact ⟨p, q, ⟨d, e, by simpa using f⟩, ⟨a, b, by simpa using c⟩, g⟩
    obtain ⟨p, q, ⟨a, b, c⟩, ⟨d, e, f⟩, g⟩ := key
    refine ⟨(p.2, p.1), ?_, (q.2, q.1), ?_, ?_⟩
    · simp [edgePixels, a, b, c]
    · simp [edgePixels, ← hs.1, ← hs.2, d, e, f]
    · rw [pixDist2_rat] at g
      rw [hmd]; exact g

theorem sum_swap {M : Type} [AddCommMonoid M] (h w : Nat) (f : Nat → Nat → M) :
    ∑ p ∈ pixSet h w, f p.2 p.1 = ∑ p ∈ range h ×ˢ range w, f p.1 p.2 := by
  unfold pixSet
  rw [sum_product, sum_product_right]

/-- The sum over all pixels of the costs of one-to-one matches, in terms of the match images. -/
theorem cost_formula {i0 i1 : Img ℚ} (hs1 : i0.rows = i1.rows) (hs2 : i0.cols = i1.cols) {md2 : ℚ} {m : MatchOut}
    (hg : GoodMatch i0.rows i0.cols (fun y x => i0.at_ y x ≠ 0) (fun y x => i1.at_ y x ≠ 0) md2 m.mt)
    (e1 : m.m1 = encodeMatch i0.rows (fun y x => i0.at_ y x ≠ 0) m.mt.m1)
    (e2 : m.m2 = encodeMatch i0.rows (fun y x => i1.at_ y x ≠ 0) m.mt.m2) (c : ℝ) :
    ((pixels i0.rows i0.cols).map fun p =>
      (if decide (i0.at_ p.2 p.1 ≠ 0) = true then
        (match m.mt.m1 p with | none => c | some q => 0.5 * √(pixDist2 p q : ℝ)) else 0) +
      (if decide (i1.at_ p.2 p.1 ≠ 0) = true then
        (match m.mt.m2 p with | none => c | some q => 0.5 * √(pixDist2 p q : ℝ)) else 0)).sum =
    c * ((edgePixels i0).filter fun p => m.m1 p.1 p.2 = 0).card +
      c * ((edgePixels i1).filter fun p => m.m2 p.1 p.2 = 0).card +
      ∑ p ∈ (edgePixels i0).filter (fun p => m.m1 p.1 p.2 ≠ 0),
        euclid p.2 p.1 ((m.m1 p.1 p.2 - 1) / i0.rows) ((m.m1 p.1 p.2 - 1) % i0.rows) := by
  rw [sum_pixels]
  have hen1 : edgePixels i1 = (range i0.rows ×ˢ range i0.cols).filter fun p => i1.at_ p.1 p.2 ≠ 0 := by
    rw [edgePixels, hs1, hs2]
  rw [hen1]
  clear hen1
  unfold edgePixels
  have l0 : ∀ p : Pix, (if decide (i0.at_ p.2 p.1 ≠ 0) = true then
      (match m.mt.m1 p with | none => c | some q => 0.5 * √(pixDist2 p q : ℝ)) else 0) =
      (if i0.at_ p.2 p.1 ≠ 0 ∧ m.m1 p.2 p.1 = 0 then c else 0) +
        (m.mt.m1 p).elim 0 (fun q => 0.5 * √(pixDist2 p q : ℝ)) := by
    intro p
    rw [e1]
    rcases hq : m.mt.m1 p with _ | q
    · simp only [encodeMatch, hq]
      by_cases h0 : i0.at_ p.2 p.1 = 0 <;> simp [h0]
    · have ok := hg.ok p q hq
      have h0 : i0.at_ p.2 p.1 ≠ 0 := by simpa using ok.1.2.2
      have := encode_eq (h := i0.rows) (b := fun y x => i0.at_ y x ≠ 0) (m := m.mt.m1) (x := p.1) (y := p.2) hq ok.1.2.2
      rw [this]
      simp [h0]
  have l1 : ∀ p : Pix, (if decide (i1.at_ p.2 p.1 ≠ 0) = true then
      (match m.mt.m2 p with | none => c | some q => 0.5 * √(pixDist2 p q : ℝ)) else 0) =
      (if i1.at_ p.2 p.1 ≠ 0 ∧ m.m2 p.2 p.1 = 0 then c else 0) +
        (m.mt.m2 p).elim 0 (fun q => 0.5 * √(pixDist2 q p : ℝ)) := by
    intro p
    rw [e2]
    rcases hq : m.mt.m2 p with _ | q
    · simp only [encodeMatch, hq]
      by_cases h0 : i1.at_ p.2 p.1 = 0 <;> simp [h0]
    · have ok := hg.ok q p ((hg.sym _ _).mpr hq)
      have h0 : i1.at_ p.2 p.1 ≠ 0 := by simpa using ok.2.1.2.2
      have := encode_eq (h := i0.rows) (b := fun y x => i1.at_ y x ≠ 0) (m := m.mt.m2) (x := p.1) (y := p.2) hq ok.2.1.2.2
      rw [this]
      simp [h0, pixDist2_comm]
  have l2 : ∀ p ∈ pixSet i0.rows i0.cols, (m.mt.m1 p).elim 0 (fun q => √(pixDist2 p q : ℝ)) =
      if i0.at_ p.2 p.1 ≠ 0 ∧ m.m1 p.2 p.1 ≠ 0 then
        euclid p.1 p.2 ((m.m1 p.2 p.1 - 1) / i0.rows) ((m.m1 p.2 p.1 - 1) % i0.rows) else 0 := by
    intro p _
    rw [e1]
    rcases hq : m.mt.m1 p with _ | q
    · simp only [encodeMatch, hq, Option.elim_none]
      split <;> simp
    · have ok := hg.ok p q hq
      have h0 : i0.at_ p.2 p.1 ≠ 0 := by simpa using ok.1.2.2
      have := encode_eq (h := i0.rows) (b := fun y x => i0.at_ y x ≠ 0) (m := m.mt.m1) (x := p.1) (y := p.2) hq ok.1.2.2
      rw [this, if_pos ⟨h0, by omega⟩, decode_div ok.2.1.2.1, decode_mod ok.2.1.2.1, Option.elim_some, euclid_eq]
  refine (sum_congr rfl (fun p _ => congrArg₂ (· + ·) (l0 p) (l1 p))).trans ?_
  rw [sum_add_distrib, sum_add_distrib, sum_add_distrib]
  rw [← pair_sum hg (fun p q => 0.5 * √(pixDist2 p q : ℝ))]
  have hhalf : ∑ p ∈ pixSet i0.rows i0.cols, (m.mt.m1 p).elim 0 (fun q => 0.5 * √(pixDist2 p q : ℝ)) =
      0.5 * ∑ p ∈ pixSet i0.rows i0.cols, (m.mt.m1 p).elim 0 (fun q => √(pixDist2 p q : ℝ)) := by
    rw [mul_sum]
    apply sum_congr rfl
    intro p _
    rcases m.mt.m1 p with _ | q <;> simp
  rw [hhalf, sum_congr rfl l2]
  rw [sum_swap _ _ (fun y x => if i0.at_ y x ≠ 0 ∧ m.m1 y x = 0 then c else 0),
    sum_swap _ _ (fun y x => if i1.at_ y x ≠ 0 ∧ m.m2 y x = 0 then c else 0),
    sum_swap _ _ (fun y x => if i0.at_ y x ≠ 0 ∧ m.m1 y x ≠ 0 then
        euclid x y ((m.m1 y x - 1) / i0.rows) ((m.m1 y x - 1) % i0.rows) else 0)]
  rw [filter_filter, filter_filter, filter_filter, sum_filter]
  rw [← sum_filter, ← sum_filter (s := range i0.rows ×ˢ range i0.cols) (p := fun p => i1.at_ p.1 p.2 ≠ 0 ∧ m.m2 p.1 p.2 = 0),
    sum_const, sum_const, nsmul_eq_mul, nsmul_eq_mul]
  ring

/-- C15: when some pair of edge pixels is within the tolerance, the returned cost is the outlier cost
(`outlier_cost * max_dist * diagonal`, also returned) for every unmatched edge pixel of either map plus
the Euclidean distance of each matched pair. -/
theorem C15_cost (fuel : Nat) (i0 i1 : Img ℚ) (maxDist oc : ℚ) (xs : Nat → ℚ) (pos : Nat)
    (hx : ∀ i, 0 ≤ xs i ∧ xs i < 1) (r : CorrOut)
    (hr : correspondPixels fuel i0 i1 maxDist oc xs pos = .ok (some r))
    (hsome : SomeMatchable i0 i1 maxDist) :
    r.oc = oc * maxDist * diagonal i0.rows i0.cols ∧
    r.cost = r.oc * ((edgePixels i0).filter fun p => r.o0 p.1 p.2 = 0).card +
      r.oc * ((edgePixels i1).filter fun p => r.o1 p.1 p.2 = 0).card +
      ∑ p ∈ (edgePixels i0).filter (fun p => r.o0 p.1 p.2 ≠ 0),
        euclid p.2 p.1 ((r.o0 p.1 p.2 - 1) / i0.rows) ((r.o0 p.1 p.2 - 1) % i0.rows) := by
  obtain ⟨hs1, hs2, hd, hoc, ho⟩ := corr_ok hr
  rw [someMatchable_iff ⟨hs1, hs2⟩] at hsome
  obtain ⟨m, hm, rfl⟩ := Option.map_eq_some_iff.mp ho.symm
  obtain ⟨hp1, hp2⟩ := match_pre hm
  obtain ⟨hg, e1, e2⟩ := matchEdgeMaps_good hx hp1 hp2 hm
  simp only
  constructor
  · push_cast
    rw [Real.sqrt_mul (by positivity), Real.sqrt_sq (by exact_mod_cast (zero_lt_one.trans hoc).le), sqrt_maxDist2 hd.le]
    ring
  · unfold matchCost
    rw [if_neg (fun h => hsome (announced_zero_iff.mp h))]
    exact cost_formula hs1 hs2 hg e1 e2 _

/-- C15: the cost lies between 0 and the outlier cost times the number of edge pixels of both maps. -/
theorem C15_cost_bounds (fuel : Nat) (i0 i1 : Img ℚ) (maxDist oc : ℚ) (xs : Nat → ℚ) (pos : Nat)
    (hx : ∀ i, 0 ≤ xs i ∧ xs i < 1) (r : CorrOut)
    (hr : correspondPixels fuel i0 i1 maxDist oc xs pos = .ok (some r)) :
    0 ≤ r.cost ∧ r.cost ≤ r.oc * ((edgePixels i0).card + (edgePixels i1).card) := by
  have hoc0 : 0 ≤ r.oc := by
    obtain ⟨hs1, hs2, hd, hoc, ho⟩ := corr_ok hr
    obtain ⟨m, hm, rfl⟩ := Option.map_eq_some_iff.mp ho.symm
    exact Real.sqrt_nonneg _
  by_cases hsome : SomeMatchable i0 i1 maxDist
  · obtain ⟨a, b⟩ := C15_cost fuel i0 i1 maxDist oc xs pos hx r hr hsome
    obtain ⟨m1, _⟩ := C11_matching fuel i0 i1 maxDist oc xs pos hx r hr
    obtain ⟨hs1, hs2, hd, hoc, ho⟩ := corr_ok hr
    have hdiag : 0 ≤ diagonal i0.rows i0.cols := Real.sqrt_nonneg _
    have hle : ∀ p ∈ (edgePixels i0).filter (fun p => r.o0 p.1 p.2 ≠ 0),
        euclid p.2 p.1 ((r.o0 p.1 p.2 - 1) / i0.rows) ((r.o0 p.1 p.2 - 1) % i0.rows) ≤ r.oc := by
      intro p hp
      simp only [edgePixels, mem_filter, mem_product, mem_range] at hp
      obtain ⟨y', x', hy', hx', _, _, _, _, _, _, hdist⟩ := m1 p.1 p.2 hp.1.1.1 hp.1.1.2 hp.2
      rw [← hx', ← hy', a]
      refine hdist.trans ?_
      have h1 : (1 : ℝ) ≤ oc := by exact_mod_cast hoc.le
      have h2 : (0 : ℝ) ≤ (maxDist : ℝ) * diagonal i0.rows i0.cols := mul_nonneg (by exact_mod_cast hd.le) hdiag
      nlinarith
    have hsum := sum_le_card_nsmul _ _ _ hle
    rw [nsmul_eq_mul] at hsum
    have hsum0 : 0 ≤ ∑ p ∈ (edgePixels i0).filter (fun p => r.o0 p.1 p.2 ≠ 0),
        euclid p.2 p.1 ((r.o0 p.1 p.2 - 1) / i0.rows) ((r.o0 p.1 p.2 - 1) % i0.rows) :=
      sum_nonneg fun p _ => Real.sqrt_nonneg _
    have hcard := card_filter_add_card_filter_not (s := edgePixels i0) (fun p => r.o0 p.1 p.2 = 0)
    have hcard' : (((edgePixels i0).filter fun p => r.o0 p.1 p.2 = 0).card : ℝ) +
        ((edgePixels i0).filter fun p => r.o0 p.1 p.2 ≠ 0).card = (edgePixels i0).card := by exact_mod_cast hcard
    have hcard1 : (((edgePixels i1).filter fun p => r.o1 p.1 p.2 = 0).card : ℝ) ≤ (edgePixels i1).card := by
      exact_mod_cast card_filter_le _ _
    have n0 : (0 : ℝ) ≤ ((edgePixels i0).filter fun p => r.o0 p.1 p.2 = 0).card := by positivity
    have n1 : (0 : ℝ) ≤ ((edgePixels i1).filter fun p => r.o1 p.1 p.2 = 0).card := by positivity
    rw [b]
    constructor
    · positivity
    · nlinarith
  · have hz : r.cost = 0 := by
      obtain ⟨hs1, hs2, hd, hoc, ho⟩ := corr_ok hr
      rw [someMatchable_iff ⟨hs1, hs2⟩, not_not] at hsome
      obtain ⟨m, hm, rfl⟩ := Option.map_eq_some_iff.mp ho.symm
      simp only [matchCost]
      rw [if_pos (announced_zero_iff.mpr hsome)]
    rw [hz]
    exact ⟨le_refl _, by positivity⟩

/-- C15 (finding): when no pair of edge pixels is within the tolerance the call returns cost 0 and no
match, although every edge pixel is unmatched: the outlier costs are not charged in that case. -/
theorem C15_nothing_matchable_costs_zero (fuel : Nat) (i0 i1 : Img ℚ) (maxDist oc : ℚ) (xs : Nat → ℚ)
    (pos : Nat) (hx : ∀ i, 0 ≤ xs i ∧ xs i < 1) (r : CorrOut)
    (hr : correspondPixels fuel i0 i1 maxDist oc xs pos = .ok (some r))
    (hnone : ¬ SomeMatchable i0 i1 maxDist) :
    r.cost = 0 ∧ ∀ y x, r.o0 y x = 0 ∧ r.o1 y x = 0 := by
  obtain ⟨hs1, hs2, hd, hoc, ho⟩ := corr_ok hr
  rw [someMatchable_iff ⟨hs1, hs2⟩, not_not] at hnone
  obtain ⟨m, hm, rfl⟩ := Option.map_eq_some_iff.mp ho.symm
  obtain ⟨hp1, hp2⟩ := match_pre hm
  have heq := matchEdgeMaps_eq (h := i0.rows) (w := i0.cols) (b1 := fun y x => i0.at_ y x ≠ 0)
    (b2 := fun y x => i1.at_ y x ≠ 0) (pos := pos) hx hp1 hp2 fuel
  simp only [hm, if_pos hnone, Option.some.injEq] at heq
  subst heq
  simp only [matchCost, if_pos (announced_zero_iff.mpr hnone), and_self, implies_true]

/-- Both situations of C15 occur: a single edge pixel compared with itself, and two far apart pixels. -/
example : SomeMatchable ⟨2, 2, fun y x => if y = 0 ∧ x = 0 then 1 else 0⟩
      ⟨2, 2, fun y x => if y = 0 ∧ x = 0 then 1 else 0⟩ (1 / 10) ∧
    ¬ SomeMatchable ⟨2, 2, fun y x => if y = 0 ∧ x = 0 then 1 else 0⟩
      ⟨2, 2, fun y x => if y = 1 ∧ x = 1 then 1 else 0⟩ (1 / 10) := by
  constructor
  · exact ⟨(0, 0), by simp [edgePixels], (0, 0), by simp [edgePixels], by norm_num [maxDist2]⟩
  · rintro ⟨⟨a, b⟩, hp, ⟨c, d⟩, hq, h⟩
    simp [edgePixels] at hp hq
    obtain ⟨-, rfl, rfl⟩ := hp
    obtain ⟨-, rfl, rfl⟩ := hq
    norm_num [maxDist2] at h

end EdgeEval.Props
