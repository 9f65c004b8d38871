import Verif.Lemmas.ThinLoop

/-!
# Property theorems C17–C20: thinning

`edgeSet x` is the set of non-zero pixels of an image, `guoHall1`/`guoHall2` the two Guo–Hall
sub-iterations, `SameTopology` equality of components and holes (all in `Spec/Topology.lean`).
-/

namespace EdgeEval.Props

open EdgeEval

/-- An image given by its rows. -/
def ofRows (l : List (List ℚ)) : Img ℚ := ⟨l.length, (l.headD []).length, fun i j => (l.getD i []).getD j 0⟩

/-- The rows of an image. -/
def toRows (x : Img ℚ) : List (List ℚ) :=
  (List.range x.rows).map fun (i : Nat) => (List.range x.cols).map fun (j : Nat) => x.at_ i j

theorem iter_eq : ghIter = guoHall2 ∘ guoHall1 := by
  funext X
  simp [ghIter, ghSub]

/-! ## C17 -/

/-- C17: `binary_thin` returns an image of the same shape whose edge pixels are edge pixels of the input;
it is the input itself or a 0/1 image. -/
theorem C17_binary_thin_subset (fuel : Nat) (x y : Img ℚ) (maxIter : Option Nat)
    (h : binaryThin fuel x maxIter = some y) :
    y.rows = x.rows ∧ y.cols = x.cols ∧ edgeSet y ⊆ edgeSet x ∧
      (y = x ∨ ∀ i j, i < y.rows → j < y.cols → y.at_ i j = 0 ∨ y.at_ i j = 1) := by
  obtain ⟨k, hv, -⟩ := binaryThinLoop_spec maxIter fuel 0 x y h
  exact ⟨k.rows, k.cols, k.top.sub, hv⟩

/-- C17: `binary_thin` terminates: one more loop entry than there are edge pixels suffices, with or without
an iteration limit. -/
theorem C17_binary_thin_terminates (x : Img ℚ) (maxIter : Option Nat) (fuel : Nat)
    (h : (edgeSet x).ncard + 1 ≤ fuel) : ∃ y, binaryThin fuel x maxIter = some y :=
  Option.isSome_iff_exists.mp (binaryThinLoop_total maxIter fuel 0 x h)

/-- C17: with limit `m`, `binary_thin` performs at most `m` iterations of the two sub-iterations, and stops
earlier only at an image that one of the two sub-iterations leaves alone. -/
theorem C17_binary_thin_limit (fuel : Nat) (x y : Img ℚ) (m : Nat)
    (h : binaryThin fuel x (some m) = some y) :
    ∃ k ≤ m, edgeSet y = (guoHall2 ∘ guoHall1)^[k] (edgeSet x) ∧
      (k < m → guoHall1 (edgeSet y) = edgeSet y ∨ guoHall2 (edgeSet y) = edgeSet y) := by
  obtain ⟨-, -, k, e, hk, hs⟩ := binaryThinLoop_spec (some m) fuel 0 x y h
  refine ⟨k, by simpa using hk m rfl (Nat.zero_le _), by rw [e, iter_eq], fun hlt => ?_⟩
  exact hs (Or.inr ⟨m, rfl, by omega⟩)

/-- C17: `bwmorph_thin` on a 0/1 image: same shape, only deletes, terminates. -/
theorem C17_bwmorph (x : Img ℚ) (nIter : Option Int)
    (hb : ∀ i j, i < x.rows → j < x.cols → x.at_ i j = 0 ∨ x.at_ i j = 1) (hn : ∀ k, nIter = some k → 0 < k)
    (fuel : Nat) (hf : (edgeSet x).ncard + 1 ≤ fuel) :
    ∃ y, bwmorphThin fuel x nIter = .ok (some y) ∧ y.rows = x.rows ∧ y.cols = x.cols ∧
      edgeSet y ⊆ edgeSet x ∧ ∀ i j, y.at_ i j = 0 ∨ y.at_ i j = x.at_ i j := by
  have run : ∀ n, ∃ y, bwLoop fuel n x = some y ∧ y.rows = x.rows ∧ y.cols = x.cols ∧
      edgeSet y ⊆ edgeSet x ∧ ∀ i j, y.at_ i j = 0 ∨ y.at_ i j = x.at_ i j := by
    intro n
    obtain ⟨y, hy⟩ := Option.isSome_iff_exists.mp (bwLoop_total fuel n x hb hf)
    obtain ⟨k, -, hv, -⟩ := bwLoop_spec fuel n x y hb hy
    exact ⟨y, hy, k.rows, k.cols, k.top.sub, hv⟩
  unfold bwmorphThin
  simp only [(binary01_iff x).mpr hb, if_true]
  cases nIter with
  | none =>
    obtain ⟨y, hy, r⟩ := run (-1)
    exact ⟨y, by simp [hy], r⟩
  | some k =>
    obtain ⟨y, hy, r⟩ := run k
    refine ⟨y, ?_, r⟩
    have := hn k rfl
    simp only
    rw [if_neg (by omega), hy]

/-- C17: `bwmorph_thin` raises (`ValueError`) exactly for a non-positive limit or an image with other values
than 0 and 1. -/
theorem C17_bwmorph_errors (fuel : Nat) (x : Img ℚ) (nIter : Option Int) (e : PyErr) :
    bwmorphThin fuel x nIter = .error e ↔ e = .valueError ∧
      ((∃ k, nIter = some k ∧ k ≤ 0) ∨ ∃ i j, i < x.rows ∧ j < x.cols ∧ x.at_ i j ≠ 0 ∧ x.at_ i j ≠ 1) := by
  have hb : bwmorphThin.binary01 x = true ↔
      ¬ ∃ i j, i < x.rows ∧ j < x.cols ∧ x.at_ i j ≠ 0 ∧ x.at_ i j ≠ 1 := by
    rw [binary01_iff]
    unfold IsBinary
    push Not
    constructor
    · intro h i j hi hj h0
      rcases h i j hi hj with h | h
      · exact absurd h h0
      · exact h
    · intro h i j hi hj
      by_cases h0 : x.at_ i j = 0
      · exact Or.inl h0
      · exact Or.inr (h i j hi hj h0)
  unfold bwmorphThin
  by_cases hx : bwmorphThin.binary01 x = true
  · simp only [hx, if_true]
    have hx' := hb.mp hx
    cases nIter with
    | none =>
      simp only [reduceCtorEq, false_and, exists_false, false_or, hx', and_false]
    | some k =>
      simp only [Option.some.injEq, exists_eq_left', hx', or_false]
      by_cases hk : k ≤ 0
      · rw [if_pos hk]; simp [hk, eq_comm]
      · rw [if_neg hk]; simp [hk]
  · simp only [hx, if_false, Bool.false_eq_true]
    have hx' : ∃ i j, i < x.rows ∧ j < x.cols ∧ x.at_ i j ≠ 0 ∧ x.at_ i j ≠ 1 := by
      by_contra hc; exact hx (hb.mpr hc)
    cases nIter with
    | none =>
      simp only [reduceCtorEq, false_and, exists_false, false_or, hx', and_true, Except.error.injEq, eq_comm]
    | some k =>
      simp only [hx', or_true, and_true, ite_self, Except.error.injEq, eq_comm]

/-- The documentation example of `bwmorph_thin` (a test of the model). -/
example : (bwmorphThin 5 (ofRows [[0,1,0,0,0,0,0],[0,0,1,1,1,0,0],[0,0,1,1,1,0,0],[0,0,1,1,1,0,0],
    [0,0,1,1,1,0,0],[0,0,1,1,1,0,0],[0,0,0,0,0,0,0]]) (some 1)).toOption.map (·.map toRows) =
    some (some [[0,1,0,0,0,0,0],[0,0,1,0,0,0,0],[0,0,0,1,0,0,0],[0,0,0,1,0,0,0],[0,0,0,1,0,0,0],
      [0,0,0,0,0,0,0],[0,0,0,0,0,0,0]]) := by decide +kernel

/-! ## C18 -/

/-- C18: the first sub-iteration of `binary_thin` and of `bwmorph_thin` both keep exactly the set pixels
that fail one of the Guo–Hall conditions G1, G2, G3; the second one those that fail G1, G2 or G3'. -/
theorem C18_sub_iterations (x : Img ℚ) :
    edgeSet (applyLut thin1Lut x) = guoHall1 (edgeSet x) ∧
    edgeSet (bwSub g123Lut x) = guoHall1 (edgeSet x) ∧
    edgeSet (applyLut thin2Lut x) = guoHall2 (edgeSet x) ∧
    edgeSet (bwSub g123pLut x) = guoHall2 (edgeSet x) := by
  have a := edgeSet_applyLut false x
  have b := edgeSet_bwSub false x
  have c := edgeSet_applyLut true x
  have d := edgeSet_bwSub true x
  simp only [thinLut, ghSub, Bool.false_eq_true, if_false, if_true] at a b c d
  exact ⟨a, b, c, d⟩

/-- C18: the table lookups never leave the tables: indices of the 512-entry tables are below 512 and those
of the 256-entry tables below 256 (so the uint8 correlation does not wrap). -/
theorem C18_indices_in_range (x : Img ℚ) (i j : Nat) :
    lutIndex x i j < 512 ∧ correlateAt x i j < 256 ∧ g123Lut.length = 256 ∧ g123pLut.length = 256 := by
  have h := lutIndex_eq x i j
  have h' := correlateAt_eq x i j
  simp only at h h'
  rw [h, h']
  exact ⟨(lut_entries _ _ _ _ _ _ _ _ _).2.2.2, (bwlut_entries _ _ _ _ _ _ _ _ _).2.2, by decide +kernel, by decide +kernel⟩

/-- C18: "some pixel mutates" is exactly "the sub-iteration changes the edge set". -/
theorem C18_mutation_test (x : Img ℚ) :
    (anyMutates thin1Lut x = true ↔ guoHall1 (edgeSet x) ≠ edgeSet x) ∧
    (anyMutates thin2Lut x = true ↔ guoHall2 (edgeSet x) ≠ edgeSet x) := by
  have a := anyMutates_iff false x
  have b := anyMutates_iff true x
  simp only [thinLut, ghSub, Bool.false_eq_true, if_false, if_true] at a b
  exact ⟨a, b⟩

/-- C18: a one-pixel-wide corner: the corner pixel is deleted by the second sub-iteration only. -/
example : toRows (applyLut thin1Lut (ofRows [[1, 1], [1, 0]])) = [[1, 1], [1, 0]] ∧
    toRows (applyLut thin2Lut (ofRows [[1, 1], [1, 0]])) = [[0, 1], [1, 0]] := by decide +kernel

/-! ## C19 -/

/-- C19: `binary_thin`, with or without an iteration limit, preserves the topology: components of the
foreground (8-adjacency) and of the background (4-adjacency) correspond one to one. -/
theorem C19_binary_thin_topology (fuel : Nat) (x y : Img ℚ) (maxIter : Option Nat)
    (h : binaryThin fuel x maxIter = some y) : SameTopology (edgeSet x) (edgeSet y) :=
  (binaryThinLoop_spec maxIter fuel 0 x y h).1.top

theorem bw_run {fuel : Nat} {x y : Img ℚ} {nIter : Option Int}
    (h : bwmorphThin fuel x nIter = .ok (some y)) :
    IsBinary x ∧ ∃ n : Int, bwLoop fuel n x = some y ∧ (nIter = none → n = -1) ∧ (∀ k, nIter = some k → n = k ∧ 0 < k) := by
  unfold bwmorphThin at h
  by_cases hx : bwmorphThin.binary01 x = true
  · simp only [hx, if_true] at h
    refine ⟨(binary01_iff x).mp hx, ?_⟩
    cases nIter with
    | none =>
      simp only [Except.ok.injEq] at h
      exact ⟨-1, h, fun _ => rfl, by simp⟩
    | some k =>
      simp only at h
      by_cases hk : k ≤ 0
      · rw [if_pos hk] at h; simp at h
      · rw [if_neg hk] at h
        simp only [Except.ok.injEq] at h
        refine ⟨k, h, by simp, ?_⟩
        intro k' hk'
        obtain rfl := Option.some.inj hk'
        exact ⟨rfl, by omega⟩
  · simp only [hx, if_false, Bool.false_eq_true] at h
    cases nIter with
    | none => simp at h
    | some k => simp only [ite_self] at h; simp at h

/-- C19: the same for `bwmorph_thin`. -/
theorem C19_bwmorph_topology (fuel : Nat) (x y : Img ℚ) (nIter : Option Int)
    (h : bwmorphThin fuel x nIter = .ok (some y)) : SameTopology (edgeSet x) (edgeSet y) := by
  obtain ⟨hb, n, hn, -⟩ := bw_run h
  exact (bwLoop_spec fuel n x y hb hn).1.top

/-- C19: isolated pixels and end points (at most one 8-neighbour) survive thinning. -/
theorem C19_end_points_survive (fuel : Nat) (x y : Img ℚ) (p : Pt) (hp : p ∈ edgeSet x)
    (hend : ∀ a b, a ∈ edgeSet x → b ∈ edgeSet x → Adj8 p a → Adj8 p b → a = b) :
    (∀ maxIter, binaryThin fuel x maxIter = some y → p ∈ edgeSet y) ∧
    (∀ nIter, bwmorphThin fuel x nIter = .ok (some y) → p ∈ edgeSet y) := by
  constructor
  · intro m h
    obtain ⟨-, -, k, e, -⟩ := binaryThinLoop_spec m fuel 0 x y h
    rw [e]; exact ghIter_end hp hend k
  · intro m h
    obtain ⟨hb, n, hn, -⟩ := bw_run h
    obtain ⟨-, -, -, h1, h2⟩ := bwLoop_spec fuel n x y hb hn
    by_cases h0 : 0 ≤ n
    · rw [h1 h0]; exact ghIter_end hp hend _
    · obtain ⟨-, k, e⟩ := h2 (by omega)
      rw [e]; exact ghIter_end hp hend k

/-- C19: a non-empty image stays non-empty (and an empty one empty). -/
theorem C19_nonempty (fuel : Nat) (x y : Img ℚ) :
    (∀ maxIter, binaryThin fuel x maxIter = some y → ((edgeSet y).Nonempty ↔ (edgeSet x).Nonempty)) ∧
    (∀ nIter, bwmorphThin fuel x nIter = .ok (some y) → ((edgeSet y).Nonempty ↔ (edgeSet x).Nonempty)) := by
  have key : SameTopology (edgeSet x) (edgeSet y) → ((edgeSet y).Nonempty ↔ (edgeSet x).Nonempty) := by
    intro t
    constructor
    · rintro ⟨p, hp⟩; exact ⟨p, t.sub hp⟩
    · rintro ⟨p, hp⟩
      obtain ⟨q, hq, -⟩ := t.fgKeep p hp
      exact ⟨q, hq⟩
  exact ⟨fun m h => key (C19_binary_thin_topology fuel x y m h),
    fun n h => key (C19_bwmorph_topology fuel x y n h)⟩

/-- A ring with a thick side is thinned and keeps its hole (the hypotheses of the C17–C19 theorems are met). -/
example : (binaryThin 9 (ofRows [[1,1,1,1],[1,0,0,1],[1,1,1,1],[1,1,1,1]]) (some 1)).map toRows =
    some [[0,1,1,0],[1,0,0,1],[1,0,1,0],[0,1,1,0]] := by decide +kernel

/-- The end of a horizontal line meets the hypotheses of `C19_end_points_survive`. -/
example : ((0, 0) : Pt) ∈ edgeSet (ofRows [[1, 1, 1]]) ∧
    ∀ a b, a ∈ edgeSet (ofRows [[1, 1, 1]]) → b ∈ edgeSet (ofRows [[1, 1, 1]]) → Adj8 (0, 0) a → Adj8 (0, 0) b →
      a = b := by
  have key : ∀ a ∈ edgeSet (ofRows [[1, 1, 1]]), Adj8 (0, 0) a → a = ((0, 1) : Pt) := by
    rintro ⟨a, b⟩ ⟨h1, h2, h3, h4, -⟩ ⟨hne, h5, h6⟩
    simp only [ofRows, List.length_cons, List.length_nil, List.headD_cons] at h2 h4
    simp only [abs_le] at h5 h6
    simp only [ne_eq, Prod.mk.injEq, not_and] at hne
    have ha : a = 0 := by simp at h1 h2; omega
    subst ha
    have : b ≠ 0 := fun h => hne rfl h.symm
    have : b = 1 := by simp at h3 h4; omega
    rw [this]
  refine ⟨by simp [edgeSet, ofRows], ?_⟩
  intro a b ha hb h1 h2
  rw [key a ha h1, key b hb h2]

/-! ## C20 -/

/-- C20: without an iteration limit `bwmorph_thin` returns a fixpoint of both sub-iterations, obtained by
iterating them; with limit `k` it performs exactly `k` iterations. -/
theorem C20_bwmorph_result (fuel : Nat) (x y : Img ℚ) :
    (bwmorphThin fuel x none = .ok (some y) →
      guoHall1 (edgeSet y) = edgeSet y ∧ guoHall2 (edgeSet y) = edgeSet y ∧
        ∃ k, edgeSet y = (guoHall2 ∘ guoHall1)^[k] (edgeSet x)) ∧
    (∀ k : Nat, bwmorphThin fuel x (some k) = .ok (some y) →
      edgeSet y = (guoHall2 ∘ guoHall1)^[k] (edgeSet x)) := by
  constructor
  · intro h
    obtain ⟨hb, n, hn, h1, -⟩ := bw_run h
    have hn1 := h1 rfl
    subst hn1
    obtain ⟨-, -, -, -, h2⟩ := bwLoop_spec fuel _ x y hb hn
    obtain ⟨hf, k, e⟩ := h2 (by omega)
    rw [ghIter_fix] at hf
    exact ⟨hf.1, hf.2, k, by rw [e, iter_eq]⟩
  · intro k h
    obtain ⟨hb, n, hn, -, h1⟩ := bw_run h
    obtain ⟨rfl, -⟩ := h1 k rfl
    obtain ⟨-, -, -, h2, -⟩ := bwLoop_spec fuel _ x y hb hn
    rw [h2 (by omega), iter_eq]
    simp

/-- C20: a converged `bwmorph_thin` result is unchanged by another call (with any iteration limit). -/
theorem C20_bwmorph_idempotent (fuel fuel' : Nat) (x y z : Img ℚ) (nIter : Option Int)
    (h : bwmorphThin fuel x none = .ok (some y)) (h' : bwmorphThin fuel' y nIter = .ok (some z)) :
    edgeSet z = edgeSet y := by
  obtain ⟨f1, f2, -⟩ := (C20_bwmorph_result fuel x y).1 h
  have hf : ghIter (edgeSet y) = edgeSet y := ghIter_fix.mpr ⟨f1, f2⟩
  obtain ⟨hb, n, hn, -⟩ := bw_run h'
  obtain ⟨-, -, -, h1, h2⟩ := bwLoop_spec fuel' n y z hb hn
  by_cases h0 : 0 ≤ n
  · rw [h1 h0, iterate_fix hf]
  · obtain ⟨-, k, e⟩ := h2 (by omega)
    rw [e, iterate_fix hf]

/-- C20: without an iteration limit, `binary_thin` returns an iterate of the two sub-iterations that at
least one of them leaves alone. -/
theorem C20_binary_thin_result (fuel : Nat) (x y : Img ℚ) (h : binaryThin fuel x none = some y) :
    (guoHall1 (edgeSet y) = edgeSet y ∨ guoHall2 (edgeSet y) = edgeSet y) ∧
      ∃ k, edgeSet y = (guoHall2 ∘ guoHall1)^[k] (edgeSet x) := by
  obtain ⟨-, -, k, e, -, hs⟩ := binaryThinLoop_spec none fuel 0 x y h
  exact ⟨hs (Or.inl rfl), k, by rw [e, iter_eq]⟩

/-- C20: the two implementations differ only in how early they stop: running `bwmorph_thin` on the result of
`binary_thin` gives the result of `bwmorph_thin` on the input; in particular the latter is a subset of the
former. -/
theorem C20_bwmorph_after_binary_thin (f1 f2 f3 : Nat) (x y z w : Img ℚ)
    (h1 : binaryThin f1 x none = some y) (h2 : bwmorphThin f2 y none = .ok (some z))
    (h3 : bwmorphThin f3 x none = .ok (some w)) :
    edgeSet z = edgeSet w ∧ edgeSet w ⊆ edgeSet y := by
  obtain ⟨-, k, ey⟩ := C20_binary_thin_result f1 x y h1
  obtain ⟨a1, a2, kz, ez⟩ := (C20_bwmorph_result f2 y z).1 h2
  obtain ⟨b1, b2, kw, ew⟩ := (C20_bwmorph_result f3 x w).1 h3
  rw [← iter_eq] at ey ez ew
  have fz : ghIter (edgeSet z) = edgeSet z := ghIter_fix.mpr ⟨a1, a2⟩
  have fw : ghIter (edgeSet w) = edgeSet w := ghIter_fix.mpr ⟨b1, b2⟩
  rw [ey, ← Function.iterate_add_apply] at ez
  have e1 : ghIter^[kz + k + kw] (edgeSet x) = edgeSet z := by
    rw [Nat.add_comm, Function.iterate_add_apply, ← ez, iterate_fix fz]
  have e2 : ghIter^[kz + k + kw] (edgeSet x) = edgeSet w := by
    rw [Function.iterate_add_apply, ← ew, iterate_fix fw]
  have e : edgeSet z = edgeSet w := by rw [← e1, e2]
  refine ⟨e, ?_⟩
  rw [← e]
  exact (C19_bwmorph_topology f2 y z none h2).sub

/-- C20 (finding): the two implementations disagree: `binary_thin` stops as soon as the first sub-iteration
has nothing to delete, even if the second one has. -/
theorem C20_implementations_disagree :
    ∃ x : Img ℚ, (binaryThin 4 x none).map toRows = some [[1, 1], [1, 0]] ∧
      (bwmorphThin 4 x none).toOption.map (·.map toRows) = some (some [[0, 1], [1, 0]]) :=
  ⟨ofRows [[1, 1], [1, 0]], by decide +kernel, by decide +kernel⟩

/-- C20 (finding): `binary_thin` is not idempotent: it also stops when the second sub-iteration has nothing to
delete, although the first one would. -/
theorem C20_binary_thin_not_idempotent :
    ∃ x y z : Img ℚ, binaryThin 7 x none = some y ∧ binaryThin 5 y none = some z ∧
      toRows y = [[1, 0, 0], [0, 1, 0], [1, 1, 0]] ∧ toRows z = [[1, 0, 0], [0, 1, 0], [1, 0, 0]] :=
  ⟨ofRows [[1, 0, 0], [0, 1, 1], [1, 1, 1]], _, _, rfl, rfl, by decide +kernel, by decide +kernel⟩

end EdgeEval.Props
