import Verif.Lemmas.Thin
import Mathlib.Logic.Function.Iterate

/-!
# The thinning loops
-/

namespace EdgeEval

/-- One full iteration (both sub-iterations) on pixel sets. -/
def ghIter (X : Set Pt) : Set Pt := ghSub true (ghSub false X)

theorem ghIter_sub (X : Set Pt) : ghIter X ⊆ X := (ghSub_sub _ _).trans (ghSub_sub _ _)

theorem ghIter_fix {X : Set Pt} : ghIter X = X ↔ ghSub false X = X ∧ ghSub true X = X := by
  constructor
  · intro h
    have h1 : ghSub false X = X := Set.Subset.antisymm (ghSub_sub _ _) (by
      intro p hp
      rw [← h] at hp
      exact ghSub_sub _ _ hp)
    refine ⟨h1, ?_⟩
    unfold ghIter at h
    rwa [h1] at h
  · rintro ⟨h1, h2⟩
    unfold ghIter
    rw [h1, h2]

/-- What is preserved from the input of a loop to its output. -/
structure ThinKept (x y : Img ℚ) : Prop where
  rows : y.rows = x.rows
  cols : y.cols = x.cols
  top : SameTopology (edgeSet x) (edgeSet y)

theorem ThinKept.refl (x : Img ℚ) : ThinKept x x := ⟨rfl, rfl, SameTopology.refl _⟩

theorem ThinKept.trans {x y z : Img ℚ} (h1 : ThinKept x y) (h2 : ThinKept y z) : ThinKept x z :=
  ⟨h2.rows.trans h1.rows, h2.cols.trans h1.cols, h1.top.trans h2.top⟩

theorem kept_applyLut (pr : Bool) (x : Img ℚ) : ThinKept x (applyLut (thinLut pr) x) :=
  ⟨rfl, rfl, by rw [edgeSet_applyLut]; exact ghSub_topology pr (edgeSet_finite x)⟩

theorem kept_bwSub (pr : Bool) (x : Img ℚ) : ThinKept x (bwSub (if pr then g123pLut else g123Lut) x) :=
  ⟨rfl, rfl, by rw [edgeSet_bwSub]; exact ghSub_topology pr (edgeSet_finite x)⟩

/-- Entries 0 and 1 only. -/
def IsBinary (x : Img ℚ) : Prop := ∀ i j, i < x.rows → j < x.cols → x.at_ i j = 0 ∨ x.at_ i j = 1

theorem binary_applyLut (lut : Nat → Bool) (x : Img ℚ) : IsBinary (applyLut lut x) := by
  intro i j _ _
  simp only [applyLut]
  split <;> simp

theorem binaryThinLoop_spec (m : Option Nat) : ∀ (fuel it : Nat) (x y : Img ℚ),
    binaryThinLoop m fuel it x = some y →
    ThinKept x y ∧ (y = x ∨ IsBinary y) ∧
    (∃ k, edgeSet y = ghIter^[k] (edgeSet x) ∧ (∀ b, m = some b → it ≤ b → it + k ≤ b) ∧
      ((m = none ∨ ∃ b, m = some b ∧ it + k < b) →
        ghSub false (edgeSet y) = edgeSet y ∨ ghSub true (edgeSet y) = edgeSet y)) := by
  intro fuel
  induction fuel with
  | zero => intro it x y h; simp [binaryThinLoop] at h
  | succ fuel ih =>
    intro it x y h
    rw [binaryThinLoop] at h
    by_cases hm : thinGoOn m it = true
    · rw [if_pos hm] at h
      have hit : ∀ b, m = some b → it < b := by
        rintro b rfl
        simpa [thinGoOn] using hm
      by_cases h1 : anyMutates thin1Lut x = true
      · rw [if_pos h1] at h
        simp only at h
        have kx := kept_applyLut false x
        have ex := edgeSet_applyLut false x
        simp only [thinLut, Bool.false_eq_true, if_false] at kx ex
        have bx := binary_applyLut thin1Lut x
        generalize applyLut thin1Lut x = x1 at h kx ex bx
        by_cases h2 : anyMutates thin2Lut x1 = true
        · rw [if_pos h2] at h
          have ky := kept_applyLut true x1
          have ey := edgeSet_applyLut true x1
          simp only [thinLut, if_true] at ky ey
          have b2 := binary_applyLut thin2Lut x1
          generalize applyLut thin2Lut x1 = x2 at h ky ey b2
          obtain ⟨k1, k2, k, k3, k4, k5⟩ := ih (it + 1) x2 y h
          have e2 : edgeSet x2 = ghIter (edgeSet x) := by rw [ey, ex]; rfl
          refine ⟨kx.trans (ky.trans k1), ?_, k + 1, ?_, ?_, ?_⟩
          · right
            rcases k2 with rfl | k2
            · exact b2
            · exact k2
          · rw [k3, e2, Function.iterate_succ_apply]
          · intro b hb _
            have := k4 b hb (hit b hb)
            omega
          · intro hmm
            apply k5
            rcases hmm with hmm | ⟨b, hb, hlt⟩
            · exact Or.inl hmm
            · exact Or.inr ⟨b, hb, by omega⟩
        · rw [if_neg h2] at h
          obtain rfl := Option.some.inj h
          have h2' : ghSub true (edgeSet x1) = edgeSet x1 := by
            by_contra hc
            apply h2
            have := anyMutates_iff true x1
            simp only [thinLut, if_true] at this
            exact this.mpr hc
          refine ⟨kx, Or.inr bx, 1, ?_, ?_, ?_⟩
          · rw [Function.iterate_one]
            unfold ghIter
            rw [← ex, h2']
          · intro b hb _
            have := hit b hb
            omega
          · intro _; right; exact h2'
      · rw [if_neg h1] at h
        obtain rfl := Option.some.inj h
        have h1' : ghSub false (edgeSet x) = edgeSet x := by
          by_contra hc
          apply h1
          have := anyMutates_iff false x
          simp only [thinLut, Bool.false_eq_true, if_false] at this
          exact this.mpr hc
        exact ⟨ThinKept.refl x, Or.inl rfl, 0, rfl, fun b hb hle => by omega, fun _ => Or.inl h1'⟩
    · rw [if_neg hm] at h
      obtain rfl := Option.some.inj h
      refine ⟨ThinKept.refl x, Or.inl rfl, 0, rfl, fun b hb hle => by omega, ?_⟩
      rintro (hn | ⟨b, hb, hlt⟩)
      · subst hn; simp [thinGoOn] at hm
      · subst hb; simp [thinGoOn] at hm; omega

theorem ncard_lt {X Y : Set Pt} (hX : X.Finite) (hs : Y ⊆ X) (hne : Y ≠ X) : Y.ncard < X.ncard :=
  Set.ncard_lt_ncard ⟨hs, fun h => hne (Set.Subset.antisymm hs h)⟩ hX

theorem binaryThinLoop_total (m : Option Nat) : ∀ (fuel it : Nat) (x : Img ℚ),
    (edgeSet x).ncard < fuel → (binaryThinLoop m fuel it x).isSome = true := by
  intro fuel
  induction fuel with
  | zero => intro it x h; omega
  | succ fuel ih =>
    intro it x hf
    rw [binaryThinLoop]
    split
    · split
      · rename_i h1
        simp only
        split
        · apply ih
          have ex := edgeSet_applyLut false x
          simp only [thinLut, Bool.false_eq_true, if_false] at ex
          have ey := edgeSet_applyLut true (applyLut thin1Lut x)
          simp only [thinLut, if_true] at ey
          have m1 := (anyMutates_iff false x)
          simp only [thinLut, Bool.false_eq_true, if_false] at m1
          have l1 := ncard_lt (edgeSet_finite x) (ghSub_sub false _) (m1.mp h1)
          rw [← ex] at l1
          have l2 : (edgeSet (applyLut thin2Lut (applyLut thin1Lut x))).ncard ≤ (edgeSet (applyLut thin1Lut x)).ncard := by
            rw [ey]
            exact Set.ncard_le_ncard (ghSub_sub true _) (edgeSet_finite _)
          omega
        · rfl
      · rfl
    · rfl

/-! ## bwmorph_thin -/

/-- One iteration of the `while` loop of `bwmorph_thin`. -/
def bwIter (x : Img ℚ) : Img ℚ := bwSub g123pLut (bwSub g123Lut x)

theorem edgeSet_bwIter (x : Img ℚ) : edgeSet (bwIter x) = ghIter (edgeSet x) := by
  have a := edgeSet_bwSub false x
  have b := edgeSet_bwSub true (bwSub g123Lut x)
  simp only [Bool.false_eq_true, if_false] at a
  simp only [if_true] at b
  unfold bwIter ghIter
  rw [b, a]

theorem kept_bwIter (x : Img ℚ) : ThinKept x (bwIter x) := by
  have a := kept_bwSub false x
  have b := kept_bwSub true (bwSub g123Lut x)
  simp only [Bool.false_eq_true, if_false] at a
  simp only [if_true] at b
  exact a.trans b

theorem bwSub_at (lut : List Nat) (x : Img ℚ) (i j : Nat) :
    (bwSub lut x).at_ i j = 0 ∨ (bwSub lut x).at_ i j = x.at_ i j := by
  simp only [bwSub]
  split <;> simp

theorem bwIter_at (x : Img ℚ) (i j : Nat) : (bwIter x).at_ i j = 0 ∨ (bwIter x).at_ i j = x.at_ i j := by
  unfold bwIter
  rcases bwSub_at g123pLut (bwSub g123Lut x) i j with h | h
  · exact Or.inl h
  · rw [h]; exact bwSub_at _ _ _ _

theorem bwIter_binary {x : Img ℚ} (h : IsBinary x) : IsBinary (bwIter x) := by
  intro i j hi hj
  rcases bwIter_at x i j with e | e
  · exact Or.inl e
  · rw [e]; exact h i j hi hj

theorem imgSum_eq (x : Img ℚ) : imgSum x = ∑ i ∈ Finset.range x.rows, ∑ j ∈ Finset.range x.cols, x.at_ i j := by
  unfold imgSum
  have inner : ∀ (n : Nat) (f : Nat → ℚ), ((List.range n).map f).sum = ∑ j ∈ Finset.range n, f j := by
    intro n f
    rw [← List.sum_toFinset f List.nodup_range]
    congr 1
    ext; simp
  rw [inner]
  apply Finset.sum_congr rfl
  intro i _
  rw [inner]

theorem bwIter_sum {x : Img ℚ} (hx : IsBinary x) : imgSum x = imgSum (bwIter x) ↔
    edgeSet (bwIter x) = edgeSet x := by
  have hr : (bwIter x).rows = x.rows := rfl
  have hc : (bwIter x).cols = x.cols := rfl
  rw [imgSum_eq, imgSum_eq, hr, hc]
  have hle : ∀ i ∈ Finset.range x.rows, ∀ j ∈ Finset.range x.cols, (bwIter x).at_ i j ≤ x.at_ i j := by
    intro i hi j hj
    rcases bwIter_at x i j with e | e
    · rw [e]
      rcases hx i j (Finset.mem_range.mp hi) (Finset.mem_range.mp hj) with h | h <;> rw [h]
      exact zero_le_one
    · rw [e]
  constructor
  · intro h
    have h' := h.symm
    rw [Finset.sum_eq_sum_iff_of_le (fun i hi => Finset.sum_le_sum (hle i hi))] at h'
    apply set_ext_nat (fun p => edgeSet_nat) (fun p => edgeSet_nat)
    intro i j
    rw [edgeSet_iff, edgeSet_iff, hr, hc]
    constructor
    · rintro ⟨hi, hj, hne⟩
      refine ⟨hi, hj, ?_⟩
      have := (Finset.sum_eq_sum_iff_of_le (hle i (Finset.mem_range.mpr hi))).mp (h' i (Finset.mem_range.mpr hi)) j
        (Finset.mem_range.mpr hj)
      rwa [← this]
    · rintro ⟨hi, hj, hne⟩
      refine ⟨hi, hj, ?_⟩
      have := (Finset.sum_eq_sum_iff_of_le (hle i (Finset.mem_range.mpr hi))).mp (h' i (Finset.mem_range.mpr hi)) j
        (Finset.mem_range.mpr hj)
      rwa [this]
  · intro h
    apply Finset.sum_congr rfl
    intro i hi
    apply Finset.sum_congr rfl
    intro j hj
    rw [Finset.mem_range] at hi hj
    rcases bwIter_at x i j with e | e
    · have := edgeSet_iff (bwIter x) i j
      rw [h, edgeSet_iff, hr, hc] at this
      rw [e]
      by_contra hne
      exact (this.mp ⟨hi, hj, hne⟩).2.2 e
    · exact e.symm

theorem iterate_fix {X : Set Pt} (h : ghIter X = X) (k : Nat) : ghIter^[k] X = X :=
  Function.iterate_fixed h k

theorem bwLoop_spec : ∀ (fuel : Nat) (n : ℤ) (x y : Img ℚ), IsBinary x → bwLoop fuel n x = some y →
    ThinKept x y ∧ IsBinary y ∧ (∀ i j, y.at_ i j = 0 ∨ y.at_ i j = x.at_ i j) ∧
    (0 ≤ n → edgeSet y = ghIter^[n.toNat] (edgeSet x)) ∧
    (n < 0 → ghIter (edgeSet y) = edgeSet y ∧ ∃ k, edgeSet y = ghIter^[k] (edgeSet x)) := by
  intro fuel
  induction fuel with
  | zero => intro n x y _ h; simp [bwLoop] at h
  | succ fuel ih =>
    intro n x y hx h
    rw [bwLoop] at h
    by_cases hn : n ≠ 0
    · rw [if_pos hn] at h
      change (if imgSum x = imgSum (bwIter x) then some (bwIter x) else bwLoop fuel (n - 1) (bwIter x)) = some y at h
      by_cases hs : imgSum x = imgSum (bwIter x)
      · rw [if_pos hs] at h
        obtain rfl := Option.some.inj h
        have hfix := (bwIter_sum hx).mp hs
        have hg : ghIter (edgeSet x) = edgeSet x := by rw [← edgeSet_bwIter, hfix]
        refine ⟨kept_bwIter x, bwIter_binary hx, bwIter_at x, ?_, ?_⟩
        · intro _
          rw [hfix, iterate_fix hg]
        · intro _
          exact ⟨by rw [hfix, hg], 0, hfix⟩
      · rw [if_neg hs] at h
        obtain ⟨k1, k2, k3, k4, k5⟩ := ih (n - 1) (bwIter x) y (bwIter_binary hx) h
        refine ⟨(kept_bwIter x).trans k1, k2, ?_, ?_, ?_⟩
        · intro i j
          rcases k3 i j with e | e
          · exact Or.inl e
          · rw [e]; exact bwIter_at x i j
        · intro h0
          have : n.toNat = (n - 1).toNat + 1 := by omega
          rw [this, Function.iterate_succ_apply, ← edgeSet_bwIter]
          exact k4 (by omega)
        · intro h0
          obtain ⟨a, k, b⟩ := k5 (by omega)
          exact ⟨a, k + 1, by rw [b, edgeSet_bwIter, Function.iterate_succ_apply]⟩
    · rw [if_neg hn] at h
      obtain rfl := Option.some.inj h
      have : n = 0 := by omega
      subst this
      exact ⟨ThinKept.refl x, hx, fun _ _ => Or.inr rfl, fun _ => rfl, fun h => by omega⟩

theorem bwLoop_total : ∀ (fuel : Nat) (n : ℤ) (x : Img ℚ), IsBinary x →
    (edgeSet x).ncard < fuel → (bwLoop fuel n x).isSome = true := by
  intro fuel
  induction fuel with
  | zero => intro n x _ h; omega
  | succ fuel ih =>
    intro n x hx hf
    rw [bwLoop]
    split
    · change (if imgSum x = imgSum (bwIter x) then some (bwIter x) else bwLoop fuel (n - 1) (bwIter x)).isSome = true
      split
      · rfl
      · rename_i hs
        apply ih _ _ (bwIter_binary hx)
        have hne := fun h => hs ((bwIter_sum hx).mpr h)
        have := ncard_lt (edgeSet_finite x) (kept_bwIter x).top.sub hne
        omega
    · rfl

theorem binary01_iff (x : Img ℚ) : bwmorphThin.binary01 x = true ↔ IsBinary x := by
  unfold bwmorphThin.binary01 IsBinary
  simp only [List.all_eq_true, List.mem_range, decide_eq_true_eq]
  constructor
  · intro h i j hi hj; exact h i hi j hj
  · intro h i hi j hj; exact h i j hi hj

/-- Pixels with at most one neighbour survive a sub-iteration. -/
theorem ghSub_end (pr : Bool) {X : Set Pt} {p : Pt} (hp : p ∈ X)
    (h : ∀ a b, a ∈ X → b ∈ X → Adj8 p a → Adj8 p b → a = b) : p ∈ ghSub pr X := by
  rw [mem_ghSub]
  refine ⟨hp, fun hd => ?_⟩
  obtain ⟨i, hi, j, hj, hij, bi, bj⟩ := delb_two _ _ _ _ _ _ _ _ _ hd
  rw [sel_bt X p hi] at bi
  rw [sel_bt X p hj] at bj
  have e := h _ _ bi bj (nbr_adj8 p i) (nbr_adj8 p j)
  obtain ⟨a, b⟩ := p
  rw [mem8] at hi hj
  rcases hi with rfl | rfl | rfl | rfl | rfl | rfl | rfl | rfl <;>
  rcases hj with rfl | rfl | rfl | rfl | rfl | rfl | rfl | rfl <;>
  first
    | (exact absurd hij (by decide))
    | (simp [nbrPt] at e <;> omega)

theorem ghIter_end {X : Set Pt} {p : Pt} (hp : p ∈ X)
    (h : ∀ a b, a ∈ X → b ∈ X → Adj8 p a → Adj8 p b → a = b) (k : Nat) : p ∈ ghIter^[k] X := by
  induction k generalizing X with
  | zero => exact hp
  | succ k ih =>
    rw [Function.iterate_succ_apply]
    apply ih
    · unfold ghIter
      apply ghSub_end true (ghSub_end false hp h)
      intro a b ha hb
      exact h a b (ghSub_sub _ _ ha) (ghSub_sub _ _ hb)
    · intro a b ha hb
      exact h a b (ghIter_sub _ ha) (ghIter_sub _ hb)

end EdgeEval
