import Verif.Lemmas.ThinTopo
import Mathlib.Data.Set.Card
import Mathlib.Order.Interval.Finset.Defs
import Mathlib.Data.Int.Interval
import Mathlib.Algebra.BigOperators.Group.List.Basic
import Mathlib.Algebra.Order.BigOperators.Group.Finset
import Mathlib.Data.Set.Finite.Lattice

/-!
# The sub-iterations of the model are the Guo–Hall ones
-/

namespace EdgeEval

theorem nb_eq (X : Set Pt) (p : Pt) (k : Nat) : nb X p k = (bt X p k).toNat := by
  unfold nb bt
  by_cases h : nbrPt p k ∈ X <;> simp [h]

theorem bt_nine (X : Set Pt) (p : Pt) : bt X p 9 = bt X p 1 := rfl

theorem condG1_iff (X : Set Pt) (p : Pt) : CondG1 X p ↔
    g1b (bt X p 1) (bt X p 2) (bt X p 3) (bt X p 4) (bt X p 5) (bt X p 6) (bt X p 7) (bt X p 8) = true := by
  unfold CondG1
  have e : ([1, 2, 3, 4] : List Nat).filter (fun i => nb X p (2 * i - 1) = 0 ∧ (nb X p (2 * i) = 1 ∨ nb X p (2 * i + 1) = 1))
      = ([1, 2, 3, 4] : List Nat).filter (fun i => !bt X p (2 * i - 1) && (bt X p (2 * i) || bt X p (2 * i + 1))) := by
    congr 1
    funext i
    simp only [nb_eq]
    cases bt X p (2 * i - 1) <;> cases bt X p (2 * i) <;> cases bt X p (2 * i + 1) <;> rfl
  rw [e]
  simp only [List.filter, Nat.reduceMul, Nat.reduceSub, Nat.reduceAdd, bt_nine]
  generalize bt X p 1 = b1
  generalize bt X p 2 = b2
  generalize bt X p 3 = b3
  generalize bt X p 4 = b4
  generalize bt X p 5 = b5
  generalize bt X p 6 = b6
  generalize bt X p 7 = b7
  generalize bt X p 8 = b8
  revert b1 b2 b3 b4 b5 b6 b7 b8
  decide +kernel

theorem condG2_iff (X : Set Pt) (p : Pt) : CondG2 X p ↔
    g2b (bt X p 1) (bt X p 2) (bt X p 3) (bt X p 4) (bt X p 5) (bt X p 6) (bt X p 7) (bt X p 8) = true := by
  unfold CondG2
  have e : ([1, 2, 3, 4] : List Nat).filter (fun k => nb X p (2 * k - 1) = 1 ∨ nb X p (2 * k) = 1)
      = ([1, 2, 3, 4] : List Nat).filter (fun k => bt X p (2 * k - 1) || bt X p (2 * k)) := by
    congr 1
    funext i
    simp only [nb_eq]
    cases bt X p (2 * i - 1) <;> cases bt X p (2 * i) <;> rfl
  have e' : ([1, 2, 3, 4] : List Nat).filter (fun k => nb X p (2 * k) = 1 ∨ nb X p (2 * k + 1) = 1)
      = ([1, 2, 3, 4] : List Nat).filter (fun k => bt X p (2 * k) || bt X p (2 * k + 1)) := by
    congr 1
    funext i
    simp only [nb_eq]
    cases bt X p (2 * i) <;> cases bt X p (2 * i + 1) <;> rfl
  rw [e, e']
  simp only [List.filter, Nat.reduceMul, Nat.reduceSub, Nat.reduceAdd, bt_nine]
  generalize bt X p 1 = b1
  generalize bt X p 2 = b2
  generalize bt X p 3 = b3
  generalize bt X p 4 = b4
  generalize bt X p 5 = b5
  generalize bt X p 6 = b6
  generalize bt X p 7 = b7
  generalize bt X p 8 = b8
  revert b1 b2 b3 b4 b5 b6 b7 b8
  decide +kernel

theorem condG3_iff (X : Set Pt) (p : Pt) : CondG3 X p ↔
    g3b false (bt X p 1) (bt X p 2) (bt X p 3) (bt X p 4) (bt X p 5) (bt X p 6) (bt X p 7) (bt X p 8) = true := by
  unfold CondG3
  simp only [nb_eq]
  generalize bt X p 1 = b1
  generalize bt X p 2 = b2
  generalize bt X p 3 = b3
  generalize bt X p 8 = b8
  cases b1 <;> cases b2 <;> cases b3 <;> cases b8 <;> simp [g3b]

theorem condG3'_iff (X : Set Pt) (p : Pt) : CondG3' X p ↔
    g3b true (bt X p 1) (bt X p 2) (bt X p 3) (bt X p 4) (bt X p 5) (bt X p 6) (bt X p 7) (bt X p 8) = true := by
  unfold CondG3'
  simp only [nb_eq]
  generalize bt X p 5 = b1
  generalize bt X p 6 = b2
  generalize bt X p 7 = b3
  generalize bt X p 4 = b8
  cases b1 <;> cases b2 <;> cases b3 <;> cases b8 <;> simp [g3b]

theorem delB_iff1 (X : Set Pt) (p : Pt) : (CondG1 X p ∧ CondG2 X p ∧ CondG3 X p) ↔ DelB false X p := by
  rw [condG1_iff, condG2_iff, condG3_iff]
  unfold DelB delb
  simp only [Bool.and_eq_true, and_assoc]

theorem delB_iff2 (X : Set Pt) (p : Pt) : (CondG1 X p ∧ CondG2 X p ∧ CondG3' X p) ↔ DelB true X p := by
  rw [condG1_iff, condG2_iff, condG3'_iff]
  unfold DelB delb
  simp only [Bool.and_eq_true, and_assoc]

/-- Sub-iteration 1 (`false`) or 2 (`true`) on pixel sets. -/
def ghSub (pr : Bool) (X : Set Pt) : Set Pt := if pr then guoHall2 X else guoHall1 X

theorem mem_ghSub {pr : Bool} {X : Set Pt} {p : Pt} : p ∈ ghSub pr X ↔ p ∈ X ∧ ¬ DelB pr X p := by
  cases pr
  · simp only [ghSub, guoHall1, Bool.false_eq_true, if_false, Set.mem_ofPred_eq, delB_iff1]
  · simp only [ghSub, guoHall2, if_true, Set.mem_ofPred_eq, delB_iff2]

theorem ghSub_topology (pr : Bool) {X : Set Pt} (hX : X.Finite) : SameTopology X (ghSub pr X) := by
  classical
  have hf : {p | p ∈ X ∧ DelB pr X p}.Finite := hX.subset fun p hp => hp.1
  have := remove_parallel pr (X := X) hf.toFinset (fun q hq => by simpa using hq)
  have e : X \ ↑hf.toFinset = ghSub pr X := by
    ext p
    rw [mem_ghSub]
    simp only [Set.Finite.coe_toFinset, Set.mem_sdiff, Set.mem_ofPred_eq]
    tauto
  rwa [e] at this

theorem ghSub_sub (pr : Bool) (X : Set Pt) : ghSub pr X ⊆ X := fun _ hp => (mem_ghSub.mp hp).1

/-! ## Images -/

theorem edgeSet_finite (x : Img ℚ) : (edgeSet x).Finite := by
  apply Set.Finite.subset ((Set.finite_Icc (0 : ℤ) x.rows).prod (Set.finite_Icc (0 : ℤ) x.cols))
  rintro ⟨a, b⟩ ⟨h1, h2, h3, h4, -⟩
  exact ⟨⟨h1, h2.le⟩, ⟨h3, h4.le⟩⟩

open Classical in
theorem padAt_eq (x : Img ℚ) (i j : Nat) :
    padAt x i j = (decide (((i : ℤ) - 1, (j : ℤ) - 1) ∈ edgeSet x)).toNat := by
  have t1 : ((i : ℤ) - 1).toNat = i - 1 := by omega
  have t2 : ((j : ℤ) - 1).toNat = j - 1 := by omega
  have hiff : ((i : ℤ) - 1, (j : ℤ) - 1) ∈ edgeSet x ↔
      (1 ≤ i ∧ i ≤ x.rows ∧ 1 ≤ j ∧ j ≤ x.cols) ∧ x.at_ (i - 1) (j - 1) ≠ 0 := by
    unfold edgeSet
    simp only [Set.mem_ofPred_eq, t1, t2]
    constructor
    · rintro ⟨a, b, c, d, e⟩
      exact ⟨by omega, e⟩
    · rintro ⟨⟨a, b, c, d⟩, e⟩
      exact ⟨by omega, by omega, by omega, by omega, e⟩
  unfold padAt
  by_cases h1 : 1 ≤ i ∧ i ≤ x.rows ∧ 1 ≤ j ∧ j ≤ x.cols
  · rw [if_pos h1]
    by_cases h2 : x.at_ (i - 1) (j - 1) ≠ 0
    · rw [if_pos h2, decide_eq_true (hiff.mpr ⟨h1, h2⟩)]; rfl
    · rw [if_neg h2, decide_eq_false (fun h => h2 (hiff.mp h).2)]; rfl
  · rw [if_neg h1, decide_eq_false (fun h => h1 (hiff.mp h).1)]; rfl

open Classical in
/-- Value of the centre bit. -/
noncomputable def ct (X : Set Pt) (p : Pt) : Bool := decide (p ∈ X)

theorem padAt_nbr (x : Img ℚ) (i j a b k : Nat) (h : nbrPt ((i : ℤ), (j : ℤ)) k = ((a : ℤ) - 1, (b : ℤ) - 1)) :
    padAt x a b = (bt (edgeSet x) ((i : ℤ), (j : ℤ)) k).toNat := by
  rw [padAt_eq]
  unfold bt
  rw [h]

theorem padAt_centre (x : Img ℚ) (i j : Nat) :
    padAt x (i + 1) (j + 1) = (ct (edgeSet x) ((i : ℤ), (j : ℤ))).toNat := by
  rw [padAt_eq]
  unfold ct
  have : (((i + 1 : Nat) : ℤ) - 1, ((j + 1 : Nat) : ℤ) - 1) = ((i : ℤ), (j : ℤ)) := by
    ext <;> simp
  rw [this]

theorem lutIndex_eq (x : Img ℚ) (i j : Nat) :
    let X := edgeSet x
    let p : Pt := ((i : ℤ), (j : ℤ))
    lutIndex x i j = idx9 (ct X p) (bt X p 1) (bt X p 2) (bt X p 3) (bt X p 4) (bt X p 5) (bt X p 6)
      (bt X p 7) (bt X p 8) := by
  unfold lutIndex idx9
  simp only
  rw [padAt_centre, padAt_nbr x i j i j 4, padAt_nbr x i j i (j + 1) 3, padAt_nbr x i j i (j + 2) 2,
    padAt_nbr x i j (i + 1) j 5, padAt_nbr x i j (i + 1) (j + 2) 1, padAt_nbr x i j (i + 2) j 6,
    padAt_nbr x i j (i + 2) (j + 1) 7, padAt_nbr x i j (i + 2) (j + 2) 8]
  all_goals (apply Prod.ext <;> simp only [nbrPt] <;> omega)

theorem constAt_eq (x : Img ℚ) (i j : Nat) : constAt x i j = padAt x i j := rfl

theorem correlateAt_eq (x : Img ℚ) (i j : Nat) :
    let X := edgeSet x
    let p : Pt := ((i : ℤ), (j : ℤ))
    correlateAt x i j = idx8 (ct X p) (bt X p 1) (bt X p 2) (bt X p 3) (bt X p 4) (bt X p 5) (bt X p 6)
      (bt X p 7) (bt X p 8) := by
  unfold correlateAt idx8
  simp only [constAt_eq]
  rw [padAt_centre, padAt_nbr x i j i j 4, padAt_nbr x i j i (j + 1) 3, padAt_nbr x i j i (j + 2) 2,
    padAt_nbr x i j (i + 1) j 5, padAt_nbr x i j (i + 1) (j + 2) 1, padAt_nbr x i j (i + 2) j 6,
    padAt_nbr x i j (i + 2) (j + 1) 7, padAt_nbr x i j (i + 2) (j + 2) 8]
  all_goals (apply Prod.ext <;> simp only [nbrPt] <;> omega)

/-- In-range points come from natural coordinates. -/
theorem edgeSet_iff (x : Img ℚ) (i j : Nat) :
    ((i : ℤ), (j : ℤ)) ∈ edgeSet x ↔ i < x.rows ∧ j < x.cols ∧ x.at_ i j ≠ 0 := by
  unfold edgeSet
  simp

theorem edgeSet_nat {x : Img ℚ} {p : Pt} (h : p ∈ edgeSet x) : ∃ i j : Nat, p = ((i : ℤ), (j : ℤ)) := by
  obtain ⟨a, b⟩ := p
  obtain ⟨h1, -, h3, -, -⟩ := h
  exact ⟨a.toNat, b.toNat, by simp at h1 h3 ⊢; omega⟩

/-- Two sets with natural points that agree on natural points are equal. -/
theorem set_ext_nat {X Y : Set Pt} (hX : ∀ p ∈ X, ∃ i j : Nat, p = ((i : ℤ), (j : ℤ)))
    (hY : ∀ p ∈ Y, ∃ i j : Nat, p = ((i : ℤ), (j : ℤ)))
    (h : ∀ i j : Nat, ((i : ℤ), (j : ℤ)) ∈ X ↔ ((i : ℤ), (j : ℤ)) ∈ Y) : X = Y := by
  ext p
  constructor
  · intro hp
    obtain ⟨i, j, rfl⟩ := hX p hp
    exact (h i j).mp hp
  · intro hp
    obtain ⟨i, j, rfl⟩ := hY p hp
    exact (h i j).mpr hp

/-- The table of sub-iteration 1 or 2. -/
def thinLut (pr : Bool) : Nat → Bool := if pr then thin2Lut else thin1Lut

theorem thinLut_index (pr : Bool) (x : Img ℚ) (i j : Nat) :
    (thinLut pr (lutIndex x i j) = true ↔ ((i : ℤ), (j : ℤ)) ∈ ghSub pr (edgeSet x)) ∧
    (identityLut (lutIndex x i j) = true ↔ ((i : ℤ), (j : ℤ)) ∈ edgeSet x) := by
  have h := lutIndex_eq x i j
  simp only at h
  have e := lut_entries (ct (edgeSet x) ((i : ℤ), (j : ℤ))) (bt (edgeSet x) ((i : ℤ), (j : ℤ)) 1)
    (bt (edgeSet x) ((i : ℤ), (j : ℤ)) 2) (bt (edgeSet x) ((i : ℤ), (j : ℤ)) 3)
    (bt (edgeSet x) ((i : ℤ), (j : ℤ)) 4) (bt (edgeSet x) ((i : ℤ), (j : ℤ)) 5)
    (bt (edgeSet x) ((i : ℤ), (j : ℤ)) 6) (bt (edgeSet x) ((i : ℤ), (j : ℤ)) 7)
    (bt (edgeSet x) ((i : ℤ), (j : ℤ)) 8)
  rw [← h] at e
  obtain ⟨e1, e2, e3, -⟩ := e
  rw [mem_ghSub]
  constructor
  · cases pr
    · simp only [thinLut, Bool.false_eq_true, if_false, e1, Bool.and_eq_true, Bool.not_eq_true', DelB, ct,
        decide_eq_true_eq, Bool.not_eq_true]
    · simp only [thinLut, if_true, e2, Bool.and_eq_true, Bool.not_eq_true', DelB, ct,
        decide_eq_true_eq, Bool.not_eq_true]
  · rw [e3]; simp [ct]

theorem edgeSet_applyLut (pr : Bool) (x : Img ℚ) : edgeSet (applyLut (thinLut pr) x) = ghSub pr (edgeSet x) := by
  apply set_ext_nat (fun p => edgeSet_nat) (fun p hp => edgeSet_nat (ghSub_sub pr _ hp))
  intro i j
  rw [edgeSet_iff, ← (thinLut_index pr x i j).1]
  simp only [applyLut]
  constructor
  · rintro ⟨-, -, h⟩
    by_contra hc
    rw [Bool.not_eq_true] at hc
    simp [hc] at h
  · intro h
    have := (edgeSet_iff x i j).mp (ghSub_sub pr _ ((thinLut_index pr x i j).1.mp h))
    exact ⟨this.1, this.2.1, by simp [h]⟩

theorem anyMutates_iff (pr : Bool) (x : Img ℚ) : anyMutates (thinLut pr) x = true ↔
    ghSub pr (edgeSet x) ≠ edgeSet x := by
  unfold anyMutates lutMutate
  simp only [List.any_eq_true, List.mem_range, bne_iff_ne]
  constructor
  · rintro ⟨i, hi, j, hj, h⟩ he
    have a := thinLut_index pr x i j
    rw [he] at a
    have := a.1.trans a.2.symm
    exact h (Bool.eq_iff_iff.mpr this)
  · intro h
    by_contra hc
    apply h
    apply set_ext_nat (fun p hp => edgeSet_nat (ghSub_sub pr _ hp)) (fun p => edgeSet_nat)
    intro i j
    constructor
    · intro hp; exact ghSub_sub pr _ hp
    · intro hp
      obtain ⟨hi, hj, -⟩ := (edgeSet_iff x i j).mp hp
      have e : thinLut pr (lutIndex x i j) = identityLut (lutIndex x i j) := by
        by_contra hne
        exact hc ⟨i, hi, j, hj, hne⟩
      have a := thinLut_index pr x i j
      rw [← a.1, e, a.2]
      exact hp

theorem edgeSet_bwSub (pr : Bool) (x : Img ℚ) :
    edgeSet (bwSub (if pr then g123pLut else g123Lut) x) = ghSub pr (edgeSet x) := by
  apply set_ext_nat (fun p => edgeSet_nat) (fun p hp => edgeSet_nat (ghSub_sub pr _ hp))
  intro i j
  rw [edgeSet_iff, mem_ghSub, edgeSet_iff]
  have h := correlateAt_eq x i j
  simp only at h
  have e := bwlut_entries (ct (edgeSet x) ((i : ℤ), (j : ℤ))) (bt (edgeSet x) ((i : ℤ), (j : ℤ)) 1)
    (bt (edgeSet x) ((i : ℤ), (j : ℤ)) 2) (bt (edgeSet x) ((i : ℤ), (j : ℤ)) 3)
    (bt (edgeSet x) ((i : ℤ), (j : ℤ)) 4) (bt (edgeSet x) ((i : ℤ), (j : ℤ)) 5)
    (bt (edgeSet x) ((i : ℤ), (j : ℤ)) 6) (bt (edgeSet x) ((i : ℤ), (j : ℤ)) 7)
    (bt (edgeSet x) ((i : ℤ), (j : ℤ)) 8)
  rw [← h] at e
  obtain ⟨e1, e2, -⟩ := e
  have key : ((if pr then g123pLut else g123Lut).getD (correlateAt x i j) 0 ≠ 0) ↔
      DelB pr (edgeSet x) ((i : ℤ), (j : ℤ)) := by
    cases pr
    · simpa [DelB] using e1
    · simpa [DelB] using e2
  simp only [bwSub]
  by_cases hd : DelB pr (edgeSet x) ((i : ℤ), (j : ℤ))
  · rw [if_pos (key.mpr hd)]; simp [hd]
  · rw [if_neg (fun h => hd (key.mp h))]; simp [hd]

end EdgeEval
