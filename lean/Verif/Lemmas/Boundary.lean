import Verif.Spec.Boundary
import Verif.Spec.Labels
import Verif.Lemmas.Rounding
import Verif.Lemmas.Digits
import Mathlib.Order.ConditionallyCompleteLattice.Finset
import Mathlib.Data.Set.Finite.Lattice
import Mathlib.Data.Finset.Sort

/-!
# Distance transforms and boundaries
-/

namespace EdgeEval

open Spec

theorem pdist_pos {p q : Px} (h : p ≠ q) : 0 < pdist p q := by
  apply Real.sqrt_pos.mpr
  by_contra hc
  have h1 : ((p.1 : ℝ) - q.1) ^ 2 = 0 := by nlinarith [sq_nonneg ((p.1 : ℝ) - q.1), sq_nonneg ((p.2 : ℝ) - q.2)]
  have h2 : ((p.2 : ℝ) - q.2) ^ 2 = 0 := by nlinarith [sq_nonneg ((p.1 : ℝ) - q.1), sq_nonneg ((p.2 : ℝ) - q.2)]
  have h1' : (p.1 : ℝ) = q.1 := by have := pow_eq_zero_iff (two_ne_zero) |>.mp h1; linarith
  have h2' : (p.2 : ℝ) = q.2 := by have := pow_eq_zero_iff (two_ne_zero) |>.mp h2; linarith
  exact h (Prod.ext (by exact_mod_cast h1') (by exact_mod_cast h2'))

theorem pdist_nonneg (p q : Px) : 0 ≤ pdist p q := Real.sqrt_nonneg _

theorem pixels_finite (rows cols : Nat) : (pxSet rows cols).Finite := by
  refine Set.Finite.subset ((Finset.range rows ×ˢ Finset.range cols : Finset Px).finite_toSet) ?_
  rintro ⟨a, b⟩ h
  exact Finset.mem_coe.mpr (Finset.mem_product.mpr ⟨Finset.mem_range.mpr h.1, Finset.mem_range.mpr h.2⟩)

open Classical in
/-- An exact distance transform exists. -/
noncomputable def refDT (R : ℝ) : DT := fun rows cols f i j =>
  if f i j = false then 0
  else if ∃ q ∈ pxSet rows cols, f q.1 q.2 = false then
    sInf {d | ∃ q ∈ pxSet rows cols, f q.1 q.2 = false ∧ d = pdist (i, j) q}
  else R + 1

theorem leastDist_exists (rows cols : Nat) (f : Nat → Nat → Bool) (p : Px)
    (hex : ∃ q ∈ pxSet rows cols, f q.1 q.2 = false) :
    IsLeastDist rows cols f p (sInf {d | ∃ q ∈ pxSet rows cols, f q.1 q.2 = false ∧ d = pdist p q}) := by
  have hfin : {d | ∃ q ∈ pxSet rows cols, f q.1 q.2 = false ∧ d = pdist p q}.Finite := by
    refine ((pixels_finite rows cols).image (fun q => pdist p q)).subset ?_
    rintro d ⟨q, hq, _, rfl⟩
    exact ⟨q, hq, rfl⟩
  have hne : {d | ∃ q ∈ pxSet rows cols, f q.1 q.2 = false ∧ d = pdist p q}.Nonempty := by
    obtain ⟨q, hq, hf⟩ := hex
    exact ⟨_, q, hq, hf, rfl⟩
  exact ⟨hne.csInf_mem hfin, fun d hd => csInf_le hfin.bddBelow hd⟩

theorem refDT_zero (R : ℝ) (rows cols : Nat) (f : Nat → Nat → Bool) (i j : Nat) (hf : f i j = false) :
    refDT R rows cols f i j = 0 := by simp [refDT, hf]

theorem refDT_least (R : ℝ) (rows cols : Nat) (f : Nat → Nat → Bool) (i j : Nat) (m : ℝ) (hf : f i j = true)
    (hm : IsLeastDist rows cols f (i, j) m) : refDT R rows cols f i j = m := by
  have hex : ∃ q ∈ pxSet rows cols, f q.1 q.2 = false := by
    obtain ⟨⟨q, hq, hfq, -⟩, -⟩ := hm
    exact ⟨q, hq, hfq⟩
  simp only [refDT, hf, Bool.true_eq_false, if_false, if_pos hex]
  exact (leastDist_exists rows cols f (i, j) hex).unique hm

theorem refDT_far (R : ℝ) (rows cols : Nat) (f : Nat → Nat → Bool) (i j : Nat) (hf : f i j = true)
    (hall : ∀ q ∈ pxSet rows cols, f q.1 q.2 = true) : refDT R rows cols f i j = R + 1 := by
  have : ¬ ∃ q ∈ pxSet rows cols, f q.1 q.2 = false := by
    rintro ⟨q, hq, h⟩; rw [hall q hq] at h; cases h
  simp only [refDT, hf, Bool.true_eq_false, if_false, if_neg this]

theorem cutRadius_iff (r : Int) (d : ℝ) : cutRadius r d = true ↔ 0 < d ∧ d ≤ r := by
  unfold cutRadius
  rw [decide_eq_true_eq]
  split
  · next h => simp; intro _; linarith
  · next h => push Not at h; exact ⟨fun h' => ⟨h', h⟩, fun h' => h'.1⟩

/-- The distance of two pixels is the square root of a whole number. -/
theorem pdist_sqrt (p q : Px) : ∃ a : ℕ, pdist p q = Real.sqrt a := by
  refine ⟨(((p.1 : ℤ) - q.1) ^ 2 + ((p.2 : ℤ) - q.2) ^ 2).toNat, ?_⟩
  unfold pdist
  congr 1
  have h : ((((p.1 : ℤ) - q.1) ^ 2 + ((p.2 : ℤ) - q.2) ^ 2).toNat : ℤ) = ((p.1 : ℤ) - q.1) ^ 2 + ((p.2 : ℤ) - q.2) ^ 2 :=
    Int.toNat_of_nonneg (by positivity)
  have h' : (((((p.1 : ℤ) - q.1) ^ 2 + ((p.2 : ℤ) - q.2) ^ 2).toNat : ℤ) : ℝ) =
    (((p.1 : ℤ) - q.1) ^ 2 + ((p.2 : ℤ) - q.2) ^ 2 : ℤ) := by rw [h]
  rw [Int.cast_natCast] at h'
  rw [h']
  push_cast
  rfl

section
variable {lib : DTLib} {c : Bool} {qual : Int} {r : ℕ} (H : SoundDT lib c qual (r : ℝ)) {rows cols : Nat}
  {f : Nat → Nat → Bool} {p : Px} (hp : p ∈ pxSet rows cols)
include H

theorem Spec.SoundDT.zero (hp : p ∈ pxSet rows cols) (hf : f p.1 p.2 = false) :
    usedDT lib c qual rows cols f p.1 p.2 = 0 := by
  obtain ⟨fl, u, hfl, hadd, hz, hl, hfar⟩ := H
  exact hz _ _ _ _ _ hp.1 hp.2 hf

/-- The two cases of a set pixel. -/
theorem Spec.SoundDT.cases (hp : p ∈ pxSet rows cols) :
    ∃ fl u, RoundsFine fl u (r : ℝ) ∧ (∀ x y, usedAdd lib c x y = fl (x + y)) ∧
      (∀ g : Nat → Nat → Bool, g p.1 p.2 = true →
      ((∃ q ∈ pxSet rows cols, g q.1 q.2 = false ∧ ∃ a : ℕ, a ≠ 0 ∧ pdist p q = Real.sqrt a ∧
        (∀ q' ∈ pxSet rows cols, g q'.1 q'.2 = false → pdist p q ≤ pdist p q') ∧
        usedDT lib c qual rows cols g p.1 p.2 = fl (Real.sqrt a)) ∨
      ((∀ q ∈ pxSet rows cols, g q.1 q.2 = true) ∧ (r : ℝ) + 1 ≤ usedDT lib c qual rows cols g p.1 p.2))) := by
  obtain ⟨fl, u, hfl, hadd, hz, hl, hfar⟩ := H
  refine ⟨fl, u, hfl, hadd, ?_⟩
  intro g hg
  by_cases hex : ∃ q ∈ pxSet rows cols, g q.1 q.2 = false
  · left
    have hm := leastDist_exists rows cols g p hex
    obtain ⟨q, hq, hgq, hd⟩ := hm.1
    obtain ⟨a, ha⟩ := pdist_sqrt p q
    refine ⟨q, hq, hgq, a, ?_, ha, ?_, ?_⟩
    · rintro rfl
      have : p ≠ q := by rintro rfl; rw [hg] at hgq; cases hgq
      have := pdist_pos this
      rw [ha] at this
      simp at this
    · intro q' hq' hgq'
      rw [← hd]
      exact hm.2 ⟨q', hq', hgq', rfl⟩
    · rw [← ha, ← hd]
      exact hl _ _ _ _ _ _ hp.1 hp.2 hg hm
  · right
    have : ∀ q ∈ pxSet rows cols, g q.1 q.2 = true := by
      intro q hq
      by_contra h
      exact hex ⟨q, hq, by simpa using h⟩
    exact ⟨this, hfar _ _ _ _ _ hp.1 hp.2 hg this⟩

theorem Spec.SoundDT.le_iff (hp : p ∈ pxSet rows cols) (hf : f p.1 p.2 = true) :
    usedDT lib c qual rows cols f p.1 p.2 ≤ r ↔ ∃ q ∈ pxSet rows cols, f q.1 q.2 = false ∧ pdist p q ≤ r := by
  obtain ⟨fl, u, hfl, -, hc⟩ := H.cases hp
  rcases hc f hf with ⟨q, hq, hfq, a, -, ha, hmin, he⟩ | ⟨hall, hbig⟩
  · rw [he, hfl.sqrt_le, ← ha]
    exact ⟨fun h => ⟨q, hq, hfq, h⟩, fun ⟨q', hq', hfq', h⟩ => (hmin q' hq' hfq').trans h⟩
  · constructor
    · intro h; linarith
    · rintro ⟨q, hq, hfq, -⟩; rw [hall q hq] at hfq; cases hfq

theorem Spec.SoundDT.pos (hp : p ∈ pxSet rows cols) (hf : f p.1 p.2 = true) :
    1 ≤ usedDT lib c qual rows cols f p.1 p.2 := by
  obtain ⟨fl, u, hfl, -, hc⟩ := H.cases hp
  have hr0 : (0 : ℝ) ≤ r := by positivity
  rcases hc f hf with ⟨q, hq, hfq, a, ha0, ha, hmin, he⟩ | ⟨hall, hbig⟩
  · rw [he]
    have one : fl 1 = 1 := by simpa using hfl.whole 1 (by push_cast; linarith)
    rw [← one]
    apply hfl.mono
    rw [Real.one_le_sqrt]
    exact_mod_cast Nat.one_le_iff_ne_zero.mpr ha0
  · linarith

theorem Spec.SoundDT.add_pos {x y : ℝ} (hx : 0 ≤ x) (hy : 0 ≤ y) (h : 1 ≤ x ∨ 1 ≤ y) : 0 < usedAdd lib c x y := by
  obtain ⟨fl, u, hfl, hadd, -⟩ := H
  have one : fl 1 = 1 := by simpa using hfl.whole 1 (by push_cast; linarith [(by positivity : (0 : ℝ) ≤ r)])
  rw [hadd]
  refine lt_of_lt_of_le one_pos ?_
  rw [← one]
  apply hfl.mono
  rcases h with h | h <;> linarith

theorem Spec.SoundDT.add_le_iff (hp : p ∈ pxSet rows cols) {g : Nat → Nat → Bool} (hf : f p.1 p.2 = true)
    (hg : g p.1 p.2 = true) :
    usedAdd lib c (usedDT lib c qual rows cols g p.1 p.2) (usedDT lib c qual rows cols f p.1 p.2) ≤ r ↔
      ∃ q ∈ pxSet rows cols, f q.1 q.2 = false ∧ ∃ q' ∈ pxSet rows cols, g q'.1 q'.2 = false ∧
        pdist p q + pdist p q' ≤ r := by
  have pf := H.pos hp hf
  have pg := H.pos hp hg
  obtain ⟨fl, u, hfl, hadd, hc⟩ := H.cases hp
  have hr0 : (0 : ℝ) ≤ r := by positivity
  rw [hadd]
  rcases hc f hf with ⟨q, hq, hfq, a, -, ha, hmin, he⟩ | ⟨hall, hbig⟩
  · rcases hc g hg with ⟨q', hq', hgq', b, -, hb, hmin', he'⟩ | ⟨hall, hbig⟩
    · rw [he, he', hfl.add_sqrt_le, ← ha, ← hb]
      constructor
      · intro h; exact ⟨q, hq, hfq, q', hq', hgq', by linarith⟩
      · rintro ⟨q1, hq1, hfq1, q2, hq2, hgq2, h⟩
        have h1 := hmin q1 hq1 hfq1
        have h2 := hmin' q2 hq2 hgq2
        linarith
    · refine iff_of_false (not_le.mpr (hfl.far hr0 (by linarith))) ?_
      rintro ⟨-, -, -, q', hq', hgq', -⟩
      rw [hall q' hq'] at hgq'; cases hgq'
  · refine iff_of_false (not_le.mpr (hfl.far hr0 (by linarith))) ?_
    rintro ⟨q', hq', hgq', -⟩
    rw [hall q' hq'] at hgq'; cases hgq'

/-- One summand is 0. -/
theorem Spec.SoundDT.add_zero_le_iff (hp : p ∈ pxSet rows cols) (hf : f p.1 p.2 = true) :
    (usedAdd lib c 0 (usedDT lib c qual rows cols f p.1 p.2) ≤ r ↔
      ∃ q ∈ pxSet rows cols, f q.1 q.2 = false ∧ pdist p q ≤ r) ∧
    (usedAdd lib c (usedDT lib c qual rows cols f p.1 p.2) 0 ≤ r ↔
      ∃ q ∈ pxSet rows cols, f q.1 q.2 = false ∧ pdist p q ≤ r) := by
  obtain ⟨fl, u, hfl, hadd, hc⟩ := H.cases hp
  have hr0 : (0 : ℝ) ≤ r := by positivity
  rw [hadd, hadd, zero_add, add_zero, and_self_iff]
  rcases hc f hf with ⟨q, hq, hfq, a, -, ha, hmin, he⟩ | ⟨hall, hbig⟩
  · have h0 := hfl.add_sqrt_le a 0
    rw [Nat.cast_zero, Real.sqrt_zero, hfl.zero hr0, add_zero, add_zero] at h0
    rw [he, h0, ← ha]
    exact ⟨fun h => ⟨q, hq, hfq, h⟩, fun ⟨q', hq', hfq', h⟩ => (hmin q' hq' hfq').trans h⟩
  · refine iff_of_false (not_le.mpr (hfl.far hr0 hbig)) ?_
    rintro ⟨q, hq, hfq, -⟩; rw [hall q hq] at hfq; cases hfq

end

/-- The region of a binary image. -/
def region (rows cols : Nat) (m : Nat → Nat → Bool) : Set Px := {p | p ∈ pxSet rows cols ∧ m p.1 p.2 = true}

theorem complMask_eq (m : Nat → Nat → Bool) (i j : Nat) : complMask m i j = !m i j := by
  unfold complMask; cases m i j <;> simp

/-- The boundary computed from an exact distance transform. -/
theorem mask2Bdry_iff (lib : DTLib) (o : BdryOpts) (hint : o.internalOnly = false)
    (H : SoundDT lib o.useCv2 o.quality o.radius) (hr : 0 ≤ o.radius)
    (rows cols : Nat) (m : Nat → Nat → Bool) (ign : Nat → Nat → Nat)
    (I : Set Px) (hI : ∀ q ∈ pxSet rows cols, unionMask m ign q.1 q.2 = true ↔ (m q.1 q.2 = true ∨ q ∈ I))
    (p : Px) (hp : p ∈ pxSet rows cols) :
    mask2Bdry lib o rows cols m ign p.1 p.2 = true ↔
      IsBoundary o.radius (pxSet rows cols) (region rows cols m) I p := by
  have hR : (0 : ℝ) ≤ (o.radius : ℝ) := by exact_mod_cast hr
  have heq : mask2Bdry lib o rows cols m ign p.1 p.2 =
      cutRadius o.radius (usedAdd lib o.useCv2 (usedDT lib o.useCv2 o.quality rows cols (complMask m) p.1 p.2)
        (usedDT lib o.useCv2 o.quality rows cols (unionMask m ign) p.1 p.2)) := by
    unfold mask2Bdry usedDT usedAdd
    rw [hint]
    cases o.useCv2 <;> rfl
  rw [heq, cutRadius_iff]
  clear heq
  obtain ⟨r, hr'⟩ := Int.eq_ofNat_of_zero_le hr
  have hrr : ((o.radius : ℤ) : ℝ) = (r : ℝ) := by rw [hr']; simp
  rw [hrr] at H ⊢
  clear hrr hr'
  generalize o.useCv2 = c at H ⊢
  generalize o.quality = qual at H ⊢
  -- membership in the two sets
  have hU : ∀ q ∈ pxSet rows cols, unionMask m ign q.1 q.2 = false ↔ (q ∉ region rows cols m ∧ q ∉ I) := by
    intro q hq
    rw [Bool.eq_false_iff, ne_eq, hI q hq]
    simp only [region, Set.mem_ofPred_eq, hq, true_and, not_or]
  have hC : ∀ q ∈ pxSet rows cols, complMask m q.1 q.2 = false ↔ q ∈ region rows cols m := by
    intro q hq
    rw [complMask_eq]
    simp [region, hq]
  unfold IsBoundary
  by_cases hm : p ∈ region rows cols m
  · have hmt : m p.1 p.2 = true := hm.2
    have ho : usedDT lib c qual rows cols (complMask m) p.1 p.2 = 0 := H.zero hp ((hC p hp).mpr hm)
    have hu : unionMask m ign p.1 p.2 = true := (hI p hp).mpr (Or.inl hmt)
    have h1 := H.pos hp hu
    have hpos := H.add_pos le_rfl (zero_le_one.trans h1) (Or.inr h1)
    rw [ho, (H.add_zero_le_iff hp hu).1]
    simp only [hm, hpos, true_and, not_true_eq_false, false_and, or_false]
    constructor
    · rintro ⟨q, hq, h1, h2⟩; exact ⟨q, hq, ((hU q hq).mp h1).1, ((hU q hq).mp h1).2, h2⟩
    · rintro ⟨q, hq, h1, h2, h3⟩; exact ⟨q, hq, (hU q hq).mpr ⟨h1, h2⟩, h3⟩
  · have hc : complMask m p.1 p.2 = true := by
      by_contra h
      exact hm ((hC p hp).mp (by simpa using h))
    by_cases hi : p ∈ I
    · have hu : unionMask m ign p.1 p.2 = true := (hI p hp).mpr (Or.inr hi)
      have h1 := H.pos hp hu
      have h2 := H.pos hp hc
      have hpos := H.add_pos (zero_le_one.trans h2) (zero_le_one.trans h1) (Or.inr h1)
      rw [H.add_le_iff hp hu hc]
      simp only [hm, hi, hpos, true_and, not_true_eq_false, false_and, not_false_eq_true, false_or]
      constructor
      · rintro ⟨q, hq, h1, q', hq', h2, h3⟩
        exact ⟨q, hq, ((hU q hq).mp h1).1, ((hU q hq).mp h1).2, q', (hC q' hq').mp h2, h3⟩
      · rintro ⟨q, hq, h1, h2, q', hq', h3⟩
        exact ⟨q, hq, (hU q hq).mpr ⟨h1, h2⟩, q', hq'.1, (hC q' hq'.1).mpr hq', h3⟩
    · have hu : usedDT lib c qual rows cols (unionMask m ign) p.1 p.2 = 0 := H.zero hp ((hU p hp).mpr ⟨hm, hi⟩)
      have h1 := H.pos hp hc
      have hpos := H.add_pos (zero_le_one.trans h1) le_rfl (Or.inl h1)
      rw [hu, (H.add_zero_le_iff hp hc).2]
      simp only [hm, hi, hpos, true_and, not_false_eq_true, false_and, false_or, or_false]
      constructor
      · rintro ⟨q, hq, h1, h2⟩; exact ⟨q, (hC q hq).mp h1, h2⟩
      · rintro ⟨q, hq, h2⟩; exact ⟨q, hq.1, (hC q hq.1).mpr hq, h2⟩

/-- The internal boundary. -/
theorem mask2Internal_iff (lib : DTLib) (o : BdryOpts) (hint : o.internalOnly = true)
    (H : SoundDT lib o.useCv2 o.quality o.radius) (hr : 0 ≤ o.radius)
    (rows cols : Nat) (m : Nat → Nat → Bool) (ign : Nat → Nat → Nat)
    (I : Set Px) (hI : ∀ q ∈ pxSet rows cols, unionMask m ign q.1 q.2 = true ↔ (m q.1 q.2 = true ∨ q ∈ I))
    (p : Px) (hp : p ∈ pxSet rows cols) :
    mask2Bdry lib o rows cols m ign p.1 p.2 = true ↔
      (p ∈ region rows cols m ∨ p ∈ I) ∧
        ∃ q ∈ pxSet rows cols, q ∉ region rows cols m ∧ q ∉ I ∧ pdist p q ≤ o.radius := by
  have hR : (0 : ℝ) ≤ (o.radius : ℝ) := by exact_mod_cast hr
  have heq : mask2Bdry lib o rows cols m ign p.1 p.2 =
      cutRadius o.radius (usedDT lib o.useCv2 o.quality rows cols (unionMask m ign) p.1 p.2) := by
    unfold mask2Bdry usedDT mask2Internal
    rw [hint]
    cases o.useCv2 <;> rfl
  rw [heq, cutRadius_iff]
  clear heq
  obtain ⟨r, hr'⟩ := Int.eq_ofNat_of_zero_le hr
  have hrr : ((o.radius : ℤ) : ℝ) = (r : ℝ) := by rw [hr']; simp
  rw [hrr] at H ⊢
  clear hrr hr'
  generalize o.useCv2 = c at H ⊢
  generalize o.quality = qual at H ⊢
  have hU : ∀ q ∈ pxSet rows cols, unionMask m ign q.1 q.2 = false ↔ (q ∉ region rows cols m ∧ q ∉ I) := by
    intro q hq
    rw [Bool.eq_false_iff, ne_eq, hI q hq]
    simp only [region, Set.mem_ofPred_eq, hq, true_and, not_or]
  by_cases hu : unionMask m ign p.1 p.2 = true
  · rw [H.le_iff hp hu]
    have hpos := lt_of_lt_of_le one_pos (H.pos hp hu)
    have hmem : p ∈ region rows cols m ∨ p ∈ I := by
      rcases (hI p hp).mp hu with h | h
      · exact Or.inl ⟨hp, h⟩
      · exact Or.inr h
    simp only [hpos, hmem, true_and]
    constructor
    · rintro ⟨q, hq, h1, h2⟩; exact ⟨q, hq, ((hU q hq).mp h1).1, ((hU q hq).mp h1).2, h2⟩
    · rintro ⟨q, hq, h1, h2, h3⟩; exact ⟨q, hq, (hU q hq).mpr ⟨h1, h2⟩, h3⟩
  · have hu' : unionMask m ign p.1 p.2 = false := by simpa using hu
    rw [H.zero hp hu']
    have := (hU p hp).mp hu'
    simp [this.1, this.2]

/-! ## The ignore mask -/

theorem ignoreMask_ok (mask : MLEdges) (ignore : List Int) (h : ∀ k ∈ ignore, 0 ≤ k ∧ k < mask.n) :
    ∃ ign, ignoreMask mask ignore = .ok ign ∧ ∀ i j,
      ign i j = ((ignore.map fun (k : Int) => (mask.at_ k.toNat i j).toNat).sum) % 256 := by
  have key : ∀ (l : List Int) (acc : Nat → Nat → Nat) (s : Nat → Nat → Nat), (∀ k ∈ l, 0 ≤ k ∧ k < mask.n) →
      (∀ i j, acc i j = s i j % 256) →
      ∃ ign, l.foldlM (fun acc i => do
        let l ← pyIndex mask.n i
        return fun r c => (acc r c + (mask.at_ l r c).toNat) % 256) acc = Except.ok (ε := PyErr) ign ∧ ∀ i j,
        ign i j = (s i j + (l.map fun (k : Int) => (mask.at_ k.toNat i j).toNat).sum) % 256 := by
    intro l
    induction l with
    | nil => intro acc s _ hs; exact ⟨acc, rfl, by simpa using hs⟩
    | cons a l ih =>
      intro acc s hl hs
      have ha := hl a List.mem_cons_self
      obtain ⟨ign, h1, h2⟩ := ih (fun r c => (acc r c + (mask.at_ a.toNat r c).toNat) % 256)
        (fun r c => s r c + (mask.at_ a.toNat r c).toNat) (fun k hk => hl k (List.mem_cons_of_mem _ hk))
        (by intro i j; show (acc i j + _) % 256 = _; rw [hs, Nat.mod_add_mod])
      refine ⟨ign, ?_, ?_⟩
      · rw [List.foldlM_cons]
        have : pyIndex mask.n a = .ok a.toNat := by rw [pyIndex, if_pos ⟨ha.1, ha.2⟩]
        rw [this]
        exact h1
      · intro i j
        rw [h2, List.map_cons, List.sum_cons]
        simp only [Nat.add_assoc]
  obtain ⟨ign, h1, h2⟩ := key ignore (fun _ _ => 0) (fun _ _ => 0) h (by simp)
  exact ⟨ign, h1, by simpa using h2⟩

theorem sum_toNat_le (l : List Int) (g : Int → Bool) : (l.map fun (k : Int) => (g k).toNat).sum ≤ l.length := by
  induction l with
  | nil => simp
  | cons a l ih => simp only [List.map_cons, List.sum_cons, List.length_cons]; cases g a <;> simp <;> omega

theorem sum_toNat_pos (l : List Int) (g : Int → Bool) :
    0 < (l.map fun (k : Int) => (g k).toNat).sum ↔ ∃ k ∈ l, g k = true := by
  induction l with
  | nil => simp
  | cons a l ih =>
    simp only [List.map_cons, List.sum_cons, List.mem_cons, exists_eq_or_imp]
    rw [← ih]; cases g a <;> simp

theorem unionMask_ignored (mask : MLEdges) (ignore : List Int) (h : ∀ k ∈ ignore, 0 ≤ k ∧ k < mask.n)
    (hlen : ignore.length < 255) (ign : Nat → Nat → Nat) (hign : ignoreMask mask ignore = .ok ign)
    (m : Nat → Nat → Bool) (q : Px) (hq : q ∈ pxSet mask.h mask.w) :
    unionMask m ign q.1 q.2 = true ↔ (m q.1 q.2 = true ∨ q ∈ ignoredPx mask ignore) := by
  obtain ⟨ign', h1, h2⟩ := ignoreMask_ok mask ignore h
  rw [h1] at hign
  cases hign
  have hle := sum_toNat_le ignore (fun k => mask.at_ k.toNat q.1 q.2)
  have hp := sum_toNat_pos ignore (fun k => mask.at_ k.toNat q.1 q.2)
  have hex : q ∈ ignoredPx mask ignore ↔ ∃ k ∈ ignore, mask.at_ k.toNat q.1 q.2 = true := by
    constructor
    · rintro ⟨_, k, hk, hm⟩; exact ⟨k, hk, by simpa using hm⟩
    · rintro ⟨k, hk, hm⟩
      have := h k hk
      exact ⟨hq, k.toNat, by rwa [Int.toNat_of_nonneg this.1], hm⟩
  rw [hex, ← hp]
  unfold unionMask
  rw [decide_eq_true_eq, h2]
  generalize (ignore.map fun (k : Int) => (mask.at_ k.toNat q.1 q.2).toNat).sum = s at *
  cases m q.1 q.2 <;> simp <;> omega

/-! ## The label loop -/

theorem labelLoop_ok (body : Nat → Run (Option (Nat → Nat → Bool))) (r : Nat → Option (Nat → Nat → Bool)) :
    ∀ (ls : List Nat) (e : MLEdges), ls.Nodup → (∀ l ∈ ls, body l = .ok (some (r l))) →
      ∃ out, labelLoop body ls e = .ok (some out) ∧ out.n = e.n ∧ out.h = e.h ∧ out.w = e.w ∧
        (∀ k ∈ ls, ∀ m, r k = some m → out.at_ k = m) ∧ (∀ k ∈ ls, r k = none → out.at_ k = e.at_ k) ∧
        (∀ k, k ∉ ls → out.at_ k = e.at_ k) := by
  intro ls
  induction ls with
  | nil => intro e _ _; exact ⟨e, rfl, rfl, rfl, rfl, by simp, by simp, by simp⟩
  | cons l ls ih =>
    intro e hnd hb
    rw [List.nodup_cons] at hnd
    have hl := hb l List.mem_cons_self
    rcases hr : r l with _ | m
    · obtain ⟨out, h1, h2, h3, h4, h5, h6, h7⟩ := ih e hnd.2 (fun k hk => hb k (List.mem_cons_of_mem _ hk))
      refine ⟨out, ?_, h2, h3, h4, ?_, ?_, ?_⟩
      · rw [labelLoop, hl, hr]; exact h1
      · intro k hk m hm
        rcases List.mem_cons.mp hk with rfl | hk
        · rw [hr] at hm; cases hm
        · exact h5 k hk m hm
      · intro k hk hm
        rcases List.mem_cons.mp hk with rfl | hk
        · exact h7 k hnd.1
        · exact h6 k hk hm
      · intro k hk
        exact h7 k (fun h => hk (List.mem_cons_of_mem _ h))
    · obtain ⟨out, h1, h2, h3, h4, h5, h6, h7⟩ :=
        ih (putChannel e l m) hnd.2 (fun k hk => hb k (List.mem_cons_of_mem _ hk))
      have hput : ∀ k, k ≠ l → (putChannel e l m).at_ k = e.at_ k := by
        intro k hk; funext i j; simp [putChannel, hk]
      refine ⟨out, ?_, h2, h3, h4, ?_, ?_, ?_⟩
      · rw [labelLoop, hl, hr]; exact h1
      · intro k hk m' hm
        rcases List.mem_cons.mp hk with rfl | hk
        · rw [hr] at hm; cases hm
          rw [h7 k hnd.1]
          funext i j; simp [putChannel]
        · exact h5 k hk m' hm
      · intro k hk hm
        rcases List.mem_cons.mp hk with rfl | hk'
        · rw [hr] at hm; cases hm
        · rw [h6 k hk' hm, hput k]; rintro rfl; exact hnd.1 hk'
      · intro k hk
        rw [h7 k (fun h => hk (List.mem_cons_of_mem _ h)), hput k]
        rintro rfl; exact hk List.mem_cons_self

theorem anySet_iff (rows cols : Nat) (m : Nat → Nat → Bool) :
    anySet rows cols m = true ↔ ∃ p ∈ pxSet rows cols, m p.1 p.2 = true := by
  unfold anySet
  simp only [List.any_eq_true, List.mem_range]
  constructor
  · rintro ⟨i, hi, j, hj, h⟩; exact ⟨(i, j), ⟨hi, hj⟩, h⟩
  · rintro ⟨⟨i, j⟩, ⟨hi, hj⟩, h⟩; exact ⟨i, hi, j, hj, h⟩

end EdgeEval
