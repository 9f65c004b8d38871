import Verif.Props.ConvertSbdDone
import Verif.Props.Datasets

/-!
# C54: what the SBD evaluator reads from converted samples
-/

namespace EdgeEval.Props

open Spec Text Evaluators Samples Datasets EdgeEval.Convert EdgeEval.ConvertSbd

theorem rounds_one {a b : Nat} (h : RoundsTo ((a : ℚ) * 1) b) : b = a := by
  obtain ⟨p1, p2⟩ := h
  have h1 : a < b + 1 := by exact_mod_cast (by linarith : (a : ℚ) < b + 1)
  have h2 : b < a + 1 := by exact_mod_cast (by linarith : (b : ℚ) < a + 1)
  omega

/-- C54: the round trip from the segmentation to the evaluation. Read at scale 1, the ground truth of category `c` is 1
exactly at the documented edge pixels of label `c`, and the prediction is 0 in the border of 5 pixels. -/
theorem C54_ground_truth (r : ℝ) (B P : Img Nat) (I : Option (Img Nat × List Nat)) (present : List Nat) (im : Rgb)
    (him : RawEdges r B I present im) (S : Option (Img Nat)) (c : Nat) (hc1 : 1 ≤ c) (hc2 : c ≤ 20) (x : Inputs)
    (hx : SampleInputs im P S 1 c 5 ((c : Int) - 1) x) :
    x.gt.rows = B.rows ∧ x.gt.cols = B.cols ∧
    (∀ i < B.rows, ∀ j < B.cols, (x.gt.at_ i j = 0 ∨ x.gt.at_ i j = 1) ∧
      (x.gt.at_ i j = 1 ↔ SbdEdge r B I present c (i, j))) ∧
    ∀ i < B.rows, ∀ j < B.cols, InBorder 5 B.rows B.cols i j → x.pred.at_ i j = 0 := by
  obtain ⟨sh, sw, hb⟩ := him
  have hr := rounds_one hx.height
  have hw := rounds_one hx.width
  rw [sh] at hr
  rw [sw] at hw
  refine ⟨hr, hw, ?_, ?_⟩
  · intro i hi j hj
    obtain ⟨p, q, c1, c2, hv⟩ := hx.gt i (by omega) j (by omega)
    rw [hr, sh] at c1
    rw [hw, sw] at c2
    obtain rfl := cell_unique c1 (cell_same hi)
    obtain rfl := cell_unique c2 (cell_same hj)
    have := hb p hi q hj (c - 1) (by omega)
    rw [show c - 1 + 1 = c by omega] at this
    rw [hv]
    constructor
    · split <;> simp
    · rw [show SbdEdge r B I present c (p, q) ↔ colourBit im p q (c - 1) = true by
        rw [this]; exact ⟨fun h => ⟨by omega, h⟩, And.right⟩]
      split <;> simp_all
  · intro i hi j hj hin
    obtain ⟨p, q, c1, c2, hv⟩ := hx.pred i (by omega) j (by omega)
    rw [hv, hr, hw, if_pos hin]

theorem near_one {p q : Px} (h : pdist p q ≤ 1) :
    (p.1 = q.1 ∧ (p.2 = q.2 ∨ p.2 + 1 = q.2 ∨ q.2 + 1 = p.2)) ∨
    (p.2 = q.2 ∧ (p.1 + 1 = q.1 ∨ q.1 + 1 = p.1)) := by
  unfold pdist at h
  rw [Real.sqrt_le_left one_pos.le, one_pow] at h
  have h2 : ((p.1 : ℤ) - q.1) ^ 2 + ((p.2 : ℤ) - q.2) ^ 2 ≤ 1 := by exact_mod_cast h
  have a1 : ((p.1 : ℤ) - q.1) ≤ 1 := by nlinarith [sq_nonneg ((p.2 : ℤ) - q.2)]
  have a2 : -1 ≤ ((p.1 : ℤ) - q.1) := by nlinarith [sq_nonneg ((p.2 : ℤ) - q.2)]
  have b1 : ((p.2 : ℤ) - q.2) ≤ 1 := by nlinarith [sq_nonneg ((p.1 : ℤ) - q.1)]
  have b2 : -1 ≤ ((p.2 : ℤ) - q.2) := by nlinarith [sq_nonneg ((p.1 : ℤ) - q.1)]
  generalize hA : ((p.1 : ℤ) - q.1) = A at *
  generalize hB : ((p.2 : ℤ) - q.2) = B at *
  have : A = -1 ∨ A = 0 ∨ A = 1 := by omega
  have : B = -1 ∨ B = 0 ∨ B = 1 := by omega
  rcases ‹A = -1 ∨ A = 0 ∨ A = 1› with rfl | rfl | rfl <;>
    rcases ‹B = -1 ∨ B = 0 ∨ B = 1› with rfl | rfl | rfl <;> omega

theorem dist_ge_one {p q : Px} (h : p ≠ q) : 1 ≤ pdist p q := by
  by_contra hlt
  push Not at hlt
  unfold pdist at hlt
  rw [Real.sqrt_lt' one_pos, one_pow] at hlt
  have h2 : ((p.1 : ℤ) - q.1) ^ 2 + ((p.2 : ℤ) - q.2) ^ 2 < 1 := by exact_mod_cast hlt
  have a0 : ((p.1 : ℤ) - q.1) = 0 := by
    by_contra h0
    have : 1 ≤ ((p.1 : ℤ) - q.1) ^ 2 := by
      have := sq_nonneg ((p.1 : ℤ) - q.1)
      have : ((p.1 : ℤ) - q.1) ^ 2 ≠ 0 := pow_ne_zero 2 h0
      omega
    nlinarith [sq_nonneg ((p.2 : ℤ) - q.2)]
  have b0 : ((p.2 : ℤ) - q.2) = 0 := by
    by_contra h0
    have : 1 ≤ ((p.2 : ℤ) - q.2) ^ 2 := by
      have := sq_nonneg ((p.2 : ℤ) - q.2)
      have : ((p.2 : ℤ) - q.2) ^ 2 ≠ 0 := pow_ne_zero 2 h0
      omega
    nlinarith [sq_nonneg ((p.1 : ℤ) - q.1)]
  exact h (Prod.ext (by omega) (by omega))

/-- C54: up to radius 2 (the one the script uses) the instance-insensitive ground truth of a segmentation
without label 21 has no pixel in the border of 5 pixels, where the evaluator erases the prediction. -/
theorem C54_border_free (r : ℝ) (hr : r ≤ 2) (S B : Img Nat) (hB : Bordered S B)
    (h21 : ∀ i < S.rows, ∀ j < S.cols, S.at_ i j ≠ 21) (present : List Nat) (l : Nat) (hl : l ≠ 21) (p : Px)
    (hp : p ∈ pxSet B.rows B.cols) (hin : InBorder 5 B.rows B.cols p.1 p.2) : ¬ SbdEdge r B none present l p := by
  obtain ⟨b1, b2, b3⟩ := hB
  have val : ∀ q : Px, q ∈ pxSet B.rows B.cols → (B.at_ q.1 q.2 = 21 ↔ InBorder 5 B.rows B.cols q.1 q.2) := by
    intro q hq
    have h1 : q.1 < S.rows := by rw [← b1]; exact hq.1
    have h2 : q.2 < S.cols := by rw [← b2]; exact hq.2
    rw [b3 q.1 h1 q.2 h2, b1, b2]
    split
    · next h => exact ⟨fun _ => h, fun _ => rfl⟩
    · next h => exact ⟨fun e => absurd e (h21 _ h1 _ h2), fun e => absurd e h⟩
  have hpI : B.at_ p.1 p.2 = 21 := (val p hp).2 hin
  have hpM : p ∉ valuePx B l := by
    rintro ⟨-, h⟩
    rw [hpI] at h
    exact hl h.symm
  rintro ⟨-, hb | ⟨_, _, _, h, -⟩⟩
  · rcases hb with ⟨h, -⟩ | ⟨-, h, -⟩ | ⟨-, -, q, hqU, hqM, hqI, q', hq'M, hd⟩
    · exact hpM h
    · exact h ⟨hp, hpI⟩
    · have hqn : ¬ InBorder 5 B.rows B.cols q.1 q.2 := fun h => hqI ⟨hqU, (val q hqU).2 h⟩
      have hq'n : ¬ InBorder 5 B.rows B.cols q'.1 q'.2 := fun h => by
        have := (val q' hq'M.1).2 h
        rw [hq'M.2] at this
        exact hl this
      have d1 := dist_ge_one (p := p) (q := q) (by rintro rfl; exact hqn hin)
      have d2 := dist_ge_one (p := p) (q := q') (by rintro rfl; exact hq'n hin)
      have n1 := near_one (p := p) (q := q) (by linarith)
      have n2 := near_one (p := p) (q := q') (by linarith)
      have hne : q ≠ q' := by rintro rfl; exact hqM hq'M
      apply hne
      have u1 := hp.1; have u2 := hp.2
      unfold InBorder at hin hqn hq'n
      refine Prod.ext ?_ ?_ <;> omega
  · cases h

/-- C54 (defect): the instance-sensitive ground truth is not free of border pixels. The instance regions reach into
the border, so a border pixel of an instance close to a pixel of the interior outside of the instance is a ground-truth
pixel; the evaluator erases the prediction there, so no prediction marks it. -/
theorem C54_border_instances (r : ℝ) (T B P : Img Nat) (hB : Bordered T B)
    (h21 : ∀ i < T.rows, ∀ j < T.cols, T.at_ i j ≠ 21) (S : Img Nat) (cats present : List Nat)
    (im : Rgb) (him : RawEdges r B (some (S, cats)) present im) (hfit : InstFits S cats present B)
    (M : Option (Img Nat)) (c : Nat) (hc1 : 1 ≤ c) (hc2 : c ≤ 20) (hc : c ∈ present) (x : Inputs)
    (hx : SampleInputs im P M 1 c 5 ((c : Int) - 1) x)
    (hreg : (valuePx B c).Nonempty) (v : Nat) (hv : cats[v]? = some c)
    (p q : Px) (hp : p ∈ pxSet B.rows B.cols) (hpin : InBorder 5 B.rows B.cols p.1 p.2) (hpv : S.at_ p.1 p.2 = v + 1)
    (hq : q ∈ pxSet B.rows B.cols) (hqn : ¬ InBorder 5 B.rows B.cols q.1 q.2) (hqv : S.at_ q.1 q.2 ≠ v + 1)
    (hd : pdist p q ≤ r) : x.gt.at_ p.1 p.2 = 1 ∧ x.pred.at_ p.1 p.2 = 0 := by
  obtain ⟨-, -, g, pr⟩ := C54_ground_truth r B P (some (S, cats)) present im him M c hc1 hc2 x hx
  refine ⟨?_, pr p.1 hp.1 p.2 hp.2 hpin⟩
  rw [(g p.1 hp.1 p.2 hp.2).2]
  refine ⟨hreg, Or.inr ⟨S, cats, v, rfl, hv, hc, Or.inl ⟨⟨?_, hpv⟩, q, hq, fun h => hqv h.2, ?_, hd⟩⟩⟩
  · rw [hfit.rows, hfit.cols]; exact hp
  · rintro ⟨-, h⟩
    obtain ⟨b1, b2, b3⟩ := hB
    have h1 : q.1 < T.rows := by rw [← b1]; exact hq.1
    have h2 : q.2 < T.cols := by rw [← b2]; exact hq.2
    rw [b3 q.1 h1 q.2 h2, if_neg (by rw [← b1, ← b2]; exact hqn)] at h
    exact h21 _ h1 _ h2 h

/-! ## The deprecated loader -/

/-- C54: the deprecated loader `load_instance_sensitive_gt` adds the boundary of instance `v` to the boundary of its category
`cats[v]`; it refuses an instance category that is not present. -/
theorem C54_deprecated_loader (c : ClsMat) (x : InstMat) :
    ((∃ k ∈ x.cats, k ∉ c.present) → loadIS c x = .error .assertionError) ∧
    ((∀ k ∈ x.cats, k ∈ c.present ∧ 1 ≤ k ∧ k ≤ c.bdry.n) → x.cats.length ≤ x.bdry.n →
      ∃ e, loadIS c x = .ok e ∧ e.n = c.bdry.n ∧ e.h = c.bdry.h ∧ e.w = c.bdry.w ∧
        ∀ k i j, e.at_ k i j = true ↔ c.bdry.at_ k i j = true ∨
          ∃ v, x.cats[v]? = some (k + 1) ∧ x.bdry.at_ v i j = true) := by
  constructor
  · rintro ⟨k, hk, hn⟩
    have : (x.cats.all fun k => c.present.contains k) = false := by
      rw [List.all_eq_false]
      exact ⟨k, hk, by simpa [List.contains_iff_mem] using hn⟩
    unfold loadIS
    rw [this]
    rfl
  · intro h hlen
    have a1 : (x.cats.all fun k => c.present.contains k) = true := by
      simp only [List.all_eq_true, List.contains_iff_mem]
      exact fun k hk => (h k hk).1
    have key : ∀ (l : List (Nat × Nat)) (acc : MLEdges), (∀ y ∈ l, y.1 < x.bdry.n ∧ 1 ≤ y.2 ∧ y.2 ≤ acc.n) →
        ∃ e, l.foldlM (uniteInst x.bdry) acc = .ok e ∧ e.n = acc.n ∧ e.h = acc.h ∧ e.w = acc.w ∧
          ∀ k i j, e.at_ k i j = true ↔ acc.at_ k i j = true ∨ ∃ v, (v, k + 1) ∈ l ∧ x.bdry.at_ v i j = true := by
      intro l
      induction l with
      | nil => intro acc _; exact ⟨acc, rfl, rfl, rfl, rfl, by simp⟩
      | cons y l ih =>
        intro acc hl
        obtain ⟨y1, y2, y3⟩ := hl y (by simp)
        have hp1 : pyIndex x.bdry.n (y.1 : Int) = .ok y.1 := by
          unfold pyIndex
          rw [if_pos (by omega)]
          congr 1
        have hp2 := pyIndex_cat y2 y3
        have hu : uniteInst x.bdry acc y = .ok ⟨acc.n, acc.h, acc.w, fun k i j =>
            if k = y.2 - 1 then acc.at_ (y.2 - 1) i j || x.bdry.at_ y.1 i j else acc.at_ k i j⟩ := by
          unfold uniteInst
          rw [hp1, hp2]
        obtain ⟨e, e1, e2, e3, e4, e5⟩ := ih ⟨acc.n, acc.h, acc.w, fun k i j =>
            if k = y.2 - 1 then acc.at_ (y.2 - 1) i j || x.bdry.at_ y.1 i j else acc.at_ k i j⟩
            (fun z hz => hl z (by simp [hz]))
        refine ⟨e, by rw [List.foldlM_cons, hu]; exact e1, e2, e3, e4, ?_⟩
        intro k i j
        rw [e5]
        simp only
        have hmem : (∃ v, (v, k + 1) ∈ y :: l ∧ x.bdry.at_ v i j = true) ↔
            (k = y.2 - 1 ∧ x.bdry.at_ y.1 i j = true) ∨ ∃ v, (v, k + 1) ∈ l ∧ x.bdry.at_ v i j = true := by
          constructor
          · rintro ⟨v, hv, hb⟩
            rcases List.mem_cons.1 hv with rfl | hv
            · exact Or.inl ⟨by simp, hb⟩
            · exact Or.inr ⟨v, hv, hb⟩
          · rintro (⟨rfl, hb⟩ | ⟨v, hv, hb⟩)
            · refine ⟨y.1, ?_, hb⟩
              rw [show y.2 - 1 + 1 = y.2 by omega]
              simp
            · exact ⟨v, by simp [hv], hb⟩
        rw [hmem]
        by_cases hk : k = y.2 - 1
        · rw [if_pos hk, ← hk]
          simp only [Bool.or_eq_true, true_and]
          tauto
        · rw [if_neg hk]
          simp [hk]
    obtain ⟨e, e1, e2, e3, e4, e5⟩ := key (x.cats.zipIdx.map fun p => (p.2, p.1)) c.bdry (by
      intro y hy
      rw [List.mem_map] at hy
      obtain ⟨⟨k, v⟩, hz, rfl⟩ := hy
      rw [List.mem_zipIdx_iff_getElem?] at hz
      simp only at hz ⊢
      have hlt := (List.getElem?_eq_some_iff.1 hz).1
      exact ⟨by omega, (h k (List.mem_of_getElem? hz)).2⟩)
    refine ⟨e, ?_, e2, e3, e4, ?_⟩
    · unfold loadIS
      rw [a1]
      exact e1
    · intro k i j
      rw [e5]
      have : ∀ v, (v, k + 1) ∈ x.cats.zipIdx.map (fun p => (p.2, p.1)) ↔ x.cats[v]? = some (k + 1) := by
        intro v
        rw [List.mem_map]
        constructor
        · rintro ⟨⟨a, b⟩, hz, he⟩
          rw [List.mem_zipIdx_iff_getElem?] at hz
          cases he
          exact hz
        · intro hz
          exact ⟨(k + 1, v), by rw [List.mem_zipIdx_iff_getElem?]; exact hz, rfl⟩
      simp only [this]

end EdgeEval.Props
