import Verif.Model.Evaluate
import Verif.Props.Match
import Verif.Props.Thin
import Verif.Spec.Metrics

/-! # Lemmas about boundary evaluation -/

namespace EdgeEval

open Finset Props

theorem Run.bind_eq_ok {α β : Type} {x : Run α} {f : α → Run β} {b : β} :
    x.bind f = .ok (some b) ↔ ∃ a, x = .ok (some a) ∧ f a = .ok (some b) := by
  rcases x with e | (_ | a) <;> simp [Run.bind]

/-! ## Sums of 0/1 images are cardinalities -/

theorem imgSum_binary {x : Img ℚ} (h : ∀ i j, i < x.rows → j < x.cols → x.at_ i j = 0 ∨ x.at_ i j = 1) :
    imgSum x = (edgePixels x).card := by
  rw [imgSum_eq, ← sum_product', edgePixels, card_filter]
  push_cast
  apply sum_congr rfl
  rintro ⟨i, j⟩ hij
  simp only [mem_product, mem_range] at hij
  rcases h i j hij.1 hij.2 with e | e <;> simp [e]

theorem card_le_imgSum {x : Img ℚ} (h : ∀ i j, i < x.rows → j < x.cols → x.at_ i j = 0 ∨ 1 ≤ x.at_ i j) :
    ((edgePixels x).card : ℚ) ≤ imgSum x := by
  rw [imgSum_eq, ← sum_product', edgePixels, card_filter]
  push_cast
  apply sum_le_sum
  rintro ⟨i, j⟩ hij
  simp only [mem_product, mem_range] at hij
  rcases h i j hij.1 hij.2 with e | e
  · simp [e]
  · simp only
    split <;> linarith

/-- Pixels with a positive entry. -/
def posSet (rows cols : Nat) (m : Nat → Nat → Nat) : Finset (Nat × Nat) :=
  (range rows ×ˢ range cols).filter fun p => m p.1 p.2 ≠ 0

theorem imgSum_posImg (rows cols : Nat) (m : Nat → Nat → Nat) :
    imgSum (posImg rows cols m) = (posSet rows cols m).card := by
  rw [imgSum_binary]
  · congr 2
    unfold edgePixels posSet
    apply filter_congr
    intro p _
    simp only [posImg]
    by_cases h : m p.1 p.2 = 0
    · simp [h]
    · have : m p.1 p.2 > 0 := by omega
      simp [h, this]
  · intro i j _ _
    simp only [posImg]
    split <;> simp

theorem imgSum_acc (rows cols : Nat) (acc : Nat → Nat → Bool) :
    imgSum ⟨rows, cols, fun i j => if acc i j then 1 else 0⟩ =
      ((range rows ×ˢ range cols).filter fun p => acc p.1 p.2 = true).card := by
  rw [imgSum_binary]
  · congr 2
    ext p
    simp only [edgePixels, mem_filter]
    apply and_congr_right
    intro _
    by_cases h : acc p.1 p.2 = true <;> simp [h]
  · intro i j _ _
    simp only
    split <;> simp

/-! ## What a call of the matcher contributes -/

structure MatchFacts (p gt : Img ℚ) (r : CorrOut) : Prop where
  rows : p.rows = gt.rows
  cols : p.cols = gt.cols
  card : (posSet p.rows p.cols r.o0).card = (posSet gt.rows gt.cols r.o1).card
  sub0 : posSet p.rows p.cols r.o0 ⊆ edgePixels p
  sub1 : posSet gt.rows gt.cols r.o1 ⊆ edgePixels gt

theorem callMatch_facts {fuel : Nat} {p gt : Img ℚ} {maxDist : ℚ} {xs : Nat → ℚ}
    (hx : ∀ i, 0 ≤ xs i ∧ xs i < 1) {r : CorrOut} (hr : callMatch fuel p gt maxDist xs = .ok (some r)) :
    MatchFacts p gt r := by
  obtain ⟨h1, h2⟩ := C11_matching fuel p gt maxDist 100 xs 0 hx r hr
  obtain ⟨hs1, hs2, -⟩ := corr_ok hr
  refine ⟨hs1, hs2, ?_, ?_, ?_⟩
  · rw [← hs1, ← hs2]
    refine card_nbij' (fun q => ((r.o0 q.1 q.2 - 1) % p.rows, (r.o0 q.1 q.2 - 1) / p.rows))
      (fun q => ((r.o1 q.1 q.2 - 1) % p.rows, (r.o1 q.1 q.2 - 1) / p.rows)) ?_ ?_ ?_ ?_
    · rintro ⟨y, x⟩ hq
      simp only [posSet, coe_filter, mem_product, mem_range, Set.mem_ofPred_eq] at hq ⊢
      obtain ⟨y', x', e1, e2, a, b, _, _, _, c, _⟩ := h1 y x hq.1.1 hq.1.2 hq.2
      rw [← e1, ← e2, c]
      exact ⟨⟨a, b⟩, by omega⟩
    · rintro ⟨y, x⟩ hq
      simp only [posSet, coe_filter, mem_product, mem_range, Set.mem_ofPred_eq] at hq ⊢
      obtain ⟨y', x', e1, e2, a, b, _, _, _, c, _⟩ := h2 y x hq.1.1 hq.1.2 hq.2
      rw [← e1, ← e2, c]
      exact ⟨⟨a, b⟩, by omega⟩
    · rintro ⟨y, x⟩ hq
      simp only [posSet, coe_filter, mem_product, mem_range, Set.mem_ofPred_eq] at hq ⊢
      obtain ⟨y', x', e1, e2, a, b, _, _, _, c, _⟩ := h1 y x hq.1.1 hq.1.2 hq.2
      rw [← e1, ← e2, c, decode_mod hq.1.1, decode_div hq.1.1]
    · rintro ⟨y, x⟩ hq
      simp only [posSet, coe_filter, mem_product, mem_range, Set.mem_ofPred_eq] at hq ⊢
      obtain ⟨y', x', e1, e2, a, b, _, _, _, c, _⟩ := h2 y x hq.1.1 hq.1.2 hq.2
      rw [← e1, ← e2, c, decode_mod hq.1.1, decode_div hq.1.1]
  · rintro ⟨y, x⟩ hq
    simp only [posSet, mem_filter, mem_product, mem_range] at hq
    simp only [edgePixels, mem_filter, mem_product, mem_range]
    obtain ⟨y', x', _, _, _, _, h, _⟩ := h1 y x hq.1.1 hq.1.2 hq.2
    exact ⟨hq.1, h⟩
  · rintro ⟨y, x⟩ hq
    simp only [posSet, mem_filter, mem_product, mem_range] at hq
    simp only [edgePixels, mem_filter, mem_product, mem_range]
    obtain ⟨y', x', _, _, _, _, h, _⟩ := h2 y x (hs1 ▸ hq.1.1) (hs2 ▸ hq.1.2) hq.2
    exact ⟨hq.1, h⟩

/-- Entries are 0 or at least 1: true for bool and unsigned integer ground truths. -/
def Countable01 (x : Img ℚ) : Prop := ∀ i j, i < x.rows → j < x.cols → x.at_ i j = 0 ∨ 1 ≤ x.at_ i j

theorem matchRow_facts {fuel : Nat} {p gt : Img ℚ} {maxDist : ℚ} {xs : Nat → ℚ}
    (hx : ∀ i, 0 ≤ xs i ∧ xs i < 1) {row : Row} (h : matchRow fuel p gt maxDist xs = .ok (some row)) :
    ∃ n : Nat, row.countR = n ∧ row.countP = n ∧ n ≤ (edgePixels p).card ∧ n ≤ (edgePixels gt).card ∧
      row.sumR = imgSum gt ∧ row.sumP = imgSum p := by
  obtain ⟨r, hr, h⟩ := Run.bind_eq_ok.mp h
  have f := callMatch_facts hx hr
  simp only [Except.ok.injEq, Option.some.injEq] at h
  subst h
  refine ⟨(posSet p.rows p.cols r.o0).card, ?_, ?_, card_le_card f.sub0, ?_, rfl, rfl⟩
  · simp only [imgSum_posImg, f.card]
  · simp only [imgSum_posImg]
  · rw [f.card]; exact card_le_card f.sub1

/-! ## Thresholding and thinning -/

theorem geThresh_binary (pred : Img ℚ) (t : ℚ) : IsBinary (geThresh pred t) := by
  intro i j _ _
  simp only [geThresh]
  split <;> simp

theorem processPred_facts {fuel : Nat} {thin : Bool} {pred : Img ℚ} {t : ℚ} {p : Img ℚ}
    (h : processPred fuel thin pred t = .ok (some p)) :
    p.rows = pred.rows ∧ p.cols = pred.cols ∧ IsBinary p ∧
      (thin = false → p = geThresh pred t) ∧ (thin = true → binaryThin fuel (geThresh pred t) none = some p) := by
  unfold processPred at h
  cases thin with
  | false =>
    simp only [Bool.false_eq_true, if_false, Except.ok.injEq, Option.some.injEq] at h
    subst h
    exact ⟨rfl, rfl, geThresh_binary _ _, fun _ => rfl, by simp⟩
  | true =>
    simp only [if_true, Except.ok.injEq] at h
    obtain ⟨a, b, -, hv⟩ := C17_binary_thin_subset fuel _ _ none h
    refine ⟨a, b, ?_, by simp, fun _ => h⟩
    rcases hv with rfl | hv
    · exact geThresh_binary _ _
    · exact hv

theorem imgAny_iff (x : Img ℚ) : imgAny x = true ↔ (edgePixels x).Nonempty := by
  unfold imgAny
  simp only [List.any_eq_true, List.mem_range, decide_eq_true_eq]
  constructor
  · rintro ⟨i, hi, j, hj, h⟩
    exact ⟨(i, j), by simp [edgePixels, hi, hj, h]⟩
  · rintro ⟨⟨i, j⟩, h⟩
    simp only [edgePixels, mem_filter, mem_product, mem_range] at h
    exact ⟨i, h.1.1, j, h.1.2, h.2⟩

theorem imgAny_false (x : Img ℚ) : imgAny x = false ↔ edgePixels x = ∅ := by
  rw [← Bool.not_eq_true, imgAny_iff, not_nonempty_iff_eq_empty]

theorem imgSum_empty {x : Img ℚ} (h : edgePixels x = ∅) : imgSum x = 0 := by
  rw [imgSum_eq, ← sum_product']
  apply sum_eq_zero
  rintro ⟨i, j⟩ hij
  by_contra hc
  have : (i, j) ∈ edgePixels x := by
    simp only [edgePixels, mem_filter]
    exact ⟨hij, hc⟩
  rw [h] at this
  simp at this

/-! ## The loop over the thresholds -/

theorem overThresholds_spec {f : Nat → ℚ → Run Row} : ∀ (ts : List ℚ) (i : Nat) (rows : List Row),
    overThresholds f i ts = .ok (some rows) ↔
      rows.length = ts.length ∧ ∀ k, k < ts.length →
        f (i + k) (ts.getD k 0) = .ok (some (rows.getD k ⟨0, 0, 0, 0⟩)) := by
  intro ts
  induction ts with
  | nil =>
    intro i rows
    simp only [overThresholds, Except.ok.injEq, Option.some.injEq, List.length_nil, Nat.not_lt_zero,
      false_implies, implies_true, and_true]
    constructor
    · rintro rfl; rfl
    · intro h; exact (List.length_eq_zero_iff.mp h).symm
  | cons t ts ih =>
    intro i rows
    unfold overThresholds
    rw [Run.bind_eq_ok]
    simp only [Run.bind_eq_ok, ih]
    constructor
    · rintro ⟨row, hrow, rest, ⟨hl, hk⟩, he⟩
      simp only [Except.ok.injEq, Option.some.injEq] at he
      subst he
      refine ⟨by simp [hl], ?_⟩
      intro k hk'
      cases k with
      | zero => simpa using hrow
      | succ k =>
        have := hk k (by simpa using hk')
        simpa [Nat.add_assoc, Nat.add_comm 1 k] using this
    · rintro ⟨hl, hk⟩
      cases rows with
      | nil => simp at hl
      | cons row rest =>
        refine ⟨row, by simpa using hk 0 (by simp), rest, ⟨by simpa using hl, ?_⟩, rfl⟩
        intro k hk'
        have := hk (k + 1) (by simpa using hk')
        simpa [Nat.add_assoc, Nat.add_comm 1 k] using this

/-- Per-row facts that make the returned arrays sane. -/
theorem sane_of_rows {rows : List Row} {n : Nat} (hl : rows.length = n)
    (h : ∀ k, k < n → 0 ≤ (rows.getD k ⟨0, 0, 0, 0⟩).countR ∧
      (rows.getD k ⟨0, 0, 0, 0⟩).countR ≤ (rows.getD k ⟨0, 0, 0, 0⟩).sumR ∧
      0 ≤ (rows.getD k ⟨0, 0, 0, 0⟩).countP ∧
      (rows.getD k ⟨0, 0, 0, 0⟩).countP ≤ (rows.getD k ⟨0, 0, 0, 0⟩).sumP) :
    Spec.Sane n (toCounts rows) := by
  have key : ∀ (f : Row → ℚ) (hf : f ⟨0, 0, 0, 0⟩ = 0) (k : Nat),
      (rows.map f).getD k 0 = f (rows.getD k ⟨0, 0, 0, 0⟩) := by
    intro f hf k
    simp only [List.getD_eq_getElem?_getD, List.getElem?_map]
    rcases rows[k]? with _ | a <;> simp [hf]
  refine ⟨by simp [toCounts, hl], by simp [toCounts, hl], by simp [toCounts, hl], by simp [toCounts, hl], ?_, ?_⟩
  · intro k
    simp only [toCounts]
    rw [key _ rfl, key _ rfl]
    by_cases hk : k < n
    · exact ⟨(h k hk).1, (h k hk).2.1⟩
    · rw [List.getD_eq_getElem?_getD, List.getElem?_eq_none (by omega)]; simp
  · intro k
    simp only [toCounts]
    rw [key _ rfl, key _ rfl]
    by_cases hk : k < n
    · exact (h k hk).2.2
    · rw [List.getD_eq_getElem?_getD, List.getElem?_eq_none (by omega)]; simp

/-! ## The loop over annotators -/

theorem overGts_spec {fuel : Nat} {p : Img ℚ} {maxDist : ℚ} {rnd : Nat → Nat → ℚ}
    (hx : ∀ g i, 0 ≤ rnd g i ∧ rnd g i < 1) : ∀ (gts : List (Img ℚ)) (g : Nat) (s s' : GtAcc),
    overGts fuel p maxDist rnd g gts s = .ok (some s') →
    ∃ ms : List (Finset (Nat × Nat)), ms.length = gts.length ∧
      (∀ k, k < gts.length → ms.getD k ∅ ⊆ edgePixels p ∧
        (ms.getD k ∅).card ≤ (edgePixels (gts.getD k ⟨0, 0, fun _ _ => 0⟩)).card) ∧
      (∀ i j, i < p.rows → j < p.cols → (s'.acc i j = true ↔ s.acc i j = true ∨ ∃ m ∈ ms, (i, j) ∈ m)) ∧
      s'.countR = s.countR + (ms.map fun m => (m.card : ℚ)).sum ∧
      s'.sumR = s.sumR + (gts.map imgSum).sum := by
  intro gts
  induction gts with
  | nil =>
    intro g s s' h
    simp only [overGts, Except.ok.injEq, Option.some.injEq] at h
    subst h
    exact ⟨[], rfl, by simp, by simp, by simp, by simp⟩
  | cons gt gts ih =>
    intro g s s' h
    unfold overGts at h
    obtain ⟨r, hr, h⟩ := Run.bind_eq_ok.mp h
    obtain ⟨ms, h1, h2, h3, h4, h5⟩ := ih (g + 1) _ _ h
    have f := callMatch_facts (hx g) hr
    refine ⟨posSet p.rows p.cols r.o0 :: ms, by simp [h1], ?_, ?_, ?_, ?_⟩
    · intro k hk
      cases k with
      | zero =>
        refine ⟨by simpa using f.sub0, ?_⟩
        simp only [List.getD_cons_zero]
        rw [f.card]; exact card_le_card f.sub1
      | succ k => simpa using h2 k (by simpa using hk)
    · intro i j hi hj
      rw [h3 i j hi hj]
      simp only [Bool.or_eq_true, decide_eq_true_eq, List.mem_cons, exists_eq_or_imp, posSet, mem_filter,
        mem_product, mem_range, hi, hj, true_and, or_assoc, Nat.pos_iff_ne_zero, gt_iff_lt]
    · rw [h4]
      simp only [List.map_cons, List.sum_cons, imgSum_posImg, f.card]
      ring
    · rw [h5]
      simp only [List.map_cons, List.sum_cons]
      ring

end EdgeEval
