import Verif.Lemmas.SortFuel
import Mathlib.Tactic.NormNum

/-!
# C66: the sort of the native library

`Sort.hh` is a generic header: the theorems range over the element type, the comparison and the array.
-/

namespace EdgeEval.Props

open Spec.Sort EdgeEval.Sort

variable {α : Type}

/-- **C66, whatever the comparison does**: sorting `n` elements of an array that has at least `n` never reads or
writes outside the first `n` positions, no assertion inside the quick sort fails, it terminates, and the result is a rearrangement of the
input.  (The result does not depend on the budget of loop iterations, as soon as that is `2 n + 2`.) -/
theorem C66_safe (cmp : α → α → ℤ) (a : Arr α) (n : ℤ) (hn : 0 ≤ n) (hs : n ≤ a.size) :
    ∃ b, (∀ F : Nat, 2 * n + 2 ≤ F → quickSort F cmp F 0 n a = .ok b) ∧ b.size = a.size ∧ Rearranged a.at_ b.at_ 0 n := by
  obtain ⟨b, e, ⟨h1, h2⟩, _⟩ := quickSort_post cmp (2 * n + 2).toNat (2 * n + 2).toNat 0 n a le_rfl (by omega) (by omega) (by omega) (by omega) (by omega)
  rw [zero_add] at h2
  exact ⟨b, fun F hF => quickSort_mono cmp (by omega) (by omega) 0 n a b e, h1, h2⟩

/-- **C66, with a comparison that orders**: `sort` returns — its final check of the postcondition does not fire — and *every* pair is in
order, not only the adjacent ones it checks. -/
theorem C66_sorts (cmp : α → α → ℤ) (ho : Orders cmp) (a : Arr α) (n : ℤ) (hn : 0 ≤ n) (hs : n ≤ a.size) :
    ∃ b, (∀ F : Nat, 2 * n + 2 ≤ F → sort F cmp a n = .ok b) ∧ b.size = a.size ∧ Rearranged a.at_ b.at_ 0 n ∧
      Increasing cmp b.at_ 0 n := by
  obtain ⟨b, e, hR, hI⟩ := quickSort_post cmp (2 * n + 2).toNat (2 * n + 2).toNat 0 n a le_rfl (by omega) (by omega) (by omega) (by omega) (by omega)
  rw [zero_add] at hR
  have hI := hI ho
  rw [zero_add] at hI
  refine ⟨b, fun F hF => sort_mono cmp (by omega) a n b (F := (2 * n + 2).toNat) ?_, hR.1, hR.2, hI⟩
  unfold sort
  rw [e]
  obtain ⟨u, eu, _⟩ := forUp_post (body := fun i (_ : Unit) => do
    let c ← sortCmp cmp b (i - 1) i
    assert_ (decide (c ≤ 0))) (fun _ _ => True) (n - 1).toNat 1 () trivial (by
      intro i s h1 h2 _
      have := hR.1
      rw [sortCmp_eq cmp b (by unfold Arr.In; omega) (by unfold Arr.In; omega)]
      refine ⟨(), ?_, trivial⟩
      exact assert_true (by simpa using hI (i - 1) i (by omega) (by omega) (by omega)))
  simp only [bind, Except.bind] at eu ⊢
  rw [eu]
  rfl

/-- **C66**: when `sort` returns, adjacent elements are in order — and nothing else is left in doubt only if the comparison orders (`C66_sorts`,
`C66_nan_unsorted`). -/
theorem C66_returns (cmp : α → α → ℤ) (F : Nat) (a b : Arr α) (n : ℤ) (h : sort F cmp a n = .ok b) :
    quickSort F cmp F 0 n a = .ok b ∧ ∀ i, 1 ≤ i → i < n → cmp (b.at_ (i - 1)) (b.at_ i) ≤ 0 := by
  unfold sort at h
  cases hq : quickSort F cmp F 0 n a with
  | error e => simp [hq, bind, Except.bind] at h
  | ok c =>
    simp only [hq, bind, Except.bind] at h
    split at h
    · simp at h
    rename_i u hu
    have hcb : c = b := by simpa [pure, Except.pure] using h
    subst hcb
    refine ⟨rfl, ?_⟩
    have key : ∀ (k : Nat) (i0 : ℤ), forUp (fun i (_ : Unit) => do
        let x ← sortCmp cmp c (i - 1) i
        assert_ (decide (x ≤ 0))) k i0 () = .ok u → ∀ i, i0 ≤ i → i < i0 + k → cmp (c.at_ (i - 1)) (c.at_ i) ≤ 0 := by
      intro k
      induction k with
      | zero => intro i0 _ i h1 h2; simp at h2; omega
      | succ k ih =>
        intro i0 hk i h1 h2
        simp only [forUp] at hk
        have hstep : ∃ x, sortCmp cmp c (i0 - 1) i0 = .ok x ∧ x ≤ 0 ∧ forUp (fun i (_ : Unit) => do
            let x ← sortCmp cmp c (i - 1) i
            assert_ (decide (x ≤ 0))) k (i0 + 1) () = .ok u := by
          cases hx : sortCmp cmp c (i0 - 1) i0 with
          | error e => simp [hx, bind, Except.bind] at hk
          | ok x =>
            by_cases hx0 : x ≤ 0
            · refine ⟨x, rfl, hx0, ?_⟩
              simpa [hx, bind, Except.bind, assert_, hx0] using hk
            · simp [hx, bind, Except.bind, assert_, hx0] at hk
        obtain ⟨x, hx, hx0, hrest⟩ := hstep
        by_cases hi : i = i0
        · subst hi
          have : cmp (c.at_ (i - 1)) (c.at_ i) = x := by
            simp only [sortCmp, Arr.read, bind, Except.bind] at hx
            split_ifs at hx
            simp [pure, Except.pure] at hx
            exact hx
          omega
        · exact ih (i0 + 1) hrest i (by omega) (by push_cast at h2; omega)
    intro i h1 h2
    exact key (n - 1).toNat 1 (by simpa [bind, Except.bind] using hu) i h1 (by omega)

/-- **C66**: the two unused selection sorts and the insertion sort also sort any segment, safely, for every comparison, and leave the
rest of the array alone. -/
theorem C66_simple_sorts (cmp : α → α → ℤ) (a : Arr α) (start n : ℤ) (F : Nat) (h0 : 0 ≤ start) (hn : 0 ≤ n)
    (hs : start + n ≤ a.size) (hF : n < F) :
    ∃ b1 b2 b3, insertionSort F cmp start n a = .ok b1 ∧ selectionSort1 cmp start n a = .ok b2 ∧
      selectionSort2 F cmp start n a = .ok b3 ∧
      (∀ b ∈ [b1, b2, b3], b.size = a.size ∧ Rearranged a.at_ b.at_ start (start + n) ∧
        (Orders cmp → Increasing cmp b.at_ start (start + n))) := by
  obtain ⟨b1, e1, r1, s1⟩ := insertionSort_post cmp start n F a h0 hs hF
  obtain ⟨b2, e2, r2, s2⟩ := selectionSort1_post cmp start n a h0 hs
  obtain ⟨b3, e3, r3, s3⟩ := selectionSort2_post cmp start n F a h0 hs hF (by omega)
  refine ⟨b1, b2, b3, e1, e2, e3, ?_⟩
  simp only [List.mem_cons, List.not_mem_nil, or_false]
  rintro b (rfl | rfl | rfl)
  · exact ⟨r1.1, r1.2, s1⟩
  · exact ⟨r2.1, r2.2, s2⟩
  · exact ⟨r3.1, r3.2, s3⟩

/-- **C66**: the pivot is the median of the three probed elements. -/
theorem C66_median (cmp : α → α → ℤ) (ho : Orders cmp) (a : Arr α) (x y z : ℤ) (hx : 0 ≤ x ∧ x < a.size) (hy : 0 ≤ y ∧ y < a.size)
    (hz : 0 ≤ z ∧ z < a.size) :
    ∃ m p q, median3 cmp a x y z = .ok m ∧ [p, m, q].Perm [x, y, z] ∧ cmp (a.at_ p) (a.at_ m) ≤ 0 ∧ cmp (a.at_ m) (a.at_ q) ≤ 0 := by
  obtain ⟨m, e, p, q, h⟩ := median3_median cmp ho a x y z hx hy hz
  exact ⟨m, p, q, e, h⟩

/-- The usage comment (Sort.hh:9-16): `sort(a, n)` with the default comparison puts values of any linearly ordered type into
increasing order. -/
theorem C66_default (β : Type) [LinearOrder β] (a : Arr β) (n : ℤ) (hn : 0 ≤ n) (hs : n ≤ a.size) :
    ∃ b, (∀ F : Nat, 2 * n + 2 ≤ F → sort F (defaultCmp fun x y => decide (x < y)) a n = .ok b) ∧ b.size = a.size ∧
      Rearranged a.at_ b.at_ 0 n ∧ ∀ i j, 0 ≤ i → i < j → j < n → b.at_ i ≤ b.at_ j := by
  have key : ∀ x y : β, (defaultCmp (fun x y => decide (x < y)) x y < 0 ↔ x < y) ∧ (0 < defaultCmp (fun x y => decide (x < y)) x y ↔ y < x) ∧
      (defaultCmp (fun x y => decide (x < y)) x y ≤ 0 ↔ x ≤ y) := by
    intro x y
    unfold defaultCmp
    rcases lt_trichotomy x y with h | h | h
    · simp [h, h.le, h.not_gt]
    · simp [h]
    · simp [h, h.not_gt, h.not_ge]
  have ho : Orders (defaultCmp fun x y : β => decide (x < y)) :=
    ⟨fun x y => by rw [(key x y).1, (key y x).2.1], fun x y z => by
      rw [(key x y).2.2, (key y z).2.2, (key x z).2.2]; exact le_trans⟩
  obtain ⟨b, h1, h2, h3, h4⟩ := C66_sorts _ ho a n hn hs
  exact ⟨b, h1, h2, h3, fun i j hi hij hj => (key _ _).2.2.mp (h4 i j hi hij hj)⟩

/-- The documented example (Sort.hh:28-41, `return a[j].x - a[i].x`): decreasing order, as long as the subtraction does not leave the
range of `int`. -/
theorem C66_example_decreasing (a : Arr ℤ) (n : ℤ) (hn : 0 ≤ n) (hs : n ≤ a.size) :
    ∃ b, (∀ F : Nat, 2 * n + 2 ≤ F → sort F (fun x y : ℤ => y - x) a n = .ok b) ∧ b.size = a.size ∧ Rearranged a.at_ b.at_ 0 n ∧
      ∀ i j, 0 ≤ i → i < j → j < n → b.at_ j ≤ b.at_ i := by
  have ho : Orders fun x y : ℤ => y - x := ⟨fun x y => by omega, fun x y z h1 h2 => by omega⟩
  obtain ⟨b, h1, h2, h3, h4⟩ := C66_sorts _ ho a n hn hs
  exact ⟨b, h1, h2, h3, fun i j hi hij hj => by have := h4 i j hi hij hj; simp only at this; omega⟩

/-- Finding: when the difference overflows (two's complement) the documented comparison puts `-2` before `2147483647`: the "decreasing"
result is increasing, and the final check accepts it. -/
theorem C66_example_overflow :
    let wrap : ℤ → ℤ := fun d => (d + 2147483648) % 4294967296 - 2147483648
    let a : Arr ℤ := ⟨2, fun k => if k = 0 then 2147483647 else -2⟩
    ∃ b, sort 10 (fun x y : ℤ => wrap (y - x)) a 2 = .ok b ∧ b.at_ 0 = -2 ∧ b.at_ 1 = 2147483647 := by
  refine ⟨_, rfl, ?_, ?_⟩ <;> decide +kernel

/-- Doubles with one unordered value: `none` is NaN, every comparison with it is false. -/
def floatLt : Option ℚ → Option ℚ → Bool
  | some x, some y => decide (x < y)
  | _, _ => false

/-- Finding: a NaN makes `sort` of doubles return normally with `1` before `0`: NaN compares "equal" to both neighbours, so neither the
sort nor its final check of adjacent pairs notices. -/
theorem C66_nan_unsorted :
    let a : Arr (Option ℚ) := ⟨3, fun k => if k = 0 then some 1 else if k = 1 then none else some 0⟩
    ∃ b, sort 10 (defaultCmp floatLt) a 3 = .ok b ∧ b.at_ 0 = some 1 ∧ b.at_ 2 = some 0 ∧
      ¬ Increasing (defaultCmp floatLt) b.at_ 0 3 := by
  refine ⟨_, rfl, rfl, rfl, fun h => ?_⟩
  have := h 0 2 (by norm_num) (by norm_num) (by norm_num)
  revert this
  decide +kernel

/-! ### The hypotheses are met -/

/-- Twenty elements, so that the partition runs. -/
example : ∃ b, (∀ F : Nat, 2 * 20 + 2 ≤ (F : ℤ) → sort F (defaultCmp fun x y : ℤ => decide (x < y)) ⟨25, fun k => (k * 7) % 20⟩ 20 = .ok b) ∧
    b.at_ 0 ≤ b.at_ 19 := by
  obtain ⟨b, h1, _, _, h4⟩ := C66_default ℤ ⟨25, fun k => (k * 7) % 20⟩ 20 (by norm_num) (by norm_num)
  exact ⟨b, h1, h4 0 19 (by norm_num) (by norm_num) (by norm_num)⟩

/-- Rearranging is really checked: the constant array is not a rearrangement of `0, 1`. -/
example : ¬ Rearranged (fun k : ℤ => k) (fun _ => 0) 0 2 := by
  rintro ⟨σ, _, h⟩
  have h0 := h 0
  have h1 := h 1
  have := σ.injective (h0.symm.trans h1)
  norm_num at this

example : Orders fun x y : ℤ => x - y := ⟨fun x y => by omega, fun x y z h1 h2 => by omega⟩

/-- A comparison that does not order is still safe to sort with. -/
example : ∃ b, ∀ F : Nat, 2 * 30 + 2 ≤ (F : ℤ) → quickSort F (fun _ _ : ℤ => (1 : ℤ)) F 0 30 ⟨30, id⟩ = .ok b := by
  obtain ⟨b, h, _⟩ := C66_safe (fun _ _ : ℤ => (1 : ℤ)) ⟨30, id⟩ 30 (by norm_num) (by norm_num)
  exact ⟨b, h⟩

end EdgeEval.Props
