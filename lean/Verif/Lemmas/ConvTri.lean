import Mathlib.Algebra.BigOperators.Intervals
import Mathlib.Algebra.BigOperators.Field
import Verif.Lemmas.Nms

namespace EdgeEval.Nms

open Spec

theorem symIdx_eq {n : ℕ} (hn : 0 < n) (k : ℤ) : symIdx n k = mirror n k := by
  unfold symIdx mirror
  have h1 : 0 ≤ k % (2 * n) := Int.emod_nonneg _ (by omega)
  have h2 : k % (2 * n) < 2 * n := Int.emod_lt_of_pos _ (by omega)
  generalize k % (2 * (n : ℤ)) = q at *
  simp only
  split <;> omega

theorem mirror_lt {n : ℕ} (hn : 0 < n) (k : ℤ) : mirror n k < n := by
  unfold mirror
  have h1 : 0 ≤ k % (2 * n) := Int.emod_nonneg _ (by omega)
  have h2 : k % (2 * n) < 2 * n := Int.emod_lt_of_pos _ (by omega)
  generalize k % (2 * (n : ℤ)) = q at *
  omega

theorem triTaps_length {r : ℕ} (hr : 1 ≤ r) : (triTaps r).length = 2 * r + 1 := by
  unfold triTaps
  split
  · have : r = 1 := by omega
    subst this; simp
  · simp; omega

/-- The taps of the filter are the triangle weights, in both branches of the code. -/
theorem triTaps_getD {r : ℕ} (hr : 1 ≤ r) {k : ℕ} (hk : k < 2 * r + 1) :
    (triTaps r).getD k 0 = triWeight r ((k : ℤ) - r) := by
  unfold triTaps triWeight
  split
  · have : r = 1 := by omega
    subst this
    have : k = 0 ∨ k = 1 ∨ k = 2 := by omega
    rcases this with rfl | rfl | rfl <;> norm_num
  · rw [List.getD_eq_getElem?_getD, List.getElem?_map]
    rcases lt_trichotomy k r with h | h | h
    · rw [List.getElem?_append_left (by simp; omega), List.getElem?_append_left (by simpa using h)]
      rw [List.getElem?_map, List.getElem?_range h]
      simp only [Option.map_some, Option.getD_some]
      have : ((k : ℝ)) ≤ r := by exact_mod_cast h.le
      push_cast
      rw [abs_of_nonpos (by linarith)]
      congr 1; ring
    · subst h
      rw [List.getElem?_append_left (by simp), List.getElem?_append_right (by simp)]
      simp
    · rw [List.getElem?_append_right (by simp; omega), List.getElem?_map,
        List.getElem?_range (by simp; omega)]
      simp only [Option.map_some, Option.getD_some]
      have : ((r : ℝ)) + 1 ≤ k := by exact_mod_cast h
      simp only [List.length_append, List.length_map, List.length_range, List.length_singleton]
      push_cast [Nat.cast_sub (by omega : r + 1 ≤ k)]
      rw [abs_of_nonneg (by linarith)]
      congr 1; ring

theorem triWeight_neg (r : ℕ) (a : ℤ) : triWeight r (-a) = triWeight r a := by
  unfold triWeight; push_cast; rw [abs_neg]

/-- Re-indexing `0 .. 2r` as `-r .. r`. -/
theorem sum_window (r : ℕ) (F : ℤ → ℝ) :
    ∑ k ∈ Finset.range (2 * r + 1), F ((k : ℤ) - r) = ∑ a ∈ Finset.Icc (-(r : ℤ)) r, F a := by
  refine Finset.sum_bij (fun k _ => (k : ℤ) - r) ?_ ?_ ?_ ?_
  · intro k hk
    rw [Finset.mem_range] at hk
    rw [Finset.mem_Icc]; omega
  · intro a _ b _ h
    omega
  · intro b hb
    rw [Finset.mem_Icc] at hb
    exact ⟨(b + r).toNat, by rw [Finset.mem_range]; omega, by omega⟩
  · intro k _; rfl

theorem list_sum_range (n : ℕ) (F : ℕ → ℝ) : ((List.range n).map F).sum = ∑ k ∈ Finset.range n, F k := by
  induction n with
  | zero => simp
  | succ n ih => rw [List.range_succ, List.map_append, List.sum_append, ih, Finset.sum_range_succ]; simp

theorem conv1_tri {r : ℕ} (hr : 1 ≤ r) (a : ℤ → ℝ) (i : ℕ) :
    conv1 (triTaps r) (fun (k : ℕ) => a ((k : ℤ) - r)) i
      = ∑ d ∈ Finset.Icc (-(r : ℤ)) r, triWeight r d * a (i + d) := by
  unfold conv1
  rw [list_sum_range, triTaps_length hr, ← sum_window r (fun d => triWeight r d * a (i + d))]
  refine Finset.sum_congr rfl fun k hk => ?_
  rw [Finset.mem_range] at hk
  rw [triTaps_getD hr (by omega), ← triWeight_neg]
  congr 2
  · omega
  · push_cast; ring_nf

/-- The two passes of `conv_tri` in closed form. -/
theorem convTri_eq (im : Img ℝ) {r : ℕ} (hr : 1 ≤ r) (h0 : 0 < im.rows) (w0 : 0 < im.cols) :
    ∃ out, convTri im r 1 = .ok out ∧ out.rows = im.rows ∧ out.cols = im.cols ∧
      ∀ i j, out.at_ i j = triMean im r i j := by
  unfold convTri
  have hne : ¬ (im.rows * im.cols = 0 ∨ (r = 0 ∧ 1 = 1)) := by
    have := Nat.mul_pos h0 w0
    omega
  have hr0 : ¬ r = 0 := by omega
  rw [if_neg hne, if_neg hr0]
  refine ⟨_, rfl, rfl, rfl, fun i j => ?_⟩
  simp only
  unfold triMean
  have hor : ∀ k : ℕ, conv1 (triTaps r) (fun (l : ℕ) =>
      im.at_ (symIdx im.rows ((k : ℤ) - r)) (symIdx im.cols ((l : ℤ) - r))) j
      = ∑ b ∈ Finset.Icc (-(r : ℤ)) r, triWeight r b *
        im.at_ (mirror im.rows ((k : ℤ) - r)) (mirror im.cols (j + b)) := by
    intro k
    rw [conv1_tri hr (fun z => im.at_ (symIdx im.rows ((k : ℤ) - r)) (symIdx im.cols z))]
    exact Finset.sum_congr rfl fun b _ => by rw [symIdx_eq h0, symIdx_eq w0]
  simp only [hor]
  rw [conv1_tri hr (fun z => ∑ b ∈ Finset.Icc (-(r : ℤ)) r, triWeight r b *
        im.at_ (mirror im.rows z) (mirror im.cols (j + b)))]
  refine Finset.sum_congr rfl fun a _ => ?_
  rw [Finset.mul_sum]
  exact Finset.sum_congr rfl fun b _ => by ring

theorem triWeight_nonneg {r : ℕ} {a : ℤ} (ha : a ∈ Finset.Icc (-(r : ℤ)) r) : 0 ≤ triWeight r a := by
  rw [Finset.mem_Icc] at ha
  unfold triWeight
  apply div_nonneg _ (by positivity)
  have : |(a : ℝ)| ≤ r := by
    rw [abs_le]
    constructor
    · exact_mod_cast ha.1
    · exact_mod_cast ha.2
  linarith

theorem triWeight_sum (r : ℕ) : ∑ a ∈ Finset.Icc (-(r : ℤ)) r, triWeight r a = 1 := by
  have key : ∀ n : ℕ, ∑ a ∈ Finset.Icc (-(n : ℤ)) n, ((n : ℝ) + 1 - |(a : ℝ)|) = ((n : ℝ) + 1) ^ 2 := by
    intro n
    have hcard : ((Finset.Icc (-(n : ℤ)) n).card : ℝ) = 2 * n + 1 := by
      rw [Int.card_Icc]
      have : (((n : ℤ) + 1 - -(n : ℤ)).toNat) = 2 * n + 1 := by omega
      rw [this]; push_cast; ring
    have habs : ∀ m : ℕ, ∑ a ∈ Finset.Icc (-(m : ℤ)) m, |(a : ℝ)| = (m : ℝ) * (m + 1) := by
      intro m
      induction m with
      | zero => simp
      | succ m ih =>
        have hset : Finset.Icc (-((m + 1 : ℕ) : ℤ)) ((m + 1 : ℕ) : ℤ)
            = insert (-((m + 1 : ℕ) : ℤ)) (insert ((m + 1 : ℕ) : ℤ) (Finset.Icc (-(m : ℤ)) m)) := by
          ext a
          simp only [Finset.mem_insert, Finset.mem_Icc]
          omega
        rw [hset, Finset.sum_insert, Finset.sum_insert, ih]
        · push_cast
          rw [abs_of_nonpos (by linarith [(Nat.cast_nonneg m : (0 : ℝ) ≤ m)]),
            abs_of_nonneg (by linarith [(Nat.cast_nonneg m : (0 : ℝ) ≤ m)])]
          ring
        · simp
        · simp only [Finset.mem_insert, Finset.mem_Icc]; omega
    rw [Finset.sum_sub_distrib, habs, Finset.sum_const, nsmul_eq_mul, hcard]
    ring
  unfold triWeight
  rw [← Finset.sum_div, key, div_self]
  positivity

theorem triMean_within (im : Img ℝ) (r : ℕ) (h0 : 0 < im.rows) (w0 : 0 < im.cols) {lo hi : ℝ}
    (hw : Within im lo hi) (i j : ℕ) : lo ≤ triMean im r i j ∧ triMean im r i j ≤ hi := by
  have key : ∀ c : ℝ, ∑ a ∈ Finset.Icc (-(r : ℤ)) r, ∑ b ∈ Finset.Icc (-(r : ℤ)) r,
      triWeight r a * triWeight r b * c = c := by
    intro c
    have : ∀ a ∈ Finset.Icc (-(r : ℤ)) r, ∑ b ∈ Finset.Icc (-(r : ℤ)) r,
        triWeight r a * triWeight r b * c = triWeight r a * c := by
      intro a _
      rw [← Finset.sum_mul, ← Finset.mul_sum, triWeight_sum, mul_one]
    rw [Finset.sum_congr rfl this, ← Finset.sum_mul, triWeight_sum, one_mul]
  constructor
  · calc lo = _ := (key lo).symm
      _ ≤ _ := Finset.sum_le_sum fun a ha => Finset.sum_le_sum fun b hb =>
        mul_le_mul_of_nonneg_left (hw _ (mirror_lt h0 _) _ (mirror_lt w0 _)).1
          (mul_nonneg (triWeight_nonneg ha) (triWeight_nonneg hb))
  · calc _ ≤ _ := Finset.sum_le_sum fun a ha => Finset.sum_le_sum fun b hb =>
          mul_le_mul_of_nonneg_left (hw _ (mirror_lt h0 _) _ (mirror_lt w0 _)).2
            (mul_nonneg (triWeight_nonneg ha) (triWeight_nonneg hb))
      _ = hi := key hi

end EdgeEval.Nms
