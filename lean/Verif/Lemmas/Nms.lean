import Mathlib.Algebra.Order.Floor.Ring
import Mathlib.Algebra.BigOperators.Ring.Finset
import Mathlib.Algebra.Order.BigOperators.Group.Finset
import Verif.Model.Nms
import Verif.Spec.Nms

namespace EdgeEval.Nms

open Spec

theorem tent_self_sub {x : ℝ} {k : ℕ} (h0 : (k : ℝ) ≤ x) (h1 : x < k + 1) : tent (x - k) = 1 - (x - k) := by
  unfold tent
  rw [abs_of_nonneg (by linarith), max_eq_right (by linarith)]

theorem tent_next {x : ℝ} {k : ℕ} (h0 : (k : ℝ) ≤ x) (h1 : x < k + 1) :
    tent (x - ((k + 1 : ℕ) : ℝ)) = x - k := by
  unfold tent
  push_cast
  rw [abs_of_nonpos (by linarith), max_eq_right (by linarith)]
  ring

theorem tent_other {x : ℝ} {k j : ℕ} (h0 : (k : ℝ) ≤ x) (h1 : x < k + 1) (hj : j ≠ k) (hj' : j ≠ k + 1) :
    tent (x - j) = 0 := by
  unfold tent
  apply max_eq_left
  rcases Nat.lt_or_gt_of_ne hj with h | h
  · have : (j : ℝ) + 1 ≤ k := by exact_mod_cast h
    have := le_abs_self (x - j)
    linarith
  · have h2 : k + 2 ≤ j := by omega
    have : (k : ℝ) + 2 ≤ j := by exact_mod_cast h2
    have := neg_le_abs (x - j)
    linarith

theorem tent_nonneg (t : ℝ) : 0 ≤ tent t := le_max_left _ _

/-- The tent-weighted sum over an axis has two terms. -/
theorem sum_tent (f : ℕ → ℝ) {n k : ℕ} {x : ℝ} (hk : k + 1 < n) (h0 : (k : ℝ) ≤ x) (h1 : x < k + 1) :
    ∑ j ∈ Finset.range n, f j * tent (x - j) = f k * (1 - (x - k)) + f (k + 1) * (x - k) := by
  rw [Finset.sum_eq_add_of_mem k (k + 1) (by simp; omega) (by simp; omega) (by omega)]
  · rw [tent_self_sub h0 h1, tent_next h0 h1]
  · intro j _ hj
    rw [tent_other h0 h1 hj.1 hj.2, mul_zero]

theorem bilinear_cell (I : Img ℝ) {x y : ℝ} {k l : ℕ} (hk : k + 1 < I.cols) (hl : l + 1 < I.rows)
    (hx0 : (k : ℝ) ≤ x) (hx1 : x < k + 1) (hy0 : (l : ℝ) ≤ y) (hy1 : y < l + 1) :
    bilinear I x y =
      I.at_ l k * (1 - (x - k)) * (1 - (y - l)) + I.at_ l (k + 1) * (x - k) * (1 - (y - l)) +
      I.at_ (l + 1) k * (1 - (x - k)) * (y - l) + I.at_ (l + 1) (k + 1) * (x - k) * (y - l) := by
  have e : bilinear I x y = ∑ i ∈ Finset.range I.rows,
      (∑ j ∈ Finset.range I.cols, I.at_ i j * tent (x - j)) * tent (y - i) := by
    unfold bilinear
    exact Finset.sum_congr rfl fun i _ => by rw [Finset.sum_mul]
  rw [e, sum_tent (fun (i : ℕ) => ∑ j ∈ Finset.range I.cols, I.at_ i j * tent (x - j)) hl hy0 hy1,
    sum_tent _ hk hx0 hx1, sum_tent _ hk hx0 hx1]
  ring

theorem clampCoord_eq {n : ℕ} (hn : 2 ≤ n) (x : ℝ) : clampCoord n x = inRange n x := by
  have : (2 : ℝ) ≤ n := by exact_mod_cast hn
  unfold clampCoord inRange
  rw [show (((n : ℤ) : ℝ)) = (n : ℝ) by norm_cast]
  split
  · rw [max_eq_left]; exact le_trans (min_le_left _ _) (by linarith)
  · split
    · rw [min_eq_right (by linarith), max_eq_right (by norm_num; linarith)]
    · rw [min_eq_left (by linarith), max_eq_right (by linarith)]

theorem inRange_bounds {n : ℕ} (hn : 2 ≤ n) (x : ℝ) :
    0 ≤ inRange n x ∧ inRange n x ≤ (n : ℝ) - 1.001 := by
  have : (2 : ℝ) ≤ n := by exact_mod_cast hn
  unfold inRange
  refine ⟨le_max_left _ _, max_le (by norm_num; linarith) (min_le_right _ _)⟩

theorem floor_cell {n : ℕ} {c : ℝ} (h0 : 0 ≤ c) (h1 : c ≤ (n : ℝ) - 1.001) :
    cInt c = ((⌊c⌋.toNat : ℕ) : ℤ) ∧ ⌊c⌋.toNat + 1 < n ∧ ((⌊c⌋.toNat : ℕ) : ℝ) ≤ c ∧
      c < (⌊c⌋.toNat : ℕ) + 1 := by
  have hf : 0 ≤ ⌊c⌋ := Int.floor_nonneg.2 h0
  have hc : ((⌊c⌋.toNat : ℕ) : ℤ) = ⌊c⌋ := Int.toNat_of_nonneg hf
  have hr : ((⌊c⌋.toNat : ℕ) : ℝ) = (⌊c⌋ : ℝ) := by
    rw [← hc]; norm_cast
  refine ⟨by rw [cInt, if_pos h0, hc], ?_, by rw [hr]; exact Int.floor_le c,
    by rw [hr]; exact Int.lt_floor_add_one c⟩
  have h2 : ((⌊c⌋.toNat : ℕ) : ℝ) + 1 < n := by
    rw [hr]
    have := Int.floor_le c
    norm_num at h1
    linarith
  exact_mod_cast h2

theorem readAt_ok (I : Img ℝ) {a b : ℕ} (ha : a < I.rows) (hb : b < I.cols) :
    readAt I a b = .ok (I.at_ a b) := by
  unfold readAt
  rw [if_pos (by omega)]
  simp

/-- On images of at least 2×2 pixels `interp` reads inside the image and is bilinear interpolation at the
clamped position. -/
theorem interp_eq (I : Img ℝ) (hr : 2 ≤ I.rows) (hc : 2 ≤ I.cols) (x y : ℝ) :
    interp I I.rows I.cols x y = .ok (sample I x y) := by
  obtain ⟨hx0, hx1⟩ := inRange_bounds hc x
  obtain ⟨hy0, hy1⟩ := inRange_bounds hr y
  obtain ⟨ex, kx, lx, ux⟩ := floor_cell hx0 hx1
  obtain ⟨ey, ky, ly, uy⟩ := floor_cell hy0 hy1
  unfold interp sample
  rw [clampCoord_eq hc, clampCoord_eq hr]
  generalize inRange I.cols x = cx at *
  generalize inRange I.rows y = cy at *
  generalize ⌊cx⌋.toNat = k at *
  generalize ⌊cy⌋.toNat = l at *
  rw [bilinear_cell I kx ky lx ux ly uy]
  simp only [ex, ey]
  rw [readAt_ok I (by omega) (by omega)]
  rw [show ((k : ℤ) + 1) = ((k + 1 : ℕ) : ℤ) by push_cast; ring,
    show ((l : ℤ) + 1) = ((l + 1 : ℕ) : ℤ) by push_cast; ring]
  rw [readAt_ok I (by omega) (by omega), readAt_ok I (by omega) (by omega),
    readAt_ok I (by omega) (by omega)]
  simp

theorem mem_offsets {r d : ℤ} : d ∈ offsets r ↔ |d| ≤ r := by
  unfold offsets
  simp only [List.mem_map, List.mem_range]
  constructor
  · rintro ⟨k, hk, rfl⟩
    rw [abs_le]; omega
  · intro h
    rw [abs_le] at h
    exact ⟨(d + r).toNat, by omega, by omega⟩

theorem suppressLoop_eq (I : Img ℝ) (hr : 2 ≤ I.rows) (hc : 2 ≤ I.cols) (e c s : ℝ) (x y : ℕ)
    (ds : List ℤ) :
    ∃ b, suppressLoop I e c s x y ds = .ok b ∧
      (b = true ↔ ∃ d ∈ ds, d ≠ 0 ∧ e < sample I (x + d * c) (y + d * s)) := by
  induction ds with
  | nil => exact ⟨false, rfl, by simp⟩
  | cons d ds ih =>
    obtain ⟨b, hb, hiff⟩ := ih
    unfold suppressLoop
    by_cases h0 : d = 0
    · refine ⟨b, by simp [h0, hb], ?_⟩
      rw [hiff]; simp [h0]
    · rw [if_pos h0, interp_eq I hr hc]
      by_cases hlt : e < sample I (x + d * c) (y + d * s)
      · exact ⟨true, by simp [hlt], by simp [h0, hlt]⟩
      · refine ⟨b, by simp [hlt, hb], ?_⟩
        rw [hiff]; simp [hlt]

open Classical in
theorem nmsPixel_eq (I O : Img ℝ) (hr : 2 ≤ I.rows) (hc : 2 ≤ I.cols) (r : ℤ) (m : ℝ) (y x : ℕ) :
    nmsPixel I O r m y x = .ok (if Beaten I O r m y x then 0 else I.at_ y x) := by
  unfold nmsPixel
  by_cases h0 : I.at_ y x = 0
  · simp [h0]
  · obtain ⟨b, hb, hiff⟩ := suppressLoop_eq I hr hc (I.at_ y x * m) (Real.cos (O.at_ y x))
      (Real.sin (O.at_ y x)) x y (offsets r)
    have hB : b = true ↔ Beaten I O r m y x := by
      rw [hiff]
      unfold Beaten
      simp only [mem_offsets]
      rw [mul_comm m]
      exact ⟨fun ⟨d, h1, h2, h3⟩ => ⟨d, h2, h1, h3⟩, fun ⟨d, h1, h2, h3⟩ => ⟨d, h2, h1, h3⟩⟩
    simp only [h0, if_false, hb]
    by_cases hB' : Beaten I O r m y x
    · simp [hB', hB.2 hB']
    · have : b = false := by
        cases b
        · rfl
        · exact absurd (hB.1 rfl) hB'
      simp [hB', this]

theorem mem_loop2 {a b : ℕ} {p : ℕ × ℕ} : p ∈ loop2 a b ↔ p.1 < a ∧ p.2 < b := by
  unfold loop2
  simp only [List.mem_flatMap, List.mem_map, List.mem_range]
  constructor
  · rintro ⟨x, hx, y, hy, rfl⟩; exact ⟨hx, hy⟩
  · rintro ⟨h1, h2⟩; exact ⟨p.1, h1, p.2, h2, rfl⟩

open Classical in
theorem firstPass_eq (I O : Img ℝ) (hr : 2 ≤ I.rows) (hc : 2 ≤ I.cols) (r : ℤ) (m : ℝ)
    (ps : List (ℕ × ℕ)) (out : ℕ → ℕ → ℝ) :
    ∃ o, firstPass I O r m ps out = .ok o ∧ ∀ y x,
      o y x = if (x, y) ∈ ps then (if Beaten I O r m y x then 0 else I.at_ y x) else out y x := by
  induction ps generalizing out with
  | nil => exact ⟨out, rfl, by simp⟩
  | cons p ps ih =>
    unfold firstPass
    rw [nmsPixel_eq I O hr hc]
    obtain ⟨o, ho, hv⟩ := ih (setCell out p.2 p.1 (if Beaten I O r m p.2 p.1 then 0 else I.at_ p.2 p.1))
    refine ⟨o, ho, fun y x => ?_⟩
    rw [hv]
    by_cases hm : (x, y) ∈ ps
    · simp [hm]
    · by_cases hp : (x, y) = p
      · subst hp; simp [hm, setCell]
      · have hne : ¬ (y = p.2 ∧ x = p.1) := by
          rintro ⟨rfl, rfl⟩; exact hp rfl
        simp [hm, hp, setCell, hne]

/-- A loop whose iterations multiply the cells of one row-or-column pair, each cell at most once. -/
theorem fold_mul (g : ℕ × ℕ → (ℕ × ℕ) × (ℕ × ℕ)) (f : ℕ × ℕ → ℝ) (ps : List (ℕ × ℕ))
    (out : ℕ → ℕ → ℝ) (y x : ℕ) :
    (ps.foldl (fun o p => mulCell (mulCell o (g p).1.1 (g p).1.2 (f p)) (g p).2.1 (g p).2.2 (f p)) out) y x
      = out y x * (ps.map fun p => (if (g p).1 = (y, x) then f p else 1) *
          (if (g p).2 = (y, x) then f p else 1)).prod := by
  induction ps generalizing out with
  | nil => simp
  | cons p ps ih =>
    rw [List.foldl_cons, ih]
    rw [List.map_cons, List.prod_cons, ← mul_assoc]
    congr 1
    unfold mulCell setCell
    have e1 : ((g p).1 = (y, x)) ↔ (y = (g p).1.1 ∧ x = (g p).1.2) := by
      rw [Prod.ext_iff]; constructor <;> rintro ⟨a, b⟩ <;> exact ⟨a.symm, b.symm⟩
    have e2 : ((g p).2 = (y, x)) ↔ (y = (g p).2.1 ∧ x = (g p).2.2) := by
      rw [Prod.ext_iff]; constructor <;> rintro ⟨a, b⟩ <;> exact ⟨a.symm, b.symm⟩
    simp only [e1, e2]
    by_cases h1 : y = (g p).1.1 ∧ x = (g p).1.2 <;> by_cases h2 : y = (g p).2.1 ∧ x = (g p).2.2
    · obtain ⟨a1, a2⟩ := h1
      obtain ⟨b1, b2⟩ := h2
      simp [← a1, ← a2, ← b1, ← b2]; ring
    · obtain ⟨a1, a2⟩ := h1
      simp only [← a1, ← a2] at *
      simp [h2]
    · obtain ⟨b1, b2⟩ := h2
      simp only [← b1, ← b2] at *
      simp [h1]
    · simp [h1, h2]

theorem nodup_loop2 (a b : ℕ) : (loop2 a b).Nodup :=
  List.Nodup.product List.nodup_range List.nodup_range

theorem prod_single (F : ℕ × ℕ → ℝ) {ps : List (ℕ × ℕ)} (hn : ps.Nodup) {p0 : ℕ × ℕ} (h0 : p0 ∈ ps)
    (h : ∀ p ∈ ps, p ≠ p0 → F p = 1) : (ps.map F).prod = F p0 := by
  classical
  rw [← List.prod_toFinset F hn]
  exact Finset.prod_eq_single p0 (fun p hp hne => h p (List.mem_toFinset.1 hp) hne)
    (fun hno => absurd (List.mem_toFinset.2 h0) hno)

theorem prod_ones (F : ℕ × ℕ → ℝ) {ps : List (ℕ × ℕ)} (h : ∀ p ∈ ps, F p = 1) : (ps.map F).prod = 1 := by
  apply List.prod_eq_one
  intro x hx
  obtain ⟨p, hp, rfl⟩ := List.mem_map.1 hx
  exact h p hp

theorem ramp_lt {s n k : ℕ} (hs : 2 * s ≤ n) (hk : k < s) : ramp s n k = (k : ℝ) / s := by
  unfold ramp toEnd
  rw [if_neg (by omega), min_eq_left (by omega : k ≤ n - 1 - k), min_eq_right]
  rw [div_le_one (by exact_mod_cast (by omega : 0 < s))]
  exact_mod_cast hk.le

theorem ramp_gt {s n k : ℕ} (hs : 2 * s ≤ n) (hkn : k < n) (hk : n - 1 - k < s) :
    ramp s n k = ((n - 1 - k : ℕ) : ℝ) / s := by
  unfold ramp toEnd
  rw [if_neg (by omega), min_eq_right (by omega : n - 1 - k ≤ k), min_eq_right]
  rw [div_le_one (by exact_mod_cast (by omega : 0 < s))]
  exact_mod_cast hk.le

theorem ramp_mid {s n k : ℕ} (h1 : s ≤ k) (h2 : s ≤ n - 1 - k) : ramp s n k = 1 := by
  unfold ramp toEnd
  split
  · rfl
  · apply min_eq_left
    rw [le_div_iff₀ (by exact_mod_cast (by omega : 0 < s)), one_mul]
    exact_mod_cast (by omega : s ≤ min k (n - 1 - k))

theorem dampCols_eq {h w s : ℕ} (hs : 2 * s ≤ w) (out : ℕ → ℕ → ℝ) {y x : ℕ} (hy : y < h) (hx : x < w) :
    dampCols w s (loop2 s h) out y x = out y x * ramp s w x := by
  unfold dampCols
  rw [fold_mul (fun p => ((p.2, p.1), (p.2, w - 1 - p.1))) (fun p => (p.1 : ℝ) / s)]
  congr 1
  rcases lt_or_ge x s with h1 | h1
  · rw [prod_single _ (nodup_loop2 s h) (p0 := (x, y)) (mem_loop2.2 ⟨h1, hy⟩)]
    · have : w - 1 - x ≠ x := by omega
      simp [this, ramp_lt hs h1]
    · intro p hp hne
      obtain ⟨hp1, hp2⟩ := mem_loop2.1 hp
      have e1 : ¬ (p.2, p.1) = (y, x) := by
        intro he
        rw [Prod.mk.injEq] at he
        exact hne (Prod.ext he.2 he.1)
      have e2 : ¬ (p.2, w - 1 - p.1) = (y, x) := by
        intro he
        rw [Prod.mk.injEq] at he
        omega
      rw [if_neg e1, if_neg e2, mul_one]
  · rcases lt_or_ge (w - 1 - x) s with h2 | h2
    · rw [prod_single _ (nodup_loop2 s h) (p0 := (w - 1 - x, y)) (mem_loop2.2 ⟨h2, hy⟩)]
      · have e1 : w - 1 - x ≠ x := by omega
        have e2 : w - 1 - (w - 1 - x) = x := by omega
        simp [e1, e2, ramp_gt hs hx h2]
      · intro p hp hne
        obtain ⟨hp1, hp2⟩ := mem_loop2.1 hp
        have e1 : ¬ (p.2, p.1) = (y, x) := by
          intro he
          rw [Prod.mk.injEq] at he
          omega
        have e2 : ¬ (p.2, w - 1 - p.1) = (y, x) := by
          intro he
          rw [Prod.mk.injEq] at he
          apply hne
          apply Prod.ext
          · simp only; omega
          · exact he.1
        rw [if_neg e1, if_neg e2, mul_one]
    · rw [prod_ones, ramp_mid h1 h2]
      intro p hp
      obtain ⟨hp1, hp2⟩ := mem_loop2.1 hp
      have e1 : ¬ (p.2, p.1) = (y, x) := by
        intro he
        rw [Prod.mk.injEq] at he
        omega
      have e2 : ¬ (p.2, w - 1 - p.1) = (y, x) := by
        intro he
        rw [Prod.mk.injEq] at he
        omega
      simp [e1, e2]

theorem dampRows_eq {h w s : ℕ} (hs : 2 * s ≤ h) (out : ℕ → ℕ → ℝ) {y x : ℕ} (hy : y < h) (hx : x < w) :
    dampRows h s (loop2 w s) out y x = out y x * ramp s h y := by
  unfold dampRows
  rw [fold_mul (fun p => ((p.2, p.1), (h - 1 - p.2, p.1))) (fun p => (p.2 : ℝ) / s)]
  congr 1
  rcases lt_or_ge y s with h1 | h1
  · rw [prod_single _ (nodup_loop2 w s) (p0 := (x, y)) (mem_loop2.2 ⟨hx, h1⟩)]
    · have : h - 1 - y ≠ y := by omega
      simp [this, ramp_lt hs h1]
    · intro p hp hne
      obtain ⟨hp1, hp2⟩ := mem_loop2.1 hp
      have e1 : ¬ (p.2, p.1) = (y, x) := by
        intro he
        rw [Prod.mk.injEq] at he
        exact hne (Prod.ext he.2 he.1)
      have e2 : ¬ (h - 1 - p.2, p.1) = (y, x) := by
        intro he
        rw [Prod.mk.injEq] at he
        omega
      rw [if_neg e1, if_neg e2, mul_one]
  · rcases lt_or_ge (h - 1 - y) s with h2 | h2
    · rw [prod_single _ (nodup_loop2 w s) (p0 := (x, h - 1 - y)) (mem_loop2.2 ⟨hx, h2⟩)]
      · have e1 : h - 1 - y ≠ y := by omega
        have e2 : h - 1 - (h - 1 - y) = y := by omega
        simp [e1, e2, ramp_gt hs hy h2]
      · intro p hp hne
        obtain ⟨hp1, hp2⟩ := mem_loop2.1 hp
        have e1 : ¬ (p.2, p.1) = (y, x) := by
          intro he
          rw [Prod.mk.injEq] at he
          omega
        have e2 : ¬ (h - 1 - p.2, p.1) = (y, x) := by
          intro he
          rw [Prod.mk.injEq] at he
          apply hne
          apply Prod.ext
          · exact he.2
          · simp only; omega
        rw [if_neg e1, if_neg e2, mul_one]
    · rw [prod_ones, ramp_mid h1 h2]
      intro p hp
      obtain ⟨hp1, hp2⟩ := mem_loop2.1 hp
      have e1 : ¬ (p.2, p.1) = (y, x) := by
        intro he
        rw [Prod.mk.injEq] at he
        omega
      have e2 : ¬ (h - 1 - p.2, p.1) = (y, x) := by
        intro he
        rw [Prod.mk.injEq] at he
        omega
      simp [e1, e2]

theorem ramp_nonneg (s n k : ℕ) : 0 ≤ ramp s n k := by
  unfold ramp
  split
  · norm_num
  · exact le_min (by norm_num) (by positivity)

theorem ramp_le_one (s n k : ℕ) : ramp s n k ≤ 1 := by
  unfold ramp
  split
  · exact le_refl _
  · exact min_le_left _ _

open Classical in
/-- The whole of `benms` in closed form. -/
theorem benms_eq (I O : Img ℝ) (hr : 2 ≤ I.rows) (hc : 2 ≤ I.cols) (r s : ℤ) (m : ℝ) :
    ∃ out, benms I O r s m = .ok out ∧ out.rows = I.rows ∧ out.cols = I.cols ∧
      ∀ y < I.rows, ∀ x < I.cols, out.at_ y x =
        (if Beaten I O r m y x then 0 else I.at_ y x) *
          ramp (usedMargin I.rows I.cols s) I.cols x * ramp (usedMargin I.rows I.cols s) I.rows y := by
  obtain ⟨o, ho, hv⟩ := firstPass_eq I O hr hc r m (loop2 I.cols I.rows) (fun _ _ => 0)
  have hm : margin I.rows I.cols s = usedMargin I.rows I.cols s := by
    unfold margin usedMargin; omega
  unfold benms
  rw [ho]
  refine ⟨_, rfl, rfl, rfl, fun y hy x hx => ?_⟩
  simp only [hm]
  have h1 : 2 * usedMargin I.rows I.cols s ≤ I.cols := by unfold usedMargin; omega
  have h2 : 2 * usedMargin I.rows I.cols s ≤ I.rows := by unfold usedMargin; omega
  rw [dampRows_eq h2 _ hy hx, dampCols_eq h1 _ hy hx, hv, if_pos (mem_loop2.2 ⟨hx, hy⟩)]

/-! ### sampling -/

theorem sum_tent_one {n k : ℕ} {x : ℝ} (hk : k + 1 < n) (h0 : (k : ℝ) ≤ x) (h1 : x < k + 1) :
    ∑ j ∈ Finset.range n, tent (x - j) = 1 := by
  have := sum_tent (fun _ => 1) hk h0 h1
  simp only [one_mul] at this
  rw [this]; ring

theorem sample_within (I : Img ℝ) (hr : 2 ≤ I.rows) (hc : 2 ≤ I.cols) {lo hi : ℝ} (hw : Within I lo hi)
    (x y : ℝ) : lo ≤ sample I x y ∧ sample I x y ≤ hi := by
  obtain ⟨hx0, hx1⟩ := inRange_bounds hc x
  obtain ⟨hy0, hy1⟩ := inRange_bounds hr y
  obtain ⟨-, kx, lx, ux⟩ := floor_cell hx0 hx1
  obtain ⟨-, ky, ly, uy⟩ := floor_cell hy0 hy1
  unfold sample
  generalize inRange I.cols x = cx at *
  generalize inRange I.rows y = cy at *
  have sx := sum_tent_one kx lx ux
  have sy := sum_tent_one ky ly uy
  have key : ∀ c : ℝ, ∑ i ∈ Finset.range I.rows, ∑ j ∈ Finset.range I.cols,
      c * tent (cx - j) * tent (cy - i) = c := by
    intro c
    have : ∀ i ∈ Finset.range I.rows, ∑ j ∈ Finset.range I.cols,
        c * tent (cx - j) * tent (cy - i) = c * tent (cy - i) := by
      intro i _
      rw [← Finset.sum_mul, ← Finset.mul_sum, sx, mul_one]
    rw [Finset.sum_congr rfl this, ← Finset.mul_sum, sy, mul_one]
  constructor
  · calc lo = _ := (key lo).symm
      _ ≤ _ := Finset.sum_le_sum fun i hi => Finset.sum_le_sum fun j hj => by
        have := (hw i (Finset.mem_range.1 hi) j (Finset.mem_range.1 hj)).1
        exact mul_le_mul_of_nonneg_right (mul_le_mul_of_nonneg_right this (tent_nonneg _)) (tent_nonneg _)
  · calc _ ≤ _ := Finset.sum_le_sum fun i hi => Finset.sum_le_sum fun j hj => by
          have := (hw i (Finset.mem_range.1 hi) j (Finset.mem_range.1 hj)).2
          exact mul_le_mul_of_nonneg_right (mul_le_mul_of_nonneg_right this (tent_nonneg _)) (tent_nonneg _)
      _ = hi := key hi

end EdgeEval.Nms
