import Verif.Model.ConvTriInt
import Verif.Lemmas.ConvTri

/-!
# C44: `conv_tri` depends on the dtype
-/

namespace EdgeEval.Props

open EdgeEval EdgeEval.Nms

/-- With the identity, this is the smoothing of the other C44 theorems. -/
theorem C44_float_images (im : Img ℝ) (r s : ℕ) : convTriCast id im r s = convTri im r s := by
  unfold convTriCast convTri
  simp only [List.map_id]

/-- Every tap is at least 0 and less than 1. -/
theorem triTaps_lt_one (r : ℕ) (hr : 1 ≤ r) (t : ℝ) (ht : t ∈ triTaps r) : 0 ≤ t ∧ t < 1 := by
  unfold triTaps at ht
  split at ht
  · have : r = 1 := by omega
    subst this
    simp only [List.mem_cons, List.not_mem_nil, or_false] at ht
    rcases ht with rfl | rfl | rfl <;> norm_num
  · rename_i h2
    have h2 : (2 : ℝ) ≤ r := by exact_mod_cast (by omega : 2 ≤ r)
    obtain ⟨x, hx, rfl⟩ := List.mem_map.1 ht
    have hb : 0 ≤ x ∧ x ≤ (r : ℝ) + 1 := by
      rcases List.mem_append.1 hx with hx | hx
      · rcases List.mem_append.1 hx with hx | hx
        · obtain ⟨k, hk, rfl⟩ := List.mem_map.1 hx
          have : (k : ℝ) < r := by exact_mod_cast List.mem_range.1 hk
          exact ⟨by positivity, by linarith⟩
        · rw [List.mem_singleton] at hx
          subst hx
          exact ⟨by linarith, le_refl _⟩
      · obtain ⟨k, hk, rfl⟩ := List.mem_map.1 hx
        have h1 : (k : ℝ) < r := by exact_mod_cast List.mem_range.1 hk
        have h0 : (0 : ℝ) ≤ k := by positivity
        exact ⟨by linarith, by linarith⟩
    have hp : (0 : ℝ) < ((r : ℝ) + 1) ^ 2 := by positivity
    refine ⟨div_nonneg hb.1 hp.le, ?_⟩
    rw [div_lt_one hp]
    nlinarith [hb.2]

/-- A filter of zeros gives zero. -/
theorem conv1_zero (f : List ℝ) (hf : ∀ t ∈ f, t = 0) (a : ℕ → ℝ) (i : ℕ) : conv1 f a i = 0 := by
  unfold conv1
  have : ((List.range f.length).map fun (k : Nat) => f.getD (f.length - 1 - k) 0 * a (i + k)) = (List.range f.length).map fun _ => (0 : ℝ) := by
    apply List.map_congr_left
    intro k hk
    have hl : f.length - 1 - k < f.length := by have := List.mem_range.1 hk; omega
    rw [List.getD_eq_getElem?_getD, List.getElem?_eq_getElem hl, Option.getD_some, hf _ (List.getElem_mem hl), zero_mul]
  rw [this]
  simp

/-- C44 (finding): on an image of an integer type `conv_tri` returns an image of zeros whatever the image is (radius 1 or more): the filter
is converted to the type of the image and every tap, being less than one, becomes 0. -/
theorem C44_integer_images (im : Img ℝ) (r s : ℕ) (hr : 1 ≤ r) (hne : im.rows * im.cols ≠ 0) :
    ∃ out, convTriCast truncCast im r s = .ok out ∧ ∀ i j, out.at_ i j = 0 := by
  have hf : ∀ t ∈ (triTaps r).map truncCast, t = 0 := by
    intro t ht
    obtain ⟨x, hx, rfl⟩ := List.mem_map.1 ht
    have := triTaps_lt_one r hr x hx
    unfold truncCast
    rw [Int.floor_eq_zero_iff.2 ⟨this.1, this.2⟩]
    simp
  unfold convTriCast
  rw [if_neg (by omega), if_neg (by omega)]
  simp only
  split
  · exact ⟨_, rfl, fun i j => by dsimp only; exact conv1_zero _ hf _ _⟩
  · exact ⟨_, rfl, fun i j => by dsimp only; exact conv1_zero _ hf _ _⟩

example : ∃ out, convTriCast truncCast ⟨2, 2, fun _ _ => 255⟩ 1 1 = .ok out ∧ out.at_ 0 0 = 0 := by
  obtain ⟨out, h, hz⟩ := C44_integer_images ⟨2, 2, fun _ _ => 255⟩ 1 1 (le_refl _) (by norm_num)
  exact ⟨out, h, hz 0 0⟩

end EdgeEval.Props
