import Verif.Lemmas.MatchMain
import Mathlib.Algebra.BigOperators.Group.Finset.Sigma
import Mathlib.Algebra.Order.BigOperators.Group.Finset

/-! # Sums over matched pixels -/

namespace EdgeEval

open Finset

/-- The pixels of an image as a finite set. -/
def pixSet (h w : Nat) : Finset Pix := range w ×ˢ range h

theorem mem_pixSet {h w : Nat} {p : Pix} : p ∈ pixSet h w ↔ p.1 < w ∧ p.2 < h := by
  simp [pixSet]

theorem pixels_toFinset (h w : Nat) : (pixels h w).toFinset = pixSet h w := by
  ext p; rw [List.mem_toFinset, mem_pixels, mem_pixSet]

theorem sum_pixels {M : Type} [AddCommMonoid M] (h w : Nat) (f : Pix → M) :
    ((pixels h w).map f).sum = ∑ p ∈ pixSet h w, f p := by
  rw [← pixels_toFinset, List.sum_toFinset _ (nodup_pixels h w)]

/-- Sum over matched pairs, from either side. -/
theorem pair_sum {M : Type} [AddCommMonoid M] {h w : Nat} {b1 b2 : BMap} {md2 : ℚ} {mt : Matches}
    (hg : GoodMatch h w b1 b2 md2 mt) (f : Pix → Pix → M) :
    ∑ p ∈ pixSet h w, (mt.m1 p).elim 0 (f p) = ∑ q ∈ pixSet h w, (mt.m2 q).elim 0 (fun p => f p q) := by
  have e1 : ∀ p ∈ pixSet h w, (mt.m1 p).elim 0 (f p) =
      ∑ q ∈ pixSet h w, if mt.m1 p = some q then f p q else 0 := by
    intro p _
    rcases hm : mt.m1 p with _ | q
    · simp
    · simp only [Option.elim_some, Option.some.injEq]
      rw [Finset.sum_ite_eq, if_pos]
      have := hg.ok p q hm
      exact mem_pixSet.mpr ⟨this.2.1.1, this.2.1.2.1⟩
  have e2 : ∀ q ∈ pixSet h w, (mt.m2 q).elim 0 (fun p => f p q) =
      ∑ p ∈ pixSet h w, if mt.m1 p = some q then f p q else 0 := by
    intro q _
    simp only [hg.sym]
    rcases hm : mt.m2 q with _ | p
    · simp
    · simp only [Option.elim_some, Option.some.injEq]
      rw [Finset.sum_ite_eq, if_pos]
      have := hg.ok p q ((hg.sym p q).mpr hm)
      exact mem_pixSet.mpr ⟨this.1.1, this.1.2.1⟩
  rw [Finset.sum_congr rfl e1, Finset.sum_congr rfl e2, Finset.sum_comm]

/-- A match matrix entry is non-zero exactly at a matched pixel and decodes to the partner. -/
theorem encode_ne_zero {h : Nat} {b : BMap} {m : Pix → Option Pix} {y x : Nat}
    (hb : ∀ q, m (x, y) = some q → b y x = true) :
    encodeMatch h b m y x ≠ 0 ↔ ∃ q, m (x, y) = some q := by
  unfold encodeMatch
  split
  · rcases hm : m (x, y) with _ | q <;> simp
  · rename_i hf
    simp only [ne_eq, not_true_eq_false, false_iff, not_exists]
    intro q hq
    exact hf (hb q hq)

theorem encode_eq {h : Nat} {b : BMap} {m : Pix → Option Pix} {y x : Nat} {q : Pix}
    (hm : m (x, y) = some q) (hb : b y x = true) : encodeMatch h b m y x = q.1 * h + q.2 + 1 := by
  unfold encodeMatch; rw [if_pos hb, hm]

theorem decode_div {h a b : Nat} (hb : b < h) : (a * h + b + 1 - 1) / h = a := by
  rw [Nat.add_sub_cancel, Nat.add_comm, Nat.add_mul_div_right _ _ (by omega), Nat.div_eq_of_lt hb]; omega

theorem decode_mod {h a b : Nat} (hb : b < h) : (a * h + b + 1 - 1) % h = b := by
  rw [Nat.add_sub_cancel, Nat.add_comm, Nat.add_mul_mod_self_right, Nat.mod_eq_of_lt hb]

end EdgeEval
