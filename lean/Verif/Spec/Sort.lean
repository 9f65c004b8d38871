import Mathlib.Logic.Equiv.Defs
import Mathlib.Data.Int.Notation
import Mathlib.Data.Int.Order.Basic

/-!
# What a sorting routine promises

Independent of the model: elements are given by functions of the index.
-/

namespace EdgeEval.Spec.Sort

variable {α : Type}

/-- `b` has the elements of `a` at positions `[lo, hi)`, rearranged, and everything else in place. -/
def Rearranged (a b : ℤ → α) (lo hi : ℤ) : Prop :=
  ∃ σ : Equiv.Perm ℤ, (∀ i, (i < lo ∨ hi ≤ i) → σ i = i) ∧ ∀ i, b i = a (σ i)

/-- The documented postcondition (Sort.hh:25-26): `cmp(x_i, x_j) ≤ 0` for all `lo ≤ i < j < hi`. -/
def Increasing (cmp : α → α → ℤ) (a : ℤ → α) (lo hi : ℤ) : Prop :=
  ∀ i j, lo ≤ i → i < j → j < hi → cmp (a i) (a j) ≤ 0

/-- A comparison that orders: its sign flips with its arguments and "not greater" is transitive. -/
structure Orders (cmp : α → α → ℤ) : Prop where
  flip : ∀ x y, cmp x y < 0 ↔ 0 < cmp y x
  trans : ∀ x y z, cmp x y ≤ 0 → cmp y z ≤ 0 → cmp x z ≤ 0

end EdgeEval.Spec.Sort
