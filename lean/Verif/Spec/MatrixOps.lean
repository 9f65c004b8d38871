import Verif.Model.MatrixOps

/-!
# What the operations of a matrix library mean

A matrix is a function of row and column.  `Is m r c f` says that the object `m` of the model represents the `r × c` matrix with entry `f i j` in
row `i` and column `j` (counted from 0); everything else in this file is independent of the model.
-/

namespace EdgeEval.Spec.MatrixOps

open EdgeEval.MatrixOps
open EdgeEval.Sort (Arr)

variable {α : Type}

/-- The block holds the `r × c` matrix `f`, column after column. -/
structure Cols (d : Arr α) (r c : ℤ) (f : ℤ → ℤ → α) : Prop where
  r0 : 0 ≤ r
  c0 : 0 ≤ c
  size : d.size = c * r
  entry : ∀ i j, 0 ≤ i → i < r → 0 ≤ j → j < c → d.at_ (j * r + i) = f i j

/-- The object represents the `r × c` matrix `f`. -/
structure Is (m : Mx α) (r c : ℤ) (f : ℤ → ℤ → α) : Prop where
  rows : m.rows = r
  cols : m.cols = c
  data : Cols m.data r c f

/-- The operation returns normally, with a matrix that is `r × c` and has the entries `f`. -/
def Returns (op : Except Fault (Mx α)) (r c : ℤ) (f : ℤ → ℤ → α) : Prop := ∃ m, op = .ok m ∧ Is m r c f

/-- The `k`-th entry of an `r`-row matrix in column order. -/
def nth (r : ℤ) (f : ℤ → ℤ → α) (k : ℤ) : α := f (k % r) (k / r)

/-- The first `n` values of `v`, combined from the left. -/
def foldFirst {β : Type} (op : β → α → β) (x0 : β) (v : ℤ → α) : ℕ → β
  | 0 => x0
  | n + 1 => op (foldFirst op x0 v n) (v n)

/-- A strict weak order, like `<` or `>` on numbers without NaN. -/
structure Strict (lt : α → α → Bool) : Prop where
  irrefl : ∀ x, lt x x = false
  trans : ∀ x y z, lt x y = true → lt y z = true → lt x z = true
  weak : ∀ x y z, lt x y = false → lt y z = false → lt x z = false

end EdgeEval.Spec.MatrixOps
