/-!
# Two-dimensional arrays
-/

namespace EdgeEval

/-- A 2-D numpy array: its shape and its entries `a[i, j]`; only `i < rows`, `j < cols` is
observable. -/
structure Img (α : Type) where
  rows : Nat
  cols : Nat
  at_ : Nat → Nat → α

end EdgeEval
