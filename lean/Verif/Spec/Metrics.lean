import Verif.Model.Metrics

/-! # Independent vocabulary for the statements about scores -/

namespace EdgeEval.Spec

/-- Harmonic mean of two scores, `0` when one of them is `0`. -/
def harmonic (a b : ℚ) : ℚ := if a = 0 ∨ b = 0 then 0 else 2 / (1 / a + 1 / b)

/-- The pooled value at threshold number `k` of one of the four count arrays. -/
def pooled (f : Counts → List ℚ) (samples : List (String × Counts)) (k : Nat) : ℚ :=
  (samples.map fun s => (f s.2).getD k 0).sum

/-- A sample whose four arrays have one entry per threshold, non-negative, count ≤ sum. -/
structure Sane (n : Nat) (c : Counts) : Prop where
  lenCR : c.countR.length = n
  lenSR : c.sumR.length = n
  lenCP : c.countP.length = n
  lenSP : c.sumP.length = n
  r : ∀ k, 0 ≤ c.countR.getD k 0 ∧ c.countR.getD k 0 ≤ c.sumR.getD k 0
  p : ∀ k, 0 ≤ c.countP.getD k 0 ∧ c.countP.getD k 0 ≤ c.sumP.getD k 0

/-- Recall, precision and F of sample `c` at threshold number `k`. -/
def recAt (c : Counts) (k : Nat) : ℚ := recall (c.countR.getD k 0) (c.sumR.getD k 0)
def precAt (c : Counts) (k : Nat) : ℚ := precision (c.countP.getD k 0) (c.sumP.getD k 0)
def fAt (c : Counts) (k : Nat) : ℚ := harmonic (recAt c k) (precAt c k)

/-- `k` is the earliest index below `n` at which `f` attains its maximum over indices below `n`. -/
def FirstMax (f : Nat → ℚ) (n k : Nat) : Prop :=
  k < n ∧ (∀ j, j < n → f j ≤ f k) ∧ (∀ j, j < k → f j < f k)

end EdgeEval.Spec
