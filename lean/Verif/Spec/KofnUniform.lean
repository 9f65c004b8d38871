import Mathlib.Data.Rat.Defs
import Mathlib.Data.Fintype.Basic

/-! # Random streams of finitely many equally likely draws

Randomness is made precise by counting: a stream is determined by `L` numbers, each drawn from the `M` equally spaced
values `0/M, 1/M, …, (M-1)/M` of `[0, 1)` (a generator of `M` equally likely numbers).  There are `M ^ L` such streams; the
probability of an event is the share of them that satisfy it. -/

namespace EdgeEval

/-- The stream of the draws `v 0 / M, v 1 / M, …` (zero after the last). -/
def gridStream {M L : Nat} (v : Fin L → Fin M) (i : Nat) : ℚ := if h : i < L then ((v ⟨i, h⟩ : Nat) : ℚ) / M else 0

end EdgeEval
