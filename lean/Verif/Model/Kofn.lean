import Verif.Model.Py
import Mathlib.Data.Rat.Floor

/-!
# Model of `pyEdgeEval/_lib/src/kofn.cc` (random k-subset sampler)

The random stream (`Random::rand.fp()`, i.e. `erand48`) is a parameter: a sequence `xs` of numbers and
the position of the next one.
-/

namespace EdgeEval

/-- Random.hh:114-120  `i32(a, b)`: `floor(x * (b - a + 1) + a)`. -/
def randI32 (x : ℚ) (a b : Int) : Int := ⌊x * ((b : ℚ) - a + 1) + a⌋

/-- kofn.cc:12-20  loop of `_kOfN_largeK` from index `i` on, `j` values chosen so far; `rem = n - i`. -/
def largeKLoop (k n : Nat) (xs : Nat → ℚ) : (rem : Nat) → (pos j : Nat) → List Nat
  | 0, _, _ => []
  | rem + 1, pos, j =>
    if xs pos < (((k : ℚ) - j) / ((rem + 1 : Nat) : ℚ)) then
      (n - (rem + 1)) :: largeKLoop k n xs rem (pos + 1) (j + 1)
    else largeKLoop k n xs rem (pos + 1) j

/-- kofn.cc:6-21  `_kOfN_largeK`: the values and the new stream position. -/
def largeK (k n : Nat) (xs : Nat → ℚ) (pos : Nat) : List Nat × Nat :=
  (largeKLoop k n xs n pos 0, pos + n)

/-- kofn.cc:37-44  splitting loop of `_kOfN_smallK`: from iteration `i` on, `cnt = k - i` left. -/
def smallKSplit (n leftN : Nat) (xs : Nat → ℚ) : (cnt : Nat) → (pos i leftK rightK : Nat) → Nat × Nat
  | 0, _, _, leftK, rightK => (leftK, rightK)
  | cnt + 1, pos, i, leftK, rightK =>
    if randI32 (xs pos) 0 ((n : Int) - i - 1) < (leftN : Int) - leftK then
      smallKSplit n leftN xs cnt (pos + 1) (i + 1) (leftK + 1) rightK
    else smallKSplit n leftN xs cnt (pos + 1) (i + 1) leftK (rightK + 1)

/-- kofn.cc:25-51  `_kOfN_smallK`. The recursion depth is at most `n` (`fuel`). -/
def smallK (xs : Nat → ℚ) : (fuel : Nat) → (k n pos : Nat) → List Nat × Nat
  | 0, _, _, pos => ([], pos)
  | fuel + 1, k, n, pos =>
    if k = 1 then ([(randI32 (xs pos) 0 ((n : Int) - 1)).toNat], pos + 1)
    else
      let leftN := n / 2
      let rightN := n - leftN
      let (leftK, rightK) := smallKSplit n leftN xs k pos 0 0 0
      let pos := pos + k
      let (l, pos) := if leftK > 0 then smallK xs fuel leftK leftN pos else ([], pos)
      let (r, pos) := if rightK > 0 then smallK xs fuel rightK rightN pos else ([], pos)
      (l ++ r.map (· + leftN), pos)

/-- kofn.cc:55-68  `kOfN`. `k * log(k) / log(2) < n / 2` (integer division on the right) is
`k ^ k < 2 ^ (n / 2)`. -/
def kOfN (k n : Nat) (xs : Nat → ℚ) (pos : Nat) : List Nat × Nat :=
  if k = 0 then ([], pos)
  else if k ^ k < 2 ^ (n / 2) then smallK xs n k n pos
  else largeK k n xs pos

end EdgeEval
