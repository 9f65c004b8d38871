import Verif.Model.Random

/-!
# The `int` arithmetic of `kofn.cc`

The lists contain every value of C type `int` that the sampler computes in one call, following the rounded sampler of
`Model/Random.lean` (the same tests decide the path).
-/

namespace EdgeEval

/-- kofn.cc:11-20  `_kOfN_largeK`: from `i = n - rem` on: `i`, `k - j`, `n - i`, and after the draw the new `j` and the loop variable `i + 1`. -/
def largeKInts (fl : ℚ → ℚ) (k n : Nat) (xs : Nat → ℚ) : (rem : Nat) → (pos j : Nat) → List ℤ
  | 0, _, _ => []
  | rem + 1, pos, j =>
    let i : ℤ := (n : ℤ) - ((rem : ℤ) + 1)
    [i, (k : ℤ) - j, (n : ℤ) - i] ++
      if xs pos < fl (((k : ℚ) - j) / ((rem + 1 : Nat) : ℚ)) then
        [(j : ℤ) + 1, i + 1] ++ largeKInts fl k n xs rem (pos + 1) (j + 1)
      else [i + 1] ++ largeKInts fl k n xs rem (pos + 1) j

/-- kofn.cc:37-44  the splitting loop: `n - i`, `n - i - 1`, the draw `x`, `leftN - leftK`, and the new counters. -/
def splitInts (fl : ℚ → ℚ) (n leftN : Nat) (xs : Nat → ℚ) : (cnt : Nat) → (pos i leftK rightK : Nat) → List ℤ
  | 0, _, _, _, _ => []
  | cnt + 1, pos, i, leftK, rightK =>
    let x := randI32F fl (xs pos) 0 ((n : Int) - i - 1)
    [(i : ℤ), (n : ℤ) - i, (n : ℤ) - i - 1, x, (leftN : ℤ) - leftK] ++
      if x < (leftN : Int) - leftK then
        [(leftK : ℤ) + 1, (i : ℤ) + 1] ++ splitInts fl n leftN xs cnt (pos + 1) (i + 1) (leftK + 1) rightK
      else [(rightK : ℤ) + 1, (i : ℤ) + 1] ++ splitInts fl n leftN xs cnt (pos + 1) (i + 1) leftK (rightK + 1)

/-- kofn.cc:25-51  `_kOfN_smallK` with its recursive calls; lines 48-50 add `leftN` to every value of the right half and count from `leftK`
to `k`. -/
def smallKInts (fl : ℚ → ℚ) (xs : Nat → ℚ) : (fuel : Nat) → (k n pos : Nat) → List ℤ
  | 0, _, _, _ => []
  | fuel + 1, k, n, pos =>
    if k = 1 then [(k : ℤ), (n : ℤ) - 1, randI32F fl (xs pos) 0 ((n : Int) - 1)]
    else
      let leftN := n / 2
      let rightN := n - leftN
      let (leftK, rightK) := smallKSplitF fl n leftN xs k pos 0 0 0
      let l := if leftK > 0 then smallKF fl xs fuel leftK leftN (pos + k) else ([], pos + k)
      let r := if rightK > 0 then smallKF fl xs fuel rightK rightN l.2 else ([], l.2)
      [(k : ℤ), (n : ℤ), (leftN : ℤ), (n : ℤ) - leftN, (leftK : ℤ), (rightK : ℤ)] ++ splitInts fl n leftN xs k pos 0 0 0 ++
        (if leftK > 0 then smallKInts fl xs fuel leftK leftN (pos + k) else []) ++
        (if rightK > 0 then smallKInts fl xs fuel rightK rightN l.2 else []) ++
        r.1.map (fun (v : Nat) => (v : ℤ) + leftN) ++ (List.range (rightK + 1)).map fun (i : Nat) => (leftK : ℤ) + i

/-- kofn.cc:55-68  `kOfN`. -/
def kOfNInts (fl : ℚ → ℚ) (small : Nat → Nat → Bool) (k n : Nat) (xs : Nat → ℚ) (pos : Nat) : List ℤ :=
  if k = 0 then [0, (n : ℤ)]
  else [(k : ℤ), (n : ℤ), (n : ℤ) / 2] ++ if small k n then smallKInts fl xs n k n pos else largeKInts fl k n xs n pos 0

end EdgeEval
