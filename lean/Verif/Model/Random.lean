import Verif.Model.Kofn

/-!
# Model of `pyEdgeEval/_lib/src/Random.cc`, `include/Random.hh` and of `kofn.cc` in floating point

`fl` is the rounding applied to the exact result of every `double` operation.  Conversions of `int32_t` and `u_int32_t` to
`double` are exact.  `erand48` is the generator specified by POSIX (library).
-/

namespace EdgeEval

/-- Random.hh:82-92  a random stream: the original seed and the 48-bit state in three 16-bit words. -/
structure Rng where
  seed0 : Nat
  x0 : Nat
  x1 : Nat
  x2 : Nat
  deriving DecidableEq

/-- Random.cc:68-75  `_init(seed)`. -/
def Rng.init (seed : Nat) : Rng :=
  ⟨seed % 2 ^ 48, seed % 2 ^ 16, seed / 2 ^ 16 % 2 ^ 16, seed / 2 ^ 32 % 2 ^ 16⟩

/-- Random.cc:48-52  `reset()`. -/
def Rng.reset (r : Rng) : Rng := Rng.init r.seed0

/-- Random.cc:57-64  the seed taken from the clock (`sec`, `usec` of `gettimeofday`): 16 bits each, so `|` is `+`. -/
def clockSeed (sec usec : Nat) : Nat :=
  usec / 8 % 2 ^ 16 + (sec % 2 ^ 16) * 2 ^ 16 + (sec / 2 ^ 16 % 2 ^ 16) * 2 ^ 32

/-- Random.cc:54-66  `reseed(seed)` at the given time; also the constructors `Random()` and `Random(seed)` (30-38). -/
def Rng.reseed (seed sec usec : Nat) : Rng :=
  if seed = 0 then Rng.init (clockSeed sec usec) else Rng.init seed

/-- The 48-bit state as one number (POSIX `erand48`: the first word is the least significant). -/
def Rng.state (r : Rng) : Nat := r.x0 + r.x1 * 2 ^ 16 + r.x2 * 2 ^ 32

/-- POSIX `erand48`: the next state, `(0x5DEECE66D * X + 0xB) mod 2^48`. -/
def lcg48 (x : Nat) : Nat := (25214903917 * x + 11) % 2 ^ 48

/-- The three words of a new state. -/
def Rng.store (seed0 x : Nat) : Rng := ⟨seed0, x % 2 ^ 16, x / 2 ^ 16 % 2 ^ 16, x / 2 ^ 32 % 2 ^ 16⟩

/-- POSIX `erand48` (library): advance the state and return it as a fraction of `2^48`. Random.hh:122-126  `fp()`. -/
def Rng.fp (r : Rng) : ℚ × Rng := ((lcg48 r.state : ℚ) / 2 ^ 48, Rng.store r.seed0 (lcg48 r.state))

/-- Random.hh:128-133  `fp(a, b)`. -/
def Rng.fpIn (fl : ℚ → ℚ) (a b : ℚ) (r : Rng) : ℚ × Rng := (fl (fl (r.fp.1 * fl (b - a)) + a), r.fp.2)

/-- Random.hh:105, 119  `floor (x * ((double)b - (double)a + 1) + a)`. -/
def randI32F (fl : ℚ → ℚ) (x : ℚ) (a b : Int) : Int := ⌊fl (fl (x * fl (fl ((b : ℚ) - a) + 1)) + a)⌋

/-- Random.hh:100-106, 114-120  `ui32(a, b)` and `i32(a, b)` before the conversion to the result type. -/
def Rng.intIn (fl : ℚ → ℚ) (a b : Int) (r : Rng) : Int × Rng := (randI32F fl r.fp.1 a b, r.fp.2)

/-- Random.cc:40-46  the copy constructor: a new stream seeded from two draws of the old one. -/
def Rng.spawn (fl : ℚ → ℚ) (r : Rng) : Rng × Rng :=
  let a := r.intIn fl 0 4294967295
  let b := a.2.intIn fl 0 4294967295
  (Rng.init (a.1.toNat * 2 ^ 32 + b.1.toNat), b.2)

/-- The stream of `fp()` values from a given state on. -/
def Rng.after (r : Rng) : Nat → Rng
  | 0 => r
  | k + 1 => (r.after k).fp.2

/-- The `k`-th value drawn by `fp()`. -/
def Rng.stream (r : Rng) (k : Nat) : ℚ := (r.after k).fp.1

/-! ## kofn.cc with rounding -/

/-- kofn.cc:12-20  loop of `_kOfN_largeK`; `prob = (double) (k - j) / (n - i)` is rounded once. -/
def largeKLoopF (fl : ℚ → ℚ) (k n : Nat) (xs : Nat → ℚ) : (rem : Nat) → (pos j : Nat) → List Nat
  | 0, _, _ => []
  | rem + 1, pos, j =>
    if xs pos < fl (((k : ℚ) - j) / ((rem + 1 : Nat) : ℚ)) then
      (n - (rem + 1)) :: largeKLoopF fl k n xs rem (pos + 1) (j + 1)
    else largeKLoopF fl k n xs rem (pos + 1) j

/-- kofn.cc:6-21  `_kOfN_largeK`. -/
def largeKF (fl : ℚ → ℚ) (k n : Nat) (xs : Nat → ℚ) (pos : Nat) : List Nat × Nat :=
  (largeKLoopF fl k n xs n pos 0, pos + n)

/-- kofn.cc:37-44  splitting loop of `_kOfN_smallK`. -/
def smallKSplitF (fl : ℚ → ℚ) (n leftN : Nat) (xs : Nat → ℚ) : (cnt : Nat) → (pos i leftK rightK : Nat) → Nat × Nat
  | 0, _, _, leftK, rightK => (leftK, rightK)
  | cnt + 1, pos, i, leftK, rightK =>
    if randI32F fl (xs pos) 0 ((n : Int) - i - 1) < (leftN : Int) - leftK then
      smallKSplitF fl n leftN xs cnt (pos + 1) (i + 1) (leftK + 1) rightK
    else smallKSplitF fl n leftN xs cnt (pos + 1) (i + 1) leftK (rightK + 1)

/-- kofn.cc:25-51  `_kOfN_smallK`. The recursion depth is at most `n` (`fuel`). -/
def smallKF (fl : ℚ → ℚ) (xs : Nat → ℚ) : (fuel : Nat) → (k n pos : Nat) → List Nat × Nat
  | 0, _, _, pos => ([], pos)
  | fuel + 1, k, n, pos =>
    if k = 1 then ([(randI32F fl (xs pos) 0 ((n : Int) - 1)).toNat], pos + 1)
    else
      let leftN := n / 2
      let rightN := n - leftN
      let (leftK, rightK) := smallKSplitF fl n leftN xs k pos 0 0 0
      let pos := pos + k
      let (l, pos) := if leftK > 0 then smallKF fl xs fuel leftK leftN pos else ([], pos)
      let (r, pos) := if rightK > 0 then smallKF fl xs fuel rightK rightN pos else ([], pos)
      (l ++ r.map (· + leftN), pos)

/-- kofn.cc:55-68  `kOfN`; the outcome of the test `k * log(k) / log(2) < n / 2`, which depends on the library's `log`, is the
parameter `small`. -/
def kOfNF (fl : ℚ → ℚ) (small : Nat → Nat → Bool) (k n : Nat) (xs : Nat → ℚ) (pos : Nat) : List Nat × Nat :=
  if k = 0 then ([], pos)
  else if small k n then smallKF fl xs n k n pos
  else largeKF fl k n xs pos

/-- Repeated calls of `kOfN(k, n, …)` (match.cc:191, 205, 219), threading the random stream. -/
def kRowsF (fl : ℚ → ℚ) (small : Nat → Nat → Bool) (k n : Nat) (xs : Nat → ℚ) :
    (cnt : Nat) → (pos : Nat) → List (List Nat) × Nat
  | 0, pos => ([], pos)
  | cnt + 1, pos =>
    let r := kOfNF fl small k n xs pos
    let rest := kRowsF fl small k n xs cnt r.2
    (r.1 :: rest.1, rest.2)

end EdgeEval
