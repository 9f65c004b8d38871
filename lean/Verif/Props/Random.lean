import Verif.Lemmas.KofnFloat
import Verif.Lemmas.KofnOnto
import Verif.Lemmas.FloatError
import Mathlib.Tactic.Ring
import Mathlib.Algebra.Ring.GeomSum

/-!
# Property theorems C59: the random numbers and the sampler
-/

namespace EdgeEval.Props

open EdgeEval

/-! ## The generator -/

theorem lcg48_lt (x : Nat) : lcg48 x < 2 ^ 48 := Nat.mod_lt _ (by norm_num)

theorem state_words (x : Nat) (hx : x < 2 ^ 48) :
    x % 2 ^ 16 + x / 2 ^ 16 % 2 ^ 16 * 2 ^ 16 + x / 2 ^ 32 % 2 ^ 16 * 2 ^ 32 = x := by omega

theorem Rng.init_state (s : Nat) : (Rng.init s).state = s % 2 ^ 48 := by
  unfold Rng.init Rng.state; simp only; omega

theorem Rng.store_state (a x : Nat) (hx : x < 2 ^ 48) : (Rng.store a x).state = x := by
  unfold Rng.store Rng.state
  exact state_words x hx

theorem Rng.store_seed (a x : Nat) : (Rng.store a x).seed0 = a := rfl

theorem Rng.fp_state (r : Rng) : r.fp.2.state = lcg48 r.state := by
  unfold Rng.fp
  exact Rng.store_state _ _ (lcg48_lt _)

theorem Rng.after_state (r : Rng) (k : Nat) : (r.after k).state = lcg48^[k] r.state := by
  induction k with
  | zero => rfl
  | succ k ih => rw [Rng.after, Rng.fp_state, ih, Function.iterate_succ_apply']

theorem Rng.fp_val (q : Rng) : q.fp.1 = ((lcg48 q.state : Nat) : ℚ) / 2 ^ 48 := by
  unfold Rng.fp; rfl

theorem Rng.iter_eq (r : Rng) (k : Nat) : lcg48^[k + 1] r.state = lcg48 (r.after k).state :=
  (Function.iterate_succ_apply' lcg48 k r.state).trans (congrArg lcg48 (Rng.after_state r k).symm)

theorem Rng.stream_val (r : Rng) (k : Nat) : r.stream k = ((lcg48 (r.after k).state : Nat) : ℚ) / 2 ^ 48 := by
  unfold Rng.stream
  exact Rng.fp_val _

theorem Rng.stream_eq (r : Rng) (k : Nat) : r.stream k = ((lcg48^[k + 1] r.state : Nat) : ℚ) / 2 ^ 48 := by
  have h := Rng.iter_eq r k
  have h2 := Rng.stream_val r k
  generalize lcg48^[k + 1] r.state = z at h ⊢
  generalize lcg48 (r.after k).state = y at h h2
  subst h
  exact h2

theorem Rng.fp_seed (q : Rng) : q.fp.2.seed0 = q.seed0 := by
  unfold Rng.fp; exact Rng.store_seed _ _

theorem Rng.after_seed (r : Rng) (k : Nat) : (r.after k).seed0 = r.seed0 := by
  induction k with
  | zero => rfl
  | succ k ih => rw [Rng.after, Rng.fp_seed]; exact ih

/-- C59: for every seed and any number of draws, `fp()` returns a multiple of `2^-48` between 0 and `1 - 2^-48`. -/
theorem C59_fp_range (r : Rng) (k : Nat) :
    0 ≤ r.stream k ∧ r.stream k ≤ 1 - 1 / 2 ^ 48 ∧ ∃ m : Nat, r.stream k = (m : ℚ) / 2 ^ 48 := by
  have h : lcg48^[k + 1] r.state < 2 ^ 48 := by rw [Function.iterate_succ_apply']; exact lcg48_lt _
  rw [Rng.stream_eq]
  refine ⟨by positivity, ?_, _, rfl⟩
  generalize lcg48^[k + 1] r.state = x at h
  have : (x : ℚ) ≤ 2 ^ 48 - 1 := by
    have : x ≤ 2 ^ 48 - 1 := by omega
    have h2 : ((x : Nat) : ℚ) ≤ ((2 ^ 48 - 1 : Nat) : ℚ) := by exact_mod_cast this
    refine h2.trans (le_of_eq (by norm_num))
  rw [div_le_iff₀ (by positivity)]
  linarith

/-- C59: a stream is determined by the low 48 bits of its seed; after `reset()`, at any time, the same values are drawn
again. -/
theorem C59_reset (seed j k : Nat) (hs : seed ≠ 0) (sec usec : Nat) :
    ((Rng.reseed seed sec usec).after j).reset.stream k = (Rng.reseed seed sec usec).stream k ∧
    ∀ seed', seed' ≠ 0 → seed' % 2 ^ 48 = seed % 2 ^ 48 → ∀ sec' usec',
      (Rng.reseed seed' sec' usec').stream k = (Rng.reseed seed sec usec).stream k := by
  have e : ∀ s t u, s ≠ 0 → Rng.reseed s t u = Rng.init s := fun s t u h => if_neg h
  rw [e _ _ _ hs]
  constructor
  · unfold Rng.reset
    rw [Rng.after_seed, Rng.stream_eq, Rng.stream_eq, Rng.init_state, Rng.init_state]
    simp only [Rng.init, Nat.mod_mod]
  · intro s' hs' hm t u
    rw [e _ _ _ hs', Rng.stream_eq, Rng.stream_eq, Rng.init_state, Rng.init_state, hm]

/-- C59: without a seed two processes draw the same numbers exactly when they start in the same second (modulo `2^32`) and
the same 8-microsecond tick modulo `2^16` ticks … -/
theorem C59_clock_seed (sec usec sec' usec' : Nat) :
    (Rng.reseed 0 sec usec).state = (Rng.reseed 0 sec' usec').state ↔
      sec % 2 ^ 32 = sec' % 2 ^ 32 ∧ usec / 8 % 2 ^ 16 = usec' / 8 % 2 ^ 16 := by
  unfold Rng.reseed
  rw [if_pos rfl, if_pos rfl, Rng.init_state, Rng.init_state]
  unfold clockSeed
  omega

/-- … so two processes started 0.524288 s apart within a second get the same stream (finding). -/
theorem C59_clock_collision (sec usec : Nat) (k : Nat) :
    (Rng.reseed 0 sec usec).stream k = (Rng.reseed 0 sec (usec + 524288)).stream k := by
  rw [Rng.stream_eq, Rng.stream_eq, (C59_clock_seed sec usec sec (usec + 524288)).mpr ⟨rfl, by omega⟩]

/-! ## The period of the generator -/

/-- Sum of the first `t` powers. -/
def geo (a t : Nat) : Nat := ∑ i ∈ Finset.range t, a ^ i

theorem geo_succ (a t : Nat) : geo a (t + 1) = a * geo a t + 1 := by
  unfold geo
  rw [Finset.sum_range_succ', Finset.mul_sum, pow_zero]
  congr 1
  exact Finset.sum_congr rfl fun i _ => by rw [pow_succ, mul_comm]

theorem geo_add (a s t : Nat) : geo a (s + t) = geo a s + a ^ s * geo a t := by
  unfold geo
  rw [Finset.sum_range_add, Finset.mul_sum]
  simp only [pow_add]

theorem lcg_iter (k x : Nat) : lcg48^[k] x % 2 ^ 48 = (25214903917 ^ k * x + 11 * geo 25214903917 k) % 2 ^ 48 := by
  induction k with
  | zero => simp [geo]
  | succ k ih =>
    rw [Function.iterate_succ_apply']
    have e1 : lcg48 (lcg48^[k] x) % 2 ^ 48 = (25214903917 * (lcg48^[k] x % 2 ^ 48) + 11) % 2 ^ 48 := by
      generalize lcg48^[k] x = y
      unfold lcg48
      rw [Nat.mod_mod, Nat.add_mod, Nat.mul_mod, ← Nat.mod_mod y, ← Nat.mul_mod, ← Nat.add_mod, Nat.mod_mod]
    rw [e1, ih, Nat.add_mod, Nat.mul_mod, Nat.mod_mod, ← Nat.mul_mod, ← Nat.add_mod, geo_succ]
    congr 1
    ring

/-- `a` is 1 modulo 4: the sum of `t` powers is divisible by `2^k` only if `t` is. -/
theorem geo_dvd {a : Nat} (ha : a % 4 = 1) (k t : Nat) (h : 2 ^ k ∣ geo a t) : 2 ^ k ∣ t := by
  induction k generalizing t with
  | zero => exact one_dvd _
  | succ k ih =>
    have hpow : ∀ s, a ^ s % 4 = 1 := fun s => by rw [Nat.pow_mod, ha, one_pow]; rfl
    have hpar : ∀ s, geo a s % 2 = s % 2 := by
      intro s
      induction s with
      | zero => rfl
      | succ s ihs =>
        rw [geo_succ, Nat.add_mod, Nat.mul_mod, ihs, show a % 2 = 1 by omega]
        omega
    have h2 : 2 ∣ geo a t := (dvd_pow_self 2 (Nat.succ_ne_zero k)).trans h
    obtain ⟨u, rfl⟩ : ∃ u, t = u + u := ⟨t / 2, by have := hpar t; omega⟩
    rw [geo_add] at h
    obtain ⟨c, hc⟩ : ∃ c, a ^ u = 2 * (2 * c) + 1 := ⟨a ^ u / 4, by have := hpow u; omega⟩
    have e : geo a u + a ^ u * geo a u = 2 * ((2 * c + 1) * geo a u) := by rw [hc]; ring
    rw [e, pow_succ, mul_comm (2 ^ k) 2] at h
    have h3 := Nat.dvd_of_mul_dvd_mul_left (by norm_num) h
    have hco : Nat.Coprime (2 ^ k) (2 * c + 1) := Nat.Coprime.pow_left _ (by
      rw [Nat.coprime_two_left]; exact ⟨c, rfl⟩)
    obtain ⟨d, hd⟩ := ih u (hco.dvd_of_dvd_mul_left h3)
    exact ⟨d, by rw [hd, pow_succ]; ring⟩

/-- C59: the generator has full period: from every state the next `2^48` draws are all different, so every multiple of
`2^-48` in `[0, 1)` is drawn exactly once. -/
theorem C59_full_period (r : Rng) (j k : Nat) (hj : j < 2 ^ 48) (hk : k < 2 ^ 48) (h : r.stream j = r.stream k) : j = k := by
  wlog hle : j ≤ k generalizing j k
  · exact (this k j hk hj h.symm (by omega)).symm
  rw [Rng.stream_eq, Rng.stream_eq, div_left_inj' (by positivity), Nat.cast_inj] at h
  obtain ⟨t, rfl⟩ : ∃ t, k = j + t := ⟨k - j, by omega⟩
  rw [show j + t + 1 = t + (j + 1) by ring, Function.iterate_add_apply lcg48 t (j + 1)] at h
  have hy : lcg48^[j + 1] r.state < 2 ^ 48 := by rw [Function.iterate_succ_apply']; exact lcg48_lt _
  generalize lcg48^[j + 1] r.state = y at h hy
  have h2 := lcg_iter t y
  rw [← h, Nat.mod_eq_of_lt hy] at h2
  have hgeo : 25214903917 ^ t = (25214903917 - 1) * geo 25214903917 t + 1 := by
    clear h2 h hj hk hle hy
    induction t with
    | zero => simp [geo]
    | succ t ih => rw [geo_succ, pow_succ, ih]; ring
  rw [hgeo] at h2
  have e : ((25214903917 - 1) * geo 25214903917 t + 1) * y + 11 * geo 25214903917 t =
      y + geo 25214903917 t * (25214903916 * y + 11) := by ring
  rw [e] at h2
  have h3 : 2 ^ 48 ∣ geo 25214903917 t * (25214903916 * y + 11) := by
    generalize geo 25214903917 t * (25214903916 * y + 11) = w at h2
    omega
  have hco : Nat.Coprime (2 ^ 48) (25214903916 * y + 11) := Nat.Coprime.pow_left _ (by
    rw [Nat.coprime_two_left]; exact ⟨12607451958 * y + 5, by ring⟩)
  obtain ⟨d, hd⟩ := geo_dvd (a := 25214903917) (by norm_num) 48 t (hco.dvd_of_dvd_mul_right h3)
  have : d = 0 := by
    by_contra hd0
    have : 2 ^ 48 * 1 ≤ 2 ^ 48 * d := Nat.mul_le_mul_left _ (by omega)
    omega
  rw [hd, this]; rfl

/-! ## Integers -/

/-- C59: `i32(0, m - 1)` and `ui32(0, m - 1)` (the only uses in the sampler) lie in `[0, m)`, whatever the rounding. -/
theorem C59_int_range (fl : ℚ → ℚ) (H : RoundsNearest fl) (r : Rng) (k m : Nat) (hm : 0 < m) (hm2 : m ≤ 2 ^ 53) :
    0 ≤ ((r.after k).intIn fl 0 ((m : Int) - 1)).1 ∧ ((r.after k).intIn fl 0 ((m : Int) - 1)).1 < m := by
  have h := C59_fp_range r k
  exact randI32F_range H _ m h.1 h.2.1 hm hm2

/-- C59: `i32()` and `ui32()` without arguments are exact: `⌊2^32 x⌋` shifted into the range of the type. -/
theorem C59_int_full (fl : ℚ → ℚ) (H : RoundsNearest fl) (r : Rng) (k : Nat) :
    ((r.after k).intIn fl 0 4294967295).1 = ⌊(2 : ℚ) ^ 32 * r.stream k⌋ ∧
    ((r.after k).intIn fl (-2147483648) 2147483647).1 = ⌊(2 : ℚ) ^ 32 * r.stream k⌋ - 2 ^ 31 ∧
    0 ≤ ⌊(2 : ℚ) ^ 32 * r.stream k⌋ ∧ ⌊(2 : ℚ) ^ 32 * r.stream k⌋ < 2 ^ 32 := by
  obtain ⟨h0, h1, m, hm⟩ := C59_fp_range r k
  have hx : ((r.after k).intIn fl 0 4294967295).1 = randI32F fl (r.stream k) 0 4294967295 := rfl
  have hy : ((r.after k).intIn fl (-2147483648) 2147483647).1 = randI32F fl (r.stream k) (-2147483648) 2147483647 := rfl
  rw [hx, hy]
  generalize r.stream k = x at *
  have hm48 : m ≤ 2 ^ 48 := by
    rw [hm, div_le_iff₀ (by positivity)] at h1
    have : (m : ℚ) ≤ ((2 ^ 48 : Nat) : ℚ) := h1.trans (by norm_num)
    exact_mod_cast this
  have rep : ∀ z : ℤ, |z| ≤ 2 ^ 53 → fl ((z : ℚ) / 2 ^ 16) = (z : ℚ) / 2 ^ 16 := by
    intro z hz
    apply H.exact
    refine ⟨z, -16, hz, by norm_num, ?_⟩
    rw [zpow_neg, div_eq_mul_inv]; norm_num
  have e0 : fl (fl ((4294967295 : Int) - (0 : Int) : ℚ) + 1) = 2 ^ 32 := by
    rw [show (((4294967295 : Int) : ℚ) - ((0 : Int) : ℚ)) = ((4294967295 : Nat) : ℚ) by norm_num, H.nat _ (by norm_num),
      show (((4294967295 : Nat) : ℚ) + 1) = ((4294967296 : Nat) : ℚ) by norm_num, H.nat _ (by norm_num)]
    norm_num
  have e1 : fl (fl ((2147483647 : Int) - (-2147483648 : Int) : ℚ) + 1) = 2 ^ 32 := by
    rw [show (((2147483647 : Int) : ℚ) - ((-2147483648 : Int) : ℚ)) = ((4294967295 : Nat) : ℚ) by norm_num,
      H.nat _ (by norm_num), show (((4294967295 : Nat) : ℚ) + 1) = ((4294967296 : Nat) : ℚ) by norm_num,
      H.nat _ (by norm_num)]
    norm_num
  have hmz : |(m : ℤ)| ≤ 2 ^ 53 := by rw [abs_of_nonneg (by positivity)]; omega
  have e2 : x * 2 ^ 32 = ((m : ℤ) : ℚ) / 2 ^ 16 := by rw [hm]; push_cast; ring
  have e3 : fl (x * 2 ^ 32) = 2 ^ 32 * x := by rw [e2, rep _ hmz, ← e2]; ring
  refine ⟨?_, ?_, ?_, ?_⟩
  · unfold randI32F
    rw [e0, e3, Int.cast_zero, add_zero, mul_comm, e3, mul_comm]
  · unfold randI32F
    rw [e1, e3]
    have e4 : (2 : ℚ) ^ 32 * x + ((-2147483648 : Int) : ℚ) = (((m : ℤ) - 2 ^ 47 : ℤ) : ℚ) / 2 ^ 16 := by
      rw [mul_comm, e2]; push_cast; ring
    rw [e4, rep _ (by rw [abs_le]; omega), ← e4]
    rw [Int.floor_add_intCast]; norm_num; rfl
  · exact Int.floor_nonneg.mpr (by positivity)
  · rw [Int.floor_lt]
    have : x < 1 := lt_of_le_of_lt h1 (by norm_num)
    push_cast
    linarith

/-- C59 (finding): with a large lower bound the rounding of the sum can leave the range: `i32(a, a)` with `a = 2^31 - 1`
can give `a + 1`, which is not even an `int32_t`. (No caller in the repository passes a lower bound other than 0.) -/
theorem C59_int_can_exceed (fl : ℚ → ℚ) (H : RoundsNearest fl) :
    randI32F fl (1 - 1 / 2 ^ 48) 2147483647 2147483647 = 2147483648 := by
  unfold randI32F
  rw [show (((2147483647 : Int) : ℚ) - ((2147483647 : Int) : ℚ)) = 0 by norm_num, H.zero, zero_add, H.one, mul_one]
  have e1 : fl (1 - 1 / 2 ^ 48) = 1 - 1 / 2 ^ 48 := by
    apply H.exact
    refine ⟨2 ^ 48 - 1, -48, by rw [abs_le]; norm_num, by norm_num, ?_⟩
    rw [zpow_neg]; norm_num
  rw [e1]
  have e2 : fl (1 - 1 / 2 ^ 48 + ((2147483647 : Int) : ℚ)) = ((2147483648 : Int) : ℚ) := by
    have hx : (1 - 1 / 2 ^ 48 + ((2147483647 : Int) : ℚ)) = 2147483648 - 1 / 2 ^ 48 := by push_cast; ring
    rw [hx]
    have hrep : IsF64 (2147483648 : ℚ) := by simpa using isF64_nat 2147483648 (by norm_num)
    have h1 := H.near (2147483648 - 1 / 2 ^ 48) 2147483648 hrep
    have h2 : fl (2147483648 - 1 / 2 ^ 48) ≤ 2147483648 := by
      have := H.mono (show (2147483648 - 1 / 2 ^ 48 : ℚ) ≤ 2147483648 by norm_num)
      rwa [H.exact hrep] at this
    rw [show (2147483648 : ℚ) - (2147483648 - 1 / 2 ^ 48) = 1 / 2 ^ 48 by ring,
      abs_of_nonneg (show (0 : ℚ) ≤ 1 / 2 ^ 48 by positivity)] at h1
    have h3 := (abs_le.mp h1).1
    obtain ⟨z, hz⟩ := isF64_multiple' (H.rep (2147483648 - 1 / 2 ^ 48)) 30 (by
      have : ((2 : ℚ) ^ (30 : ℤ)) = 1073741824 := by norm_num
      rw [this]; linarith [show (1 : ℚ) / 2 ^ 48 < 1 by norm_num])
    rw [show (2 : ℚ) ^ ((30 : ℤ) - 52) = 1 / 2 ^ 22 by rw [show ((30 : ℤ) - 52) = -22 by norm_num, zpow_neg]; norm_num] at hz
    rw [hz] at h2 h3 ⊢
    have h4 : z ≤ 2 ^ 53 := by
      have : (z : ℚ) ≤ 2 ^ 53 := by
        rw [mul_one_div, div_le_iff₀ (by positivity)] at h2
        exact h2.trans (by norm_num)
      exact_mod_cast this
    have h5 : 2 ^ 53 - 1 < z := by
      have : ((2 ^ 53 - 1 : ℤ) : ℚ) < z := by
        have h6 : 2147483648 - 1 / 2 ^ 48 - 1 / 2 ^ 48 ≤ (z : ℚ) * (1 / 2 ^ 22) := by linarith
        rw [mul_one_div, le_div_iff₀ (by positivity)] at h6
        refine lt_of_lt_of_le ?_ h6
        norm_num
      exact_mod_cast this
    have h6 : z = 2 ^ 53 := by omega
    rw [h6]; norm_num
  rw [e2, Int.floor_intCast]

/-! ## The sampler -/

/-- C59: with every operation rounded, whichever of its two algorithms the comparison of logarithms selects, and for every
random stream of the generator, the sampler returns exactly `k` strictly increasing integers of `[0, n)`. -/
theorem C59_kofn_float (fl : ℚ → ℚ) (H : RoundsNearest fl) (small : Nat → Nat → Bool) (r : Rng) (k n pos : Nat) (hk : k ≤ n)
    (hn : n ≤ 2 ^ 53) : IsKSubset k n (kOfNF fl small k n r.stream pos).1 :=
  kOfNF_ok H small k n r.stream pos (fun i => ⟨(C59_fp_range r i).1, (C59_fp_range r i).2.1⟩) hk hn

/-- C59: without rounding and with the exact comparison this is the sampler of C14. -/
theorem C59_exact (k n : Nat) (xs : Nat → ℚ) (pos : Nat) :
    kOfNF id (fun k n => decide (k ^ k < 2 ^ (n / 2))) k n xs pos = kOfN k n xs pos := by
  have hr : ∀ x a b, randI32F id x a b = randI32 x a b := fun x a b => rfl
  have hl : ∀ rem p j, largeKLoopF id k n xs rem p j = largeKLoop k n xs rem p j := by
    intro rem
    induction rem with
    | zero => intro p j; rfl
    | succ rem ih => intro p j; simp only [largeKLoopF, largeKLoop, ih, id]
  have hsp : ∀ n m c p i a b, smallKSplitF id n m xs c p i a b = smallKSplit n m xs c p i a b := by
    intro n m c
    induction c with
    | zero => intro p i a b; rfl
    | succ c ih => intro p i a b; simp only [smallKSplitF, smallKSplit, ih, hr]
  have hs : ∀ f k n p, smallKF id xs f k n p = smallK xs f k n p := by
    intro f
    induction f with
    | zero => intro k n p; rfl
    | succ f ih => intro k n p; simp only [smallKF, smallK, ih, hsp, hr]
  unfold kOfNF kOfN largeKF largeK
  simp only [hl, hs, decide_eq_true_eq]

/-- C59: nothing is excluded: every `k`-subset of `[0, n)` is returned for some stream of numbers in `[0, 1)`. -/
theorem C59_every_subset (k n : Nat) (l : List Nat) (hl : l.length = k) (hs : l.Pairwise (· < ·)) (hn : ∀ x ∈ l, x < n) :
    ∃ xs : Nat → ℚ, (∀ i, 0 ≤ xs i ∧ xs i < 1) ∧ (kOfN k n xs 0).1 = l := by
  obtain ⟨ds, h1, h2⟩ := kOfN_onto k n l ⟨hl, hs, hn⟩
  exact ⟨_, unit_getD h1, by rw [h2 _ _ (reads_getD ds)]⟩

/-! ## Witnesses -/

/-- The generator started with seed 1: first draw of POSIX `erand48` from state 1. -/
example : (Rng.reseed 1 0 0).stream 0 = 25214903928 / 2 ^ 48 := by decide +kernel

example : (Rng.reseed 1 0 0).stream 1 ≠ (Rng.reseed 1 0 0).stream 0 := fun h => by
  have := C59_full_period _ 1 0 (by norm_num) (by norm_num) h; omega

example : IsKSubset 2 10 (kOfNF nearestF64 (fun _ _ => true) 2 10 (Rng.reseed 7 0 0).stream 3).1 :=
  C59_kofn_float nearestF64 nearestF64_rounds _ _ 2 10 3 (by norm_num) (by norm_num)

example : ∃ xs : Nat → ℚ, (∀ i, 0 ≤ xs i ∧ xs i < 1) ∧ (kOfN 3 10 xs 0).1 = [2, 3, 9] :=
  C59_every_subset 3 10 _ rfl (by decide) (by decide)

end EdgeEval.Props
