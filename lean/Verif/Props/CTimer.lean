import Verif.Model.CTimer
import Verif.Lemmas.Text
import Verif.Lemmas.Float
import Mathlib.Data.Nat.Digits.Lemmas
import Mathlib.Tactic.FieldSimp
import Mathlib.Tactic.Positivity

/-!
# C74  The native timer adds up the measured intervals and prints times to the nearest unit
-/

namespace EdgeEval.Props

open EdgeEval EdgeEval.CTimer Text

/-! ## Specification -/

/-- A clock reading in seconds. -/
def secondsOf (t : Tv) : ℚ := t.sec + t.usec / 10 ^ 6

/-- One measurement: a start and a stop. -/
structure Meas where
  t0 : Tv
  c0 : Tms
  t1 : Tv
  c1 : Tms

/-- The two calls of a measurement. -/
def Meas.calls (m : Meas) : List Call := [.start m.t0 m.c0, .stop m.t1 m.c1]

/-- Calls in an order the timer allows; `running` is its state before them. -/
inductive Allowed : Bool → List Call → Prop
  | nil (b : Bool) : Allowed b []
  | start {t c cs} : Allowed true cs → Allowed false (.start t c :: cs)
  | stop {t c cs} : Allowed false cs → Allowed true (.stop t c :: cs)
  | reset {b cs} : Allowed false cs → Allowed b (.reset :: cs)

/-- The last `k` decimal digits of `n`, most significant first. -/
def fixedDigits (k n : Nat) : Str := (List.range k).map fun (i : Nat) => digitCh (n / 10 ^ (k - 1 - i) % 10)

/-! ## Measuring -/

theorem interval_exact (a b : Tv) : interval id a b = secondsOf b - secondsOf a := by
  unfold interval secondsOf
  simp only [id]
  split <;> push_cast <;> ring

theorem run_append {dbg : Bool} {fl : ℚ → ℚ} {hz : ℚ} (l1 l2 : List Call) (s : St) :
    run dbg fl hz (l1 ++ l2) s = run dbg fl hz l1 s >>= run dbg fl hz l2 := by
  induction l1 generalizing s with
  | nil => rfl
  | cons c cs ih =>
    rw [List.cons_append, run, run]
    cases step dbg fl hz s c with
    | error e => rfl
    | ok s' => exact ih s'

theorem run_meas (dbg : Bool) (fl : ℚ → ℚ) (hz : ℚ) (m : Meas) (s : St) (hs : s.running = false) :
    ∃ s', run dbg fl hz m.calls s = .ok s' ∧ s'.running = false ∧ s'.elapsed = fl (s.elapsed + interval fl m.t0 m.t1) ∧
      s'.user = fl (s.user + fl (fl (m.c1.utime - m.c0.utime : ℤ) / hz)) ∧
      s'.system = fl (s.system + fl (fl (m.c1.stime - m.c0.stime : ℤ) / hz)) := by
  refine ⟨{ s with
      running := false, eStart := some m.t0, eStop := some m.t1, cStart := some m.c0, cStop := some m.c1
      elapsed := fl (s.elapsed + interval fl m.t0 m.t1)
      user := fl (s.user + fl (fl (m.c1.utime - m.c0.utime : ℤ) / hz))
      system := fl (s.system + fl (fl (m.c1.stime - m.c0.stime : ℤ) / hz)) }, ?_, rfl, rfl, rfl, rfl⟩
  unfold Meas.calls
  simp only [run, step, start, stop, check, hs, compute, Bool.not_false, Bool.not_true, Bool.and_false, Bool.false_eq_true, if_false]
  cases dbg <;> rfl

theorem run_measures (dbg : Bool) (hz : ℚ) (ms : List Meas) (s : St) (hs : s.running = false) :
    ∃ s', run dbg id hz (ms.flatMap Meas.calls) s = .ok s' ∧ s'.running = false ∧
      s'.elapsed = s.elapsed + (ms.map fun m => secondsOf m.t1 - secondsOf m.t0).sum ∧
      s'.user = s.user + (ms.map fun m => ((m.c1.utime - m.c0.utime : ℤ) : ℚ) / hz).sum ∧
      s'.system = s.system + (ms.map fun m => ((m.c1.stime - m.c0.stime : ℤ) : ℚ) / hz).sum := by
  induction ms generalizing s with
  | nil => exact ⟨s, rfl, hs, by simp, by simp, by simp⟩
  | cons m ms ih =>
    obtain ⟨s1, h1, r1, e1, u1, y1⟩ := run_meas dbg id hz m s hs
    obtain ⟨s2, h2, r2, e2, u2, y2⟩ := ih s1 r1
    refine ⟨s2, ?_, r2, ?_, ?_, ?_⟩
    · rw [List.flatMap_cons, run_append, h1]; exact h2
    · rw [e2, e1, interval_exact]; simp only [id, List.map_cons, List.sum_cons]; ring
    · rw [u2, u1]; simp only [id, List.map_cons, List.sum_cons]; ring
    · rw [y2, y1]; simp only [id, List.map_cons, List.sum_cons]; ring

/-- C74: whatever happened before the last `reset`, afterwards the timer reports the sum of the measured intervals (user and system time likewise, `cpu`
their sum), with or without assertions; exact arithmetic. -/
theorem C74_total_time (dbg : Bool) (hz : ℚ) (before : List Call) (s0 : St) (hb : run dbg id hz before fresh = .ok s0) (ms : List Meas) :
    ∃ s, run dbg id hz (before ++ .reset :: ms.flatMap Meas.calls) fresh = .ok s ∧
      elapsedTime dbg s = .ok (ms.map fun m => secondsOf m.t1 - secondsOf m.t0).sum ∧
      userTime dbg s = .ok (ms.map fun m => ((m.c1.utime - m.c0.utime : ℤ) : ℚ) / hz).sum ∧
      systemTime dbg s = .ok (ms.map fun m => ((m.c1.stime - m.c0.stime : ℤ) : ℚ) / hz).sum ∧
      cpu dbg id s = .ok ((ms.map fun m => ((m.c1.utime - m.c0.utime : ℤ) : ℚ) / hz).sum +
        (ms.map fun m => ((m.c1.stime - m.c0.stime : ℤ) : ℚ) / hz).sum) := by
  obtain ⟨s, hs, r, e, u, y⟩ := run_measures dbg hz ms (reset s0) rfl
  refine ⟨s, ?_, ?_, ?_, ?_, ?_⟩
  · rw [run_append, hb]; exact hs
  all_goals
    simp only [elapsedTime, userTime, systemTime, cpu, check, r, e, u, y, reset, zero_add, id, Bool.not_false, Bool.not_true, Bool.and_false,
      Bool.false_eq_true, if_false]
    rfl

example (a b : Tv) (c d : Tms) : ∃ s, run true id 100 [.start a c, .reset, .start b c, .stop ⟨b.sec + 1, b.usec⟩ d] fresh = .ok s ∧
    elapsedTime true s = .ok 1 := by
  obtain ⟨s, h1, h2, -⟩ := C74_total_time true 100 [.start a c] _ rfl [⟨b, c, ⟨b.sec + 1, b.usec⟩, d⟩]
  refine ⟨s, h1, ?_⟩
  rw [h2]
  simp [secondsOf]

/-- C74: without a `reset` the same holds from the construction on. -/
theorem C74_from_construction (dbg : Bool) (hz : ℚ) (ms : List Meas) :
    ∃ s, run dbg id hz (ms.flatMap Meas.calls) fresh = .ok s ∧
      elapsedTime dbg s = .ok (ms.map fun m => secondsOf m.t1 - secondsOf m.t0).sum := by
  obtain ⟨s, hs, r, e, u, y⟩ := run_measures dbg hz ms fresh rfl
  refine ⟨s, hs, ?_⟩
  simp only [elapsedTime, check, r, e, fresh, reset, zero_add, Bool.not_false, Bool.not_true, Bool.and_false, Bool.false_eq_true, if_false]
  rfl

/-- C74: with assertions compiled in, a sequence of calls goes through if and only if starts and stops alternate (a `reset` is always allowed); otherwise an
assertion stops the program.  No member is ever used before it was written. -/
theorem C74_protocol (fl : ℚ → ℚ) (hz : ℚ) (cs : List Call) :
    ((∃ s, run true fl hz cs fresh = .ok s) ↔ Allowed false cs) ∧
      (∀ f, run true fl hz cs fresh = .error f → f = .assertion) := by
  have key : ∀ (cs : List Call) (s : St), (s.running = true → ∃ a c, s.eStart = some a ∧ s.cStart = some c) →
      ((∃ s', run true fl hz cs s = .ok s') ↔ Allowed s.running cs) ∧ (∀ f, run true fl hz cs s = .error f → f = .assertion) := by
    intro cs
    induction cs with
    | nil => intro s _; exact ⟨⟨fun _ => .nil _, fun _ => ⟨s, rfl⟩⟩, fun f h => by simp [run] at h⟩
    | cons c cs ih =>
      intro s hs
      cases c with
      | reset =>
        have := ih (reset s) (by simp [reset])
        rw [run]
        refine ⟨⟨fun h => .reset (this.1.1 h), fun h => ?_⟩, this.2⟩
        generalize s.running = r at h
        cases h with
        | reset h => exact this.1.2 h
      | start t c =>
        cases hr : s.running with
        | true =>
          have e : run true fl hz (.start t c :: cs) s = .error .assertion := by
            rw [run, step, start, check, hr]; rfl
          rw [e]
          exact ⟨⟨fun h => (by obtain ⟨_, h⟩ := h; cases h), fun h => nomatch h⟩, fun f h => (by cases h; rfl)⟩
        | false =>
          have e : run true fl hz (.start t c :: cs) s = run true fl hz cs { s with running := true, eStart := some t, cStart := some c } := by
            rw [run, step, start, check, hr]; rfl
          rw [e]
          have := ih { s with running := true, eStart := some t, cStart := some c } (fun _ => ⟨t, c, rfl, rfl⟩)
          refine ⟨⟨fun h => .start (this.1.1 h), fun h => ?_⟩, this.2⟩
          cases h with
          | start h => exact this.1.2 h
      | stop t c =>
        cases hr : s.running with
        | false =>
          have e : run true fl hz (.stop t c :: cs) s = .error .assertion := by
            rw [run, step, stop, check, hr]; rfl
          rw [e]
          exact ⟨⟨fun h => (by obtain ⟨_, h⟩ := h; cases h), fun h => nomatch h⟩, fun f h => (by cases h; rfl)⟩
        | true =>
          obtain ⟨a, d, ha, hd⟩ := hs hr
          obtain ⟨s', hs', hr'⟩ : ∃ s', step true fl hz s (.stop t c) = .ok s' ∧ s'.running = false := by
            simp only [step, stop, check, hr, compute, ha, hd]
            exact ⟨_, rfl, rfl⟩
          rw [run, hs']
          have := ih s' (fun h => by rw [hr'] at h; cases h)
          rw [hr'] at this
          refine ⟨⟨fun h => .stop (this.1.1 h), fun h => ?_⟩, this.2⟩
          cases h with
          | stop h => exact this.1.2 h
  exact key cs fresh (by simp [fresh, reset])

example (t : Tv) (c : Tms) : Allowed false [.start t c, .stop t c, .start t c, .reset] := .start (.stop (.start (.reset (.nil _))))

/-- C74: while the timer is running, every reading is stopped by an assertion; without assertions the value shown leaves the running interval out. -/
theorem C74_reading_while_running (fl : ℚ → ℚ) (s : St) (h : s.running = true) :
    (elapsedTime true s = .error .assertion ∧ userTime true s = .error .assertion ∧ systemTime true s = .error .assertion ∧
      cpu true fl s = .error .assertion) ∧ elapsedTime false s = .ok s.elapsed := by
  simp only [elapsedTime, userTime, systemTime, cpu, check, h]
  exact ⟨⟨rfl, rfl, rfl, rfl⟩, rfl⟩

example : (start true ⟨0, 0⟩ ⟨0, 0⟩ fresh).map (·.running) = .ok true := rfl

/-- C74 (finding): with assertions compiled out (as in a release build), a second `stop` counts the interval again, and a `stop` without any `start` uses
members that were never written. -/
theorem C74_unchecked_misuse (hz : ℚ) (a b b' : Tv) (c : Tms) :
    (∃ s, run false id hz [.start a c, .stop b c, .stop b' c] fresh = .ok s ∧
      elapsedTime false s = .ok ((secondsOf b - secondsOf a) + (secondsOf b' - secondsOf a))) ∧
    run false id hz [.stop b c] fresh = .error .uninitialised := by
  refine ⟨⟨_, rfl, ?_⟩, rfl⟩
  rw [← interval_exact, ← interval_exact]
  simp only [elapsedTime, check, fresh, reset, id, zero_add]
  rfl

/-! ## Rounding -/

/-- C74: with `double` arithmetic a measurement of less than 2^31 seconds is off by less than half a microsecond, and the total never gets smaller. -/
theorem C74_rounding (fl : ℚ → ℚ) (H : RoundsNearest fl) (a b : Tv) (ha : 0 ≤ a.usec ∧ a.usec < 10 ^ 6) (hb : 0 ≤ b.usec ∧ b.usec < 10 ^ 6)
    (h0 : secondsOf a ≤ secondsOf b) (h1 : secondsOf b - secondsOf a < 2 ^ 31) :
    |interval fl a b - (secondsOf b - secondsOf a)| < 1 / 2 / 10 ^ 6 ∧ 0 ≤ interval fl a b ∧
      ∀ e, IsF64 e → e ≤ fl (e + interval fl a b) := by
  have key : ∀ (S U : ℤ), 0 ≤ U → U < 10 ^ 6 → (S : ℚ) + U / 10 ^ 6 = secondsOf b - secondsOf a →
      |fl (fl S + fl (fl U / 1000000)) - (secondsOf b - secondsOf a)| < 1 / 2 / 10 ^ 6 ∧ 0 ≤ fl (fl S + fl (fl U / 1000000)) := by
    intro S U hU0 hU1 hd
    have hU0' : (0 : ℚ) ≤ U := by exact_mod_cast hU0
    have hU1' : (U : ℚ) < 10 ^ 6 := by exact_mod_cast hU1
    have hS0 : 0 ≤ S := by
      by_contra h
      have : (S : ℚ) ≤ -1 := by exact_mod_cast (show S ≤ -1 by omega)
      have : (U : ℚ) / 10 ^ 6 < 1 := by rw [div_lt_one (by norm_num)]; exact hU1'
      linarith
    have hS0' : (0 : ℚ) ≤ S := by exact_mod_cast hS0
    have hUd : (0 : ℚ) ≤ U / 10 ^ 6 := by positivity
    have hS1 : (S : ℚ) < 2 ^ 31 := by linarith
    have hS2 : S < 2 ^ 31 := by exact_mod_cast hS1
    have eS : fl S = S := H.exact (isF64_int S (by rw [abs_of_nonneg hS0]; omega))
    have eU : fl U = U := H.exact (isF64_int U (by rw [abs_of_nonneg hU0]; omega))
    rw [eS, eU]
    have e1 := H.abs_err ((U : ℚ) / 1000000) 0 (by norm_num) (by
      rw [abs_of_nonneg (by positivity), div_lt_iff₀ (by norm_num)]; norm_num; linarith)
    rw [abs_le] at e1
    norm_num at e1
    have hn : 0 ≤ fl ((U : ℚ) / 1000000) := H.nonneg (by positivity)
    have e2 := H.abs_err ((S : ℚ) + fl (U / 1000000)) 32 (by norm_num) (by
      rw [abs_of_nonneg (by positivity)]
      have : (U : ℚ) / 1000000 < 1 := by rw [div_lt_one (by norm_num)]; linarith
      norm_num
      linarith)
    rw [abs_le] at e2
    norm_num at e2
    norm_num at hd
    refine ⟨?_, H.nonneg (by positivity)⟩
    rw [abs_lt]
    constructor <;> norm_num <;> linarith
  have hi : |interval fl a b - (secondsOf b - secondsOf a)| < 1 / 2 / 10 ^ 6 ∧ 0 ≤ interval fl a b := by
    unfold interval
    simp only
    split
    · rename_i h
      exact key (b.sec - a.sec - 1) (b.usec - a.usec + 1000000) (by omega) (by omega) (by unfold secondsOf; push_cast; ring)
    · exact key (b.sec - a.sec) (b.usec - a.usec) (by omega) (by omega) (by unfold secondsOf; push_cast; ring)
  refine ⟨hi.1, hi.2, fun e he => ?_⟩
  have := H.mono (show e ≤ e + interval fl a b by linarith [hi.2])
  rwa [H.exact he] at this

example : secondsOf ⟨1, 999999⟩ ≤ secondsOf ⟨2, 0⟩ ∧ secondsOf ⟨2, 0⟩ - secondsOf ⟨1, 999999⟩ < 2 ^ 31 := by
  unfold secondsOf; norm_num

/-! ## Printing -/

theorem base_eq {p : Nat} (h : p ≤ 9) : base p = 10 ^ p := by
  interval_cases p <;> rfl

theorem clampPrec_le (z : ℤ) : clampPrec z ≤ 9 := by
  unfold clampPrec
  split
  · simp
  · split <;> omega

theorem clampPrec_eq (z : ℤ) : clampPrec z = (max 0 (min 9 z)).toNat := by
  unfold clampPrec
  split <;> split <;> omega

theorem padded_eq {k n : Nat} (hk : 1 ≤ k) (hn : n < 10 ^ k) : padded k n = fixedDigits k n := by
  have hlen : (pyStr n).length ≤ k := by
    unfold pyStr
    split
    · simpa using hk
    · rw [List.length_reverse]
      exact (Nat.digits_length_le_iff (by norm_num) n).2 hn
  have hz : zfill k (pyStr n) = (List.range k).map fun (i : Nat) => n / 10 ^ (k - 1 - i) % 10 := by
    apply List.ext_getElem
    · simp [zfill]; omega
    · intro i h1 h2
      simp only [List.length_map, List.length_range] at h2
      rw [List.getElem_map, List.getElem_range]
      have hd := Nat.getD_digits n (k - 1 - i) (b := 10) (by norm_num)
      rw [← hd]
      unfold zfill
      by_cases hn0 : n = 0
      · subst hn0
        simp only [pyStr, if_true, List.length_singleton, Nat.digits_zero, List.getD_nil]
        rw [List.getElem_append]
        split
        · simp
        · simp
      · simp only [pyStr, if_neg hn0] at hlen ⊢
        rw [List.length_reverse] at hlen
        rw [List.getElem_append]
        simp only [List.length_replicate, List.length_reverse]
        split
        · rename_i hi
          rw [List.getElem_replicate]
          simp [List.getD, show ¬ k - 1 - i < (Nat.digits 10 n).length by omega]
        · rename_i hi
          rw [List.getElem_reverse]
          have hj : k - 1 - i < (Nat.digits 10 n).length := by omega
          simp only [List.getD, List.getElem?_eq_getElem hj, Option.getD_some]
          congr 1
          omega
  unfold padded fixedDigits
  rw [hz, List.map_map]
  rfl

/-- The text `h:mm:ss` with `p` decimals and a sign. -/
def clockText (neg : Bool) (h m s p f : Nat) : Str :=
  (if neg then ['-'] else []) ++ natStr h ++ [':'] ++ fixedDigits 2 m ++ [':'] ++ fixedDigits 2 s ++
    (if p = 0 then [] else ['.'] ++ fixedDigits p f)

theorem textOf_clock (neg : Bool) (t p : Nat) (hp : p ≤ 9) : ∃ h m s f, m < 60 ∧ s < 60 ∧ f < 10 ^ p ∧
    textOf neg t p = clockText neg h m s p f ∧ (h * 3600 + m * 60 + s) * 10 ^ p + f = t := by
  have hb := base_eq hp
  have hpos : 0 < 10 ^ p := by positivity
  refine ⟨t / 10 ^ p / 3600, t / 10 ^ p / 60 % 60, t / 10 ^ p % 60, t % 10 ^ p, Nat.mod_lt _ (by norm_num), Nat.mod_lt _ (by norm_num),
    Nat.mod_lt _ hpos, ?_, ?_⟩
  · unfold textOf clockText
    simp only [hb]
    rw [padded_eq (by norm_num) (by have := Nat.mod_lt (t / 10 ^ p / 60) (show 60 > 0 by norm_num); omega),
      padded_eq (by norm_num) (by have := Nat.mod_lt (t / 10 ^ p) (show 60 > 0 by norm_num); omega)]
    by_cases h0 : p = 0
    · simp [h0]
    · rw [padded_eq (by omega) (Nat.mod_lt _ hpos)]
      simp [h0, Nat.pos_of_ne_zero h0]
  · have : t / 10 ^ p / 3600 * 3600 + t / 10 ^ p / 60 % 60 * 60 + t / 10 ^ p % 60 = t / 10 ^ p := by omega
    rw [this]
    exact Nat.div_add_mod' t (10 ^ p)

/-- C74: `formatTime` writes sign, hours, two digits of minutes and seconds below 60 and the requested number of decimals (between 0 and 9); the time written
is the nearest one to the argument, up to the rounding error of the one multiplication.  The 64-bit conversion must be defined. -/
theorem C74_format (fl : ℚ → ℚ) (sec : ℚ) (precision : ℤ)
    (hbig : fl (|sec| * (10 : ℚ) ^ (max 0 (min 9 precision)).toNat) + 1 / 2 < 2 ^ 64)
    (hnn : 0 ≤ fl (|sec| * (10 : ℚ) ^ (max 0 (min 9 precision)).toNat)) :
    ∃ h m s p f, p = (max 0 (min 9 precision)).toNat ∧ m < 60 ∧ s < 60 ∧ f < 10 ^ p ∧
      formatTime fl sec precision = some (clockText (decide (sec < 0)) h m s p f) ∧
      |(((h * 3600 + m * 60 + s : ℕ) : ℚ) + f / 10 ^ p) - fl (|sec| * 10 ^ p) / 10 ^ p| ≤ 1 / 2 / 10 ^ p := by
  set p := (max 0 (min 9 precision)).toNat with hp
  have hp9 : p ≤ 9 := by omega
  have hb : ((base p : ℕ) : ℚ) = 10 ^ p := by rw [base_eq hp9]; push_cast; rfl
  set y := fl (|sec| * (10 : ℚ) ^ p) with hy
  have hr := roundEven_close y
  have hr0 := roundEven_nonneg hnn
  have ht : ((roundEven y).toNat : ℚ) = (roundEven y : ℚ) := by
    have : (((roundEven y).toNat : ℕ) : ℤ) = roundEven y := Int.toNat_of_nonneg hr0
    exact_mod_cast congrArg (fun z : ℤ => (z : ℚ)) this
  have hlt : (roundEven y).toNat < 2 ^ 64 := by
    have : ((roundEven y).toNat : ℚ) < 2 ^ 64 := by
      rw [ht]
      rw [abs_le] at hr
      linarith
    exact_mod_cast this
  obtain ⟨h, m, s, f, hm, hs, hf, htxt, hval⟩ := textOf_clock (decide (sec < 0)) (roundEven y).toNat p hp9
  refine ⟨h, m, s, p, f, rfl, hm, hs, hf, ?_, ?_⟩
  · unfold formatTime ticks
    rw [clampPrec_eq, ← hp, hb, ← hy]
    simp only [if_pos hlt, Option.map_some, htxt]
  · have hpow : (0 : ℚ) < 10 ^ p := by positivity
    have : (((h * 3600 + m * 60 + s : ℕ) : ℚ) + f / 10 ^ p) = (roundEven y : ℚ) / 10 ^ p := by
      rw [← ht, ← hval]
      push_cast
      field_simp
    rw [this, ← sub_div, abs_div, abs_of_pos hpow]
    exact div_le_div_of_nonneg_right hr hpow.le

/-- C74: in exact arithmetic the time written is a nearest multiple of the last decimal. -/
theorem C74_format_exact (sec : ℚ) (precision : ℤ) (hbig : |sec| * (10 : ℚ) ^ (max 0 (min 9 precision)).toNat + 1 / 2 < 2 ^ 64) :
    ∃ h m s p f, p = (max 0 (min 9 precision)).toNat ∧ m < 60 ∧ s < 60 ∧ f < 10 ^ p ∧
      formatTime id sec precision = some (clockText (decide (sec < 0)) h m s p f) ∧
      |(((h * 3600 + m * 60 + s : ℕ) : ℚ) + f / 10 ^ p) - abs sec| ≤ 1 / 2 / 10 ^ p := by
  obtain ⟨h, m, s, p, f, hp, a, b, c, d, e⟩ := C74_format id sec precision hbig (by simp only [id]; positivity)
  refine ⟨h, m, s, p, f, hp, a, b, c, d, ?_⟩
  rwa [id, mul_div_cancel_right₀ _ (by positivity)] at e

/-- 3661.5 seconds with two decimals. -/
example : formatTime id (7323 / 2) 2 = some ['1', ':', '0', '1', ':', '0', '1', '.', '5', '0'] := by decide +kernel

/-- C74: with `double` arithmetic the time written is off by at most one unit of the last decimal, for times of up to 2^52 such units. -/
theorem C74_format_float (fl : ℚ → ℚ) (H : RoundsNearest fl) (sec : ℚ) (precision : ℤ)
    (hbig : |sec| * (10 : ℚ) ^ (max 0 (min 9 precision)).toNat < 2 ^ 53) :
    ∃ h m s p f, p = (max 0 (min 9 precision)).toNat ∧ m < 60 ∧ s < 60 ∧ f < 10 ^ p ∧
      formatTime fl sec precision = some (clockText (decide (sec < 0)) h m s p f) ∧
      |(((h * 3600 + m * 60 + s : ℕ) : ℚ) + f / 10 ^ p) - abs sec| ≤ 1 / 10 ^ p := by
  have herr := H.abs_err (|sec| * (10 : ℚ) ^ (max 0 (min 9 precision)).toNat) 53 (by norm_num) (by
    rw [abs_of_nonneg (by positivity)]; exact hbig)
  norm_num at herr
  rw [abs_le] at herr
  obtain ⟨h, m, s, p, f, hp, a, b, c, d, e⟩ := C74_format fl sec precision (by norm_num; norm_num at hbig; linarith)
    (H.nonneg (by positivity))
  refine ⟨h, m, s, p, f, hp, a, b, c, d, ?_⟩
  rw [← hp] at herr
  have hpow : (0 : ℚ) < 10 ^ p := by positivity
  have h2 : |fl (|sec| * 10 ^ p) / 10 ^ p - abs sec| ≤ 1 / 2 / 10 ^ p := by
    have : fl (|sec| * 10 ^ p) / 10 ^ p - |sec| = (fl (|sec| * 10 ^ p) - |sec| * 10 ^ p) / 10 ^ p := by field_simp
    rw [this, abs_div, abs_of_pos hpow]
    apply div_le_div_of_nonneg_right _ hpow.le
    rw [abs_le]
    constructor <;> linarith
  have := abs_sub_le (((h * 3600 + m * 60 + s : ℕ) : ℚ) + f / 10 ^ p) (fl (|sec| * 10 ^ p) / 10 ^ p) |sec|
  have e3 : (1 : ℚ) / 10 ^ p = 1 / 2 / 10 ^ p + 1 / 2 / 10 ^ p := by ring
  rw [e3]
  linarith

/-- C74: what is written fits the buffers: the text with its final NUL into 128 bytes, the format for the decimals into 10. -/
theorem C74_buffers (fl : ℚ → ℚ) (sec : ℚ) (precision : ℤ) (t : Str) (h : formatTime fl sec precision = some t) :
    t.length + 1 ≤ 128 ∧ (fracFormat (clampPrec precision)).length + 1 ≤ 10 := by
  have hp9 := clampPrec_le precision
  have hnat : ∀ n k : Nat, 1 ≤ k → n < 10 ^ k → (natStr n).length ≤ k := by
    intro n k hk hn
    unfold natStr pyStr
    rw [List.length_map]
    split
    · simpa using hk
    · rw [List.length_reverse]
      exact (Nat.digits_length_le_iff (by norm_num) n).2 hn
  constructor
  · unfold formatTime at h
    obtain ⟨n, hn, rfl⟩ := Option.map_eq_some_iff.1 h
    have hn64 : n < 2 ^ 64 := by
      unfold ticks at hn
      simp only at hn
      split at hn
      · cases hn; assumption
      · cases hn
    obtain ⟨hh, m, s, f, hm, hs, hf, htxt, hval⟩ := textOf_clock (decide (sec < 0)) n (clampPrec precision) hp9
    rw [htxt]
    have hle : hh ≤ n := by
      have : 1 ≤ 10 ^ clampPrec precision := Nat.one_le_iff_ne_zero.2 (by positivity)
      calc hh ≤ hh * 3600 + m * 60 + s := by omega
        _ ≤ (hh * 3600 + m * 60 + s) * 10 ^ clampPrec precision := Nat.le_mul_of_pos_right _ (by omega)
        _ ≤ n := by omega
    have := hnat hh 20 (by norm_num) (by norm_num; omega)
    unfold clockText
    split <;> split <;> simp only [List.length_append, List.length_cons, List.length_nil, fixedDigits, List.length_map, List.length_range] <;> omega
  · have := hnat (clampPrec precision) 1 (by norm_num) (by omega)
    unfold fracFormat
    simp only [List.length_append, List.length_cons, List.length_nil]
    omega

example : formatTime id 5 3 = some ['0', ':', '0', '0', ':', '0', '5', '.', '0', '0', '0'] := by decide +kernel

/-- C74 (finding): all calls write the same buffer, so a text obtained earlier changes with the next call. -/
theorem C74_static_buffer (fl : ℚ → ℚ) (earlier : List (ℚ × ℤ)) (b0 b1 : Str) (sec : ℚ) (precision : ℤ)
    (h : bufferAfter fl earlier b0 = some b1) : bufferAfter fl (earlier ++ [(sec, precision)]) b0 = formatTime fl sec precision := by
  induction earlier generalizing b0 with
  | nil =>
    rw [List.nil_append, bufferAfter]
    cases formatTime fl sec precision <;> rfl
  | cons c cs ih =>
    rw [bufferAfter] at h
    rw [List.cons_append, bufferAfter]
    cases hc : formatTime fl c.1 c.2 with
    | none => rw [hc] at h; cases h
    | some b => rw [hc] at h; exact ih b h

/-- C74 (finding): a negative time that rounds to zero is written with a minus sign. -/
theorem C74_minus_zero (sec : ℚ) (h0 : sec < 0) (h1 : -(1 / 200) < sec) :
    formatTime id sec 2 = some ['-', '0', ':', '0', '0', ':', '0', '0', '.', '0', '0'] := by
  have hb : base 2 = 100 := rfl
  have hf : ⌊|sec| * 100⌋ = 0 := by
    rw [Int.floor_eq_zero_iff, abs_of_neg h0]
    constructor <;> linarith
  have hr : roundEven (|sec| * 100) = 0 := by
    unfold roundEven
    simp only [hf]
    rw [if_pos]
    rw [abs_of_neg h0]; push_cast; linarith
  have hc : clampPrec 2 = 2 := rfl
  unfold formatTime ticks
  simp only [hc, hb, id]
  push_cast
  rw [hr]
  simp only [Int.toNat_zero, h0, decide_true]
  decide +kernel

end EdgeEval.Props
