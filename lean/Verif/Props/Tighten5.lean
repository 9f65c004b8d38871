import Verif.Props.Nms
import Verif.Props.Io
import Verif.Props.Utils

/-!
# Statements added after the second automatic mutation campaign, end
-/

namespace EdgeEval.Props

open EdgeEval EdgeEval.Spec

/-! ## C45 -/

section Ties

open EdgeEval.Nms

/-- C45: an 8-bit result exactly between two bytes is the even one. -/
theorem C45_bytes_ties_to_even (im out q : Img _) (r s : ℤ) (m : ℝ) (h1 : fastNms (.float im) r s m false = .ok (.float out))
    (h2 : fastNms (.float im) r s m true = .ok (.u8 q)) (y x n : Nat) (h0 : out.at_ y x * 255 = n + 1 / 2) (hle : out.at_ y x ≤ 1) :
    q.at_ y x = if n % 2 = 0 then n else n + 1 := by
  have hf : ⌊(n : ℝ) + 1 / 2⌋ = (n : ℤ) := by
    rw [Int.floor_eq_iff]
    constructor <;> push_cast <;> linarith
  have hq : q = quantize out := by
    unfold fastNms toFloat at h1 h2
    simp only at h1 h2
    cases hh : fastNmsFloat im r s m with
    | error e => rw [hh] at h1; simp at h1
    | ok o =>
      rw [hh] at h1 h2
      simp at h1 h2
      rw [← h1, ← h2]
  have hnn : 0 ≤ out.at_ y x := by
    have : (0 : ℝ) ≤ out.at_ y x * 255 := by rw [h0]; positivity
    linarith
  rw [hq]
  simp only [quantize, max_eq_left hnn, min_eq_left hle, h0, npRound, hf]
  rw [if_neg (by push_cast; norm_num), if_neg (by push_cast; norm_num)]
  split <;> split <;> omega

/-- The uniform grey image: every result is 127.5, written as 128. -/
example : ∃ q, fastNms (.float ⟨2, 2, fun _ _ => 1 / 2⟩) 1 0 1 true = .ok (.u8 q) ∧ q.at_ 1 1 = 128 := by
  obtain ⟨out, h1, hv⟩ := C45_constant ⟨2, 2, fun _ _ => 1 / 2⟩ (by simp) (by simp) (1 / 2) (by norm_num)
    (fun _ _ _ _ => ⟨le_refl _, le_refl _⟩) 1 0 1 (by norm_num)
  obtain ⟨out', q, h1', h2, -⟩ := C45_uint8_output ⟨2, 2, fun _ _ => 1 / 2⟩ (by simp) (by simp)
    (fun _ _ _ _ => by constructor <;> norm_num) 1 0 1
  rw [h1] at h1'
  cases h1'
  have hv := hv 1 (by simp) 1 (by simp)
  have hr : ramp (usedMargin 2 2 0) 2 1 = 1 := by simp [ramp, usedMargin]
  rw [hr] at hv
  refine ⟨q, h2, C45_bytes_ties_to_even _ out q 1 0 1 h1 h2 1 1 127 ?_ ?_⟩ <;> rw [hv] <;> norm_num

end Ties

/-! ## C37 -/

section Columns

open EdgeEval.Text EdgeEval.Io

/-- A printed number is at least ten characters wide: its digits, then blanks. -/
theorem C37_field (x : ℚ) : ∃ k, fmt x = fixed6 x ++ List.replicate k ' ' ∧ (fmt x).length = max 10 (fixed6 x).length := by
  refine ⟨_, rfl, ?_⟩
  unfold fmt
  rw [List.length_append, List.length_replicate]
  omega

/-- The digits of a number between 0 and 99.9999 fit in nine characters. -/
theorem fixed6_length {x : ℚ} (h0 : 0 ≤ x) (h1 : x ≤ 99) : (fixed6 x).length ≤ 9 := by
  unfold fixed6
  simp only [if_neg (not_lt.2 h0), abs_of_nonneg h0]
  have hc := roundEven_close (x * 10 ^ 6)
  have hn := roundEven_nonneg (y := x * 10 ^ 6) (by positivity)
  have hle : roundEven (x * 10 ^ 6) < 100 * 10 ^ 6 := by
    have h2 := (abs_le.1 hc).2
    have : (roundEven (x * 10 ^ 6) : ℚ) < 100 * 10 ^ 6 := by
      have : x * 10 ^ 6 ≤ 99 * 10 ^ 6 := by gcongr
      generalize x * 10 ^ 6 = y at *
      norm_num at *
      linarith
    exact_mod_cast this
  generalize roundEven (x * 10 ^ 6) = z at hn hle
  obtain ⟨n, rfl⟩ := Int.eq_ofNat_of_zero_le hn
  have hlt : n < 100 * 10 ^ 6 := by exact_mod_cast hle
  rw [show ((n : ℕ) : ℤ).toNat = n from rfl]
  have a1 : (natStr (n / 10 ^ 6)).length ≤ 2 := by
    unfold natStr
    rw [List.length_map]
    exact pyStr_length_le _ 2 (by norm_num) (by omega)
  have a2 : (zfill 6 (pyStr (n % 10 ^ 6))).length ≤ 6 := by
    rw [zfill_length]
    have := pyStr_length_le (n % 10 ^ 6) 6 (by norm_num) (Nat.mod_lt _ (by norm_num))
    omega
  simp only [List.length_append, List.length_cons, List.length_map, List.length_nil]
  omega

theorem row_length (xs : List ℚ) (h : ∀ x ∈ xs, 0 ≤ x ∧ x ≤ 99) : xs ≠ [] → (row xs).length + 1 = 11 * xs.length := by
  have hf : ∀ x : ℚ, 0 ≤ x ∧ x ≤ 99 → (fmt x).length = 10 := by
    intro x hx
    obtain ⟨_, _, h⟩ := C37_field x
    have := fixed6_length hx.1 hx.2
    omega
  induction xs with
  | nil => intro h; exact absurd rfl h
  | cons x xs ih =>
    intro _
    match xs, ih with
    | [], _ => simp [row, hf x (h x (by simp))]
    | y :: ys, ih =>
      have := ih (fun z hz => h z (List.mem_cons_of_mem _ hz)) (by simp)
      rw [row, List.length_append, List.length_cons, hf x (h x (by simp)), this]
      simp only [List.length_cons]
      omega

/-- The columns of a results file line up: with scores in [0, 99], each line of the threshold file has 43 characters before its newline, and the
overall file has 98 characters. -/
theorem C37_columns (t : ThresholdResult) (o : OverallResult) (ht : ∀ x ∈ thresholdCols t, 0 ≤ x ∧ x ≤ 99)
    (ho : ∀ x ∈ overallCols o, 0 ≤ x ∧ x ≤ 99) : (thresholdLine t).length = 44 ∧ (overallFile o).length = 98 := by
  have h1 := row_length (thresholdCols t) ht (by simp [thresholdCols])
  have h2 := row_length (overallCols o) ho (by simp [overallCols])
  have e1 : (thresholdCols t).length = 4 := rfl
  have e2 : (overallCols o).length = 9 := rfl
  rw [e1] at h1
  rw [e2] at h2
  constructor
  · show (row (thresholdCols t) ++ ['\n']).length = 44
    rw [List.length_append, List.length_singleton]
    omega
  · show (row (overallCols o)).length = 98
    omega

example : (thresholdLine ⟨1 / 4, 1 / 3, 2 / 3, 4 / 9⟩).length = 44 :=
  (C37_columns ⟨1 / 4, 1 / 3, 2 / 3, 4 / 9⟩ ⟨1 / 4, 1 / 3, 2 / 3, 4 / 9, 0, 0, 0, 0, 0⟩ (by simp [thresholdCols]; norm_num)
    (by simp [overallCols]; norm_num)).1

end Columns

/-! ## C35 -/

section Calls

/-- C35: `start` and `is_running` give no reading; every other call gives one or raises. -/
theorem C35_calls_without_number (s : TimerState) (op : TimerOp) :
    (s.step op).1 = .ok none ↔ (∃ a b, op = .start a b) ∨ op = .isRunning := by
  rcases op with ⟨a, b⟩ | a | ⟨a, b⟩ | ⟨a, b⟩ | _ <;>
    cases h : s.running <;> simp [TimerState.step, TimerState.sinceStart, TimerState.sinceLastCheck, h]

example : ((TimerState.init true 1 2).step (.sinceStart 5)).1 = .ok (some 4) := by
  simp [TimerState.init, TimerState.start, TimerState.step, TimerState.sinceStart]; norm_num

end Calls

end EdgeEval.Props
