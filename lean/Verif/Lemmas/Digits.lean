import Verif.Model.Codec
import Verif.Model.Mask2Edge
import Mathlib.Data.Nat.Digits.Lemmas

/-!
# Decimal strings
-/

namespace EdgeEval

theorem digitsVal_foldl (s : List Nat) (a : Nat) :
    s.foldl (fun a d => 10 * a + d) a = a * 10 ^ s.length + digitsVal s := by
  unfold digitsVal
  induction s generalizing a with
  | nil => simp
  | cons d s ih =>
    simp only [List.foldl_cons, List.length_cons]
    rw [ih, ih (10 * 0 + d)]
    ring

theorem digitsVal_append (a b : List Nat) : digitsVal (a ++ b) = digitsVal a * 10 ^ b.length + digitsVal b := by
  conv_lhs => rw [digitsVal, List.foldl_append]
  rw [digitsVal_foldl]; rfl

theorem digitsVal_replicate (k : Nat) : digitsVal (List.replicate k 0) = 0 := by
  induction k with
  | zero => rfl
  | succ k ih => rw [List.replicate_succ', digitsVal_append, ih]; rfl

theorem digitsVal_zfill (k : Nat) (s : List Nat) : digitsVal (zfill k s) = digitsVal s := by
  rw [zfill, digitsVal_append, digitsVal_replicate]; simp

theorem digitsVal_reverse (s : List Nat) : digitsVal s.reverse = Nat.ofDigits 10 s := by
  induction s with
  | nil => rfl
  | cons d s ih =>
    rw [List.reverse_cons, digitsVal_append, ih, Nat.ofDigits_cons]
    simp [digitsVal]; ring

theorem digitsVal_pyStr (n : Nat) : digitsVal (pyStr n) = n := by
  unfold pyStr
  split
  · subst_vars; rfl
  · rw [digitsVal_reverse, Nat.ofDigits_digits]

theorem pyStr_ne_nil (n : Nat) : pyStr n ≠ [] := by
  unfold pyStr
  split
  · simp
  · simp only [ne_eq, List.reverse_eq_nil_iff]
    exact Nat.digits_ne_nil_iff_ne_zero.mpr ‹_›

theorem pyStr_lt_ten (n d : Nat) (h : d ∈ pyStr n) : d < 10 := by
  unfold pyStr at h
  split at h
  · simp only [List.mem_singleton] at h; omega
  · exact Nat.digits_lt_base (b := 10) (by norm_num) (List.mem_reverse.mp h)

theorem pyStr_length_le (n k : Nat) (hk : 0 < k) (h : n < 10 ^ k) : (pyStr n).length ≤ k := by
  unfold pyStr
  split
  · simp only [List.length_singleton]; omega
  · rw [List.length_reverse]
    exact (Nat.digits_length_le_iff (by norm_num) n).mpr h

theorem pyStr_length_ge (n k : Nat) (h : 10 ^ k ≤ n) : k < (pyStr n).length := by
  unfold pyStr
  have : 0 < 10 ^ k := by positivity
  split
  · omega
  · rw [List.length_reverse]
    exact Nat.lt_digits_length_iff (by norm_num) n |>.mpr h

theorem zfill_length (k : Nat) (s : List Nat) : (zfill k s).length = max k s.length := by
  simp [zfill]; omega

theorem zfill_lt_ten (k : Nat) (s : List Nat) (hs : ∀ d ∈ s, d < 10) : ∀ d ∈ zfill k s, d < 10 := by
  intro d hd
  rcases List.mem_append.mp hd with h | h
  · rw [(List.mem_replicate.mp h).2]; norm_num
  · exact hs d h

theorem digitsVal_lt (s : List Nat) (h : ∀ d ∈ s, d < 10) : digitsVal s < 10 ^ s.length := by
  induction s using List.reverseRecOn with
  | nil => simp [digitsVal]
  | append_singleton s d ih =>
    rw [digitsVal_append, List.length_append]
    have h1 := ih (fun x hx => h x (List.mem_append_left _ hx))
    have h2 := h d (by simp)
    simp only [List.length_singleton, pow_add, pow_one]
    have : digitsVal [d] = d := by simp [digitsVal]
    omega

/-- Splitting a string of length `a + b` into its first `a` and last `b` digits. -/
theorem digitsVal_split (s : List Nat) (a b : Nat) (hl : s.length = a + b) (h : ∀ d ∈ s, d < 10) :
    digitsVal (s.take a) = digitsVal s / 10 ^ b ∧ digitsVal (s.drop a) = digitsVal s % 10 ^ b := by
  have hd : (s.drop a).length = b := by rw [List.length_drop]; omega
  have h1 := digitsVal_append (s.take a) (s.drop a)
  rw [List.take_append_drop, hd] at h1
  have h2 := digitsVal_lt (s.drop a) (fun d hd => h d (List.mem_of_mem_drop hd))
  rw [hd] at h2
  have hp : 0 < 10 ^ b := by positivity
  constructor
  · rw [h1, Nat.add_div_of_dvd_right (Dvd.intro_left _ rfl), Nat.mul_div_cancel _ hp, Nat.div_eq_of_lt h2]; rfl
  · rw [h1, Nat.mul_add_mod_of_lt' h2]
where
  Nat.mul_add_mod_of_lt' {x m r : Nat} (h : r < m) : (x * m + r) % m = r := by
    rw [Nat.add_comm, Nat.add_mul_mod_self_right, Nat.mod_eq_of_lt h]

/-- The loop implementation reads the label and instance number of every id below 100000 as quotient and
remainder by 1000. -/
theorem parseLoop_eq (v : Nat) (hv : v < 100000) : parseLoop v = .ok (v / 1000, v % 1000) := by
  have hl : (zfill 5 (pyStr v)).length = 2 + 3 := by
    rw [zfill_length]
    have := pyStr_length_le v 5 (by norm_num) (by norm_num; omega)
    omega
  obtain ⟨h1, h2⟩ := digitsVal_split _ 2 3 hl (zfill_lt_ten 5 _ (pyStr_lt_ten v))
  rw [digitsVal_zfill, digitsVal_pyStr] at h1 h2
  have n1 : (zfill 5 (pyStr v)).take 2 ≠ [] := by
    intro h; have := congrArg List.length h; rw [List.length_take, hl] at this; simp at this
  have n2 : (zfill 5 (pyStr v)).drop 2 ≠ [] := by
    intro h; have := congrArg List.length h; rw [List.length_drop, hl] at this; simp at this
  simp only [parseLoop, pyInt, n1, n2, if_false, h1, h2]
  rfl

/-- The multiprocess and on-the-fly implementations do so for five-digit ids. -/
theorem parseMp_eq (v : Nat) (hv : v < 100000) (hv' : 10000 ≤ v) : parseMp v = .ok (v / 1000, v % 1000) := by
  have h5 := pyStr_length_le v 5 (by norm_num) (by norm_num; omega)
  have h4 := pyStr_length_ge v 4 (by norm_num; omega)
  have hz : zfill 5 (pyStr v) = pyStr v := by
    have : 5 - (pyStr v).length = 0 := by omega
    simp [zfill, this]
  have := parseLoop_eq v hv
  unfold parseLoop at this
  rw [hz] at this
  exact this

theorem zfill3_length (k : Nat) (hk : k < 1000) : (zfill 3 (pyStr k)).length = 3 := by
  rw [zfill_length]
  have := pyStr_length_le k 3 (by norm_num) (by norm_num; omega)
  omega

theorem iidOf_eq (l k : Nat) (hk : k < 1000) : iidOf l k = l * 1000 + k := by
  rw [iidOf, digitsVal_append, zfill3_length k hk, digitsVal_zfill, digitsVal_pyStr, digitsVal_pyStr]; rfl

theorem instId_eq (c k : Nat) (hk : k < 1000) : instId c k = c * 1000 + k := by
  rw [instId, digitsVal_append, zfill3_length k hk, digitsVal_zfill, digitsVal_zfill, digitsVal_pyStr, digitsVal_pyStr]
  rfl

end EdgeEval
