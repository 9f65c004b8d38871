import Mathlib.Algebra.Order.Group.Abs
import Mathlib.Tactic.IntervalCases
import Verif.Model.Text
import Verif.Lemmas.Digits

namespace EdgeEval.Text

/-- No white space in the string. -/
def NoSpace (s : Str) : Prop := ∀ c ∈ s, isSpace c = false

theorem digitCh_spec {d : Nat} (h : d < 10) :
    charDigit (digitCh d) = some d ∧ isSpace (digitCh d) = false ∧ digitCh d ≠ ',' ∧ digitCh d ≠ '-' ∧
      digitCh d ≠ '+' ∧ digitCh d ≠ '.' ∧ digitCh d ≠ 'e' ∧ digitCh d ≠ 'E' ∧ digitCh d ≠ '[' ∧
      digitCh d ≠ ']' ∧ digitCh d ≠ '\n' := by
  interval_cases d <;> decide

theorem digitsU_map (prev : Bool) (l : List Nat) (h : ∀ d ∈ l, d < 10) (hne : l ≠ [] ∨ prev = true) :
    digitsU prev (l.map digitCh) = some l := by
  induction l generalizing prev with
  | nil =>
    rcases hne with h1 | h1
    · exact absurd rfl h1
    · simp [digitsU, h1]
  | cons d l ih =>
    rw [List.map_cons, digitsU, (digitCh_spec (h d (by simp))).1]
    simp only
    rw [ih true (fun x hx => h x (List.mem_cons_of_mem _ hx)) (.inr rfl)]
    rfl

theorem natStr_mem {n : Nat} {c : Char} (h : c ∈ natStr n) : ∃ d < 10, c = digitCh d := by
  unfold natStr at h
  obtain ⟨d, hd, rfl⟩ := List.mem_map.1 h
  exact ⟨d, pyStr_lt_ten n d hd, rfl⟩

theorem natStr_noSpace (n : Nat) : NoSpace (natStr n) := by
  intro c hc
  obtain ⟨d, hd, rfl⟩ := natStr_mem hc
  exact (digitCh_spec hd).2.1

theorem natStr_ne_nil (n : Nat) : natStr n ≠ [] := by
  unfold natStr
  simp [pyStr_ne_nil]

theorem natLit_natStr (n : Nat) : natLit (natStr n) = .ok n := by
  unfold natLit natStr
  rw [digitsU_map false _ (fun d hd => pyStr_lt_ten n d hd) (.inl (pyStr_ne_nil n))]
  simp only [digitsVal_pyStr]

theorem dropWhile_noSpace {s : Str} (h : NoSpace s) : s.dropWhile isSpace = s := by
  cases s with
  | nil => rfl
  | cons c s => rw [List.dropWhile_cons_of_neg]; simpa using h c (by simp)

theorem strip_noSpace {s : Str} (h : NoSpace s) : strip s = s := by
  unfold strip
  rw [dropWhile_noSpace h, dropWhile_noSpace (fun c hc => h c (List.mem_reverse.1 hc)), List.reverse_reverse]

theorem dropWhile_pad {pad s : Str} (hp : ∀ c ∈ pad, isSpace c = true) :
    (pad ++ s).dropWhile isSpace = s.dropWhile isSpace := by
  induction pad with
  | nil => rfl
  | cons c pad ih =>
    rw [List.cons_append, List.dropWhile_cons_of_pos (hp c (by simp))]
    exact ih fun d hd => hp d (List.mem_cons_of_mem _ hd)

/-- Leading and trailing white space is removed by `strip`. -/
theorem strip_pad {a s b : Str} (ha : ∀ c ∈ a, isSpace c = true) (hb : ∀ c ∈ b, isSpace c = true)
    (hs : s ≠ []) (hf : isSpace (s.head hs) = false) (hl : isSpace (s.getLast hs) = false) :
    strip (a ++ s ++ b) = s := by
  unfold strip
  rw [List.append_assoc, dropWhile_pad ha]
  have h1 : (s ++ b).dropWhile isSpace = s ++ b := by
    cases s with
    | nil => exact absurd rfl hs
    | cons c s =>
      rw [List.cons_append, List.dropWhile_cons_of_neg]
      simpa using hf
  rw [h1, List.reverse_append, dropWhile_pad (fun c hc => hb c (List.mem_reverse.1 hc))]
  have h2 : s.reverse.dropWhile isSpace = s.reverse := by
    cases hr : s.reverse with
    | nil => rfl
    | cons c t =>
      rw [List.dropWhile_cons_of_neg]
      have : s.getLast hs = c := by
        have e : s = t.reverse ++ [c] := by
          have := congrArg List.reverse hr
          simpa using this
        subst e
        simp
      simpa [this] using hl
  rw [h2, List.reverse_reverse]

theorem strip_pad' {a s b : Str} (ha : ∀ c ∈ a, isSpace c = true) (hb : ∀ c ∈ b, isSpace c = true)
    (hs : NoSpace s) (hne : s ≠ []) : strip (a ++ s ++ b) = s :=
  strip_pad ha hb hne (hs _ (List.head_mem hne)) (hs _ (List.getLast_mem hne))

theorem intStr_noSpace (z : Int) : NoSpace (intStr z) := by
  unfold intStr
  split
  · intro c hc
    rcases List.mem_cons.1 hc with rfl | h
    · decide
    · exact natStr_noSpace _ c h
  · exact natStr_noSpace _

theorem intStr_ne_nil (z : Int) : intStr z ≠ [] := by
  unfold intStr
  split
  · simp
  · exact natStr_ne_nil _

theorem natStr_cons (n : Nat) : ∃ d t, d < 10 ∧ natStr n = digitCh d :: t := by
  cases h : natStr n with
  | nil => exact absurd h (natStr_ne_nil n)
  | cons c t =>
    obtain ⟨d, hd, rfl⟩ := natStr_mem (n := n) (c := c) (by rw [h]; simp)
    exact ⟨d, t, hd, rfl⟩

/-- `int` of a padded printed int. -/
theorem intLit_strip {s : Str} {z : Int} (h : strip s = intStr z) : intLit s = .ok z := by
  unfold intLit
  rw [h]
  unfold intStr
  by_cases hz : z < 0
  · rw [if_pos hz]
    simp only [natLit_natStr, Except.map]
    have : -((z.natAbs : ℕ) : ℤ) = z := by omega
    rw [this]
  · rw [if_neg hz]
    obtain ⟨d, t, hd, e⟩ := natStr_cons z.natAbs
    have hn := natLit_natStr z.natAbs
    rw [e] at hn ⊢
    obtain ⟨-, -, -, h1, h2, -⟩ := digitCh_spec hd
    split
    · rename_i r heq; injection heq with h3 _; exact absurd h3 h1
    · rename_i r heq; injection heq with h3 _; exact absurd h3 h2
    · rw [hn]; simp only [Except.map]
      have : ((z.natAbs : ℕ) : ℤ) = z := by omega
      rw [this]

theorem intLit_intStr (z : Int) : intLit (intStr z) = .ok z :=
  intLit_strip (strip_noSpace (intStr_noSpace z))

theorem intLit_pad {a b : Str} (ha : ∀ c ∈ a, isSpace c = true) (hb : ∀ c ∈ b, isSpace c = true) (z : Int) :
    intLit (a ++ intStr z ++ b) = .ok z :=
  intLit_strip (strip_pad' ha hb (intStr_noSpace z) (intStr_ne_nil z))

theorem intStr_no_char (z : Int) {c : Char} (hc : ∀ d < 10, digitCh d ≠ c) (hm : c ≠ '-') : c ∉ intStr z := by
  unfold intStr
  have : c ∉ natStr z.natAbs := by
    intro h
    obtain ⟨d, hd, e⟩ := natStr_mem h
    exact hc d hd e.symm
  split
  · simp [hm, this]
  · exact this

/-- A string starting with a bracket is not an int. -/
theorem intLit_bracket {s : Str} {t : Str} (h : strip s = '[' :: t) : intLit s = .error .valueError := by
  unfold intLit
  rw [h]
  simp [natLit, digitsU, charDigit, Except.map]

/-! ### splitting -/

theorem splitOnChar_ne_nil (sep : Char) (s : Str) : splitOnChar sep s ≠ [] := by
  induction s with
  | nil => simp [splitOnChar]
  | cons c s ih =>
    unfold splitOnChar
    split
    · simp
    · cases h : splitOnChar sep s with
      | nil => exact absurd h ih
      | cons w ws => simp

theorem splitOnChar_word {sep : Char} {s : Str} (h : sep ∉ s) : splitOnChar sep s = [s] := by
  induction s with
  | nil => rfl
  | cons c s ih =>
    rw [List.mem_cons, not_or] at h
    unfold splitOnChar
    rw [if_neg (fun e => h.1 e.symm), ih h.2]

theorem splitOnChar_append {sep : Char} {s rest : Str} (h : sep ∉ s) :
    splitOnChar sep (s ++ sep :: rest) = s :: splitOnChar sep rest := by
  induction s with
  | nil => simp [splitOnChar]
  | cons c s ih =>
    rw [List.mem_cons, not_or] at h
    rw [List.cons_append]
    conv => lhs; unfold splitOnChar
    rw [if_neg (fun e => h.1 e.symm), ih h.2]

/-- Splitting a comma-and-space separated list at the commas. -/
theorem splitOnChar_join (x : Str) (l : List Str) (hx : ',' ∉ x) (hl : ∀ s ∈ l, ',' ∉ s) :
    splitOnChar ',' (join [',', ' '] (x :: l)) = x :: l.map (' ' :: ·) := by
  have key : ∀ (l : List Str) (x : Str), ',' ∉ x → (∀ s ∈ l, ',' ∉ s) →
      splitOnChar ',' (join [',', ' '] (x :: l)) = x :: l.map (' ' :: ·) := by
    intro l
    induction l with
    | nil => intro x hx _; simp [join, splitOnChar_word hx]
    | cons y l ih =>
      intro x hx hl
      have hsp : ∀ (w : Str) (ws : List Str), splitOnChar ',' (' ' :: join [',', ' '] (y :: l)) = ws →
          ws = (' ' :: y) :: l.map (' ' :: ·) := by
        intro _ ws hws
        rw [← hws]
        conv => lhs; unfold splitOnChar
        rw [if_neg (by decide), ih y (hl y (by simp)) (fun s hs => hl s (List.mem_cons_of_mem _ hs))]
      have e : join [',', ' '] (x :: y :: l) = x ++ ',' :: (' ' :: join [',', ' '] (y :: l)) := by
        simp [join]
      rw [e, splitOnChar_append hx, hsp [] _ rfl, List.map_cons]
  exact key l x hx hl

theorem mapM'_ok {α β : Type} (f : α → Except PyErr β) (g : α → β) (l : List α)
    (h : ∀ x ∈ l, f x = .ok (g x)) : mapM' f l = .ok (l.map g) := by
  induction l with
  | nil => rfl
  | cons x l ih =>
    unfold mapM'
    rw [h x (by simp), ih fun y hy => h y (List.mem_cons_of_mem _ hy)]
    rfl

theorem mapM'_length {α β : Type} (f : α → Except PyErr β) (l : List α) (ys : List β)
    (h : mapM' f l = .ok ys) : ys.length = l.length := by
  induction l generalizing ys with
  | nil => cases h; rfl
  | cons x l ih =>
    unfold mapM' at h
    split at h
    · cases h
    · split at h
      · cases h
      · rename_i ys' hy
        cases h
        simp [ih ys' hy]

/-! ### words -/

theorem words_nil : words [] = [] := by unfold words; rfl

theorem words_space {c : Char} (hc : isSpace c = true) (s : Str) : words (c :: s) = words s := by
  conv => lhs; unfold words
  simp [hc]

theorem words_pad {pad : Str} (hp : ∀ c ∈ pad, isSpace c = true) (s : Str) : words (pad ++ s) = words s := by
  induction pad with
  | nil => rfl
  | cons c pad ih =>
    rw [List.cons_append, words_space (hp c (by simp))]
    exact ih fun d hd => hp d (List.mem_cons_of_mem _ hd)

theorem takeWhile_word {s rest : Str} (hs : NoSpace s) (hr : ∀ c t, rest = c :: t → isSpace c = true) :
    (s ++ rest).takeWhile (fun d => !isSpace d) = s ∧ (s ++ rest).dropWhile (fun d => !isSpace d) = rest := by
  induction s with
  | nil =>
    cases rest with
    | nil => simp
    | cons c t => simp [hr c t rfl]
  | cons c s ih =>
    obtain ⟨h1, h2⟩ := ih fun d hd => hs d (List.mem_cons_of_mem _ hd)
    have hc := hs c (by simp)
    rw [List.cons_append]
    constructor
    · rw [List.takeWhile_cons_of_pos (by simp [hc]), h1]
    · rw [List.dropWhile_cons_of_pos (by simp [hc]), h2]

theorem words_word {s : Str} (hs : NoSpace s) (hne : s ≠ []) (rest : Str)
    (hr : ∀ c t, rest = c :: t → isSpace c = true) : words (s ++ rest) = s :: words rest := by
  cases s with
  | nil => exact absurd rfl hne
  | cons c s =>
    obtain ⟨h1, h2⟩ := takeWhile_word (s := s) (rest := rest)
      (fun d hd => hs d (List.mem_cons_of_mem _ hd)) hr
    rw [List.cons_append]
    conv => lhs; unfold words
    simp [hs c (by simp), h1, h2]

/-! ### fixed-point format -/

theorem fixed6_noSpace (x : ℚ) : NoSpace (fixed6 x) := by
  intro c hc
  unfold fixed6 at hc
  simp only [List.mem_append, List.mem_cons] at hc
  rcases hc with (h | h) | h | h
  · split at h
    · simp at h; subst h; decide
    · simp at h
  · exact natStr_noSpace _ c h
  · subst h; decide
  · obtain ⟨d, hd, rfl⟩ := List.mem_map.1 h
    exact (digitCh_spec (zfill_lt_ten 6 _ (fun e he => pyStr_lt_ten _ e he) d hd)).2.1

theorem fixed6_ne_nil (x : ℚ) : fixed6 x ≠ [] := by
  unfold fixed6
  simp

theorem roundEven_close (y : ℚ) : |(roundEven y : ℚ) - y| ≤ 1 / 2 := by
  have h1 := Int.floor_le y
  have h2 := Int.lt_floor_add_one y
  unfold roundEven
  simp only
  split
  · rw [abs_le]; constructor <;> linarith
  · split
    · push_cast; rw [abs_le]; constructor <;> linarith
    · split
      · rw [abs_le]; constructor <;> linarith
      · push_cast; rw [abs_le]; constructor <;> linarith

theorem roundEven_nonneg {y : ℚ} (hy : 0 ≤ y) : 0 ≤ roundEven y := by
  have := Int.floor_nonneg.2 hy
  unfold roundEven
  simp only
  split_ifs <;> omega

/-- The value printed by the six-decimals format. -/
def round6 (x : ℚ) : ℚ := (if x < 0 then -1 else 1) * ((roundEven (|x| * 10 ^ 6)).toNat : ℚ) / 10 ^ 6

theorem round6_close (x : ℚ) : |round6 x - x| ≤ 1 / 2 / 10 ^ 6 := by
  have hn := roundEven_nonneg (y := |x| * 10 ^ 6) (by positivity)
  have hc := roundEven_close (|x| * 10 ^ 6)
  have hz : (((roundEven (|x| * 10 ^ 6)).toNat : ℕ) : ℚ) = (roundEven (|x| * 10 ^ 6) : ℚ) := by
    have : (((roundEven (|x| * 10 ^ 6)).toNat : ℕ) : ℤ) = roundEven (|x| * 10 ^ 6) := Int.toNat_of_nonneg hn
    exact_mod_cast this
  unfold round6
  rw [hz]
  generalize (roundEven (|x| * 10 ^ 6) : ℚ) = r at *
  rw [abs_le] at hc ⊢
  by_cases hx : x < 0
  · rw [if_pos hx]
    rw [abs_of_neg hx] at hc
    constructor <;> linarith [hc.1, hc.2]
  · rw [if_neg hx]
    rw [abs_of_nonneg (by linarith)] at hc
    constructor <;> linarith [hc.1, hc.2]

theorem splitFirst_none {p : Char → Bool} {s : Str} (h : ∀ c ∈ s, p c = false) : splitFirst p s = (s, none) := by
  unfold splitFirst
  have : s.dropWhile (fun c => !p c) = [] := by
    induction s with
    | nil => rfl
    | cons c s ih =>
      rw [List.dropWhile_cons_of_pos (by simp [h c (by simp)])]
      exact ih fun d hd => h d (List.mem_cons_of_mem _ hd)
  rw [this]

theorem splitFirst_some {p : Char → Bool} {a b : Str} {c : Char} (ha : ∀ x ∈ a, p x = false) (hc : p c = true) :
    splitFirst p (a ++ c :: b) = (a, some b) := by
  have h1 : (a ++ c :: b).dropWhile (fun c => !p c) = c :: b := by
    induction a with
    | nil => rw [List.nil_append, List.dropWhile_cons_of_neg]; simp [hc]
    | cons x a ih =>
      rw [List.cons_append, List.dropWhile_cons_of_pos (by simp [ha x (by simp)])]
      exact ih fun y hy => ha y (List.mem_cons_of_mem _ hy)
  have h2 : (a ++ c :: b).takeWhile (fun c => !p c) = a := by
    clear h1
    induction a with
    | nil => rw [List.nil_append, List.takeWhile_cons_of_neg]; simp [hc]
    | cons x a ih =>
      rw [List.cons_append, List.takeWhile_cons_of_pos (by simp [ha x (by simp)])]
      rw [ih fun y hy => ha y (List.mem_cons_of_mem _ hy)]
  unfold splitFirst
  rw [h1, h2]

theorem ufloat_fixed (n : Nat) :
    ufloat (natStr (n / 10 ^ 6) ++ '.' :: (zfill 6 (pyStr (n % 10 ^ 6))).map digitCh)
      = some ((n : ℚ) / 10 ^ 6) := by
  set fr := zfill 6 (pyStr (n % 10 ^ 6)) with hfr
  have hfr10 : ∀ d ∈ fr, d < 10 := zfill_lt_ten 6 _ (fun e he => pyStr_lt_ten _ e he)
  have hlen : fr.length = 6 := by
    rw [hfr, zfill_length]
    have := pyStr_length_le (n % 10 ^ 6) 6 (by norm_num) (Nat.mod_lt _ (by norm_num))
    omega
  have hdig : ∀ c ∈ natStr (n / 10 ^ 6), ∃ d < 10, c = digitCh d := fun c hc => natStr_mem hc
  have hall : ∀ c ∈ natStr (n / 10 ^ 6) ++ '.' :: fr.map digitCh,
      (decide (c = 'e') || decide (c = 'E')) = false := by
    intro c hc
    rcases List.mem_append.1 hc with h | h
    · obtain ⟨d, hd, rfl⟩ := hdig c h
      have := digitCh_spec hd
      simp [this]
    · rcases List.mem_cons.1 h with rfl | h
      · decide
      · obtain ⟨d, hd, rfl⟩ := List.mem_map.1 h
        have := digitCh_spec (hfr10 d hd)
        simp [this]
  unfold ufloat
  rw [splitFirst_none hall]
  simp only
  unfold mantissa
  rw [splitFirst_some (p := fun c => decide (c = '.')) (a := natStr (n / 10 ^ 6)) (b := fr.map digitCh)
    (by
      intro c hc
      obtain ⟨d, hd, rfl⟩ := hdig c hc
      simp [(digitCh_spec hd).2.2.2.2.2.1]) (by decide)]
  simp only
  have ha : optDigits (natStr (n / 10 ^ 6)) = some (pyStr (n / 10 ^ 6)) := by
    unfold optDigits
    rw [if_neg (natStr_ne_nil _)]
    exact digitsU_map false _ (fun d hd => pyStr_lt_ten _ d hd) (.inl (pyStr_ne_nil _))
  have hfne : fr ≠ [] := by
    intro h; rw [h] at hlen; simp at hlen
  have hb : optDigits (fr.map digitCh) = some fr := by
    unfold optDigits
    rw [if_neg (by simpa using hfne)]
    exact digitsU_map false _ hfr10 (.inl hfne)
  rw [ha, hb]
  simp only
  rw [if_neg (by simp [pyStr_ne_nil])]
  congr 2
  · rw [digitsVal_append, hlen, digitsVal_pyStr, hfr, digitsVal_zfill, digitsVal_pyStr]
    have := Nat.div_add_mod n (10 ^ 6)
    norm_cast
    rw [mul_comm]; exact this
  · rw [hlen]

/-- Reading back what the six-decimals format printed. -/
theorem floatLit_fixed6 {s : Str} (x : ℚ) (h : strip s = fixed6 x) : floatLit s = .ok (round6 x) := by
  unfold floatLit
  rw [h]
  unfold fixed6
  simp only
  have hu := ufloat_fixed (roundEven (|x| * 10 ^ 6)).toNat
  by_cases hx : x < 0
  · rw [if_pos hx]
    simp only [List.cons_append, List.nil_append]
    rw [hu]
    simp only [Option.map_some]
    congr 1
    unfold round6
    rw [if_pos hx]; ring
  · rw [if_neg hx]
    simp only [List.nil_append]
    generalize hn : (roundEven (|x| * 10 ^ 6)).toNat = n at *
    obtain ⟨d, t, hd, e⟩ := natStr_cons (n / 10 ^ 6)
    obtain ⟨-, -, -, h1, h2, -⟩ := digitCh_spec hd
    rw [e] at hu ⊢
    rw [List.cons_append] at hu ⊢
    split
    · rename_i x' hv
      split at hv
      · rename_i r heq; injection heq with h3 _; exact absurd h3 h1
      · rename_i r heq; injection heq with h3 _; exact absurd h3 h2
      · rw [hu] at hv
        injection hv with hv
        rw [← hv]
        unfold round6
        rw [if_neg hx, hn]
        congr 1; ring
    · rename_i hv
      split at hv
      · rename_i r heq; injection heq with h3 _; exact absurd h3 h1
      · rename_i r heq; injection heq with h3 _; exact absurd h3 h2
      · rw [hu] at hv; cases hv

end EdgeEval.Text
