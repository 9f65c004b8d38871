import Verif.Model.Io
import Verif.Lemmas.Text
import Verif.Spec.Files

namespace EdgeEval.Io

open Text Spec

theorem isSpace_blank : isSpace ' ' = true := by decide

theorem fmt_eq (x : ℚ) : ∃ k, fmt x = fixed6 x ++ List.replicate k ' ' := ⟨_, rfl⟩

theorem words_spaces {s : Str} (h : ∀ c ∈ s, isSpace c = true) : words s = [] := by
  have := words_pad h []
  rw [List.append_nil] at this
  rw [this, words_nil]

theorem words_fmt (x : ℚ) (rest : Str) (hr : ∀ c t, rest = c :: t → isSpace c = true) :
    words (fmt x ++ rest) = fixed6 x :: words rest := by
  obtain ⟨k, hk⟩ := fmt_eq x
  rw [hk, List.append_assoc, words_word (fixed6_noSpace x) (fixed6_ne_nil x)]
  · rw [words_pad]
    intro c hc
    rw [List.eq_of_mem_replicate hc]; decide
  · intro c t h
    cases k with
    | zero => exact hr c t (by simpa using h)
    | succ k =>
      rw [List.replicate_succ, List.cons_append] at h
      injection h with h1 _
      subst h1; decide

theorem words_row (xs : List ℚ) (rest : Str) (hr : ∀ c ∈ rest, isSpace c = true) :
    words (row xs ++ rest) = xs.map fixed6 := by
  induction xs with
  | nil => simp [row, words_spaces hr]
  | cons x xs ih =>
    cases xs with
    | nil =>
      rw [row, words_fmt x rest (fun c t h => hr c (by rw [h]; simp)), words_spaces hr]; rfl
    | cons y ys =>
      rw [row, List.append_assoc, List.cons_append,
        words_fmt x _ (fun c t h => by injection h with h1 _; subst h1; decide),
        words_space isSpace_blank, ih]
      rfl

theorem fmt_no_nl (x : ℚ) : '\n' ∉ fmt x := by
  obtain ⟨k, hk⟩ := fmt_eq x
  rw [hk]
  intro h
  rcases List.mem_append.1 h with h | h
  · have := fixed6_noSpace x _ h
    exact absurd this (by decide)
  · have := List.eq_of_mem_replicate h
    exact absurd this (by decide)

theorem row_no_nl (xs : List ℚ) : '\n' ∉ row xs := by
  induction xs with
  | nil => simp [row]
  | cons x xs ih =>
    cases xs with
    | nil => exact fmt_no_nl x
    | cons y ys =>
      rw [row]
      intro h
      rcases List.mem_append.1 h with h | h
      · exact fmt_no_nl x h
      · rcases List.mem_cons.1 h with h | h
        · exact absurd h (by decide)
        · exact ih h

theorem split_lines {α : Type} (body : α → Str) (l : List α) (h : ∀ a ∈ l, '\n' ∉ body a) :
    splitOnChar '\n' ((l.map fun a => body a ++ ['\n']).flatten) = l.map body ++ [[]] := by
  induction l with
  | nil => rfl
  | cons a l ih =>
    rw [List.map_cons, List.flatten_cons, List.append_assoc, List.singleton_append,
      splitOnChar_append (h a (by simp)), ih fun b hb => h b (List.mem_cons_of_mem _ hb)]
    rfl

theorem close_round6 (x : ℚ) : Close6 x (round6 x) := by
  have := round6_close x
  unfold Close6
  have e : (1 : ℚ) / 2 / 10 ^ 6 = 5 / 10 ^ 7 := by norm_num
  rw [← e]; exact this

theorem reproduces_round6 (xs : List ℚ) : Reproduces xs (xs.map round6) := by
  induction xs with
  | nil => exact .nil
  | cons x xs ih => exact .cons (close_round6 x) ih

theorem floatLit_fixed (x : ℚ) : floatLit (fixed6 x) = .ok (round6 x) :=
  floatLit_fixed6 x (strip_noSpace (fixed6_noSpace x))

theorem mapM'_fixed (xs : List ℚ) : mapM' floatLit (xs.map fixed6) = .ok (xs.map round6) := by
  induction xs with
  | nil => rfl
  | cons x xs ih =>
    rw [List.map_cons, mapM', floatLit_fixed, ih]; rfl

theorem row_singleton_words (xs : List ℚ) : words (row xs) = xs.map fixed6 := by
  have := words_row xs [] (by simp)
  simpa using this

/-- The table of a file made of rows. -/
theorem mapM'_rows (ls : List (List ℚ)) :
    mapM' (mapM' floatLit) (ls.map fun xs => xs.map fixed6) = .ok (ls.map fun xs => xs.map round6) := by
  induction ls with
  | nil => rfl
  | cons xs ls ih => rw [List.map_cons, mapM', mapM'_fixed, ih]; rfl

theorem threshold_rows (l : List ThresholdResult) :
    ((splitOnChar '\n' (thresholdFile l)).map words).filter (· ≠ [])
      = (l.map thresholdCols).map fun xs => xs.map fixed6 := by
  unfold thresholdFile thresholdLine
  rw [split_lines (fun t : ThresholdResult => row [t.threshold, t.recall, t.precision, t.f1]) l
    (fun t _ => row_no_nl _)]
  rw [List.map_append, List.filter_append]
  have h1 : ([[]] : List Str).map words = [[]] := by simp [words_nil]
  rw [h1]
  have h2 : ([[]] : List (List Str)).filter (· ≠ []) = [] := by simp
  rw [h2, List.append_nil, List.map_map, List.map_map, List.filter_eq_self.2]
  · apply List.map_congr_left
    intro t _
    simp only [Function.comp_apply, row_singleton_words]
    rfl
  · intro w hw
    obtain ⟨t, _, rfl⟩ := List.mem_map.1 hw
    simp only [Function.comp_apply, row_singleton_words]
    simp

theorem loadtxt_threshold (l : List ThresholdResult) (hl : 2 ≤ l.length) :
    loadtxt (thresholdFile l) = .ok (.mat (l.map fun t => (thresholdCols t).map round6)) := by
  unfold loadtxt
  rw [threshold_rows, mapM'_rows]
  match l, hl with
  | a :: b :: l, _ =>
    simp only [List.map_cons]
    rw [if_pos, if_neg]
    · simp
    · simp [thresholdCols]
    · simp [thresholdCols]

theorem loadtxt_threshold_one (t : ThresholdResult) :
    loadtxt (thresholdFile [t]) = .ok (.vec ((thresholdCols t).map round6)) := by
  unfold loadtxt
  rw [threshold_rows, mapM'_rows]
  simp [thresholdCols]

theorem loadtxt_row (xs : List ℚ) (h : 2 ≤ xs.length) : loadtxt (row xs) = .ok (.vec (xs.map round6)) := by
  unfold loadtxt
  rw [splitOnChar_word (row_no_nl xs)]
  match xs, h with
  | a :: b :: xs, _ =>
    have e : (([row (a :: b :: xs)].map words).filter (· ≠ [])) = [(a :: b :: xs)].map fun ys => ys.map fixed6 := by
      rw [List.map_cons, row_singleton_words]; simp
    rw [e, mapM'_rows]
    simp

theorem words_append_blank (a b : Str) : words (a ++ ' ' :: b) = words a ++ words b := by
  have key : ∀ n (a : Str), a.length = n → words (a ++ ' ' :: b) = words a ++ words b := by
    intro n
    induction n using Nat.strongRecOn with
    | _ n ih =>
      intro a ha
      cases a with
      | nil => simp [words_space isSpace_blank, words_nil]
      | cons c cs =>
        by_cases hc : isSpace c = true
        · rw [List.cons_append, words_space hc, words_space hc]
          exact ih cs.length (by rw [← ha]; simp) cs rfl
        · have hc' : isSpace c = false := by simpa using hc
          have hsplit := List.takeWhile_append_dropWhile (p := fun d => !isSpace d) (l := cs)
          have hw : NoSpace (c :: cs.takeWhile (fun d => !isSpace d)) := by
            intro d hd
            rcases List.mem_cons.1 hd with rfl | hd
            · exact hc'
            · have := List.all_takeWhile (p := fun d => !isSpace d) (l := cs)
              rw [List.all_eq_true] at this
              simpa using this d hd
          have hd : ∀ x t, cs.dropWhile (fun d => !isSpace d) = x :: t → isSpace x = true := by
            intro x t hx
            have := List.head?_dropWhile_not (fun d => !isSpace d) cs
            rw [hx] at this
            simpa using this
          have e1 : words (c :: cs) = (c :: cs.takeWhile (fun d => !isSpace d))
              :: words (cs.dropWhile (fun d => !isSpace d)) := by
            have := words_word hw (by simp) (cs.dropWhile (fun d => !isSpace d)) hd
            rwa [List.cons_append, hsplit] at this
          have e2 : words (c :: cs ++ ' ' :: b) = (c :: cs.takeWhile (fun d => !isSpace d))
              :: words (cs.dropWhile (fun d => !isSpace d) ++ ' ' :: b) := by
            have := words_word hw (by simp) (cs.dropWhile (fun d => !isSpace d) ++ ' ' :: b) (by
              intro x t hx
              cases hq : cs.dropWhile (fun d => !isSpace d) with
              | nil => rw [hq, List.nil_append] at hx; injection hx with h1 _; subst h1; decide
              | cons y ys =>
                rw [hq, List.cons_append] at hx; injection hx with h1 _; subst h1; exact hd _ _ hq)
            rw [← this, List.cons_append, List.cons_append, ← List.append_assoc, hsplit]
          rw [e1, e2, ih (cs.dropWhile (fun d => !isSpace d)).length (by
            have := (List.dropWhile_sublist (fun d => !isSpace d) (l := cs)).length_le
            rw [← ha]; simp; omega) _ rfl]
          rfl
  exact key _ a rfl

end EdgeEval.Io
