import Verif.Model.Cli
import Verif.Lemmas.Text

namespace EdgeEval.Cli

open Text Evaluators

theorem join_splitOnChar (sep : Char) (s : Str) : join [sep] (splitOnChar sep s) = s := by
  induction s with
  | nil => rfl
  | cons c s ih =>
    unfold splitOnChar
    have hne := splitOnChar_ne_nil sep s
    by_cases hc : c = sep
    · rw [if_pos hc]
      cases h : splitOnChar sep s with
      | nil => exact absurd h hne
      | cons w ws =>
        rw [h] at ih
        simp only [join, ih, hc]
        simp
    · rw [if_neg hc]
      cases h : splitOnChar sep s with
      | nil => exact absurd h hne
      | cons w ws =>
        rw [h] at ih
        cases ws with
        | nil => simp only [join] at ih ⊢; rw [ih]
        | cons w2 ws => simp only [join, List.cons_append] at ih ⊢; rw [ih]

theorem splitOnChar_no_sep (sep : Char) (s : Str) : ∀ w ∈ splitOnChar sep s, sep ∉ w := by
  induction s with
  | nil => simp [splitOnChar]
  | cons c s ih =>
    intro w hw
    unfold splitOnChar at hw
    by_cases hc : c = sep
    · rw [if_pos hc] at hw
      rcases List.mem_cons.1 hw with rfl | hw
      · simp
      · exact ih w hw
    · rw [if_neg hc] at hw
      cases h : splitOnChar sep s with
      | nil => exact absurd h (splitOnChar_ne_nil sep s)
      | cons v vs =>
        rw [h] at hw ih
        rcases List.mem_cons.1 hw with rfl | hw
        · intro hm
          rcases List.mem_cons.1 hm with e | hm
          · exact hc e.symm
          · exact ih v (by simp) hm
        · exact ih w (List.mem_cons_of_mem _ hw)

theorem splitOnChar_join1 (sep : Char) (x : Str) (l : List Str) (h : ∀ s ∈ x :: l, sep ∉ s) :
    splitOnChar sep (join [sep] (x :: l)) = x :: l := by
  induction l generalizing x with
  | nil => exact splitOnChar_word (h x (by simp))
  | cons y l ih =>
    have e : join [sep] (x :: y :: l) = x ++ sep :: join [sep] (y :: l) := by simp [join]
    rw [e, splitOnChar_append (h x (by simp)), ih y fun s hs => h s (List.mem_cons_of_mem _ hs)]

theorem strip_bracket (a b inner : Str) (ha : ∀ c ∈ a, isSpace c = true) (hb : ∀ c ∈ b, isSpace c = true) :
    strip (a ++ ('[' :: inner ++ [']']) ++ b) = '[' :: inner ++ [']'] :=
  strip_pad ha hb (by simp) (by simp; decide) (by simp; decide)

theorem dropWhile_idem (s : Str) : (s.dropWhile isSpace).dropWhile isSpace = s.dropWhile isSpace := by
  induction s with
  | nil => rfl
  | cons c s ih =>
    by_cases h : isSpace c = true
    · rw [List.dropWhile_cons_of_pos h, ih]
    · rw [List.dropWhile_cons_of_neg h, List.dropWhile_cons_of_neg h]

theorem strip_idem (s : Str) : strip (strip s) = strip s := by
  unfold strip
  set t := s.dropWhile isSpace with ht
  set u := (t.reverse.dropWhile isSpace) with hu
  -- `u.reverse` starts with a non-space (if not empty)
  have h1 : u.reverse.dropWhile isSpace = u.reverse := by
    cases hr : u.reverse with
    | nil => rfl
    | cons c r =>
      rw [List.dropWhile_cons_of_neg]
      have hs : u <:+ t.reverse := List.dropWhile_suffix _
      obtain ⟨v, hv⟩ := hs
      have e : t = u.reverse ++ v.reverse := by
        have := congrArg List.reverse hv
        simpa using this.symm
      rw [hr] at e
      have hd : t.dropWhile isSpace = t := dropWhile_idem s
      rw [e, List.cons_append] at hd
      intro hc
      rw [List.dropWhile_cons_of_pos hc] at hd
      have := congrArg List.length hd
      have h2 := (List.dropWhile_sublist isSpace (l := r ++ v.reverse)).length_le
      simp at this h2
      omega
  rw [h1, List.reverse_reverse, hu, dropWhile_idem]

theorem intLit_stripped (s : Str) : intLit (strip s) = intLit s := by
  unfold intLit; rw [strip_idem]

theorem floatLit_stripped (s : Str) : floatLit (strip s) = floatLit s := by
  unfold floatLit; rw [strip_idem]

theorem bracketed_bracket (inner : Str) : bracketed ('[' :: inner ++ [']']) = some inner := by
  unfold bracketed
  rw [if_pos]
  · congr 1
    rw [List.dropLast_concat, List.tail_cons]
  · constructor
    · rfl
    · rw [List.getLast?_append]; rfl

theorem bracketed_some {s inner : Str} (h : bracketed s = some inner) : s = '[' :: inner ++ [']'] := by
  unfold bracketed at h
  split at h
  · rename_i hc
    obtain ⟨h1, h2⟩ := hc
    cases s with
    | nil => simp at h1
    | cons c s =>
      simp only [List.head?_cons, Option.some.injEq] at h1
      subst h1
      rw [List.getLast?_eq_some_iff] at h2
      obtain ⟨ys, hys⟩ := h2
      cases ys with
      | nil => simp at hys
      | cons y ys =>
        rw [List.cons_append] at hys
        injection hys with e1 e2
        subst e2
        simp only [Option.some.injEq] at h
        have : ('[' :: (ys ++ [']'])).dropLast.tail = ys := by
          rw [← List.cons_append, List.dropLast_concat, List.tail_cons]
        rw [this] at h
        rw [h, List.cons_append]
  · cases h

theorem mapM'_forall₂ {α β : Type} (f : α → Except PyErr β) (l : List α) (ys : List β) :
    mapM' f l = .ok ys ↔ List.Forall₂ (fun x y => f x = .ok y) l ys := by
  induction l generalizing ys with
  | nil =>
    constructor
    · intro h; cases h; exact .nil
    · intro h; cases h; rfl
  | cons x l ih =>
    constructor
    · intro h
      unfold mapM' at h
      split at h
      · cases h
      · rename_i y hy
        split at h
        · cases h
        · rename_i ys' hys
          cases h
          exact .cons hy ((ih ys').1 hys)
    · intro h
      cases h with
      | cons h1 h2 =>
        unfold mapM'
        rw [h1, (ih _).2 h2]

end EdgeEval.Cli
