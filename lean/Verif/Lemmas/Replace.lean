import Verif.Model.Convert
import Verif.Props.SampleData

/-! # `str.replace`, `dirname` and `basename` on composed paths -/

namespace EdgeEval.Convert

open Text Samples Spec Props

/-- No proper non-empty prefix of the pattern is a suffix of it. -/
def Borderless (pat : Str) : Prop :=
  ∀ k, 0 < k → k < pat.length → pat.take k ≠ pat.drop (pat.length - k)

theorem borderless_iff (pat : Str) :
    Borderless pat ↔ ∀ k ∈ List.range pat.length, 0 < k → pat.take k ≠ pat.drop (pat.length - k) := by
  unfold Borderless
  simp only [List.mem_range]
  exact ⟨fun h k a b => h k b a, fun h k a b => h k b a⟩

theorem replaceFrom_skip (pat new : Str) (l post : Str) :
    replaceFrom pat new l.length (l ++ post) = replaceFrom pat new 0 post := by
  induction l with
  | nil => rfl
  | cons c l ih => simpa [replaceFrom] using ih

theorem replaceFrom_none (pat new : Str) (s : Str) (h : ¬ pat <:+: s) : replaceFrom pat new 0 s = s := by
  induction s with
  | nil => rfl
  | cons c s ih =>
    rw [replaceFrom, if_neg, ih]
    · exact fun h' => h (h'.trans ⟨[c], [], by simp⟩)
    · rw [List.isPrefixOf_iff_prefix]
      exact fun h' => h h'.isInfix

/-- A text without the pattern is unchanged. -/
theorem replaceAll_none (pat new : Str) (s : Str) (h : ¬ pat <:+: s) : replaceAll pat new s = s := by
  unfold replaceAll
  split
  · rfl
  · exact replaceFrom_none _ _ _ h

theorem replaceFrom_first (pat new pre post : Str) (hp : pat ≠ []) (hb : Borderless pat) (h : ¬ pat <:+: pre) :
    replaceFrom pat new 0 (pre ++ pat ++ post) = pre ++ new ++ replaceFrom pat new 0 post := by
  induction pre with
  | nil =>
    cases pat with
    | nil => exact absurd rfl hp
    | cons c cs =>
      simp only [List.nil_append, List.cons_append]
      rw [replaceFrom, if_pos]
      · have := replaceFrom_skip (c :: cs) new cs post
        rw [List.length_cons, Nat.add_sub_cancel, this]
      · rw [List.isPrefixOf_iff_prefix]
        exact ⟨post, by simp⟩
  | cons c cs ih =>
    have h' : ¬ pat <:+: cs := fun k => h (k.trans ⟨[c], [], by simp⟩)
    have hnp : ¬ pat <+: (c :: cs) ++ pat ++ post := by
      intro hpre
      by_cases hlen : pat.length ≤ (c :: cs).length
      · have : pat <+: c :: cs := by
          apply List.prefix_of_prefix_length_le hpre _ hlen
          rw [List.append_assoc]; exact List.prefix_append _ _
        exact h this.isInfix
      · push Not at hlen
        have h1 : (c :: cs) <+: pat := by
          apply List.prefix_of_prefix_length_le _ hpre (by omega)
          rw [List.append_assoc]; exact List.prefix_append _ _
        obtain ⟨e, he⟩ := h1
        have h2 : e <+: pat := by
          rw [← he, List.append_assoc, List.prefix_append_right_inj] at hpre
          have hle : e.length ≤ pat.length := by rw [← he]; simp; omega
          rw [he] at hpre
          exact List.prefix_of_prefix_length_le hpre (List.prefix_append _ _) hle
        have hel : e.length = pat.length - (c :: cs).length := by rw [← he]; simp
        refine hb e.length (by omega) (by simp only [List.length_cons] at *; omega) ?_
        rw [← List.prefix_iff_eq_take.1 h2]
        have : pat.drop (c :: cs).length = e := by rw [← he, List.drop_left]
        rw [← this]
        congr 1
        rw [this, hel]
        omega
    rw [List.cons_append, List.cons_append, replaceFrom, if_neg, ih h']
    · simp
    · rw [List.isPrefixOf_iff_prefix]; exact hnp

/-- The first occurrence of a pattern that cannot overlap itself is replaced where it was put. -/
theorem replaceAll_once (pat new pre post : Str) (hp : pat ≠ []) (hb : Borderless pat) (h1 : ¬ pat <:+: pre)
    (h2 : ¬ pat <:+: post) : replaceAll pat new (pre ++ pat ++ post) = pre ++ new ++ post := by
  unfold replaceAll
  rw [if_neg hp, replaceFrom_first pat new pre post hp hb h1, replaceFrom_none _ _ _ h2]

theorem replaceAll_first (pat new pre post : Str) (hp : pat ≠ []) (hb : Borderless pat) (h1 : ¬ pat <:+: pre) :
    replaceAll pat new (pre ++ pat ++ post) = pre ++ new ++ replaceAll pat new post := by
  unfold replaceAll
  rw [if_neg hp, if_neg hp, replaceFrom_first pat new pre post hp hb h1]

/-- A pattern without slashes occurs in one component of a path. -/
theorem infix_slash {pat a b : Str} (hp : '/' ∉ pat) (h : pat <:+: a ++ '/' :: b) : pat <:+: a ∨ pat <:+: b := by
  obtain ⟨s, t, h⟩ := h
  rw [List.append_assoc] at h
  rcases List.append_eq_append_iff.1 h with ⟨c, rfl, h2⟩ | ⟨c, rfl, h2⟩
  · -- the pattern starts inside `a`
    rcases List.append_eq_append_iff.1 h2 with ⟨e, rfl, h3⟩ | ⟨e, rfl, h3⟩
    · exact Or.inl ⟨s, e, by simp⟩
    · cases e with
      | nil => exact Or.inl ⟨s, [], by simp⟩
      | cons x e =>
        exfalso
        simp only [List.cons_append, List.cons.injEq] at h3
        apply hp
        rw [h3.1]; simp
  · cases c with
    | nil =>
      simp only [List.nil_append] at h2
      cases pat with
      | nil => exact Or.inl ⟨[], a, by simp⟩
      | cons x pat =>
        exfalso
        simp only [List.cons_append, List.cons.injEq] at h2
        apply hp
        rw [h2.1]; simp
    | cons x c =>
      simp only [List.cons_append, List.cons.injEq] at h2
      exact Or.inr ⟨c, t, by rw [h2.2]; simp⟩

theorem not_infix_slash {pat a b : Str} (hp : '/' ∉ pat) (ha : ¬ pat <:+: a) (hb : ¬ pat <:+: b) : ¬ pat <:+: a ++ '/' :: b :=
  fun h => (infix_slash hp h).elim ha hb

theorem takeWhile_ne_append {b : Str} (hb : '/' ∉ b) (r : Str) :
    (b ++ '/' :: r).takeWhile (· ≠ '/') = b ∧ (b ++ '/' :: r).dropWhile (· ≠ '/') = '/' :: r := by
  induction b with
  | nil => simp
  | cons c b ih =>
    rw [List.mem_cons, not_or] at hb
    obtain ⟨h1, h2⟩ := ih hb.2
    have : c ≠ '/' := fun h => hb.1 h.symm
    simp only [List.cons_append, List.takeWhile_cons, List.dropWhile_cons, decide_not, this, decide_false, Bool.not_false,
      if_true, List.cons.injEq, true_and]
    simp only [decide_not] at h1 h2
    exact ⟨h1, h2⟩

theorem basename_slash {d b : Str} (hb : '/' ∉ b) : basename (d ++ '/' :: b) = b := by
  unfold basename
  rw [show (d ++ '/' :: b).reverse = b.reverse ++ '/' :: d.reverse by simp]
  rw [(takeWhile_ne_append (by simpa using hb) _).1]
  simp

theorem dirname_slash {d b : Str} (hd : DirArg d) (hb : '/' ∉ b) : dirname (d ++ '/' :: b) = d := by
  have hh : pathHead (d ++ '/' :: b) = d ++ ['/'] := by
    unfold pathHead
    rw [show (d ++ '/' :: b).reverse = b.reverse ++ '/' :: d.reverse by simp]
    rw [(takeWhile_ne_append (by simpa using hb) _).2]
    simp
  obtain ⟨hne, hlast⟩ := hd
  unfold dirname
  simp only [hh]
  obtain ⟨d', c, rfl⟩ : ∃ d' c, d = d' ++ [c] := ⟨d.dropLast, d.getLast hne, (List.dropLast_append_getLast hne).symm⟩
  have hc : c ≠ '/' := by simpa using hlast
  rw [if_neg]
  · simp [hc]
  · simp [hc]

end EdgeEval.Convert
