import Verif.Spec.Argparse
import Verif.Lemmas.Text

/-! Lemmas on the model of `argparse`. -/

namespace EdgeEval.Argparse

open Text Spec

section Lists

variable {α β : Type}

theorem lookup_iff [BEq α] [LawfulBEq α] {l : List (α × β)} (h : (l.map Prod.fst).Nodup) (n : α) (t : β) :
    l.lookup n = some t ↔ (n, t) ∈ l := by
  induction l with
  | nil => simp
  | cons x l ih =>
    obtain ⟨a, b⟩ := x
    rw [List.map_cons, List.nodup_cons] at h
    rw [List.lookup_cons, List.mem_cons]
    by_cases hna : n = a
    · subst hna
      rw [beq_self_eq_true]
      constructor
      · intro e; left; simp only [Option.some.injEq] at e; rw [e]
      · rintro (e | e)
        · simp only [Prod.mk.injEq] at e; simp [e.2]
        · exact absurd (List.mem_map_of_mem (f := Prod.fst) e) h.1
    · have hf : (n == a) = false := by simpa using hna
      rw [hf]
      constructor
      · intro e; exact Or.inr ((ih h.2).1 e)
      · rintro (e | e)
        · simp only [Prod.mk.injEq] at e; exact absurd e.1 hna
        · exact (ih h.2).2 e

theorem lookup_none {l : List (Str × β)} {n : Str} (h : l.lookup n = none) (t : β) : (n, t) ∉ l := by
  induction l with
  | nil => simp
  | cons x l ih =>
    obtain ⟨a, b⟩ := x
    rw [List.lookup_cons] at h
    by_cases hna : n = a
    · subst hna; rw [beq_self_eq_true] at h; cases h
    · have hf : (n == a) = false := by simpa using hna
      rw [hf] at h
      rw [List.mem_cons]
      rintro (e | e)
      · simp only [Prod.mk.injEq] at e; exact hna e.1
      · exact ih h e

/-- A filter with one survivor. -/
theorem filterMap_one {P : α → Prop} [DecidablePred P] {g : α → β} {l : List α} {y : β}
    (h : (l.filterMap fun x => if P x then some (g x) else none) = [y]) :
    ∃ x ∈ l, P x ∧ y = g x ∧ ∀ x' ∈ l, P x' → x' = x := by
  induction l with
  | nil => simp at h
  | cons a l ih =>
    by_cases ha : P a
    · rw [List.filterMap_cons_some (b := g a) (by simp [ha]), List.cons.injEq] at h
      refine ⟨a, by simp, ha, h.1.symm, ?_⟩
      intro x' hx' hP
      rw [List.mem_cons] at hx'
      rcases hx' with e | e
      · exact e
      · have h2 := (List.filterMap_eq_nil_iff.1 h.2) x' e
        rw [if_pos hP] at h2
        cases h2
    · rw [List.filterMap_cons_none (by simp [ha])] at h
      obtain ⟨x, hx, h1, h2, h3⟩ := ih h
      refine ⟨x, List.mem_cons_of_mem _ hx, h1, h2, ?_⟩
      intro x' hx' hP
      rw [List.mem_cons] at hx'
      rcases hx' with e | e
      · rw [e] at hP; exact absurd hP ha
      · exact h3 x' e hP

theorem filterMap_unique {P : α → Prop} [DecidablePred P] {g : α → β} {l : List α} (hl : l.Nodup) {x : α} (hx : x ∈ l)
    (hP : P x) (hu : ∀ x' ∈ l, P x' → x' = x) :
    (l.filterMap fun x => if P x then some (g x) else none) = [g x] := by
  induction l with
  | nil => simp at hx
  | cons a l ih =>
    rw [List.nodup_cons] at hl
    by_cases ha : P a
    · have hax := hu a (by simp) ha
      subst hax
      rw [List.filterMap_cons_some (b := g a) (by simp [ha])]
      congr 1
      rw [List.filterMap_eq_nil_iff]
      intro x' hx'
      rw [if_neg]
      intro hP'
      have := hu x' (List.mem_cons_of_mem _ hx') hP'
      rw [this] at hx'
      exact hl.1 hx'
    · rw [List.filterMap_cons_none (by simp [ha])]
      rw [List.mem_cons] at hx
      rcases hx with e | e
      · rw [e] at hP; exact absurd hP ha
      · exact ih hl.2 e fun x' hx' => hu x' (List.mem_cons_of_mem _ hx')

theorem filterMap_none {P : α → Prop} [DecidablePred P] {g : α → β} {l : List α}
    (h : (l.filterMap fun x => if P x then some (g x) else none) = []) : ∀ x ∈ l, ¬ P x := by
  intro x hx hP
  have := (List.filterMap_eq_nil_iff.1 h) x hx
  rw [if_pos hP] at this
  cases this

theorem filterMap_nil {P : α → Prop} [DecidablePred P] {g : α → β} {l : List α}
    (h : ∀ x ∈ l, ¬ P x) : (l.filterMap fun x => if P x then some (g x) else none) = [] := by
  rw [List.filterMap_eq_nil_iff]
  intro x hx
  rw [if_neg (h x hx)]

end Lists

/-! ## Splitting at the equals sign -/

theorem split_eq {w v : Str} (h : '=' ∉ w) : splitFirst (· = '=') (w ++ '=' :: v) = (w, some v) :=
  splitFirst_some (fun x hx => by simp only [decide_eq_false_iff_not]; rintro rfl; exact h hx) (by simp)

theorem split_no_eq {w : Str} (h : '=' ∉ w) : splitFirst (· = '=') w = (w, none) :=
  splitFirst_none fun x hx => by simp only [decide_eq_false_iff_not]; rintro rfl; exact h hx

/-- Every word has an equals sign or none. -/
theorem split_cases (s : Str) : ('=' ∉ s) ∨ ∃ w v, '=' ∉ w ∧ s = w ++ '=' :: v := by
  by_cases h : '=' ∈ s
  · obtain ⟨w, v, e, hw⟩ := List.eq_append_cons_of_mem h
    exact Or.inr ⟨w, v, hw, e⟩
  · exact Or.inl h

theorem take_no_eq {w : Str} (h : '=' ∉ w) : w.takeWhile (· ≠ '=') = w := by
  have := List.takeWhile_append_of_pos (p := fun x => decide (x ≠ '=')) (l₁ := w) (l₂ := []) (by
    intro x hx
    simp only [ne_eq, decide_not, Bool.not_eq_eq_eq_not, Bool.not_true, decide_eq_false_iff_not]
    rintro rfl
    exact h hx)
  simpa using this

theorem take_eq {w v : Str} (h : '=' ∉ w) : (w ++ '=' :: v).takeWhile (· ≠ '=') = w := by
  rw [List.takeWhile_append_of_pos, List.takeWhile_cons_of_neg (by simp), List.append_nil]
  intro x hx
  simp only [ne_eq, decide_not, Bool.not_eq_eq_eq_not, Bool.not_true, decide_eq_false_iff_not]
  rintro rfl
  exact h hx

theorem splitFirst_fst (s : Str) : (splitFirst (· = '=') s).1 = s.takeWhile (· ≠ '=') := by
  rcases split_cases s with h | ⟨w, v, h, rfl⟩
  · rw [split_no_eq h, take_no_eq h]
  · rw [split_eq h, take_eq h]

/-! ## The table of option strings -/

theorem mem_table {p : Parser} {n : Str} {t : Target} :
    (n, t) ∈ table p ↔ (n = "-h".toList ∧ t = .help) ∨ (n = "--help".toList ∧ t = .help) ∨
      ∃ o ∈ p.options, n ∈ o.names ∧ t = .opt o := by
  unfold table
  rw [List.mem_cons, List.mem_cons, Prod.mk.injEq, Prod.mk.injEq, List.mem_flatten]
  apply or_congr Iff.rfl
  apply or_congr Iff.rfl
  constructor
  · rintro ⟨l, hl, hn⟩
    obtain ⟨o, ho, rfl⟩ := List.mem_map.1 hl
    obtain ⟨m, hm, e⟩ := List.mem_map.1 hn
    rw [Prod.mk.injEq] at e
    exact ⟨o, ho, e.1 ▸ hm, e.2.symm⟩
  · rintro ⟨o, ho, hn, rfl⟩
    exact ⟨o.names.map fun n => (n, Target.opt o), List.mem_map_of_mem ho, List.mem_map.2 ⟨n, hn, rfl⟩⟩

theorem optionString_iff {p : Parser} {n : Str} : OptionString p n ↔ ∃ t, (n, t) ∈ table p := by
  unfold OptionString
  constructor
  · rintro (h | h | ⟨o, ho, hn⟩)
    · exact ⟨.help, mem_table.2 (Or.inl ⟨h, rfl⟩)⟩
    · exact ⟨.help, mem_table.2 (Or.inr (Or.inl ⟨h, rfl⟩))⟩
    · exact ⟨.opt o, mem_table.2 (Or.inr (Or.inr ⟨o, ho, hn, rfl⟩))⟩
  · rintro ⟨t, ht⟩
    rcases mem_table.1 ht with h | h | ⟨o, ho, hn, -⟩
    · exact Or.inl h.1
    · exact Or.inr (Or.inl h.1)
    · exact Or.inr (Or.inr ⟨o, ho, hn⟩)

theorem table_keys (p : Parser) :
    (table p).map Prod.fst = "-h".toList :: "--help".toList :: (p.options.map Opt.names).flatten := by
  unfold table
  rw [List.map_cons, List.map_cons, List.map_flatten, List.map_map]
  congr 3
  apply List.map_congr_left
  intro o _
  show List.map Prod.fst (List.map _ o.names) = o.names
  rw [List.map_map]
  exact List.map_id _

theorem keys_nodup {p : Parser} (h : WellFormed p) : ((table p).map Prod.fst).Nodup := by
  rw [table_keys]; exact h.names

theorem table_nodup {p : Parser} (h : WellFormed p) : (table p).Nodup := (keys_nodup h).of_map

theorem table_inj {p : Parser} (h : WellFormed p) {n : Str} {t t' : Target} (h1 : (n, t) ∈ table p)
    (h2 : (n, t') ∈ table p) : t = t' := by
  have e1 := (lookup_iff (keys_nodup h) n t).2 h1
  have e2 := (lookup_iff (keys_nodup h) n t').2 h2
  rw [e1] at e2
  exact Option.some.inj e2

/-- The shape of every option string. -/
theorem key_shape {p : Parser} (h : WellFormed p) {n : Str} (hn : OptionString p n) :
    n.head? = some '-' ∧ '=' ∉ n ∧ (['-', '-'] <+: n ∧ n ≠ ['-', '-'] ∨ n.length = 2 ∧ n ≠ ['-', '-']) := by
  rcases hn with rfl | rfl | ⟨o, ho, hn⟩
  · decide +kernel
  · decide +kernel
  · exact h.shape o ho n hn

theorem key_ne_dash {p : Parser} (h : WellFormed p) {n : Str} (hn : OptionString p n) : n ≠ ['-'] ∧ n ≠ ['-', '-'] := by
  obtain ⟨-, -, ⟨h1, h2⟩ | ⟨h1, h2⟩⟩ := key_shape h hn
  · refine ⟨?_, h2⟩
    rintro rfl
    have := h1.length_le
    simp at this
  · refine ⟨?_, h2⟩
    rintro rfl
    simp at h1

theorem help_key (p : Parser) : OptionString p "--help".toList := Or.inr (Or.inl rfl)

theorem denotes_key {p : Parser} {w : Str} {o : Opt} (ho : o ∈ p.options) (hw : w ∈ o.names) : OptionString p w :=
  Or.inr (Or.inr ⟨o, ho, hw⟩)

/-! ## Negative numbers -/

theorem isDigit_iff (c : Char) : isDigit c = true ↔ 48 ≤ c.toNat ∧ c.toNat ≤ 57 := by
  unfold isDigit charDigit
  by_cases h : 48 ≤ c.toNat ∧ c.toNat ≤ 57
  · rw [if_pos h]; exact ⟨fun _ => h, fun _ => rfl⟩
  · rw [if_neg h]; exact Iff.intro (fun e => by cases e) (fun e => absurd e h)

theorem dot_not_digit : isDigit '.' = false := by decide +kernel

theorem all_digits (a : Str) : a.all isDigit = true ↔ ∀ c ∈ a, 48 ≤ c.toNat ∧ c.toNat ≤ 57 := by
  rw [List.all_eq_true]
  exact forall₂_congr fun c _ => isDigit_iff c

theorem no_dot {a : Str} (h : a.all isDigit = true) : ∀ x ∈ a, decide (x = '.') = false := by
  intro x hx
  rw [decide_eq_false_iff_not]
  rintro rfl
  have := List.all_eq_true.1 h _ hx
  rw [dot_not_digit] at this
  cases this

theorem negNumber_iff (s : Str) : negNumber s = true ↔ NegativeNumber s := by
  unfold NegativeNumber
  constructor
  · intro h
    unfold negNumber at h
    split at h
    · rename_i r
      by_cases hd : '.' ∈ r
      · obtain ⟨a, b, e, ha⟩ := List.eq_append_cons_of_mem hd
        rw [e, splitFirst_some (fun x hx => by simp only [decide_eq_false_iff_not]; rintro rfl; exact ha hx)
          (by simp)] at h
        simp only [ne_eq, Bool.and_eq_true, all_digits, decide_not,
          Bool.not_eq_eq_eq_not, Bool.not_true, decide_eq_false_iff_not] at h
        refine ⟨a, b, ?_, Or.inr ⟨by rw [e]; rfl, h.2.1⟩⟩
        intro c hc
        rw [List.mem_append] at hc
        rcases hc with hc | hc
        · exact h.1 c hc
        · exact h.2.2 c hc
      · rw [splitFirst_none (fun x hx => by simp only [decide_eq_false_iff_not]; rintro rfl; exact hd hx)] at h
        simp only [ne_eq, Bool.and_eq_true, all_digits, decide_not,
          Bool.not_eq_eq_eq_not, Bool.not_true, decide_eq_false_iff_not] at h
        refine ⟨r, [], ?_, Or.inl ⟨rfl, h.1⟩⟩
        rw [List.append_nil]
        exact h.2
    · cases h
  · rintro ⟨a, b, hd, ⟨rfl, ha⟩ | ⟨rfl, hb⟩⟩
    · have h1 : a.all isDigit = true := (all_digits a).2 fun c hc => hd c (List.mem_append_left _ hc)
      unfold negNumber
      simp only
      rw [splitFirst_none (no_dot h1)]
      simp [ha, h1]
    · have h1 : a.all isDigit = true := (all_digits a).2 fun c hc => hd c (List.mem_append_left _ hc)
      have h2 : b.all isDigit = true := (all_digits b).2 fun c hc => hd c (List.mem_append_right _ hc)
      unfold negNumber
      rw [List.cons_append]
      simp only
      rw [splitFirst_some (no_dot h1) (by simp)]
      simp [hb, h1, h2]

/-! ## Classification of a word -/

theorem exactEq_some {p : Parser} (hp : WellFormed p) {n v : Str} {t : Target} (h : (n, t) ∈ table p) :
    exactEq p (n ++ '=' :: v) = some (.opt n t (some v)) := by
  unfold exactEq
  rw [split_eq (key_shape hp (optionString_iff.2 ⟨t, h⟩)).2.1]
  simp only
  rw [(lookup_iff (keys_nodup hp) n t).2 h]
  rfl

theorem exactEq_inv {p : Parser} (hp : WellFormed p) {s : Str} {t : Tok} (h : exactEq p s = some t) :
    ∃ n g v, (n, g) ∈ table p ∧ s = n ++ '=' :: v ∧ t = .opt n g (some v) := by
  unfold exactEq at h
  rcases split_cases s with hs | ⟨w, v, hw, rfl⟩
  · rw [split_no_eq hs] at h; cases h
  · rw [split_eq hw] at h
    simp only [Option.map_eq_some_iff] at h
    obtain ⟨g, hg, rfl⟩ := h
    exact ⟨w, g, v, (lookup_iff (keys_nodup hp) _ _).1 hg, rfl, rfl⟩

theorem exactEq_none {p : Parser} (hp : WellFormed p) {s : Str} (h : exactEq p s = none) :
    ¬ ∃ n v, OptionString p n ∧ s = n ++ '=' :: v := by
  rintro ⟨n, v, hn, rfl⟩
  obtain ⟨t, ht⟩ := optionString_iff.1 hn
  rw [exactEq_some hp ht] at h
  cases h

theorem dd_prefix (s : Str) : dd.isPrefixOf s = true ↔ ['-', '-'] <+: s := List.isPrefixOf_iff_prefix

/-- The candidates of a long prefix. -/
theorem candidates_long {p : Parser} {s : Str} (h : ['-', '-'] <+: s) :
    candidates p s = (table p).filterMap fun x : Str × Target =>
      if (s.takeWhile (· ≠ '=')) <+: x.1 then some (Tok.opt x.1 x.2 (splitFirst (· = '=') s).2) else none := by
  unfold candidates
  rw [if_pos ((dd_prefix s).2 h)]
  apply List.filterMap_congr
  intro x _
  rw [splitFirst_fst]
  by_cases hx : (s.takeWhile (· ≠ '=')) <+: x.1
  · rw [if_pos hx, if_pos (List.isPrefixOf_iff_prefix.2 hx)]
  · rw [if_neg hx, if_neg (fun hh => hx (List.isPrefixOf_iff_prefix.1 hh))]

/-- A word with a single dash is not a proper prefix of an option string. -/
theorem short_prefix {p : Parser} (hp : WellFormed p) {s n : Str} (hs : s.head? = some '-') (h1 : s ≠ ['-'])
    (h2 : ¬ ['-', '-'] <+: s) (hn : OptionString p n) (h : s <+: n) : s = n := by
  obtain ⟨-, -, ⟨hl, -⟩ | ⟨hl, -⟩⟩ := key_shape hp hn
  · exfalso
    match s, hs, h1, h2, h with
    | [a], hs, h1, _, _ => simp at hs; rw [hs] at h1; exact h1 rfl
    | a :: b :: s', hs, _, h2, h =>
      obtain ⟨m, rfl⟩ := hl
      rw [List.cons_append, List.cons_append, List.cons_prefix_cons, List.cons_prefix_cons] at h
      obtain ⟨rfl, rfl, -⟩ := h
      exact h2 ⟨s', rfl⟩
  · match s, hs, h1, h with
    | [a], hs, h1, _ => simp at hs; rw [hs] at h1; exact absurd rfl h1
    | a :: b :: s', _, _, h =>
      obtain ⟨m, rfl⟩ := h
      simp only [List.cons_append, List.length_cons, List.length_append] at hl
      have : s' = [] := List.length_eq_zero_iff.1 (by omega)
      have : m = [] := List.length_eq_zero_iff.1 (by omega)
      subst_vars
      rfl

/-- The candidates of a short option with something attached. -/
theorem candidates_short {p : Parser} (hp : WellFormed p) {s : Str} (hs : s.head? = some '-') (h1 : s ≠ ['-'])
    (h2 : ¬ ['-', '-'] <+: s) (hn : ¬ OptionString p s) :
    candidates p s = (table p).filterMap fun x : Str × Target =>
      if x.1 = s.take 2 then some (Tok.opt x.1 x.2 (some (s.drop 2))) else none := by
  unfold candidates
  rw [if_neg (fun h => h2 ((dd_prefix s).1 h))]
  apply List.filterMap_congr
  intro x hx
  by_cases hx1 : x.1 = s.take 2
  · rw [if_pos hx1, if_pos hx1]
  · rw [if_neg hx1, if_neg hx1, if_neg]
    intro hh
    have hk : OptionString p x.1 := optionString_iff.2 ⟨x.2, hx⟩
    exact hn ((short_prefix hp hs h1 h2 hk (List.isPrefixOf_iff_prefix.1 hh)) ▸ hk)

theorem classify_key {p : Parser} (hp : WellFormed p) {n : Str} {t : Target} (h : (n, t) ∈ table p) :
    classify p n = .ok (.opt n t none) := by
  have hk := key_shape hp (optionString_iff.2 ⟨t, h⟩)
  unfold classify
  rw [if_neg (by rw [hk.1]; simp), (lookup_iff (keys_nodup hp) n t).2 h]

theorem not_key_of_lookup {p : Parser} (s : Str) (h : (table p).lookup s = none) : ¬ OptionString p s := by
  intro hs
  obtain ⟨t, ht⟩ := optionString_iff.1 hs
  exact lookup_none h t ht

theorem lookup_of_not_key {p : Parser} {s : Str} (hp : WellFormed p) (h : ¬ OptionString p s) :
    (table p).lookup s = none := by
  cases e : (table p).lookup s with
  | none => rfl
  | some t => exact absurd (optionString_iff.2 ⟨t, (lookup_iff (keys_nodup hp) s t).1 e⟩) h

theorem classify_joined {p : Parser} (hp : WellFormed p) {n v : Str} {t : Target} (h : (n, t) ∈ table p) :
    classify p (n ++ '=' :: v) = .ok (.opt n t (some v)) := by
  have hk := key_shape hp (optionString_iff.2 ⟨t, h⟩)
  have hne : n ≠ [] := by rintro rfl; simp at hk
  have hnk : ¬ OptionString p (n ++ '=' :: v) := fun hh => (key_shape hp hh).2.1 (by simp)
  unfold classify
  rw [if_neg (by rw [List.head?_append_of_ne_nil _ hne, hk.1]; simp), lookup_of_not_key hp hnk]
  simp only
  rw [if_neg, exactEq_some hp h]
  intro e
  have : ('=' : Char) ∈ ['-'] := by rw [← e]; simp
  simp at this

theorem head_of_dd {w : Str} (h : ['-', '-'] <+: w) : w.head? = some '-' ∧ w ≠ ['-'] := by
  obtain ⟨m, rfl⟩ := h
  simp

/-- A shortened option, alone or with a value. -/
theorem classify_abbrev {p : Parser} (hp : WellFormed p) {w : Str} {o : Opt} (ho : o ∈ p.options)
    (h : Abbreviates p w o) :
    ∃ n, n ∈ o.names ∧ ['-', '-'] <+: n ∧ classify p w = .ok (.opt n (.opt o) none) ∧
      ∀ v, classify p (w ++ '=' :: v) = .ok (.opt n (.opt o) (some v)) := by
  obtain ⟨hd, -, heq, hnk, n, hn, hwn, hu⟩ := h
  obtain ⟨hh1, hh2⟩ := head_of_dd hd
  have hne : w ≠ [] := by rintro rfl; simp at hh1
  have hmem : (n, Target.opt o) ∈ table p := mem_table.2 (Or.inr (Or.inr ⟨o, ho, hn, rfl⟩))
  have huniq : ∀ x ∈ table p, w <+: x.1 → x = (n, .opt o) := by
    rintro ⟨m, t⟩ hx hpre
    obtain rfl := hu m (optionString_iff.2 ⟨t, hx⟩) hpre
    rw [table_inj hp hx hmem]
  refine ⟨n, hn, hd.trans hwn, ?_, ?_⟩
  · unfold classify
    rw [if_neg (by rw [hh1]; simp), lookup_of_not_key hp hnk]
    simp only
    rw [if_neg hh2]
    have : exactEq p w = none := by
      unfold exactEq; rw [split_no_eq heq]
    rw [this]
    simp only
    rw [candidates_long hd, take_no_eq heq, split_no_eq heq]
    rw [filterMap_unique (P := fun x : Str × Target => w <+: x.1) (g := fun x => Tok.opt x.1 x.2 none)
      (table_nodup hp) hmem hwn huniq]
  · intro v
    have hnk2 : ¬ OptionString p (w ++ '=' :: v) := fun hh => (key_shape hp hh).2.1 (by simp)
    unfold classify
    rw [if_neg (by rw [List.head?_append_of_ne_nil _ hne, hh1]; simp), lookup_of_not_key hp hnk2]
    simp only
    have hx : exactEq p (w ++ '=' :: v) = none := by
      unfold exactEq
      rw [split_eq heq]
      simp only
      rw [lookup_of_not_key hp hnk]
      rfl
    rw [if_neg, hx]
    · simp only
      rw [candidates_long (hd.trans (List.prefix_append _ _)), take_eq heq, split_eq heq]
      rw [filterMap_unique (P := fun x : Str × Target => w <+: x.1) (g := fun x => Tok.opt x.1 x.2 (some v))
        (table_nodup hp) hmem hwn huniq]
    · intro e
      have : ('=' : Char) ∈ ['-'] := by rw [← e]; simp
      simp at this

/-- A short option with its value attached. -/
theorem classify_attached {p : Parser} (hp : WellFormed p) {w s : Str} {o : Opt} (ho : o ∈ p.options)
    (hw : w ∈ o.names) (hl : w.length = 2) (hs : s ≠ []) (he : s.head? ≠ some '=') :
    classify p (w ++ s) = .ok (.opt w (.opt o) (some s)) := by
  have hkey : OptionString p w := denotes_key ho hw
  obtain ⟨hk1, hk2, hk3⟩ := key_shape hp hkey
  have hnd := key_ne_dash hp hkey
  have hmem : (w, Target.opt o) ∈ table p := mem_table.2 (Or.inr (Or.inr ⟨o, ho, hw, rfl⟩))
  have hne : w ≠ [] := by rintro rfl; simp at hk1
  have hh : (w ++ s).head? = some '-' := by rw [List.head?_append_of_ne_nil _ hne, hk1]
  have hlen : 0 < s.length := List.length_pos_of_ne_nil hs
  have hd1 : w ++ s ≠ ['-'] := by
    intro e
    have := congrArg List.length e
    simp at this
    omega
  have hd2 : ¬ ['-', '-'] <+: w ++ s := by
    intro hpre
    have := (List.prefix_append w s)
    have h3 := List.prefix_of_prefix_length_le hpre this (by simp [hl])
    exact hnd.2 (h3.eq_of_length (by simp [hl])).symm
  have hnk : ¬ OptionString p (w ++ s) := by
    intro hh2
    obtain ⟨-, -, ⟨h1, -⟩ | ⟨h1, -⟩⟩ := key_shape hp hh2
    · exact hd2 h1
    · rw [List.length_append, hl] at h1; omega
  unfold classify
  rw [if_neg (by rw [hh]; simp), lookup_of_not_key hp hnk]
  simp only
  have hx : exactEq p (w ++ s) = none := by
    cases e : exactEq p (w ++ s) with
    | none => rfl
    | some t =>
      exfalso
      obtain ⟨n, g, v, hn, e2, -⟩ := exactEq_inv hp e
      have hkn := optionString_iff.2 ⟨g, hn⟩
      obtain ⟨-, -, ⟨h1, -⟩ | ⟨h1, -⟩⟩ := key_shape hp hkn
      · exact hd2 (h1.trans ⟨_, e2.symm⟩)
      · have := List.append_inj e2 (by rw [hl, h1])
        rw [this.2] at he
        simp at he
  rw [if_neg hd1, hx]
  simp only
  rw [candidates_short hp hh hd1 hd2 hnk]
  have ht : (w ++ s).take 2 = w := by rw [← hl, List.take_left]
  have hdr : (w ++ s).drop 2 = s := by rw [← hl, List.drop_left]
  rw [ht, hdr]
  rw [filterMap_unique (P := fun x : Str × Target => x.1 = w) (g := fun x => Tok.opt x.1 x.2 (some s))
    (table_nodup hp) hmem rfl]
  rintro ⟨m, t⟩ hx' rfl
  rw [table_inj hp hx' hmem]

/-- A value word. -/
theorem classify_value {p : Parser} (hp : WellFormed p) {s : Str} (h : ValueWord p s) :
    classify p s = .ok (.arg s) ∧ s ≠ dd := by
  by_cases h0 : s.head? = some '-'
  · rcases h with h | rfl | ⟨hno, hyes⟩
    · exact absurd h0 h
    · refine ⟨?_, by decide⟩
      unfold classify
      rw [if_neg (by rw [h0]; simp), lookup_of_not_key hp (fun hh => (key_ne_dash hp hh).1 rfl)]
      simp
    · have hnk : ¬ OptionString p s := fun hh => hno ⟨s, hh, Or.inl rfl⟩
      have hd1 : s ≠ ['-'] := by
        rintro rfl
        rcases hyes with ⟨a, b, -, ⟨e, ha⟩ | ⟨e, hb⟩⟩ | hs
        · simp only [List.cons.injEq, true_and] at e; exact ha e.symm
        · have := congrArg List.length e; simp at this
        · simp at hs
      have hc : candidates p s = [] := by
        by_cases hdd : ['-', '-'] <+: s
        · rw [candidates_long hdd]
          apply filterMap_nil
          intro x hx hpre
          exact hno ⟨x.1, optionString_iff.2 ⟨x.2, hx⟩, Or.inr (Or.inr (Or.inr ⟨hdd, hpre⟩))⟩
        · rw [candidates_short hp h0 hd1 hdd hnk]
          apply filterMap_nil
          intro x hx hpre
          have hk := optionString_iff.2 ⟨x.2, hx⟩
          refine hno ⟨x.1, hk, Or.inr (Or.inr (Or.inl ⟨?_, hdd, hpre ▸ List.take_prefix 2 s⟩))⟩
          obtain ⟨-, -, ⟨h1, -⟩ | ⟨h1, -⟩⟩ := key_shape hp hk
          · rw [hpre] at h1; exact absurd (h1.trans (List.take_prefix 2 s)) hdd
          · exact h1
      have hx : exactEq p s = none := by
        cases e : exactEq p s with
        | none => rfl
        | some t =>
          obtain ⟨n, g, v, hn, e2, -⟩ := exactEq_inv hp e
          exact absurd ⟨n, optionString_iff.2 ⟨g, hn⟩, Or.inr (Or.inl ⟨v, e2⟩)⟩ hno
      constructor
      · unfold classify
        rw [if_neg (by rw [h0]; simp), lookup_of_not_key hp hnk]
        simp only
        rw [if_neg hd1, hx]
        simp only
        rw [hc]
        simp only
        rw [if_pos]
        rcases hyes with hy | hy
        · rw [(negNumber_iff s).2 hy]; rfl
        · simp [hy]
      · rintro rfl
        refine hno ⟨"--help".toList, help_key p, Or.inr (Or.inr (Or.inr ⟨⟨[], rfl⟩, ?_⟩))⟩
        rw [← List.isPrefixOf_iff_prefix]
        decide +kernel
  · refine ⟨?_, ?_⟩
    · unfold classify
      rw [if_pos h0]
    · rintro rfl
      exact h0 rfl

/-- How the word `s` names the option `o`, with the value `e` attached or not. -/
def OptWord (p : Parser) (s : Str) (o : Opt) : Option Str → Prop
  | none => Denotes p s o
  | some v => (∃ w, s = w ++ '=' :: v ∧ Denotes p w o) ∨
      ∃ w, s = w ++ v ∧ o ∈ p.options ∧ w ∈ o.names ∧ w.length = 2 ∧ v ≠ [] ∧ v.head? ≠ some '='

theorem opt_mem {p : Parser} {n : Str} {o : Opt} (h : (n, Target.opt o) ∈ table p) : o ∈ p.options ∧ n ∈ o.names := by
  rcases mem_table.1 h with ⟨-, h⟩ | ⟨-, h⟩ | ⟨o', ho, hn, h⟩
  · cases h
  · cases h
  · cases h; exact ⟨ho, hn⟩

theorem abbrev_of_unique {p : Parser} {w n : Str} {o : Opt} (hd : ['-', '-'] <+: w) (heq : '=' ∉ w)
    (hnk : ¬ OptionString p w) (hm : (n, Target.opt o) ∈ table p) (hw : w <+: n)
    (hu : ∀ x ∈ table p, w <+: x.1 → x = (n, .opt o)) : Denotes p w o := by
  obtain ⟨ho, hn⟩ := opt_mem hm
  refine ⟨ho, Or.inr ⟨hd, ?_, heq, hnk, n, hn, hw, ?_⟩⟩
  · rintro rfl
    have h1 : ("--help".toList, Target.help) ∈ table p := mem_table.2 (Or.inr (Or.inl ⟨rfl, rfl⟩))
    have := hu _ h1 (by rw [← List.isPrefixOf_iff_prefix]; decide +kernel)
    rw [Prod.mk.injEq] at this
    cases this.2
  · intro m hmk hwm
    obtain ⟨t, ht⟩ := optionString_iff.1 hmk
    have := hu _ ht hwm
    rw [Prod.mk.injEq] at this
    exact this.1

/-- What the classification of a word says about it. -/
theorem classify_inv {p : Parser} (hp : WellFormed p) {s : Str} {t : Tok} (h : classify p s = .ok t) :
    (t = .arg s ∧ ValueWord p s) ∨ t = .unknown ∨ (∃ n e, t = .opt n .help e) ∨
      ∃ n o e, t = .opt n (.opt o) e ∧ OptWord p s o e := by
  unfold classify at h
  by_cases h0 : s.head? = some '-'
  swap
  · rw [if_pos h0] at h
    cases h
    exact Or.inl ⟨rfl, Or.inl h0⟩
  rw [if_neg (by rw [h0]; simp)] at h
  cases hl : (table p).lookup s with
  | some g =>
    rw [hl] at h
    simp only at h
    cases h
    have hm := (lookup_iff (keys_nodup hp) s g).1 hl
    cases g with
    | help => exact Or.inr (Or.inr (Or.inl ⟨s, none, rfl⟩))
    | opt o => exact Or.inr (Or.inr (Or.inr ⟨s, o, none, rfl, (opt_mem hm).1, Or.inl (opt_mem hm).2⟩))
  | none =>
    rw [hl] at h
    simp only at h
    have hnk := not_key_of_lookup s hl
    by_cases hd1 : s = ['-']
    · rw [if_pos hd1] at h
      cases h
      exact Or.inl ⟨rfl, Or.inr (Or.inl hd1)⟩
    rw [if_neg hd1] at h
    cases hx : exactEq p s with
    | some t' =>
      rw [hx] at h
      simp only at h
      cases h
      obtain ⟨n, g, v, hm, e, rfl⟩ := exactEq_inv hp hx
      cases g with
      | help => exact Or.inr (Or.inr (Or.inl ⟨n, some v, rfl⟩))
      | opt o =>
        exact Or.inr (Or.inr (Or.inr ⟨n, o, some v, rfl, Or.inl ⟨n, e, (opt_mem hm).1, Or.inl (opt_mem hm).2⟩⟩))
    | none =>
      rw [hx] at h
      simp only at h
      have hnx := exactEq_none hp hx
      cases hc : candidates p s with
      | nil =>
        rw [hc] at h
        simp only at h
        by_cases hv : (negNumber s || s.contains ' ') = true
        · rw [if_pos hv] at h
          cases h
          refine Or.inl ⟨rfl, Or.inr (Or.inr ⟨?_, ?_⟩)⟩
          · rintro ⟨n, hn, rfl | ⟨v, e⟩ | ⟨hl2, hdd, hpre⟩ | ⟨hdd, hpre⟩⟩
            · exact hnk hn
            · exact hnx ⟨n, v, hn, e⟩
            · obtain ⟨g, hg⟩ := optionString_iff.1 hn
              rw [candidates_short hp h0 hd1 hdd hnk] at hc
              refine filterMap_none (P := fun x : Str × Target => x.1 = s.take 2) hc _ hg ?_
              obtain ⟨m, rfl⟩ := hpre
              rw [← hl2, List.take_left]
            · obtain ⟨g, hg⟩ := optionString_iff.1 hn
              rw [candidates_long hdd] at hc
              exact filterMap_none (P := fun x : Str × Target => s.takeWhile (· ≠ '=') <+: x.1) hc _ hg hpre
          · rw [Bool.or_eq_true] at hv
            rcases hv with hv | hv
            · exact Or.inl ((negNumber_iff s).1 hv)
            · right; simpa using hv
        · rw [if_neg hv] at h
          cases h
          exact Or.inr (Or.inl rfl)
      | cons t1 r =>
        rw [hc] at h
        cases r with
        | cons t2 r => cases h
        | nil =>
          simp only at h
          cases h
          right; right
          by_cases hdd : ['-', '-'] <+: s
          · rw [candidates_long hdd] at hc
            obtain ⟨⟨n, g⟩, hm, hpre, rfl, hu⟩ :=
              filterMap_one (P := fun x : Str × Target => s.takeWhile (· ≠ '=') <+: x.1) hc
            cases g with
            | help => exact Or.inl ⟨_, _, rfl⟩
            | opt o =>
              right
              refine ⟨n, o, _, rfl, ?_⟩
              rcases split_cases s with hs | ⟨w, v, hw, e⟩
              · rw [split_no_eq hs]
                rw [take_no_eq hs] at hpre hu
                exact abbrev_of_unique hdd hs hnk hm hpre hu
              · subst e
                rw [split_eq hw]
                rw [take_eq hw] at hpre hu
                refine Or.inl ⟨w, rfl, abbrev_of_unique ?_ hw ?_ hm hpre hu⟩
                · have h2 : w <+: w ++ '=' :: v := List.prefix_append _ _
                  rcases Nat.lt_or_ge w.length 2 with hlt | hge
                  · exfalso
                    obtain ⟨m, hm2⟩ := hdd
                    match w, hlt, hm2, hw with
                    | [], _, hm2, _ => simp at hm2
                    | [a], _, hm2, _ => simp at hm2
                  · exact List.prefix_of_prefix_length_le hdd h2 hge
                · intro hk
                  exact hnx ⟨w, v, hk, rfl⟩
          · rw [candidates_short hp h0 hd1 hdd hnk] at hc
            obtain ⟨⟨n, g⟩, hm, hpre, rfl, hu⟩ :=
              filterMap_one (P := fun x : Str × Target => x.1 = s.take 2) hc
            cases g with
            | help => exact Or.inl ⟨_, _, rfl⟩
            | opt o =>
              right
              refine ⟨n, o, _, rfl, Or.inr ⟨n, ?_, (opt_mem hm).1, (opt_mem hm).2, ?_, ?_, ?_⟩⟩
              · simp only at hpre
                rw [hpre, List.take_append_drop]
              · simp only at hpre
                obtain ⟨-, -, ⟨h1, -⟩ | ⟨h1, -⟩⟩ := key_shape hp (optionString_iff.2 ⟨_, hm⟩)
                · rw [hpre] at h1; exact absurd (h1.trans (List.take_prefix 2 s)) hdd
                · exact h1
              · intro he
                simp only at hpre
                have : s = n := by
                  have := List.take_append_drop 2 s
                  rw [he, List.append_nil] at this
                  rw [hpre, this]
                exact hnk (this ▸ optionString_iff.2 ⟨_, hm⟩)
              · intro he
                simp only at hpre
                obtain ⟨v', hv'⟩ : ∃ v', s.drop 2 = '=' :: v' := by
                  cases hq : s.drop 2 with
                  | nil => rw [hq] at he; simp at he
                  | cons a b => rw [hq] at he; simp at he; exact ⟨b, by rw [he]⟩
                refine hnx ⟨n, v', optionString_iff.2 ⟨_, hm⟩, ?_⟩
                rw [← hv', hpre, List.take_append_drop]

theorem convert_iff (c : Conv) (s : Str) (v : Val) : convert c s = some v ↔ Denoted c s v := by
  cases c with
  | str ch =>
    cases ch with
    | none => simp [convert, Denoted, eq_comm]
    | some l =>
      unfold convert Denoted
      by_cases hl : s ∈ l
      · simp [hl, eq_comm]
      · simp [hl]
  | int =>
    unfold convert Denoted
    cases h : intLit s with
    | ok z =>
      refine ⟨fun e => ⟨z, h, (Option.some.inj e).symm⟩, ?_⟩
      rintro ⟨z', e, rfl⟩
      rw [h] at e
      cases e
      rfl
    | error e =>
      refine ⟨fun e => (by cases e), ?_⟩
      rintro ⟨z', e, -⟩
      rw [h] at e
      cases e
  | float =>
    unfold convert Denoted
    cases h : floatLit s with
    | ok z =>
      refine ⟨fun e => ⟨z, h, (Option.some.inj e).symm⟩, ?_⟩
      rintro ⟨z', e, rfl⟩
      rw [h] at e
      cases e
      rfl
    | error e =>
      refine ⟨fun e => (by cases e), ?_⟩
      rintro ⟨z', e, -⟩
      rw [h] at e
      cases e

/-! ## The second loop on items -/

/-- The effect of an item on the state. -/
def app (st : St) : Item → St
  | .pos s =>
    match st.left with
    | [] => { st with extras := true, fresh := false }
    | d :: ds => { st with left := ds, ns := set st.ns d (.str s), fresh := true }
  | .opt o v => { st with ns := set st.ns o.dest v, fresh := false }

theorem consume_arg (p : Parser) (s : Str) (ts : List Tok) (st : St) :
    consume p (.arg s :: ts) st = consume p ts (app st (.pos s)) := by
  rw [consume]
  unfold app
  cases st.left <;> rfl

theorem consume_flag (p : Parser) {n : Str} {o : Opt} (h : o.act = .storeTrue) (ts : List Tok) (st : St) :
    consume p (.opt n (.opt o) none :: ts) st = consume p ts (app st (.opt o (.flag true))) := by
  rw [consume.eq_def]
  simp only [h]
  rfl

theorem consume_joined (p : Parser) {n : Str} {o : Opt} {c : Conv} (h : o.act = .store c) (x : Str) (ts : List Tok)
    (st : St) :
    consume p (.opt n (.opt o) (some x) :: ts) st =
      match convert c x with
      | none => .error 2
      | some v => consume p ts (app st (.opt o v)) := by
  rw [consume.eq_def]
  simp only [h]
  rfl

theorem consume_spaced (p : Parser) {n : Str} {o : Opt} {c : Conv} (h : o.act = .store c) (x : Str) (ts : List Tok)
    (st : St) :
    consume p (.opt n (.opt o) none :: .arg x :: ts) st =
      match convert c x with
      | none => .error 2
      | some v => consume p ts (app st (.opt o v)) := by
  rw [consume.eq_def]
  simp only [h]
  rfl

theorem classifyAll_cons {p : Parser} {s : Str} {t : Tok} (h : classify p s = .ok t) (hd : s ≠ dd) (rest : List Str) :
    classifyAll p (s :: rest) = (classifyAll p rest).map fun ts => t :: ts := by
  rw [classifyAll, if_neg hd, h]
  simp only
  cases classifyAll p rest <;> rfl

/-- The words of an item are read as the item. -/
theorem written_step {p : Parser} (hp : WellFormed p) {ws : List Str} {x : Item} (h : Written p ws x) :
    ∃ ts, (∀ rest, classifyAll p (ws ++ rest) = (classifyAll p rest).map fun r => ts ++ r) ∧
      ∀ ts' st, consume p (ts ++ ts') st = consume p ts' (app st x) := by
  have ddne : ∀ {w : Str} {o : Opt}, Denotes p w o → w ≠ dd := by
    rintro w o ⟨ho, hw | ⟨-, h, -⟩⟩
    · exact (key_ne_dash hp (denotes_key ho hw)).2
    · exact h
  have heqn : ∀ (w v : Str), w ++ '=' :: v ≠ dd := by
    intro w v e
    have : ('=' : Char) ∈ dd := by rw [← e]; simp
    simp [dd] at this
  /- a complete or shortened name -/
  have den : ∀ {w : Str} {o : Opt}, Denotes p w o → ∃ n, n ∈ o.names ∧ classify p w = .ok (.opt n (.opt o) none) ∧
      ∀ v, classify p (w ++ '=' :: v) = .ok (.opt n (.opt o) (some v)) := by
    rintro w o ⟨ho, hw | hw⟩
    · have hm : (w, Target.opt o) ∈ table p := mem_table.2 (Or.inr (Or.inr ⟨o, ho, hw, rfl⟩))
      exact ⟨w, hw, classify_key hp hm, fun v => classify_joined hp hm⟩
    · obtain ⟨n, hn, -, h1, h2⟩ := classify_abbrev hp ho hw
      exact ⟨n, hn, h1, h2⟩
  cases h with
  | @pos s hs =>
    obtain ⟨h1, h2⟩ := classify_value hp hs
    refine ⟨[.arg s], fun rest => ?_, fun ts' st => ?_⟩
    · rw [List.singleton_append, classifyAll_cons h1 h2]; rfl
    · rw [List.singleton_append, consume_arg]
  | @flag w o hw hact =>
    obtain ⟨n, hn, h1, -⟩ := den hw
    refine ⟨[.opt n (.opt o) none], fun rest => ?_, fun ts' st => ?_⟩
    · rw [List.singleton_append, classifyAll_cons h1 (ddne hw)]; rfl
    · rw [List.singleton_append, consume_flag p hact]
  | @spaced w o c s v hw hact hs hv =>
    obtain ⟨n, hn, h1, -⟩ := den hw
    obtain ⟨h2, h3⟩ := classify_value hp hs
    refine ⟨[.opt n (.opt o) none, .arg s], fun rest => ?_, fun ts' st => ?_⟩
    · rw [List.cons_append, List.singleton_append, classifyAll_cons h1 (ddne hw), classifyAll_cons h2 h3]
      cases classifyAll p rest <;> rfl
    · rw [List.cons_append, List.singleton_append, consume_spaced p hact, (convert_iff c s v).2 hv]
  | @joined w o c s v hw hact hv =>
    obtain ⟨n, hn, -, h1⟩ := den hw
    refine ⟨[.opt n (.opt o) (some s)], fun rest => ?_, fun ts' st => ?_⟩
    · rw [List.singleton_append, classifyAll_cons (h1 s) (heqn w s)]; rfl
    · rw [List.singleton_append, consume_joined p hact, (convert_iff c s v).2 hv]
  | @attached w o c s v ho hw hl hs he hact hv =>
    have h1 := classify_attached hp ho hw hl hs he
    have hd : w ++ s ≠ dd := by
      intro e
      have : w.length + s.length = 2 := by rw [← List.length_append, e]; rfl
      have hp2 := List.length_pos_of_ne_nil hs
      omega
    refine ⟨[.opt w (.opt o) (some s)], fun rest => ?_, fun ts' st => ?_⟩
    · rw [List.singleton_append, classifyAll_cons h1 hd]; rfl
    · rw [List.singleton_append, consume_joined p hact, (convert_iff c s v).2 hv]

theorem writtenAll_step {p : Parser} (hp : WellFormed p) {ws : List Str} {xs : List Item} (h : WrittenAll p ws xs) :
    ∃ ts, (∀ rest, classifyAll p (ws ++ rest) = (classifyAll p rest).map fun r => ts ++ r) ∧
      ∀ ts' st, consume p (ts ++ ts') st = consume p ts' (xs.foldl app st) := by
  induction h with
  | nil =>
    refine ⟨[], fun rest => ?_, fun ts' st => rfl⟩
    simp only [List.nil_append]
    cases classifyAll p rest <;> rfl
  | cons h1 _ ih =>
    obtain ⟨t1, a1, b1⟩ := written_step hp h1
    obtain ⟨t2, a2, b2⟩ := ih
    refine ⟨t1 ++ t2, fun rest => ?_, fun ts' st => ?_⟩
    · rw [List.append_assoc, a1, a2]
      cases classifyAll p rest with
      | error e => rfl
      | ok r => exact congrArg Except.ok (List.append_assoc t1 t2 r).symm
    · rw [List.append_assoc, b1, b2]
      rfl

/-! ## Reading back -/

theorem classifyAll_inv {p : Parser} {s : Str} {rest : List Str} {ts : List Tok} (hd : s ≠ dd)
    (h : classifyAll p (s :: rest) = .ok ts) :
    ∃ t r, classify p s = .ok t ∧ classifyAll p rest = .ok r ∧ ts = t :: r := by
  rw [classifyAll, if_neg hd] at h
  cases h1 : classify p s with
  | error e => rw [h1] at h; cases h
  | ok t =>
    rw [h1] at h
    simp only at h
    cases h2 : classifyAll p rest with
    | error e => rw [h2] at h; cases h
    | ok r => rw [h2] at h; cases h; exact ⟨t, r, rfl, rfl, rfl⟩

/-- Values after `--`. -/
theorem consume_args (p : Parser) (more : List Str) (st : St) (ns : Str → Val)
    (h : consume p (more.map .arg) st = .ok ns) :
    ((more.map Item.pos).foldl app st).left = [] ∧ ((more.map Item.pos).foldl app st).extras = false ∧
      ns = ((more.map Item.pos).foldl app st).ns := by
  induction more generalizing st with
  | nil =>
    rw [List.map_nil, consume] at h
    by_cases hc : st.left ≠ [] ∨ st.extras = true
    · rw [if_pos hc] at h; cases h
    · rw [if_neg hc] at h
      cases h
      push Not at hc
      exact ⟨hc.1, by simpa using hc.2, rfl⟩
  | cons s more ih =>
    rw [List.map_cons, consume_arg] at h
    exact ih _ h

theorem app_extras (st : St) (x : Item) (h : st.extras = true) : (app st x).extras = true := by
  cases x with
  | pos s =>
    unfold app
    cases hl : st.left with
    | nil => rfl
    | cons d ds => exact h
  | opt o v => exact h

/-- Once a word was not recognised, the command line is refused. -/
theorem consume_extras (p : Parser) (ts : List Tok) : ∀ (st : St), st.extras = true → ∀ ns, consume p ts st ≠ .ok ns := by
  induction h : ts.length using Nat.strong_induction_on generalizing ts with
  | _ k ih =>
    intro st hx ns hc
    cases ts with
    | nil => rw [consume, if_pos (Or.inr hx)] at hc; cases hc
    | cons t ts =>
      rw [List.length_cons] at h
      have hlt : ts.length < k := by omega
      cases t with
      | arg s =>
        rw [consume_arg] at hc
        exact ih _ hlt ts rfl _ (app_extras st _ hx) ns hc
      | unknown => rw [consume] at hc; exact ih _ hlt ts rfl _ (by exact rfl) ns hc
      | dashes =>
        rw [consume] at hc
        split at hc
        · exact ih _ hlt ts rfl _ (by exact hx) ns hc
        · exact ih _ hlt ts rfl _ (by exact rfl) ns hc
      | opt n g e =>
        cases g with
        | help =>
          rw [consume.eq_def] at hc
          cases e with
          | none => cases hc
          | some x => simp only at hc; split at hc <;> cases hc
        | opt o =>
          cases hact : o.act with
          | storeTrue =>
            cases e with
            | none => rw [consume_flag p hact] at hc; exact ih _ hlt ts rfl _ (app_extras st _ hx) ns hc
            | some x => rw [consume.eq_def] at hc; simp only [hact] at hc; cases hc
          | store c =>
            cases e with
            | some x =>
              rw [consume_joined p hact] at hc
              cases hv : convert c x with
              | none => rw [hv] at hc; cases hc
              | some v => rw [hv] at hc; exact ih _ hlt ts rfl _ (app_extras st _ hx) ns hc
            | none =>
              cases ts with
              | nil => rw [consume.eq_def] at hc; simp only [hact] at hc; cases hc
              | cons t ts =>
                cases t with
                | arg s =>
                  rw [consume_spaced p hact] at hc
                  cases hv : convert c s with
                  | none => rw [hv] at hc; cases hc
                  | some v =>
                    rw [hv] at hc
                    rw [List.length_cons] at hlt
                    exact ih _ (by omega) ts rfl _ (app_extras st _ hx) ns hc
                | unknown => rw [consume.eq_def] at hc; simp only [hact] at hc; cases hc
                | dashes => rw [consume.eq_def] at hc; simp only [hact] at hc; cases hc
                | opt _ _ _ => rw [consume.eq_def] at hc; simp only [hact] at hc; cases hc

/-- A command line that is read as items, when `fresh` tells that a positional word came just before. -/
def Reads (p : Parser) (fresh : Bool) (argv : List Str) (items : List Item) : Prop :=
  WrittenAll p argv items ∨
    ∃ front xs more, argv = front ++ dd :: more ∧ items = xs ++ more.map .pos ∧ WrittenAll p front xs ∧ dd ∉ more ∧
      (more ≠ [] ∨ (∃ s, xs.getLast? = some (.pos s)) ∨ (xs = [] ∧ fresh = true))

theorem reads_cons {p : Parser} {f f' : Bool} {ws rest : List Str} {x : Item} {xs : List Item} (h1 : Written p ws x)
    (h2 : Reads p f' rest xs) (hf : f' = true → ∃ s, x = .pos s) : Reads p f (ws ++ rest) (x :: xs) := by
  rcases h2 with h2 | ⟨front, ys, more, rfl, rfl, h2, hm, hc⟩
  · exact Or.inl (.cons h1 h2)
  · refine Or.inr ⟨ws ++ front, x :: ys, more, by rw [List.append_assoc], rfl, .cons h1 h2, hm, ?_⟩
    rcases hc with hc | ⟨s, hc⟩ | ⟨rfl, hc⟩
    · exact Or.inl hc
    · refine Or.inr (Or.inl ⟨s, ?_⟩)
      cases ys with
      | nil => simp at hc
      | cons y ys => rw [List.getLast?_cons_cons]; exact hc
    · obtain ⟨s, rfl⟩ := hf hc
      exact Or.inr (Or.inl ⟨s, rfl⟩)

/-- An accepted command line consists of items. -/
theorem consume_ok {p : Parser} (hp : WellFormed p) (argv : List Str) : ∀ (ts : List Tok) (st : St) (ns : Str → Val),
    classifyAll p argv = .ok ts → consume p ts st = .ok ns →
    ∃ items, Reads p st.fresh argv items ∧ (items.foldl app st).left = [] ∧ (items.foldl app st).extras = false ∧
      ns = (items.foldl app st).ns := by
  induction h : argv.length using Nat.strong_induction_on generalizing argv with
  | _ k ih =>
    intro ts st ns hcl hc
    cases argv with
    | nil =>
      rw [classifyAll] at hcl
      cases hcl
      exact ⟨[], Or.inl .nil, consume_args p [] st ns hc⟩
    | cons s rest =>
      rw [List.length_cons] at h
      have hlt : rest.length < k := by omega
      by_cases hd : s = dd
      · rw [classifyAll, if_pos hd] at hcl
        by_cases hm : dd ∈ rest
        · rw [if_pos hm] at hcl; cases hcl
        rw [if_neg hm] at hcl
        cases hcl
        rw [consume] at hc
        by_cases hq : st.fresh = true ∨ (st.left ≠ [] ∧ startsArg (rest.map Tok.arg) = true)
        · rw [if_pos hq] at hc
          have hz := consume_args p rest _ ns hc
          have he : ∀ f, ((rest.map Item.pos).foldl app { st with fresh := f }).left =
                ((rest.map Item.pos).foldl app st).left ∧
              ((rest.map Item.pos).foldl app { st with fresh := f }).extras =
                ((rest.map Item.pos).foldl app st).extras ∧
              ((rest.map Item.pos).foldl app { st with fresh := f }).ns =
                ((rest.map Item.pos).foldl app st).ns := by
            intro f
            cases rest with
            | nil => exact ⟨rfl, rfl, rfl⟩
            | cons a rest =>
              have : app { st with fresh := f } (.pos a) = app st (.pos a) := by
                unfold app
                cases hl : st.left <;> rfl
              rw [List.map_cons, List.foldl_cons, List.foldl_cons, this]
              exact ⟨rfl, rfl, rfl⟩
          rw [(he false).1, (he false).2.1, (he false).2.2] at hz
          refine ⟨rest.map .pos, Or.inr ⟨[], [], rest, by rw [hd]; rfl, rfl, .nil, hm, ?_⟩, hz⟩
          rcases hq with hq | ⟨-, hq⟩
          · exact Or.inr (Or.inr ⟨rfl, hq⟩)
          · left
            rintro rfl
            cases hq
        · rw [if_neg hq] at hc
          exact absurd hc (consume_extras p _ _ (by exact rfl) ns)
      · obtain ⟨t, r, h1, h2, rfl⟩ := classifyAll_inv hd hcl
        rcases classify_inv hp h1 with ⟨rfl, hv⟩ | rfl | ⟨n, e, rfl⟩ | ⟨n, o, e, rfl, hw⟩
        · rw [consume_arg] at hc
          obtain ⟨items, a, b⟩ := ih _ hlt rest rfl r _ ns h2 hc
          exact ⟨.pos s :: items, reads_cons (.pos hv) a fun _ => ⟨s, rfl⟩, b⟩
        · rw [consume] at hc
          exact absurd hc (consume_extras p _ _ (by exact rfl) ns)
        · rw [consume.eq_def] at hc
          cases e with
          | none => cases hc
          | some x => simp only at hc; split at hc <;> cases hc
        · have step : ∀ {ws : List Str} {v : Val} {argv' : List Str} {ts' : List Tok}, Written p ws (.opt o v) →
              argv'.length < k → classifyAll p argv' = .ok ts' → consume p ts' (app st (.opt o v)) = .ok ns →
              ∃ items, Reads p st.fresh (ws ++ argv') items ∧ (items.foldl app st).left = [] ∧
                (items.foldl app st).extras = false ∧ ns = (items.foldl app st).ns := by
            intro ws v argv' ts' hw' hl' hcl' hc'
            obtain ⟨items, a, b⟩ := ih _ hl' argv' rfl ts' _ ns hcl' hc'
            refine ⟨.opt o v :: items, reads_cons hw' a ?_, b⟩
            intro hf
            cases hf
          cases hact : o.act with
          | storeTrue =>
            cases e with
            | none =>
              rw [consume_flag p hact] at hc
              exact step (.flag hw hact) hlt h2 hc
            | some x => rw [consume.eq_def] at hc; simp only [hact] at hc; cases hc
          | store c =>
            cases e with
            | some x =>
              rw [consume_joined p hact] at hc
              cases hv : convert c x with
              | none => rw [hv] at hc; cases hc
              | some v =>
                rw [hv] at hc
                have hv' := (convert_iff c x v).1 hv
                rcases hw with ⟨w, rfl, hw⟩ | ⟨w, rfl, ho, hw, hl, hne, hh⟩
                · exact step (.joined hw hact hv') hlt h2 hc
                · exact step (.attached ho hw hl hne hh hact hv') hlt h2 hc
            | none =>
              cases rest with
              | nil =>
                rw [classifyAll] at h2
                cases h2
                rw [consume.eq_def] at hc; simp only [hact] at hc; cases hc
              | cons s2 rest =>
                by_cases hd2 : s2 = dd
                · rw [classifyAll, if_pos hd2] at h2
                  split at h2
                  · cases h2
                  · cases h2
                    rw [consume.eq_def] at hc; simp only [hact] at hc; cases hc
                · obtain ⟨t2, r2, h3, h4, rfl⟩ := classifyAll_inv hd2 h2
                  rcases classify_inv hp h3 with ⟨rfl, hv⟩ | rfl | ⟨n2, e2, rfl⟩ | ⟨n2, o2, e2, rfl, -⟩
                  · rw [consume_spaced p hact] at hc
                    cases hcv : convert c s2 with
                    | none => rw [hcv] at hc; cases hc
                    | some v =>
                      rw [hcv] at hc
                      rw [List.length_cons] at hlt
                      exact step (ws := [s, s2]) (.spaced hw hact hv ((convert_iff c s2 v).1 hcv)) (by omega) h4 hc
                  · rw [consume.eq_def] at hc; simp only [hact] at hc; cases hc
                  · rw [consume.eq_def] at hc; simp only [hact] at hc; cases hc
                  · rw [consume.eq_def] at hc; simp only [hact] at hc; cases hc

/-! ## The values -/

/-- The value of the last item stored as `d`. -/
def lastDest (d : Str) : List Item → Option Val
  | [] => none
  | .pos _ :: rest => lastDest d rest
  | .opt o v :: rest => (lastDest d rest).or (if o.dest = d then some v else none)

theorem positionals_append (a b : List Item) : positionalsOf (a ++ b) = positionalsOf a ++ positionalsOf b := by
  induction a with
  | nil => rfl
  | cons x a ih =>
    cases x with
    | pos s => rw [List.cons_append, positionalsOf, positionalsOf, ih]; rfl
    | opt o v => rw [List.cons_append, positionalsOf, positionalsOf, ih]

theorem app_left (items : List Item) : ∀ st : St,
    (items.foldl app st).left = st.left.drop (positionalsOf items).length ∧
      ((items.foldl app st).extras = true ↔ st.extras = true ∨ st.left.length < (positionalsOf items).length) := by
  induction items with
  | nil => intro st; simp [positionalsOf]
  | cons x items ih =>
    intro st
    rw [List.foldl_cons]
    obtain ⟨h1, h2⟩ := ih (app st x)
    rw [h1, h2]
    cases x with
    | opt o v => exact ⟨rfl, Iff.rfl⟩
    | pos s =>
      rw [positionalsOf, List.length_cons]
      unfold app
      cases hl : st.left with
      | nil => simp
      | cons d ds => simp

/-- An attribute that is no positional to be filled gets the last value of its option. -/
theorem app_ns_opt (items : List Item) (d : Str) : ∀ st : St, d ∉ st.left →
    (items.foldl app st).ns d = (lastDest d items).getD (st.ns d) := by
  induction items with
  | nil => intro st _; rfl
  | cons x items ih =>
    intro st hd
    rw [List.foldl_cons]
    cases x with
    | opt o v =>
      rw [ih (app st (.opt o v)) hd, lastDest]
      cases lastDest d items with
      | some y => rfl
      | none =>
        show set st.ns o.dest v d = _
        unfold set
        by_cases h : o.dest = d
        · rw [if_pos h.symm, if_pos h]; rfl
        · rw [if_neg (fun e => h e.symm), if_neg h]; rfl
    | pos s =>
      rw [lastDest]
      cases hl : st.left with
      | nil =>
        have happ : app st (.pos s) = { st with extras := true, fresh := false } := by
          unfold app; rw [hl]
        rw [happ, ih _ (by rw [hl]; simp)]
      | cons e ds =>
        have happ : app st (.pos s) = { st with left := ds, ns := set st.ns e (.str s), fresh := true } := by
          unfold app; rw [hl]
        rw [hl, List.mem_cons, not_or] at hd
        rw [happ, ih _ hd.2]
        simp only [set]
        rw [if_neg hd.1]

/-- A positional gets its word. -/
theorem app_ns_pos (items : List Item) (d s : Str) : ∀ (st : St) (k : Nat), st.left.Nodup →
    (∀ o v, Item.opt o v ∈ items → o.dest ∉ st.left) → st.left[k]? = some d → (positionalsOf items)[k]? = some s →
    (items.foldl app st).ns d = .str s := by
  induction items with
  | nil => intro st k _ _ _ h; simp [positionalsOf] at h
  | cons x items ih =>
    intro st k hn ho hk hs
    rw [List.foldl_cons]
    cases x with
    | opt o v =>
      exact ih (app st (.opt o v)) k hn (fun o' v' h => ho o' v' (List.mem_cons_of_mem _ h)) hk hs
    | pos w =>
      rw [positionalsOf] at hs
      cases hl : st.left with
      | nil => rw [hl] at hk; simp at hk
      | cons e ds =>
        have happ : app st (.pos w) = { st with left := ds, ns := set st.ns e (.str w), fresh := true } := by
          unfold app; rw [hl]
        rw [hl] at hk hn
        rw [List.nodup_cons] at hn
        cases k with
        | zero =>
          simp only [List.getElem?_cons_zero, Option.some.injEq] at hk hs
          subst hk hs
          rw [app_ns_opt items e _ (by rw [happ]; exact hn.1), happ]
          have : lastDest e items = none := by
            have hno : ∀ o v, Item.opt o v ∈ items → o.dest ≠ e := by
              intro o v h hh
              have := ho o v (List.mem_cons_of_mem _ h)
              rw [hl, hh] at this
              exact this (by simp)
            clear ih ho happ hn hl
            induction items with
            | nil => rfl
            | cons y items ih2 =>
              cases y with
              | pos _ => rw [lastDest]; exact ih2 fun o v h => hno o v (List.mem_cons_of_mem _ h)
              | opt o v =>
                rw [lastDest, ih2 fun o v h => hno o v (List.mem_cons_of_mem _ h),
                  if_neg (hno o v (by simp))]
                rfl
          rw [this]
          simp [set]
        | succ k =>
          simp only [List.getElem?_cons_succ] at hk hs
          rw [happ]
          refine ih _ k hn.2 ?_ hk hs
          intro o v h
          have := ho o v (List.mem_cons_of_mem _ h)
          rw [hl, List.mem_cons, not_or] at this
          exact this.2

theorem defaults_other (l : List Opt) (ns : Str → Val) (d : Str) (h : ∀ o ∈ l, o.dest ≠ d) :
    (l.foldl (fun ns o => set ns o.dest o.default) ns) d = ns d := by
  induction l generalizing ns with
  | nil => rfl
  | cons a l ih =>
    rw [List.foldl_cons, ih _ fun o ho => h o (List.mem_cons_of_mem _ ho)]
    unfold set
    rw [if_neg (h a (by simp)).symm]

theorem defaults_get (l : List Opt) (ns : Str → Val) (hn : (l.map Opt.dest).Nodup) (o : Opt) (ho : o ∈ l) :
    (l.foldl (fun ns o => set ns o.dest o.default) ns) o.dest = o.default := by
  induction l generalizing ns with
  | nil => simp at ho
  | cons a l ih =>
    rw [List.map_cons, List.nodup_cons] at hn
    rw [List.foldl_cons]
    rw [List.mem_cons] at ho
    rcases ho with rfl | ho
    · rw [defaults_other l _ _ (fun o' ho' e => hn.1 (by rw [← e]; exact List.mem_map_of_mem ho'))]
      unfold set
      rw [if_pos rfl]
    · exact ih _ hn.2 ho

theorem written_opt {p : Parser} {ws : List Str} {x : Item} (h : Written p ws x) {o : Opt} {v : Val}
    (e : x = .opt o v) : o ∈ p.options := by
  cases h with
  | pos _ => cases e
  | flag hw _ => cases e; exact hw.1
  | spaced hw _ _ _ => cases e; exact hw.1
  | joined hw _ _ => cases e; exact hw.1
  | attached ho _ _ _ _ _ _ => cases e; exact ho

theorem writtenAll_opt {p : Parser} {ws : List Str} {xs : List Item} (h : WrittenAll p ws xs) :
    ∀ o v, Item.opt o v ∈ xs → o ∈ p.options := by
  induction h with
  | nil => intro o v h; simp at h
  | cons h1 _ ih =>
    intro o v h
    rw [List.mem_cons] at h
    rcases h with h | h
    · exact written_opt h1 h.symm
    · exact ih o v h

theorem flatten_inj {l : List Opt} (h : ((l.map Opt.names).flatten).Nodup) {a b : Opt} (ha : a ∈ l) (hb : b ∈ l) {n : Str}
    (h1 : n ∈ a.names) (h2 : n ∈ b.names) : a = b := by
  induction l with
  | nil => simp at ha
  | cons c l ih =>
    rw [List.map_cons, List.flatten_cons, List.nodup_append] at h
    rw [List.mem_cons] at ha hb
    have hx : ∀ o ∈ l, n ∈ o.names → n ∈ (l.map Opt.names).flatten := fun o ho hn =>
      List.mem_flatten.2 ⟨o.names, List.mem_map_of_mem ho, hn⟩
    rcases ha with rfl | ha <;> rcases hb with rfl | hb
    · rfl
    · exact absurd rfl (h.2.2 n h1 n (hx b hb h2))
    · exact absurd rfl (h.2.2 n h2 n (hx a ha h1))
    · exact ih h.2.1 ha hb

theorem dest_inj {p : Parser} (hp : WellFormed p) {a b : Opt} (ha : a ∈ p.options) (hb : b ∈ p.options)
    (h : a.dest = b.dest) : a = b := by
  have hn := (List.nodup_append.1 hp.attrs).2.1
  exact List.inj_on_of_nodup_map hn ha hb h

theorem name_inj {p : Parser} (hp : WellFormed p) {a b : Opt} (ha : a ∈ p.options) (hb : b ∈ p.options) {n : Str}
    (h1 : n ∈ a.names) (h2 : n ∈ b.names) : a = b := by
  have := hp.names
  rw [List.nodup_cons, List.nodup_cons] at this
  exact flatten_inj this.2.2 ha hb h1 h2

theorem lastValue_dest {p : Parser} (hp : WellFormed p) {items : List Item}
    (hi : ∀ o v, Item.opt o v ∈ items → o ∈ p.options) {o : Opt} (ho : o ∈ p.options) {n : Str} (hn : n ∈ o.names) :
    lastValue n items = lastDest o.dest items := by
  induction items with
  | nil => rfl
  | cons x items ih =>
    have ih := ih fun o v h => hi o v (List.mem_cons_of_mem _ h)
    cases x with
    | pos s => rw [lastValue, lastDest, ih]
    | opt o' v =>
      rw [lastValue, lastDest, ih]
      congr 1
      have ho' := hi o' v (by simp)
      by_cases h : n ∈ o'.names
      · rw [if_pos h, if_pos (by rw [name_inj hp ho' ho h hn])]
      · rw [if_neg h, if_neg]
        intro e
        rw [dest_inj hp ho' ho e] at h
        exact h hn

theorem lastValue_mem {items : List Item} {n : Str} {v : Val} (h : lastValue n items = some v) :
    ∃ o, Item.opt o v ∈ items ∧ n ∈ o.names := by
  induction items with
  | nil => cases h
  | cons x items ih =>
    cases x with
    | pos s =>
      rw [lastValue] at h
      obtain ⟨o, h1, h2⟩ := ih h
      exact ⟨o, List.mem_cons_of_mem _ h1, h2⟩
    | opt o' v' =>
      rw [lastValue] at h
      cases e : lastValue n items with
      | some y =>
        rw [e] at h ih
        obtain ⟨o, h1, h2⟩ := ih h
        exact ⟨o, List.mem_cons_of_mem _ h1, h2⟩
      | none =>
        rw [e] at h
        by_cases hm : n ∈ o'.names
        · rw [if_pos hm] at h
          cases h
          exact ⟨o', by simp, hm⟩
        · rw [if_neg hm] at h
          cases h

/-- The value of an option has the type of the option. -/
def Typed : Act → Val → Prop
  | .storeTrue, v => v = .flag true
  | .store (.str _), v => ∃ s, v = .str s
  | .store .int, v => ∃ z, v = .int z
  | .store .float, v => ∃ q, v = .num q

theorem denoted_typed {c : Conv} {s : Str} {v : Val} (h : Denoted c s v) : Typed (.store c) v := by
  cases c with
  | str ch =>
    cases ch with
    | none => exact ⟨s, h⟩
    | some l => exact ⟨s, h.1⟩
  | int => obtain ⟨z, -, h⟩ := h; exact ⟨z, h⟩
  | float => obtain ⟨z, -, h⟩ := h; exact ⟨z, h⟩

theorem written_typed {p : Parser} {ws : List Str} {x : Item} (h : Written p ws x) {o : Opt} {v : Val}
    (e : x = .opt o v) : Typed o.act v := by
  cases h with
  | pos _ => cases e
  | flag _ ha => cases e; rw [ha]; rfl
  | spaced _ ha _ hv => cases e; rw [ha]; exact denoted_typed hv
  | joined _ ha hv => cases e; rw [ha]; exact denoted_typed hv
  | attached _ _ _ _ _ ha hv => cases e; rw [ha]; exact denoted_typed hv

theorem writtenAll_typed {p : Parser} {ws : List Str} {xs : List Item} (h : WrittenAll p ws xs) :
    ∀ o v, Item.opt o v ∈ xs → Typed o.act v := by
  induction h with
  | nil => intro o v h; simp at h
  | cons h1 _ ih =>
    intro o v h
    rw [List.mem_cons] at h
    rcases h with h | h
    · exact written_typed h1 h.symm
    · exact ih o v h

/-- The final state holds the values. -/
theorem values_of {p : Parser} (hp : WellFormed p) {items : List Item} (ho : ∀ o v, Item.opt o v ∈ items → o ∈ p.options) :
    Values p items (items.foldl app ⟨p.positionals, defaults p, false, false⟩).ns := by
  have hn := List.nodup_append.1 hp.attrs
  have hdis : ∀ o ∈ p.options, o.dest ∉ p.positionals := by
    intro o h1 h2
    exact hn.2.2 _ h2 _ (List.mem_map_of_mem h1) rfl
  constructor
  · intro k d s hk hs
    exact app_ns_pos items d s _ k hn.1 (fun o v h => hdis o (ho o v h)) hk hs
  · intro o h n hno
    rw [app_ns_opt items o.dest _ (hdis o h), lastValue_dest hp ho h hno]
    show (lastDest o.dest items).getD (defaults p o.dest) = _
    unfold defaults
    rw [defaults_get p.options _ hn.2.1 o h]

/-! ## Words that are refused -/

theorem likeOption_iff (p : Parser) (s : Str) :
    LikeOption p s ↔ ∃ x ∈ table p, s = x.1 ∨ (x.1 ++ ['=']) <+: s ∨ (x.1.length = 2 ∧ ¬ ['-', '-'] <+: s ∧ x.1 <+: s) ∨
      (['-', '-'] <+: s ∧ s.takeWhile (· ≠ '=') <+: x.1) := by
  have hv : ∀ n : Str, (∃ v, s = n ++ '=' :: v) ↔ (n ++ ['=']) <+: s := by
    intro n
    constructor
    · rintro ⟨v, rfl⟩; exact ⟨v, by simp⟩
    · rintro ⟨v, rfl⟩; exact ⟨v, by simp⟩
  unfold LikeOption
  simp only [hv]
  constructor
  · rintro ⟨n, hn, h⟩
    obtain ⟨t, ht⟩ := optionString_iff.1 hn
    exact ⟨(n, t), ht, h⟩
  · rintro ⟨⟨n, t⟩, ht, h⟩
    exact ⟨n, optionString_iff.2 ⟨t, ht⟩, h⟩

theorem classify_unknown {p : Parser} (hp : WellFormed p) {s : Str} (h0 : s.head? = some '-') (hd1 : s ≠ ['-'])
    (hno : ¬ LikeOption p s) (hn : ¬ NegativeNumber s) (hs : ' ' ∉ s) : classify p s = .ok .unknown := by
  have hnk : ¬ OptionString p s := fun hh => hno ⟨s, hh, Or.inl rfl⟩
  have hc : candidates p s = [] := by
    by_cases hdd : ['-', '-'] <+: s
    · rw [candidates_long hdd]
      apply filterMap_nil
      intro x hx hpre
      exact hno ⟨x.1, optionString_iff.2 ⟨x.2, hx⟩, Or.inr (Or.inr (Or.inr ⟨hdd, hpre⟩))⟩
    · rw [candidates_short hp h0 hd1 hdd hnk]
      apply filterMap_nil
      intro x hx hpre
      have hk := optionString_iff.2 ⟨x.2, hx⟩
      refine hno ⟨x.1, hk, Or.inr (Or.inr (Or.inl ⟨?_, hdd, hpre ▸ List.take_prefix 2 s⟩))⟩
      obtain ⟨-, -, ⟨h1, -⟩ | ⟨h1, -⟩⟩ := key_shape hp hk
      · rw [hpre] at h1; exact absurd (h1.trans (List.take_prefix 2 s)) hdd
      · exact h1
  have hx : exactEq p s = none := by
    cases e : exactEq p s with
    | none => rfl
    | some t =>
      obtain ⟨n, g, v, hn, e2, -⟩ := exactEq_inv hp e
      exact absurd ⟨n, optionString_iff.2 ⟨g, hn⟩, Or.inr (Or.inl ⟨v, e2⟩)⟩ hno
  unfold classify
  rw [if_neg (by rw [h0]; simp), lookup_of_not_key hp hnk]
  simp only
  rw [if_neg hd1, hx]
  simp only
  rw [hc]
  simp only
  rw [if_neg]
  rw [Bool.or_eq_true, negNumber_iff]
  rintro (h | h)
  · exact hn h
  · exact hs (by simpa using h)

/-- An unrecognised word makes the command line fail. -/
theorem consume_unknown (p : Parser) (ts : List Tok) : Tok.unknown ∈ ts → ∀ (st : St) ns, consume p ts st ≠ .ok ns := by
  induction h : ts.length using Nat.strong_induction_on generalizing ts with
  | _ k ih =>
    intro hu st ns hc
    cases ts with
    | nil => simp at hu
    | cons t ts =>
      rw [List.length_cons] at h
      have hlt : ts.length < k := by omega
      rw [List.mem_cons] at hu
      cases t with
      | arg s =>
        rw [consume_arg] at hc
        rcases hu with hu | hu
        · cases hu
        · exact ih _ hlt ts rfl hu _ ns hc
      | unknown => rw [consume] at hc; exact consume_extras p ts _ (by exact rfl) ns hc
      | dashes =>
        rcases hu with hu | hu
        · cases hu
        rw [consume] at hc
        split at hc
        · exact ih _ hlt ts rfl hu _ ns hc
        · exact ih _ hlt ts rfl hu _ ns hc
      | opt n g e =>
        rcases hu with hu | hu
        · cases hu
        cases g with
        | help =>
          rw [consume.eq_def] at hc
          cases e with
          | none => cases hc
          | some x => simp only at hc; split at hc <;> cases hc
        | opt o =>
          cases hact : o.act with
          | storeTrue =>
            cases e with
            | none => rw [consume_flag p hact] at hc; exact ih _ hlt ts rfl hu _ ns hc
            | some x => rw [consume.eq_def] at hc; simp only [hact] at hc; cases hc
          | store c =>
            cases e with
            | some x =>
              rw [consume_joined p hact] at hc
              cases hv : convert c x with
              | none => rw [hv] at hc; cases hc
              | some v => rw [hv] at hc; exact ih _ hlt ts rfl hu _ ns hc
            | none =>
              cases ts with
              | nil => simp at hu
              | cons t ts =>
                cases t with
                | arg s =>
                  rw [consume_spaced p hact] at hc
                  rw [List.mem_cons] at hu
                  rcases hu with hu | hu
                  · cases hu
                  cases hv : convert c s with
                  | none => rw [hv] at hc; cases hc
                  | some v =>
                    rw [hv] at hc
                    rw [List.length_cons] at hlt
                    exact ih _ (by omega) ts rfl hu _ ns hc
                | unknown => rw [consume.eq_def] at hc; simp only [hact] at hc; cases hc
                | dashes => rw [consume.eq_def] at hc; simp only [hact] at hc; cases hc
                | opt _ _ _ => rw [consume.eq_def] at hc; simp only [hact] at hc; cases hc

theorem classify_error {p : Parser} {s : Str} {e : Nat} (h : classify p s = .error e) : e = 2 := by
  unfold classify at h
  split at h
  · cases h
  · split at h
    · cases h
    · split at h
      · cases h
      · split at h
        · cases h
        · split at h
          · split at h <;> cases h
          · cases h
          · cases h; rfl

theorem classifyAll_error {p : Parser} {argv : List Str} {e : Nat} (h : classifyAll p argv = .error e) : e = 2 := by
  induction argv with
  | nil => cases h
  | cons s rest ih =>
    rw [classifyAll] at h
    split at h
    · split at h
      · cases h; rfl
      · cases h
    · cases h1 : classify p s with
      | error e' => rw [h1] at h; cases h; exact classify_error h1
      | ok t =>
        rw [h1] at h
        simp only at h
        cases h2 : classifyAll p rest with
        | error e' => rw [h2] at h; cases h; exact ih h2
        | ok r => rw [h2] at h; cases h

/-- The words before `--` are classified one by one. -/
theorem classifyAll_mem {p : Parser} {argv : List Str} {ts : List Tok} (h : classifyAll p argv = .ok ts) {w : Str}
    (hw : w ∈ argv.takeWhile (· ≠ dd)) : ∃ t ∈ ts, classify p w = .ok t := by
  induction argv generalizing ts with
  | nil => simp at hw
  | cons s rest ih =>
    by_cases hd : s = dd
    · subst hd
      rw [List.takeWhile_cons_of_neg (by simp)] at hw
      simp at hw
    · obtain ⟨t, r, h1, h2, rfl⟩ := classifyAll_inv hd h
      rw [List.takeWhile_cons_of_pos (by simp [hd]), List.mem_cons] at hw
      rcases hw with rfl | hw
      · exact ⟨t, by simp, h1⟩
      · obtain ⟨t', ht, h3⟩ := ih h2 hw
        exact ⟨t', List.mem_cons_of_mem _ ht, h3⟩

theorem filterMap_two {α β : Type} {P : α → Prop} [DecidablePred P] {g : α → β} {l : List α} {x y : α} (hx : x ∈ l)
    (hy : y ∈ l) (hne : x ≠ y) (hPx : P x) (hPy : P y) :
    ∃ a b r, (l.filterMap fun x => if P x then some (g x) else none) = a :: b :: r := by
  cases h : l.filterMap fun x => if P x then some (g x) else none with
  | nil => exact absurd hPx (filterMap_none h x hx)
  | cons a r =>
    cases r with
    | cons b r => exact ⟨a, b, r, rfl⟩
    | nil =>
      obtain ⟨z, -, -, -, hu⟩ := filterMap_one h
      exact absurd ((hu x hx hPx).trans (hu y hy hPy).symm) hne

/-- A prefix of two option strings. -/
theorem classify_ambiguous {p : Parser} (hp : WellFormed p) {w m n : Str} (hd : ['-', '-'] <+: w) (heq : '=' ∉ w)
    (hk : ¬ OptionString p w) (hm : OptionString p m) (hn : OptionString p n) (hne : m ≠ n) (h1 : w <+: m)
    (h2 : w <+: n) : classify p w = .error 2 := by
  obtain ⟨hh1, hh2⟩ := head_of_dd hd
  obtain ⟨t1, ht1⟩ := optionString_iff.1 hm
  obtain ⟨t2, ht2⟩ := optionString_iff.1 hn
  unfold classify
  rw [if_neg (by rw [hh1]; simp), lookup_of_not_key hp hk]
  simp only
  rw [if_neg hh2]
  have : exactEq p w = none := by
    unfold exactEq; rw [split_no_eq heq]
  rw [this]
  simp only
  rw [candidates_long hd, take_no_eq heq]
  obtain ⟨a, b, r, e⟩ := filterMap_two (P := fun x : Str × Target => w <+: x.1)
    (g := fun x => Tok.opt x.1 x.2 (splitFirst (· = '=') w).2) ht1 ht2
    (fun e => hne (congrArg Prod.fst e)) h1 h2
  rw [e]

/-- All exit statuses of the second loop. -/
theorem clusterExit_le (p : Parser) (b : Bool) (s : Str) : clusterExit p b s ≤ 2 := by
  induction s with
  | nil => rw [clusterExit]; omega
  | cons c s ih =>
    rw [clusterExit]
    split
    · omega
    · split <;> omega
    · split
      · split <;> omega
      · split <;> omega

theorem consume_error (p : Parser) (ts : List Tok) : ∀ (st : St) e, consume p ts st = .error e → e ≤ 2 := by
  induction h : ts.length using Nat.strong_induction_on generalizing ts with
  | _ k ih =>
    intro st e hc
    cases ts with
    | nil =>
      rw [consume] at hc
      split at hc
      · cases hc; exact le_refl 2
      · cases hc
    | cons t ts =>
      rw [List.length_cons] at h
      have hlt : ts.length < k := by omega
      cases t with
      | arg s => rw [consume_arg] at hc; exact ih _ hlt ts rfl _ e hc
      | unknown => rw [consume] at hc; exact ih _ hlt ts rfl _ e hc
      | dashes =>
        rw [consume] at hc
        split at hc
        · exact ih _ hlt ts rfl _ e hc
        · exact ih _ hlt ts rfl _ e hc
      | opt n g x =>
        cases g with
        | help =>
          rw [consume.eq_def] at hc
          cases x with
          | none => cases hc; omega
          | some x =>
            simp only at hc
            split at hc
            · cases hc; omega
            · cases hc; exact clusterExit_le p _ x
        | opt o =>
          cases hact : o.act with
          | storeTrue =>
            cases x with
            | none => rw [consume_flag p hact] at hc; exact ih _ hlt ts rfl _ e hc
            | some x => rw [consume.eq_def] at hc; simp only [hact] at hc; cases hc; omega
          | store c =>
            cases x with
            | some x =>
              rw [consume_joined p hact] at hc
              cases hv : convert c x with
              | none => rw [hv] at hc; cases hc; omega
              | some v => rw [hv] at hc; exact ih _ hlt ts rfl _ e hc
            | none =>
              cases ts with
              | nil => rw [consume.eq_def] at hc; simp only [hact] at hc; cases hc; omega
              | cons t ts =>
                cases t with
                | arg s =>
                  rw [consume_spaced p hact] at hc
                  cases hv : convert c s with
                  | none => rw [hv] at hc; cases hc; omega
                  | some v =>
                    rw [hv] at hc
                    rw [List.length_cons] at hlt
                    exact ih _ (by omega) ts rfl _ e hc
                | unknown => rw [consume.eq_def] at hc; simp only [hact] at hc; cases hc; omega
                | dashes => rw [consume.eq_def] at hc; simp only [hact] at hc; cases hc; omega
                | opt _ _ _ => rw [consume.eq_def] at hc; simp only [hact] at hc; cases hc; omega

/-- The words after `--`. -/
theorem consume_args_eq (p : Parser) (more : List Str) : ∀ st : St,
    consume p (more.map .arg) st =
      if ((more.map Item.pos).foldl app st).left ≠ [] ∨ ((more.map Item.pos).foldl app st).extras = true then .error 2
      else .ok ((more.map Item.pos).foldl app st).ns := by
  induction more with
  | nil => intro st; rw [List.map_nil, consume]; rfl
  | cons s more ih =>
    intro st
    rw [List.map_cons, consume_arg, ih]
    rfl

/-- `--` after items. -/
theorem consume_dashes (p : Parser) (more : List Str) (st : St) (h : more ≠ [] ∨ st.fresh = true) :
    consume p (.dashes :: more.map .arg) st = consume p (more.map .arg) st := by
  rw [consume]
  have hf : ∀ (st : St) (f : Bool), consume p (more.map Tok.arg) { st with fresh := f } = consume p (more.map .arg) st := by
    intro st f
    cases more with
    | nil => rfl
    | cons a more =>
      rw [List.map_cons, consume_arg, consume_arg]
      congr 1
  by_cases hq : st.fresh = true ∨ (st.left ≠ [] ∧ startsArg (more.map Tok.arg) = true)
  · rw [if_pos hq, hf]
  · rw [if_neg hq]
    push Not at hq
    rcases h with h | h
    · cases more with
      | nil => exact absurd rfl h
      | cons a more =>
        have hl : st.left = [] := by
          by_contra hne
          exact hq.2 hne rfl
        rw [List.map_cons, consume_arg, consume_arg]
        congr 1
        unfold app
        rw [hl]
    · exact absurd h hq.1

theorem app_pos_fresh (st : St) (s : Str) (h : (app st (.pos s)).extras = false) : (app st (.pos s)).fresh = true := by
  unfold app at h ⊢
  cases hl : st.left with
  | nil => simp only [hl] at h; cases h
  | cons d ds => rfl

theorem fresh_of_last {items : List Item} {s : Str} (h : items.getLast? = some (.pos s)) (st : St)
    (hx : (items.foldl app st).extras = false) : (items.foldl app st).fresh = true := by
  obtain ⟨l, rfl⟩ : ∃ l, items = l ++ [.pos s] := by
    rw [List.getLast?_eq_some_iff] at h
    exact h
  rw [List.foldl_append] at hx ⊢
  exact app_pos_fresh _ s hx

end EdgeEval.Argparse
