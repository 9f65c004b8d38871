import Verif.Spec.Path
import Mathlib.Tactic.IntervalCases

/-!
# C51: directory scans and directory creation (`utils/path.py`)
-/

namespace EdgeEval.Props

open Spec Text PathU Samples

theorem slashed_cons (a : Str) (p : List Str) (hp : p ≠ []) : slashed (a :: p) = a ++ '/' :: slashed p := by
  cases p with
  | nil => exact absurd rfl hp
  | cons b p => rfl

theorem fileAt_ne_nil {es : Entries} {p : List Str} (h : FileAt es p) : p ≠ [] := by
  induction h <;> simp_all

mutual
theorem mem_scanEntries (keep : Str → Bool) (r : Bool) (pre : Str) : ∀ (es : Entries) (s : Str),
    s ∈ scanEntries keep r pre es ↔ ∃ p, FileAt es p ∧ s = pre ++ slashed p ∧ keep s = true ∧ Visible p ∧
      (r = true ∨ p.length = 1)
  | .nil, s => by
    simp only [scanEntries, List.not_mem_nil, false_iff]
    rintro ⟨p, h, -⟩
    cases h
  | .cons name n rest, s => by
    simp only [scanEntries, List.mem_append]
    rw [mem_scanEntries keep r pre rest s, mem_scanNode keep r pre name n rest s]
    constructor
    · rintro (⟨p, h1, -, h2⟩ | ⟨p, h1, h2⟩)
      · exact ⟨p, h1, h2⟩
      · exact ⟨p, .later _ _ _ _ h1, h2⟩
    · rintro ⟨p, h1, h2⟩
      cases h1 with
      | here => exact Or.inl ⟨_, .here _ _, Or.inl ⟨rfl, rfl⟩, h2⟩
      | inside _ es _ q hq => exact Or.inl ⟨_, .inside _ _ _ _ hq, Or.inr ⟨es, q, rfl, hq, rfl⟩, h2⟩
      | later _ _ _ _ h => exact Or.inr ⟨p, h, h2⟩
theorem mem_scanNode (keep : Str → Bool) (r : Bool) (pre name : Str) : ∀ (n : Node) (rest : Entries) (s : Str),
    s ∈ scanNode keep r pre name n ↔ ∃ p, FileAt (.cons name n rest) p ∧
      ((n = .file ∧ p = [name]) ∨ ∃ es q, n = .dir es ∧ FileAt es q ∧ p = name :: q) ∧
      s = pre ++ slashed p ∧ keep s = true ∧ Visible p ∧ (r = true ∨ p.length = 1)
  | .file, rest, s => by
    simp only [scanNode]
    constructor
    · intro h
      split at h
      · simp at h
      · rename_i hh
        split at h
        · rename_i hk
          rw [List.mem_singleton] at h
          subst h
          refine ⟨[name], .here _ _, Or.inl ⟨trivial, rfl⟩, rfl, hk, ⟨name, rfl, ?_⟩, Or.inr rfl⟩
          simpa [PathU.hidden] using hh
        · simp at h
    · rintro ⟨p, -, h | ⟨es, q, h, -⟩, rfl, hk, ⟨nm, h1, h2⟩, -⟩
      · obtain ⟨-, rfl⟩ := h
        simp only [List.getLast?_singleton, Option.mem_def, Option.some.injEq] at h1
        subst h1
        simp only [slashed] at hk ⊢
        rw [if_neg (by simpa [PathU.hidden] using h2), if_pos hk]
        simp
      · cases h
  | .other, rest, s => by
    simp only [scanNode, List.not_mem_nil, false_iff]
    rintro ⟨p, -, ⟨h, -⟩ | ⟨es, q, h, -⟩, -⟩ <;> cases h
  | .dir es, rest, s => by
    simp only [scanNode]
    constructor
    · intro h
      split at h
      · rename_i hr
        rw [mem_scanEntries keep r _ es s] at h
        obtain ⟨q, h1, h2, h3, ⟨nm, h4, h5⟩, -⟩ := h
        have hq := fileAt_ne_nil h1
        refine ⟨name :: q, .inside _ _ _ _ h1, Or.inr ⟨es, q, rfl, h1, rfl⟩, ?_, h3, ⟨nm, ?_, h5⟩, Or.inl hr⟩
        · rw [h2, slashed_cons _ _ hq]; simp
        · obtain ⟨b, q', rfl⟩ := List.exists_cons_of_ne_nil hq
          rw [List.getLast?_cons_cons]; exact h4
      · simp at h
    · rintro ⟨p, -, ⟨h, -⟩ | ⟨es', q, h, hq, rfl⟩, rfl, hk, ⟨nm, h1, h2⟩, hr⟩
      · cases h
      · cases h
        have hne := fileAt_ne_nil hq
        have hlen : (name :: q).length ≠ 1 := by
          have := List.length_pos_of_ne_nil hne
          simp only [List.length_cons]; omega
        have hr : r = true := hr.resolve_right hlen
        rw [if_pos hr, mem_scanEntries keep r _ _]
        refine ⟨q, hq, ?_, hk, ⟨nm, ?_, h2⟩, Or.inl hr⟩
        · rw [slashed_cons _ _ hne]; simp
        · obtain ⟨b, q', rfl⟩ := List.exists_cons_of_ne_nil hne
          rw [List.getLast?_cons_cons] at h1; exact h1
end

theorem lower_eq (s : Str) : lower s = s.map Char.toLower := by
  unfold lower
  apply List.map_congr_left
  intro c _
  by_cases h : 65 ≤ c.toNat ∧ c.toNat ≤ 90
  · rw [if_pos h]
    obtain ⟨n, hn⟩ : ∃ n, n = c.toNat := ⟨_, rfl⟩
    have hc : c = Char.ofNat n := by rw [hn, Char.ofNat_toNat]
    rw [← hn] at h ⊢
    rw [hc]
    obtain ⟨h1, h2⟩ := h
    clear hn hc
    interval_cases n <;> decide
  · rw [if_neg h]
    unfold Char.toLower
    rw [dif_neg]
    rintro ⟨h1, h2⟩
    apply h
    constructor
    · have : (65 : UInt32) ≤ c.val := h1
      rw [UInt32.le_iff_toNat_le] at this; exact this
    · have : c.val ≤ (90 : UInt32) := h2
      rw [UInt32.le_iff_toNat_le] at this; exact this

theorem wanted_iff (case_ : Bool) (l : List Str) (s : Str) :
    wanted case_ (some (if case_ then l else l.map lower)) s = true ↔ ∃ sfx ∈ l, EndsWith (!case_) s sfx := by
  cases case_ with
  | true =>
    simp only [wanted, if_true, List.any_eq_true, List.isSuffixOf_iff_suffix, EndsWith, Bool.not_true,
      Bool.false_eq_true, if_false]
    constructor
    · rintro ⟨x, h1, a, h2⟩; exact ⟨x, h1, a, x, h2.symm, rfl⟩
    · rintro ⟨x, h1, a, b, h2, rfl⟩; exact ⟨_, h1, a, h2.symm⟩
  | false =>
    simp only [wanted, Bool.false_eq_true, if_false, List.any_eq_true, List.isSuffixOf_iff_suffix, EndsWith,
      Bool.not_false, if_true, List.mem_map, lowerEq, lower_eq]
    constructor
    · rintro ⟨_, ⟨x, h1, rfl⟩, a, h2⟩
      obtain ⟨a', b', h3, h4, h5⟩ := List.map_eq_append_iff.1 h2.symm
      exact ⟨x, h1, a', b', h3, h5⟩
    · rintro ⟨x, h1, a, b, rfl, h2⟩
      exact ⟨_, ⟨x, h1, rfl⟩, a.map Char.toLower, by rw [List.map_append, h2]⟩

/-- C51: `scandir(path, suffix)` yields exactly the paths (relative to the root, with slashes) of the regular files
whose own name does not start with a dot and whose path ends with the suffix (or one of the suffixes of a tuple; up to
case when asked), directly in the directory or, with `recursive`, anywhere below it. -/
theorem C51_scandir_exact (tree : Str → Option Entries) (root : Str) (es : Entries) (hroot : tree root = some es)
    (sfx : SuffixArg) (l : List Str) (hs : sfx = .tuple l ∨ ∃ x, sfx = .str x ∧ l = [x]) (recursive case_ : Bool) :
    ∃ out, scandir tree (.path root) sfx recursive case_ = .ok out ∧
      ∀ s, s ∈ out ↔ ∃ p, FileAt es p ∧ s = slashed p ∧ Visible p ∧ (recursive = true ∨ p.length = 1) ∧
        ∃ x ∈ l, EndsWith (!case_) s x := by
  have hsfx : suffixes case_ sfx = .ok (some (if case_ then l else l.map lower)) := by
    rcases hs with rfl | ⟨x, rfl, rfl⟩
    · rfl
    · cases case_ <;> rfl
  refine ⟨_, by unfold scandir; simp only [hsfx, hroot]; rfl, ?_⟩
  intro s
  rw [mem_scanEntries]
  simp only [wanted_iff, List.nil_append]
  constructor
  · rintro ⟨p, h1, h2, h3, h4, h5⟩; exact ⟨p, h1, h2, h4, h5, h3⟩
  · rintro ⟨p, h1, h2, h4, h5, h3⟩; exact ⟨p, h1, h2, h3, h4, h5⟩

/-- C51: without a suffix every visible file is listed. -/
theorem C51_scandir_all (tree : Str → Option Entries) (root : Str) (es : Entries) (hroot : tree root = some es)
    (recursive case_ : Bool) :
    ∃ out, scandir tree (.path root) .none recursive case_ = .ok out ∧
      ∀ s, s ∈ out ↔ ∃ p, FileAt es p ∧ s = slashed p ∧ Visible p ∧ (recursive = true ∨ p.length = 1) := by
  refine ⟨_, by unfold scandir; simp only [suffixes, hroot]; rfl, ?_⟩
  intro s
  rw [mem_scanEntries]
  simp only [wanted, List.nil_append, true_and]

/-- C51: what is refused: a `dir_path` that is not a path, a suffix that is neither a string nor a tuple (both before
anything is read), a missing directory. -/
theorem C51_scandir_refuses (tree : Str → Option Entries) (sfx : SuffixArg) (recursive case_ : Bool) (root : Str) :
    scandir tree .other sfx recursive case_ = .error .typeError ∧
    scandir tree (.path root) .other recursive case_ = .error .typeError ∧
    (sfx ≠ .other → tree root = none → scandir tree (.path root) sfx recursive case_ = .error .fileNotFoundError) := by
  refine ⟨rfl, rfl, ?_⟩
  intro h1 h2
  cases sfx <;> simp_all [scandir, suffixes]

/-- The text of a name followed by nothing or by a slash determines the name. -/
theorem name_unique {a b t t' : Str} (ha : '/' ∉ a) (hb : '/' ∉ b) (ht : t = [] ∨ t.head? = some '/')
    (ht' : t' = [] ∨ t'.head? = some '/') (h : a ++ t = b ++ t') : a = b := by
  induction a generalizing b with
  | nil =>
    cases b with
    | nil => rfl
    | cons c b =>
      exfalso
      simp only [List.nil_append, List.cons_append] at h
      subst h
      simp only [List.cons_ne_nil, List.head?_cons, Option.some.injEq, false_or] at ht
      subst ht
      simp at hb
  | cons c a ih =>
    cases b with
    | nil =>
      exfalso
      simp only [List.nil_append, List.cons_append] at h
      subst h
      simp only [List.cons_ne_nil, List.head?_cons, Option.some.injEq, false_or] at ht'
      subst ht'
      simp at ha
    | cons d b =>
      simp only [List.cons_append, List.cons.injEq] at h
      obtain ⟨rfl, h⟩ := h
      rw [ih (fun h => ha (List.mem_cons_of_mem _ h)) (fun h => hb (List.mem_cons_of_mem _ h)) h]

theorem scanNode_prefix (keep : Str → Bool) (r : Bool) (pre name : Str) (n : Node) (s : Str)
    (h : s ∈ scanNode keep r pre name n) : ∃ t, s = pre ++ (name ++ t) ∧ (t = [] ∨ t.head? = some '/') := by
  obtain ⟨p, -, hp, h2, -⟩ := (mem_scanNode keep r pre name n .nil s).1 h
  rcases hp with ⟨-, rfl⟩ | ⟨es, q, -, hq, rfl⟩
  · exact ⟨[], by simpa [slashed] using h2, Or.inl rfl⟩
  · exact ⟨'/' :: slashed q, by rw [h2, slashed_cons _ _ (fileAt_ne_nil hq)], Or.inr rfl⟩

theorem scanEntries_prefix (keep : Str → Bool) (r : Bool) (pre : Str) : ∀ (es : Entries) (s : Str),
    s ∈ scanEntries keep r pre es → ∃ name ∈ names es, ∃ t, s = pre ++ (name ++ t) ∧ (t = [] ∨ t.head? = some '/')
  | .nil, s, h => by simp [scanEntries] at h
  | .cons name n rest, s, h => by
    simp only [scanEntries, List.mem_append] at h
    rcases h with h | h
    · obtain ⟨t, h1, h2⟩ := scanNode_prefix keep r pre name n s h
      exact ⟨name, by simp [names], t, h1, h2⟩
    · obtain ⟨nm, h0, t, h1, h2⟩ := scanEntries_prefix keep r pre rest s h
      exact ⟨nm, by simp [names, h0], t, h1, h2⟩

theorem slash_names : ∀ (es : Entries), WellNamed es → ∀ name ∈ names es, '/' ∉ name
  | .nil, _, name, h => by simp [names] at h
  | .cons nm n rest, hw, name, h => by
    simp only [names, List.mem_cons] at h
    simp only [WellNamed] at hw
    rcases h with rfl | h
    · exact hw.1
    · exact slash_names rest hw.2.2.2 name h

mutual
theorem nodup_scanEntries (keep : Str → Bool) (r : Bool) (pre : Str) : ∀ (es : Entries), WellNamed es →
    (scanEntries keep r pre es).Nodup
  | .nil, _ => by simp [scanEntries]
  | .cons name n rest, hw => by
    simp only [WellNamed] at hw
    simp only [scanEntries]
    refine List.nodup_append.2 ⟨nodup_scanNode keep r pre name n hw.2.2.1, nodup_scanEntries keep r pre rest hw.2.2.2, ?_⟩
    intro a ha b hb hab
    subst hab
    obtain ⟨t, h1, h2⟩ := scanNode_prefix keep r pre name n a ha
    obtain ⟨nm, h0, t', h3, h4⟩ := scanEntries_prefix keep r pre rest a hb
    rw [h1] at h3
    have := name_unique hw.1 (slash_names rest hw.2.2.2 nm h0) h2 h4 (List.append_cancel_left h3)
    subst this
    exact hw.2.1 h0
theorem nodup_scanNode (keep : Str → Bool) (r : Bool) (pre name : Str) : ∀ (n : Node), WellNamedNode n →
    (scanNode keep r pre name n).Nodup
  | .file, _ => by
    simp only [scanNode]
    split
    · simp
    · split <;> simp
  | .other, _ => by simp [scanNode]
  | .dir es, hw => by
    simp only [WellNamedNode] at hw
    simp only [scanNode]
    split
    · exact nodup_scanEntries keep r _ es hw
    · simp
end

/-- C51: no file is yielded twice. -/
theorem C51_scandir_once (tree : Str → Option Entries) (root : Str) (es : Entries) (hroot : tree root = some es)
    (hw : WellNamed es) (sfx : SuffixArg) (recursive case_ : Bool) (out : List Str)
    (h : scandir tree (.path root) sfx recursive case_ = .ok out) : out.Nodup := by
  unfold scandir at h
  cases hs : suffixes case_ sfx with
  | error e => simp [hs] at h
  | ok s =>
    simp only [hs, hroot, Except.ok.injEq] at h
    subst h
    exact nodup_scanEntries _ _ _ es hw

/-- C51 (finding): hidden files are skipped but hidden directories are entered, and the suffix is compared with the
whole relative path, so it can reach across a directory name. -/
theorem C51_hidden_directory_entered (name dirName : Str) (_hidden : dirName.head? = some '.')
    (hn : name.head? ≠ some '.') (tree : Str → Option Entries) (root : Str)
    (hroot : tree root = some (.cons dirName (.dir (.cons name .file .nil)) .nil)) :
    scandir tree (.path root) (.str (dirName ++ '/' :: name)) true true = .ok [dirName ++ '/' :: name] ∧
    scandir tree (.path root) .none true true = .ok [dirName ++ '/' :: name] := by
  have hh : PathU.hidden name = false := by simpa [PathU.hidden] using hn
  constructor
  · simp [scandir, suffixes, hroot, scanEntries, scanNode, hh, wanted, List.isSuffixOf_iff_suffix]
  · simp [scandir, suffixes, hroot, scanEntries, scanNode, hh, wanted]

/-- C51: creating a directory makes it and all its ancestors directories and changes nothing else; it succeeds exactly
when none of them is something else already. -/
theorem makedirs_spec (p : List Str) : ∀ (d : Disk) (done : List Str),
    ((∀ q, q ≠ [] → q <+: p → d (done ++ q) ≠ some .file ∧ d (done ++ q) ≠ some .link) →
      ∃ d', makedirs d done p = .ok d' ∧
        (∀ q, q ≠ [] → q <+: p → d' (done ++ q) = some .dir) ∧
        (∀ x, (¬ ∃ q, q ≠ [] ∧ q <+: p ∧ x = done ++ q) → d' x = d x)) ∧
    ((∃ q, q ≠ [] ∧ q <+: p ∧ (d (done ++ q) = some .file ∨ d (done ++ q) = some .link)) →
      makedirs d done p = .error .oserror) := by
  induction p with
  | nil =>
    intro d done
    constructor
    · intro _
      refine ⟨d, rfl, ?_, fun _ _ => rfl⟩
      intro q hq h
      exact absurd (List.prefix_nil.1 h) hq
    · rintro ⟨q, hq, h, -⟩
      exact absurd (List.prefix_nil.1 h) hq
  | cons c cs ih =>
    intro d done
    have pre : ∀ q : List Str, q ≠ [] → q <+: c :: cs → ∃ q', q = c :: q' ∧ q' <+: cs := by
      intro q hq h
      obtain ⟨a, q', rfl⟩ := List.exists_cons_of_ne_nil hq
      obtain ⟨t, ht⟩ := h
      simp only [List.cons_append, List.cons.injEq] at ht
      exact ⟨q', by rw [ht.1], t, ht.2⟩
    have hone : ([c] : List Str) <+: c :: cs := ⟨cs, rfl⟩
    have happ : ∀ q' : List Str, done ++ (c :: q') = (done ++ [c]) ++ q' := by intro q'; simp
    -- the disk the recursion continues with
    have step : ∀ d1 : Disk, (∀ x, x ≠ done ++ [c] → d1 x = d x) → d1 (done ++ [c]) = some .dir →
        makedirs d done (c :: cs) = makedirs d1 (done ++ [c]) cs →
        ((∀ q, q ≠ [] → q <+: c :: cs → d (done ++ q) ≠ some .file ∧ d (done ++ q) ≠ some .link) →
          ∃ d', makedirs d done (c :: cs) = .ok d' ∧
            (∀ q, q ≠ [] → q <+: c :: cs → d' (done ++ q) = some .dir) ∧
            (∀ x, (¬ ∃ q, q ≠ [] ∧ q <+: c :: cs ∧ x = done ++ q) → d' x = d x)) ∧
        ((∃ q, q ≠ [] ∧ q <+: cs ∧ (d (done ++ (c :: q)) = some .file ∨ d (done ++ (c :: q)) = some .link)) →
          makedirs d done (c :: cs) = .error .oserror) := by
      intro d1 hd1 hd1c hrun
      have hne : ∀ q : List Str, q ≠ [] → (done ++ [c]) ++ q ≠ done ++ [c] := by
        intro q hq h
        exact hq (by simpa using h)
      constructor
      · intro hall
        obtain ⟨d', h1, h2, h3⟩ := (ih d1 (done ++ [c])).1 (by
          intro q hq hp
          rw [hd1 _ (hne q hq), ← happ]
          exact hall _ (by simp) (by obtain ⟨t, ht⟩ := hp; exact ⟨t, by rw [← ht, List.cons_append]⟩))
        refine ⟨d', by rw [hrun, h1], ?_, ?_⟩
        · intro q hq hp
          obtain ⟨q', rfl, hp'⟩ := pre q hq hp
          rw [happ]
          by_cases hq' : q' = []
          · subst hq'
            rw [List.append_nil, h3, hd1c]
            rintro ⟨q, hq, -, h⟩
            exact hne q hq h.symm
          · exact h2 q' hq' hp'
        · intro x hx
          have hxc : x ≠ done ++ [c] := by rintro rfl; exact hx ⟨[c], by simp, hone, rfl⟩
          rw [h3 x, hd1 x hxc]
          rintro ⟨q, hq, ⟨t, ht⟩, rfl⟩
          exact hx ⟨c :: q, by simp, ⟨t, by rw [← ht, List.cons_append]⟩, by simp⟩
      · rintro ⟨q, hq, hp, h⟩
        rw [hrun]
        refine (ih d1 (done ++ [c])).2 ⟨q, hq, hp, ?_⟩
        rw [hd1 _ (hne q hq), ← happ]
        exact h
    constructor
    · intro hall
      have hc := hall [c] (by simp) hone
      cases hdc : d (done ++ [c]) with
      | none =>
        refine (step (put d (done ++ [c]) (some .dir)) ?_ ?_ ?_).1 hall
        · intro x hx; unfold put; rw [if_neg hx]
        · unfold put; rw [if_pos rfl]
        · simp only [makedirs, hdc]
      | some k =>
        cases k with
        | dir => exact (step d (fun _ _ => rfl) hdc (by simp only [makedirs, hdc])).1 hall
        | file => exact absurd hdc hc.1
        | link => exact absurd hdc hc.2
    · rintro ⟨q, hq, hp, h⟩
      obtain ⟨q', rfl, hp'⟩ := pre q hq hp
      cases hdc : d (done ++ [c]) with
      | some k =>
        cases k with
        | file => simp only [makedirs, hdc]
        | link => simp only [makedirs, hdc]
        | dir =>
          by_cases hq' : q' = []
          · subst hq'; rw [hdc] at h; simp at h
          · exact (step d (fun _ _ => rfl) hdc (by simp only [makedirs, hdc])).2 ⟨q', hq', hp', h⟩
      | none =>
        by_cases hq' : q' = []
        · subst hq'; rw [hdc] at h; simp at h
        · refine (step (put d (done ++ [c]) (some .dir)) ?_ ?_ ?_).2 ⟨q', hq', hp', h⟩
          · intro x hx; unfold put; rw [if_neg hx]
          · unfold put; rw [if_pos rfl]
          · simp only [makedirs, hdc]

/-- C51: `mkdir_or_exist(path)` succeeds exactly when neither the path nor one of its ancestors is something other
than a directory; then they are all directories, every other path is as before, and a second call changes nothing.
`mkdir_or_exist("")` does nothing. -/
theorem C51_mkdir (d : Disk) (p : List Str) :
    mkdirOrExist d none = .ok d ∧
    ((∀ q, q ≠ [] → q <+: p → d q ≠ some .file ∧ d q ≠ some .link) →
      ∃ d', mkdirOrExist d (some p) = .ok d' ∧ (∀ q, q ≠ [] → q <+: p → d' q = some .dir) ∧
        (∀ x, (x = [] ∨ ¬ x <+: p) → d' x = d x) ∧ mkdirOrExist d' (some p) = .ok d') ∧
    ((∃ q, q ≠ [] ∧ q <+: p ∧ (d q = some .file ∨ d q = some .link)) →
      mkdirOrExist d (some p) = .error .oserror) := by
  refine ⟨rfl, ?_, ?_⟩
  · intro hall
    obtain ⟨d', h1, h2, h3⟩ := (makedirs_spec p d []).1 (by simpa using hall)
    simp only [List.nil_append] at h2 h3
    refine ⟨d', h1, h2, ?_, ?_⟩
    · intro x hx
      apply h3
      rintro ⟨q, hq, hp, rfl⟩
      rcases hx with h | h
      · exact hq h
      · exact h hp
    · obtain ⟨d2, k1, k2, k3⟩ := (makedirs_spec p d' []).1 (by
        intro q hq hp
        rw [List.nil_append, h2 q hq hp]
        simp)
      simp only [List.nil_append] at k2 k3
      have : d2 = d' := by
        funext x
        by_cases hx : ∃ q, q ≠ [] ∧ q <+: p ∧ x = q
        · obtain ⟨q, hq, hp, rfl⟩ := hx
          rw [k2 x hq hp, h2 x hq hp]
        · exact k3 x hx
      subst this
      exact k1
  · rintro ⟨q, hq, hp, h⟩
    exact (makedirs_spec p d []).2 ⟨q, hq, hp, by simpa using h⟩

/-- C51: `symlink(src, dst, overwrite)` makes `dst` a link and changes nothing else; something that exists is replaced
only with `overwrite`, and a directory never. -/
theorem C51_symlink (d : Disk) (parent : List Str) (name : Str) (overwrite : Bool)
    (hpar : parent = [] ∨ d parent = some .dir) :
    let dst := parent ++ [name]
    ((d dst = none ∨ (overwrite = true ∧ d dst ≠ some .dir)) →
      ∃ d', symlink d dst overwrite = .ok d' ∧ d' dst = some .link ∧ ∀ x, x ≠ dst → d' x = d x) ∧
    (d dst ≠ none → overwrite = false → symlink d dst overwrite = .error .fileExistsError) ∧
    (d dst = some .dir → overwrite = true → symlink d dst overwrite = .error .oserror) := by
  intro dst
  have hdl : dst.dropLast = parent := by simp [dst]
  have hne : dst ≠ [] := by simp [dst]
  have hpne : parent ≠ dst := by simp [dst]
  have hcond : ∀ d' : Disk, (d' parent = d parent) → ¬ (dst = [] ∨ (dst.dropLast ≠ [] ∧ d' dst.dropLast ≠ some .dir)) := by
    intro d' h
    rw [hdl, h]
    rintro (h1 | ⟨h1, h2⟩)
    · exact hne h1
    · rcases hpar with h3 | h3
      · exact h1 h3
      · exact h2 h3
  refine ⟨?_, ?_, ?_⟩
  · rintro h
    cases hd : d dst with
    | none =>
      refine ⟨put d dst (some .link), ?_, by simp [put], fun x hx => by simp [put, hx]⟩
      unfold symlink
      simp only [hd, Option.isSome_none, Bool.false_and, Bool.false_eq_true, if_false]
      rw [if_neg (hcond d rfl)]
    | some k =>
      rcases h with h | ⟨h1, h2⟩
      · rw [h] at hd; cases hd
      · rw [hd] at h2
        refine ⟨put (put d dst none) dst (some .link), ?_, by simp [put], fun x hx => by simp [put, hx]⟩
        unfold symlink
        simp only [hd, Option.isSome_some, h1, Bool.and_self, if_true]
        rw [if_neg h2]
        simp only
        have hn : put d dst none dst = none := by simp [put]
        simp only [hn]
        rw [if_neg (hcond _ (by unfold put; rw [if_neg hpne]))]
  · intro h1 h2
    cases hd : d dst with
    | none => exact absurd hd h1
    | some k => simp [symlink, hd, h2]
  · intro h1 h2
    simp [symlink, h1, h2]

/-- C51: `check_file_exist` raises exactly when there is no regular file. -/
theorem C51_check_file (d : Disk) (p : List Str) :
    (checkFileExist d p = .ok () ↔ d p = some .file) ∧
    (checkFileExist d p = .error .fileNotFoundError ↔ d p ≠ some .file) := by
  unfold checkFileExist
  by_cases h : d p = some .file
  · simp [h]
  · simp [h]

/-! ## A concrete tree -/

/-- `a/x.PNG`, `a/.y.png`, `.h/z.png`, `b.png`, `c.txt`. -/
def exTree : Entries :=
  .cons "a".toList (.dir (.cons "x.PNG".toList .file (.cons ".y.png".toList .file .nil)))
    (.cons ".h".toList (.dir (.cons "z.png".toList .file .nil))
      (.cons "b.png".toList .file (.cons "c.txt".toList .file .nil)))

example : WellNamed exTree := by
  simp only [exTree, WellNamed, WellNamedNode, names]; decide

example : scandir (fun _ => some exTree) (.path "r".toList) (.str ".png".toList) true true =
    .ok [".h/z.png".toList, "b.png".toList] := by decide +kernel

example : scandir (fun _ => some exTree) (.path "r".toList) (.str ".png".toList) true false =
    .ok ["a/x.PNG".toList, ".h/z.png".toList, "b.png".toList] := by decide +kernel

example : scandir (fun _ => some exTree) (.path "r".toList) (.str ".png".toList) false true =
    .ok ["b.png".toList] := by decide +kernel

example : FileAt exTree ["a".toList, "x.PNG".toList] := .inside _ _ _ _ (.here _ _)

example : ∃ d', mkdirOrExist (fun p => if p = ["a".toList] then some .dir else none)
    (some ["a".toList, "b".toList]) = .ok d' ∧ d' ["a".toList, "b".toList] = some .dir := by
  obtain ⟨-, h, -⟩ := C51_mkdir (fun p => if p = ["a".toList] then some .dir else none) ["a".toList, "b".toList]
  obtain ⟨d', h1, h2, -⟩ := h (by intro q _ _; split <;> simp)
  exact ⟨d', h1, h2 _ (by simp) (List.prefix_refl _)⟩

end EdgeEval.Props
