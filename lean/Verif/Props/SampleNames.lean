import Verif.Model.Samples
import Verif.Spec.Samples

/-!
# C47: which samples an evaluator works on
-/

namespace EdgeEval.Props

open Text Evaluators Samples Spec

theorem isBreak_false {c : Char} (h : c.toNat ∉ [10, 11, 12, 13, 28, 29, 30, 0x85, 0x2028, 0x2029]) :
    isBreak c = false := by
  unfold isBreak
  rw [Bool.eq_false_iff]
  intro h'
  exact h (List.contains_iff_mem.1 h')

theorem splitlinesAux_item (s : Str) (hs : OneLine s) (rest cur : Str) :
    splitlinesAux (s ++ '\n' :: rest) cur = (cur.reverse ++ s) :: splitlinesAux rest [] := by
  induction s generalizing cur with
  | nil => simp [splitlinesAux, show isBreak '\n' = true from by decide]
  | cons c s ih =>
    have hc := isBreak_false (hs c (by simp))
    simp only [List.cons_append, splitlinesAux, hc, Bool.false_eq_true, if_false]
    rw [ih (fun d hd => hs d (by simp [hd]))]
    simp

theorem splitlinesAux_last (s : Str) (hs : OneLine s) (cur : Str) (hne : cur ++ s ≠ []) :
    splitlinesAux s cur = [cur.reverse ++ s] := by
  induction s generalizing cur with
  | nil =>
    simp only [List.append_nil] at hne ⊢
    simp [splitlinesAux, hne]
  | cons c s ih =>
    have hc := isBreak_false (hs c (by simp))
    simp only [splitlinesAux, hc, Bool.false_eq_true, if_false]
    rw [ih (fun d hd => hs d (by simp [hd])) _ (by simp)]
    simp

theorem oneLine_cr {s : Str} (hs : OneLine s) : '\r' ∉ s := by
  intro h
  exact hs _ h (by decide)

theorem universal_item (s : Str) (hs : '\r' ∉ s) (eol : Str)
    (he : eol = ['\n'] ∨ eol = ['\r', '\n'] ∨ eol = ['\r']) (rest : Str)
    (hr : eol = ['\r'] → rest.head? ≠ some '\n') :
    universalNewlines (s ++ (eol ++ rest)) = s ++ '\n' :: universalNewlines rest := by
  induction s with
  | nil =>
    rcases he with rfl | rfl | rfl
    · simp [universalNewlines]
    · simp [universalNewlines]
    · have := hr rfl
      cases rest with
      | nil => simp [universalNewlines]
      | cons d rest =>
        simp only [List.head?_cons, ne_eq, Option.some.injEq] at this
        simp only [List.nil_append, List.cons_append]
        rw [universalNewlines]
        · simp
        · intro cs _ h
          simp only [List.cons.injEq] at h
          exact this h.1
  | cons c s ih =>
    have hc : c ≠ '\r' := fun h => hs (by simp [h])
    simp only [List.cons_append]
    rw [universalNewlines]
    · rw [if_neg hc, ih (fun h => hs (by simp [h]))]
    · intro cs h
      exact absurd h hc

theorem universal_plain (s : Str) (hs : '\r' ∉ s) : universalNewlines s = s := by
  induction s with
  | nil => rfl
  | cons c s ih =>
    have hc : c ≠ '\r' := fun h => hs (by simp [h])
    rw [universalNewlines]
    · rw [if_neg hc, ih (fun h => hs (by simp [h]))]
    · intro cs h
      exact absurd h hc

theorem linesText_head {eol : Str} (he : eol = ['\r']) {items : List Str} (h : ∀ s ∈ items, OneLine s)
    (last : Str) (hl : OneLine last) : (linesText eol items ++ last).head? ≠ some '\n' := by
  have key : ∀ s : Str, OneLine s → s.head? ≠ some '\n' := by
    intro s hs h
    exact hs '\n' (List.mem_of_head? h) (by decide)
  cases items with
  | nil => simpa [linesText] using key last hl
  | cons a items =>
    subst he
    have ha := key a (h a (by simp))
    cases a with
    | nil => simp [linesText]
    | cons c a => simpa [linesText] using ha

theorem readLines_eq (eol : Str) (he : eol = ['\n'] ∨ eol = ['\r', '\n'] ∨ eol = ['\r']) (items : List Str)
    (h : ∀ s ∈ items, OneLine s) (last : Str) (hl : OneLine last) :
    readLines (linesText eol items ++ last) = items ++ (if last = [] then [] else [last]) := by
  unfold readLines
  induction items with
  | nil =>
    simp only [linesText, List.map_nil, List.flatten_nil, List.nil_append]
    rw [universal_plain last (oneLine_cr hl)]
    split
    · next h0 => subst h0; rfl
    · next h0 => rw [splitlinesAux_last last hl [] (by simpa using h0)]; simp
  | cons a items ih =>
    have hrest := ih (fun s hs => h s (by simp [hs]))
    have hcr : eol = ['\r'] → (linesText eol items ++ last).head? ≠ some '\n' :=
      fun e => linesText_head e (fun s hs => h s (by simp [hs])) last hl
    have e1 : linesText eol (a :: items) ++ last = a ++ (eol ++ (linesText eol items ++ last)) := by
      simp [linesText]
    rw [e1, universal_item a (oneLine_cr (h a (by simp))) eol he _ hcr, splitlinesAux_item a (h a (by simp)), hrest]
    simp

/-- C47: an explicit non-empty list becomes the sample list, whatever the file system contains and whatever
split file is given, and an explicit empty list or a non-list is an `AssertionError` that keeps the old list. -/
theorem C47_explicit (fs : Fs) (k : Kind) (c : Ctor) (sf : Option Str) (old : Option (List Str)) :
    (∀ l, l ≠ [] → setSampleNames fs k c (.list l) sf old = (some l, none)) ∧
    setSampleNames fs k c (.list []) sf old = (old, some .assertionError) ∧
    setSampleNames fs k c .other sf old = (old, some .assertionError) := by
  refine ⟨fun l hl => ?_, rfl, rfl⟩
  simp only [setSampleNames, chooseNames, if_neg hl]

example (fs : Fs) (c : Ctor) :
    setSampleNames fs .cityscapes c (.list ["a/b".toList]) (some "x".toList) none = (some ["a/b".toList], none) :=
  (C47_explicit fs .cityscapes c _ _).1 _ (by simp)

/-- C47: without an explicit list, the lines of the split file (the given one, or else `splits/<split>.txt`,
for SBD `<split>.txt`, in the dataset root) become the sample list, in order, for every line-ending convention
and with or without a final line ending. -/
theorem C47_split_file (fs : Fs) (k : Kind) (hk : k ≠ .bsds) (c : Ctor) (hroot : DirArg c.datasetRoot)
    (sf : Option Str) (path : Str)
    (hpath : path = match sf with
      | some p => p
      | none => if k = .sbd ∨ k = .reanno then slashed [c.datasetRoot, c.split ++ ".txt".toList]
                else slashed [c.datasetRoot, "splits".toList, c.split ++ ".txt".toList])
    (hsplit : Relative c.split)
    (eol : Str) (he : eol = ['\n'] ∨ eol = ['\r', '\n'] ∨ eol = ['\r'])
    (items : List Str) (h1 : ∀ s ∈ items, OneLine s) (last : Str) (hl : OneLine last)
    (hex : fs.ex path = true) (hread : fs.read path = some (linesText eol items ++ last))
    (hne : items ≠ [] ∨ last ≠ []) (old : Option (List Str)) :
    setSampleNames fs k c .none sf old = (some (items ++ (if last = [] then [] else [last])), none) := by
  have hf : sf.getD (defaultSplitFile k c) = path := by
    rw [hpath]
    cases sf with
    | some p => rfl
    | none =>
      have hj : ∀ b : Str, b.head? ≠ some '/' → pjoin c.datasetRoot b = c.datasetRoot ++ '/' :: b := by
        intro b hb
        unfold pjoin
        rw [if_neg hb, if_neg]
        rintro (h | h)
        · exact hroot.1 h
        · exact hroot.2 h
      have hs : (c.split ++ ".txt".toList).head? ≠ some '/' := by
        unfold Relative at hsplit
        cases hc : c.split with
        | nil => simp
        | cons d ds => rw [hc] at hsplit; simpa using hsplit
      cases k
      case bsds => exact absurd rfl hk
      all_goals
        simp only [Option.getD_none, defaultSplitFile, slashed]
        first
          | rw [if_pos (by decide), hj _ hs]
          | (rw [if_neg (by decide), hj _ (by simp)]; simp)
  simp only [setSampleNames, chooseNames, if_neg hk, hf, hex, if_true, hread,
    readLines_eq eol he items h1 last hl]
  rw [if_neg]
  intro h
  rw [List.append_eq_nil_iff] at h
  rcases hne with h' | h'
  · exact h' h.1
  · have := h.2
    rw [if_neg h'] at this
    simp at this

/-- A concrete split file with DOS line endings. -/
example : setSampleNames ⟨fun _ => true, fun _ => some "aachen/a\r\nbonn/b\r\n".toList, fun _ => none⟩ .half
    { datasetRoot := "data".toList, predRoot := "p".toList, split := "val".toList } .none none none
    = (some ["aachen/a".toList, "bonn/b".toList], none) := by
  have := C47_split_file ⟨fun _ => true, fun _ => some "aachen/a\r\nbonn/b\r\n".toList, fun _ => none⟩ .half
    (by simp) { datasetRoot := "data".toList, predRoot := "p".toList, split := "val".toList }
    (by unfold DirArg; decide) none _ rfl (by unfold Relative; decide) ['\r', '\n'] (by simp)
    ["aachen/a".toList, "bonn/b".toList] (by unfold OneLine; decide) [] (by unfold OneLine; decide) rfl
    (by decide) (by simp) none
  simpa using this

/-- C47: a missing or unreadable split file and an empty one are errors that keep the old list. -/
theorem C47_split_file_errors (fs : Fs) (k : Kind) (hk : k ≠ .bsds) (c : Ctor) (path : Str)
    (old : Option (List Str)) :
    (fs.ex path = false → setSampleNames fs k c .none (some path) old = (old, some .assertionError)) ∧
    (fs.ex path = true → fs.read path = none →
      setSampleNames fs k c .none (some path) old = (old, some .oserror)) ∧
    (fs.ex path = true → fs.read path = some [] →
      setSampleNames fs k c .none (some path) old = (old, some .assertionError)) := by
  refine ⟨fun h => ?_, fun h h2 => ?_, fun h h2 => ?_⟩
  · simp [setSampleNames, chooseNames, hk, h]
  · simp [setSampleNames, chooseNames, hk, h, h2]
  · simp [setSampleNames, chooseNames, hk, h, h2, readLines, universalNewlines, splitlinesAux]

/-- A call of `set_sample_names`. -/
abbrev NamesCall := Fs × NamesArg × Option Str

/-- C47: after any history of calls (the file system may change between them, failures are caught), the sample
list is the one chosen by the last successful call, or the initial one if there is none; it is never empty once
a call succeeded. -/
theorem C47_history (k : Kind) (c : Ctor) (init : Option (List Str)) (calls : List NamesCall) :
    let final := calls.foldl (fun st (x : NamesCall) => (setSampleNames x.1 k c x.2.1 x.2.2 st).1) init
    let good := calls.filterMap fun (x : NamesCall) =>
      match setSampleNames x.1 k c x.2.1 x.2.2 none with
      | (some l, none) => some l
      | _ => none
    final = (if good = [] then init else good.getLast?) ∧ ∀ l ∈ good, l ≠ [] := by
  have hone : ∀ (x : NamesCall) st, (∃ l, l ≠ [] ∧ setSampleNames x.1 k c x.2.1 x.2.2 st = (some l, none) ∧
        setSampleNames x.1 k c x.2.1 x.2.2 none = (some l, none)) ∨
      (∃ e, setSampleNames x.1 k c x.2.1 x.2.2 st = (st, some e) ∧
        setSampleNames x.1 k c x.2.1 x.2.2 none = (none, some e)) := by
    intro x st
    unfold setSampleNames
    cases h : chooseNames x.1 k c x.2.1 x.2.2 with
    | error e => exact .inr ⟨e, rfl, rfl⟩
    | ok l =>
      refine .inl ⟨l, ?_, rfl, rfl⟩
      unfold chooseNames at h
      simp only at h
      split at h
      · simp at h
      · split at h
        · simp at h
        · next hne => cases h; exact hne
  simp only
  induction calls generalizing init with
  | nil => simp
  | cons x calls ih =>
    obtain ⟨ih1, ih2⟩ := ih ((setSampleNames x.1 k c x.2.1 x.2.2 init).1)
    rcases hone x init with ⟨l, hl, h1, h2⟩ | ⟨e, h1, h2⟩
    · simp only [List.foldl_cons, List.filterMap_cons, h2]
      refine ⟨?_, ?_⟩
      · rw [ih1, h1]
        simp only [reduceCtorEq, if_false]
        split
        · next hn => rw [hn]; rfl
        · next hn => rw [List.getLast?_cons, List.getLast?_eq_some_getLast hn]; rfl
      · intro m hm
        rcases List.mem_cons.1 hm with rfl | hm
        · exact hl
        · exact ih2 m hm
    · simp only [List.foldl_cons, List.filterMap_cons, h2]
      rw [h1] at ih1
      simp only [h1]
      exact ⟨ih1, ih2⟩

example (fs : Fs) (c : Ctor) :
    let calls : List NamesCall := [(fs, .list ["a".toList], none), (fs, .list [], none), (fs, .other, none)]
    calls.foldl (fun st (x : NamesCall) => (setSampleNames x.1 .sbd c x.2.1 x.2.2 st).1) none
      = some ["a".toList] := rfl

/-! ## BSDS -/

theorem lower_mat {e : Str} (h : lower e = "mat".toList) : '.' ∉ e := by
  intro hm
  have : '.' ∈ lower e := by
    unfold lower
    rw [List.mem_map]
    exact ⟨'.', hm, by decide⟩
  rw [h] at this
  revert this
  decide

theorem takeWhile_rev (stem ext : Str) (h : '.' ∉ ext) :
    ((stem ++ '.' :: ext).reverse.takeWhile (· ≠ '.')).reverse = ext ∧
    (((stem ++ '.' :: ext).reverse.dropWhile (· ≠ '.')).drop 1).reverse = stem := by
  have hall : ∀ c ∈ ext.reverse, (decide (c ≠ '.')) = true := by
    intro c hc
    rw [decide_eq_true_eq]
    rintro rfl
    exact h (by simpa using hc)
  have e1 : (stem ++ '.' :: ext).reverse = ext.reverse ++ '.' :: stem.reverse := by simp
  rw [e1, List.takeWhile_append_of_pos hall, List.dropWhile_append_of_pos hall]
  simp

/-- The extension of a file name with a proper stem. -/
theorem splitext_dot (stem ext : Str) (h : '.' ∉ ext) (hs : ∃ c ∈ stem, c ≠ '.') :
    splitext (stem ++ '.' :: ext) = (stem, '.' :: ext) := by
  obtain ⟨h1, h2⟩ := takeWhile_rev stem ext h
  unfold splitext
  simp only [h1, h2]
  rw [if_pos]
  rw [Bool.and_eq_true, List.any_eq_true]
  obtain ⟨c, hc, hne⟩ := hs
  exact ⟨by simp, c, hc, by simpa using hne⟩

theorem splitext_inv (s : Str) (h : (splitext s).2 ≠ []) :
    ∃ stem ext, s = stem ++ '.' :: ext ∧ '.' ∉ ext ∧ (∃ c ∈ stem, c ≠ '.') ∧ splitext s = (stem, '.' :: ext) := by
  by_cases hd : '.' ∈ s
  · obtain ⟨t, r, hr, ht⟩ : ∃ t r, s = r ++ '.' :: t ∧ '.' ∉ t := by
      have := List.append_of_mem (List.mem_reverse.2 hd)
      obtain ⟨a, b, hab, hna⟩ : ∃ a b, s.reverse = a ++ '.' :: b ∧ '.' ∉ a := by
        obtain ⟨a, b, h1, h2⟩ := List.eq_append_cons_of_mem (List.mem_reverse.2 hd)
        exact ⟨a, b, h1, h2⟩
      refine ⟨a.reverse, b.reverse, ?_, by simpa using hna⟩
      have := congrArg List.reverse hab
      simpa using this
    subst hr
    by_cases hs : ∃ c ∈ r, c ≠ '.'
    · exact ⟨r, t, rfl, ht, hs, splitext_dot r t ht hs⟩
    · exfalso
      apply h
      obtain ⟨h1, h2⟩ := takeWhile_rev r t ht
      unfold splitext
      simp only [h1, h2]
      rw [if_neg]
      rw [Bool.and_eq_true, List.any_eq_true]
      rintro ⟨-, c, hc, hne⟩
      exact hs ⟨c, hc, by simpa using hne⟩
  · exfalso
    apply h
    unfold splitext
    have : s.contains '.' = false := by simpa using hd
    simp only [this, Bool.false_and, Bool.false_eq_true, if_false]

/-- C47: for BSDS the sample list consists exactly of `<split>/<stem>` for the directory entries
`<stem>.<ext>` with `ext` equal to `mat` up to case (hidden entries such as `.mat`, with no proper stem, and
other files are left out), in the order in which the directory is listed. -/
theorem C47_bsds (fs : Fs) (c : Ctor) (hroot : DirArg c.datasetRoot) (hsplit : DirArg c.split)
    (hrel : Relative c.split) (files : List Str)
    (hlist : fs.list (slashed [c.datasetRoot, "groundTruth".toList, c.split]) = some files)
    (hslash : ∀ f ∈ files, '/' ∉ f) (sf : Option Str) (old : Option (List Str)) :
    ∃ l, (l ≠ [] → setSampleNames fs .bsds c .none sf old = (some l, none)) ∧
      (l = [] → setSampleNames fs .bsds c .none sf old = (old, some .assertionError)) ∧
      (∀ x, x ∈ l ↔ ∃ stem ext, stem ++ '.' :: ext ∈ files ∧ lower ext = "mat".toList ∧ (∃ ch ∈ stem, ch ≠ '.') ∧
        x = slashed [c.split, stem]) ∧
      List.Sublist (l.map fun x => x.drop (c.split.length + 1)) (files.map fun f => (splitext f).1) := by
  have hj : ∀ (a b : Str), DirArg a → Relative b → pjoin a b = slashed [a, b] := by
    intro a b ha hb
    unfold pjoin
    rw [if_neg hb, if_neg]
    · rfl
    · rintro (h | h)
      · exact ha.1 h
      · exact ha.2 h
  have hgt : pjoin (bsdsGtRoot c) c.split = slashed [c.datasetRoot, "groundTruth".toList, c.split] := by
    unfold bsdsGtRoot
    rw [hj _ _ hroot (by unfold Relative; decide), hj _ _ _ hrel]
    · simp [slashed]
    · refine ⟨by simp [slashed], ?_⟩
      simp only [slashed]
      rw [show c.datasetRoot ++ '/' :: "groundTruth".toList
        = (c.datasetRoot ++ '/' :: "groundTrut".toList) ++ ['h'] by simp]
      rw [List.getLast?_append]
      simp
  have hset : setSampleNames fs .bsds c .none sf old =
      if matNames c.split files = [] then (old, some .assertionError) else (some (matNames c.split files), none) := by
    simp only [setSampleNames, chooseNames, if_true, hgt, hlist]
    split <;> rename_i h
    · split at h
      · next h0 => cases h; rw [if_pos h0]
      · simp at h
    · split at h
      · simp at h
      · next h0 => cases h; rw [if_neg h0]
  have hstem : ∀ f ∈ files, Relative (splitext f).1 := by
    intro f hf h0
    have hmem := List.mem_of_head? h0
    by_cases he : (splitext f).2 = []
    · have : (splitext f).1 = f := by
        unfold splitext at he ⊢
        simp only at he ⊢
        split
        · next h => rw [if_pos h] at he; simp at he
        · rfl
      rw [this] at hmem
      exact hslash f hf hmem
    · obtain ⟨stem, ext, rfl, -, -, h4⟩ := splitext_inv f he
      rw [h4] at hmem
      exact hslash _ hf (by simp [hmem])
  refine ⟨matNames c.split files, fun h => by rw [hset, if_neg h], fun h => by rw [hset, if_pos h], fun x => ?_, ?_⟩
  · unfold matNames
    simp only [List.mem_map, List.mem_filter, decide_eq_true_eq]
    constructor
    · rintro ⟨f, ⟨hf, hext⟩, rfl⟩
      have hne : (splitext f).2 ≠ [] := by
        intro h; rw [h] at hext; revert hext; decide
      obtain ⟨stem, ext, rfl, hdot, hs, h4⟩ := splitext_inv f hne
      rw [h4] at hext ⊢
      refine ⟨stem, ext, hf, ?_, hs, ?_⟩
      · have : lower ('.' :: ext) = '.' :: lower ext := rfl
        rw [this] at hext
        simpa using hext
      · have := hstem _ hf
        rw [h4] at this
        exact hj _ _ hsplit this
    · rintro ⟨stem, ext, hf, hext, hs, rfl⟩
      have h4 := splitext_dot stem ext (lower_mat hext) hs
      refine ⟨_, ⟨hf, ?_⟩, ?_⟩
      · rw [h4]
        show '.' :: lower ext = _
        rw [hext]; rfl
      · have := hstem _ hf
        rw [h4] at this ⊢
        exact hj _ _ hsplit this
  · unfold matNames
    rw [List.map_map]
    have : ((files.filter fun fn => decide (lower (splitext fn).2 = ".mat".toList)).map
        ((fun x => x.drop (c.split.length + 1)) ∘ fun fn => pjoin c.split (splitext fn).1))
        = (files.filter fun fn => decide (lower (splitext fn).2 = ".mat".toList)).map fun f => (splitext f).1 := by
      apply List.map_congr_left
      intro f hf
      simp only [Function.comp]
      rw [hj _ _ hsplit (hstem f (List.mem_of_mem_filter hf))]
      simp [slashed]
    rw [this]
    exact List.Sublist.map _ List.filter_sublist

/-- A concrete directory: the hidden file and the image are left out. -/
example : setSampleNames ⟨fun _ => true, fun _ => none,
      fun _ => some ["1.mat".toList, "2.png".toList, ".mat".toList, "3.v2.MAT".toList]⟩ .bsds
    { datasetRoot := "data".toList, predRoot := "p".toList, split := "test".toList } .none none none
    = (some ["test/1".toList, "test/3.v2".toList], none) := by decide

/-- C47: a directory that cannot be listed is an error that keeps the old list. -/
theorem C47_bsds_missing (fs : Fs) (c : Ctor) (h : ∀ p, fs.list p = none) (sf : Option Str) (old : Option (List Str)) :
    setSampleNames fs .bsds c .none sf old = (old, some .fileNotFoundError) := by
  simp [setSampleNames, chooseNames, h]

/-! ## Constructor -/

/-- C47: constructing an evaluator fails only on a split other than `val` and `test`; otherwise it ends with
either no samples or the samples of the default source, never with an exception from loading them. -/
theorem C47_constructor (fs : Fs) (k : Kind) (c : Ctor) :
    (c.split ≠ "val".toList ∧ c.split ≠ "test".toList → construct fs k c = .error .assertionError) ∧
    (c.split = "val".toList ∨ c.split = "test".toList →
      (∃ l, l ≠ [] ∧ setSampleNames fs k c .none none none = (some l, none) ∧ construct fs k c = .ok (some l)) ∨
      (∃ e, setSampleNames fs k c .none none none = (none, some e) ∧ construct fs k c = .ok none)) := by
  constructor
  · rintro ⟨h1, h2⟩
    unfold construct
    rw [if_neg (by tauto)]
  · intro h
    unfold construct
    rw [if_pos h]
    obtain ⟨h1, h2⟩ := C47_history k c none [(fs, .none, none)]
    cases hc : chooseNames fs k c .none none with
    | error e => right; exact ⟨e, by simp [setSampleNames, hc], by simp [setSampleNames, hc]⟩
    | ok l =>
      left
      have hs : setSampleNames fs k c .none none none = (some l, none) := by simp [setSampleNames, hc]
      refine ⟨l, ?_, hs, by rw [hs]⟩
      apply h2
      simp [hs]

example : construct ⟨fun _ => false, fun _ => none, fun _ => none⟩ .sbd
    { datasetRoot := "d".toList, predRoot := "p".toList, split := "val".toList } = .ok none := by decide
example : construct ⟨fun _ => false, fun _ => none, fun _ => none⟩ .sbd
    { datasetRoot := "d".toList, predRoot := "p".toList, split := "train".toList } = .error .assertionError := by
  decide

/-! ## References -/

/-- References in use are below the next free one. -/
def HeapOk (h : Heap) : Prop := ∀ s, h.stored = some s → s < h.next

theorem heapOk_step {h : Heap} (hk : HeapOk h) (o : Op) (ho : ∀ r, o = .set r → r < h.next) :
    HeapOk (step h o).1 ∧ h.next ≤ (step h o).1.next := by
  cases o with
  | new l => exact ⟨fun s hs => Nat.lt_succ_of_lt (hk s hs), Nat.le_succ _⟩
  | write r l => exact ⟨hk, le_refl _⟩
  | set r =>
    simp only [step]
    split
    · exact ⟨hk, le_refl _⟩
    · exact ⟨fun s hs => by simp only [Option.some.injEq] at hs; subst hs; exact ho r rfl, le_refl _⟩
  | get =>
    simp only [step]
    split
    · exact ⟨hk, le_refl _⟩
    · exact ⟨fun s hs => Nat.lt_succ_of_lt (hk s hs), Nat.le_succ _⟩

/-- C47: reading `sample_names` gives a fresh list: whatever is done afterwards with any number of lists created
or obtained since — writing to them included — the evaluator shows the same samples, as long as
`set_sample_names` is not called and the list it was given last is not written to. -/
theorem C47_getter_isolated (h : Heap) (hk : HeapOk h) (ops : List Op) (hset : ∀ r, Op.set r ∉ ops)
    (hw : ∀ r l, Op.write r l ∈ ops → h.stored ≠ some r) :
    shown (runOps h ops) = shown h ∧
    ∀ s r, h.stored = some s → (step (runOps h ops) .get).2 = some r →
      r ≠ s ∧ (step (runOps h ops) .get).1.obj r = h.obj s := by
  have key : ∀ (ops : List Op) (h : Heap), HeapOk h → (∀ r, Op.set r ∉ ops) →
      (∀ r l, Op.write r l ∈ ops → h.stored ≠ some r) →
      HeapOk (runOps h ops) ∧ (runOps h ops).stored = h.stored ∧ shown (runOps h ops) = shown h := by
    intro ops
    induction ops with
    | nil => intro h hk _ _; exact ⟨hk, rfl, rfl⟩
    | cons o ops ih =>
      intro h hk hset hw
      have ho := heapOk_step hk o (fun r hr => absurd (by simp [hr]) (hset r))
      have hst : (step h o).1.stored = h.stored := by
        cases o with
        | new l => rfl
        | write r l => rfl
        | set r => exact absurd (by simp) (hset r)
        | get => simp only [step]; split <;> simp_all
      have hsh : shown (step h o).1 = shown h := by
        unfold shown
        rw [hst]
        cases hs : h.stored with
        | none => rfl
        | some s =>
          simp only [Option.map_some, Option.some.injEq]
          have hlt := hk s hs
          cases o with
          | new l => simp only [step]; rw [if_neg (by omega)]
          | write r l =>
            simp only [step]
            rw [if_neg]
            rintro rfl
            exact hw s l (by simp) hs
          | set r => exact absurd (by simp) (hset r)
          | get => simp only [step, hs]; rw [if_neg (by omega)]
      obtain ⟨a, b, c⟩ := ih (step h o).1 ho.1 (fun r hr => hset r (by simp [hr]))
        (fun r l hr => by rw [hst]; exact hw r l (by simp [hr]))
      exact ⟨a, b.trans hst, c.trans hsh⟩
  obtain ⟨a, b, c⟩ := key ops h hk hset hw
  refine ⟨c, fun s r hs hr => ?_⟩
  rw [hs] at b
  have hlt := a s b
  have hobj : (runOps h ops).obj s = h.obj s := by
    unfold shown at c
    rw [hs, b] at c
    simpa using c
  simp only [step, b] at hr ⊢
  simp only [Option.some.injEq] at hr
  subst hr
  exact ⟨by omega, by simp [hobj]⟩

/-- C47 (finding): the list passed to `set_sample_names` is stored, not copied: writing to it afterwards changes
the samples of the evaluator, even to the empty list that `set_sample_names` would have refused. -/
theorem C47_setter_aliases (h : Heap) (r : Nat) (hne : h.obj r ≠ []) (l : List Str) :
    shown (runOps h [.set r, .write r l]) = some l := by
  simp [runOps, step, hne, shown]

example : shown (runOps ⟨fun _ => [], 0, none⟩ [.new ["a".toList], .set 0, .get, .write 1 [], .get])
    = some ["a".toList] := by decide
example : shown (runOps ⟨fun _ => [], 0, none⟩ [.new ["a".toList], .set 0, .write 0 []]) = some [] := by decide

end EdgeEval.Props
