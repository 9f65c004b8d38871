import Verif.Props.Commands
import Verif.Spec.Paths

/-!
# C84: where the results go when no output directory is given
-/

namespace EdgeEval.Props

open Text Samples Spec Commands

section

/-- What `normComps` keeps on its way: names over `..`s, and no `..` in an absolute path. -/
def KeptComps (rooted : Bool) (acc : List Str) : Prop :=
  ∃ k names, acc = names ++ List.replicate k ['.', '.'] ∧ (∀ c ∈ names, PathName c) ∧ (rooted = true → k = 0)

theorem walkStep_name {c : Str} (h : PathName c) (d : List Str) : walkStep d c = d ++ [c] := by
  unfold walkStep
  rw [if_neg (by have := h.1; have := h.2.1; tauto), if_neg h.2.2.1]

theorem normComps_spec (rooted : Bool) (d : List Str) (hd : rooted = true → d = []) : ∀ (cs acc : List Str),
    (∀ c ∈ cs, '/' ∉ c) → KeptComps rooted acc →
    KeptComps rooted (normComps rooted cs acc).reverse ∧
    (normComps rooted cs acc).foldl walkStep d = cs.foldl walkStep (acc.reverse.foldl walkStep d)
  | [], acc, _, h => by simpa [normComps] using h
  | c :: cs, acc, hc, h => by
    have hcs : ∀ x ∈ cs, '/' ∉ x := fun x hx => hc x (by simp [hx])
    obtain ⟨k, names, rfl, hn, hk⟩ := id h
    unfold normComps
    by_cases h1 : c = [] ∨ c = ['.']
    · rw [if_pos h1]
      obtain ⟨i1, i2⟩ := normComps_spec rooted d hd cs _ hcs h
      refine ⟨i1, ?_⟩
      rw [i2, List.foldl_cons]
      congr 1
      unfold walkStep
      rw [if_pos h1]
    · rw [if_neg h1]
      split
      next h2 =>
        have : KeptComps rooted (c :: (names ++ List.replicate k ['.', '.'])) := by
          by_cases h3 : c = ['.', '.']
          · subst h3
            rcases h2 with h2 | ⟨hr, h2⟩ | h2
            · exact absurd rfl h2
            · have h4 : names = [] ∧ List.replicate k ['.', '.'] = [] := by simpa using h2
              refine ⟨k + 1, [], by rw [h4.1]; rfl, by simp, by simp [hr]⟩
            · cases names with
              | cons x xs =>
                simp only [List.cons_append, List.head?_cons, Option.some.injEq] at h2
                exact absurd h2 (hn x (by simp)).2.2.1
              | nil =>
                refine ⟨k + 1, [], rfl, by simp, fun hr => ?_⟩
                rw [hk hr] at h2
                simp at h2
          · refine ⟨k, c :: names, rfl, ?_, hk⟩
            intro x hx
            rcases List.mem_cons.1 hx with rfl | hx
            · exact ⟨fun e => h1 (.inl e), fun e => h1 (.inr e), h3, hc _ (by simp)⟩
            · exact hn x hx
        obtain ⟨i1, i2⟩ := normComps_spec rooted d hd cs _ hcs this
        refine ⟨i1, ?_⟩
        rw [i2, List.reverse_cons, List.foldl_append]
        rfl
      next h2 =>
        push Not at h2
        obtain ⟨h2, h3, h4⟩ := h2
        subst h2
        cases names with
        | nil =>
          have hk0 : k = 0 := by
            cases k with
            | zero => rfl
            | succ k => exact absurd rfl h4
          subst hk0
          have hr : rooted = true := by
            cases rooted with
            | true => rfl
            | false => exact absurd rfl (h3 rfl)
          obtain ⟨i1, i2⟩ := normComps_spec rooted d hd cs [] hcs ⟨0, [], rfl, by simp, fun _ => rfl⟩
          refine ⟨i1, ?_⟩
          simp only [List.replicate_zero, List.append_nil, List.tail_nil, List.foldl_cons, List.reverse_nil, List.foldl_nil,
            hd hr] at i2 ⊢
          rw [i2]; rfl
        | cons x xs =>
          have hx := hn x (by simp)
          obtain ⟨i1, i2⟩ := normComps_spec rooted d hd cs (xs ++ List.replicate k ['.', '.']) hcs
            ⟨k, xs, rfl, fun c hc => hn c (by simp [hc]), hk⟩
          refine ⟨i1, ?_⟩
          simp only [List.cons_append, List.tail_cons]
          rw [i2, List.foldl_cons, List.reverse_cons, List.foldl_append]
          congr 1
          simp only [List.foldl_cons, List.foldl_nil]
          rw [walkStep_name hx]
          unfold walkStep
          rw [if_neg (by decide), if_pos rfl, List.dropLast_concat]

theorem kept_no_slash {rooted : Bool} {cs : List Str} (h : KeptComps rooted cs) : ∀ c ∈ cs, c ≠ [] ∧ '/' ∉ c := by
  obtain ⟨k, names, rfl, hn, -⟩ := h
  intro c hc
  rcases List.mem_append.1 hc with hc | hc
  · exact ⟨(hn c hc).1, (hn c hc).2.2.2⟩
  · rw [List.eq_of_mem_replicate hc]; exact ⟨by simp, by decide⟩

theorem split_slash (s : Str) : splitOnChar '/' ('/' :: s) = [] :: splitOnChar '/' s := by simp [splitOnChar]

/-- The form of a normalised path. -/
theorem normpath_form (p : Str) : ∃ lead k names, (∀ c ∈ names, PathName c) ∧
    (lead = [] ∨ ((lead = ['/'] ∨ lead = ['/', '/']) ∧ k = 0)) ∧
    (lead = [] ↔ p.head? ≠ some '/') ∧
    normpath p = (if lead = [] ∧ List.replicate k (['.', '.'] : Str) ++ names = [] then ['.'] else
      lead ++ slashed (List.replicate k ['.', '.'] ++ names)) ∧
    ∀ cwd, (List.replicate k ['.', '.'] ++ names).foldl walkStep (if lead = [] then cwd else []) = leadsTo cwd p := by
  set rooted : Bool := decide (p.head? = some '/') with hrt
  have hcs := Cli.splitOnChar_no_sep '/' p
  have h0 : KeptComps rooted [] := ⟨0, [], rfl, by simp, fun _ => rfl⟩
  obtain ⟨k, names, hrev, hn, hk⟩ := (normComps_spec rooted [] (fun _ => rfl) (splitOnChar '/' p) [] hcs h0).1
  have hcomps : normComps rooted (splitOnChar '/' p) [] = List.replicate k ['.', '.'] ++ names.reverse := by
    have := congrArg List.reverse hrev
    simpa using this
  set lead : Str := if List.isPrefixOf ['/', '/'] p && !(List.isPrefixOf ['/', '/', '/'] p) then ['/', '/']
    else if p.head? = some '/' then ['/'] else [] with hlead
  have hl2 : List.isPrefixOf ['/', '/'] p = true → p.head? = some '/' := by
    intro h
    cases p with
    | nil => simp at h
    | cons a b => simp [List.isPrefixOf] at h; simp [← h.1]
  have hform : (lead = [] ∧ p.head? ≠ some '/') ∨ ((lead = ['/'] ∨ lead = ['/', '/']) ∧ p.head? = some '/') := by
    rw [hlead]
    split
    next h =>
      refine .inr ⟨.inr rfl, hl2 ?_⟩
      simp only [Bool.and_eq_true] at h
      exact h.1
    next h =>
      split
      next h' => exact .inr ⟨.inl rfl, h'⟩
      next h' => exact .inl ⟨rfl, h'⟩
  refine ⟨lead, k, names.reverse, by simpa using hn, ?_, ?_, ?_, ?_⟩
  · rcases hform with ⟨h, -⟩ | ⟨h, h'⟩
    · exact .inl h
    · exact .inr ⟨h, hk (by simp [hrt, h'])⟩
  · rcases hform with ⟨h, h'⟩ | ⟨h | h, h'⟩ <;> simp [h, h']
  · have hnp : normpath p = if lead ++ join ['/'] (normComps rooted (splitOnChar '/' p) []) = [] then ['.'] else
        lead ++ join ['/'] (normComps rooted (splitOnChar '/' p) []) := by
      unfold normpath
      simp only [← hlead, hrt]
    rw [hnp, hcomps, slashed_join]
    congr 1
    rw [List.append_eq_nil_iff]
    congr 1
    rw [← slashed_join]
    rw [eq_iff_iff]
    constructor
    · intro h
      generalize hL : List.replicate k (['.', '.'] : Str) ++ names.reverse = L at h
      cases L with
      | nil => rfl
      | cons a r =>
        have ha : a ≠ [] := by
          have hm : a ∈ List.replicate k (['.', '.'] : Str) ++ names.reverse := by rw [hL]; simp
          rcases List.mem_append.1 hm with hm | hm
          · rw [List.eq_of_mem_replicate hm]; simp
          · exact (hn a (by simpa using hm)).1
        cases r <;> simp [slashed, ha] at h
    · intro h; rw [h]; rfl
  · intro cwd
    have := (normComps_spec rooted (if lead = [] then cwd else []) (by
      intro hr
      rcases hform with ⟨-, h⟩ | ⟨h, -⟩
      · simp [hrt, h] at hr
      · rcases h with h | h <;> simp [h]) (splitOnChar '/' p) [] hcs h0).2
    rw [hcomps] at this
    rw [this]
    unfold leadsTo
    rcases hform with ⟨h, h'⟩ | ⟨h | h, h'⟩ <;> simp [h, h']

theorem split_slashed {cs : List Str} (hne : cs ≠ []) (h : ∀ c ∈ cs, '/' ∉ c) : splitOnChar '/' (slashed cs) = cs := by
  obtain ⟨a, r, rfl⟩ := List.exists_cons_of_ne_nil hne
  rw [slashed_join]
  exact Cli.splitOnChar_join1 '/' a r h

theorem slashed_head {cs : List Str} (h : ∀ c ∈ cs, c ≠ [] ∧ '/' ∉ c) : (slashed cs).head? ≠ some '/' := by
  cases cs with
  | nil => simp [slashed]
  | cons a r =>
    obtain ⟨h1, h2⟩ := h a (by simp)
    obtain ⟨x, xs, rfl⟩ := List.exists_cons_of_ne_nil h1
    have : x ≠ '/' := by rintro rfl; simp at h2
    cases r <;> simp [slashed, this]

theorem slashed_last {cs : List Str} (h : ∀ c ∈ cs, c ≠ [] ∧ '/' ∉ c) : (slashed cs).getLast? ≠ some '/' := by
  induction cs with
  | nil => simp [slashed]
  | cons a r ih =>
    cases r with
    | nil => intro h0; exact (h a (by simp)).2 (List.mem_of_getLast? h0)
    | cons b r =>
      have i1 := ih fun c hc => h c (List.mem_cons_of_mem _ hc)
      have i2 : slashed (b :: r) ≠ [] := by
        cases r with
        | nil => exact (h b (by simp)).1
        | cons _ _ => simp [slashed]
      simp only [slashed]
      rw [List.getLast?_append, List.getLast?_cons]
      cases hg : (slashed (b :: r)).getLast? with
      | none => exact absurd (List.getLast?_eq_none_iff.1 hg) i2
      | some z => rw [hg] at i1; simpa using i1

/-- A path of the normal form leads where its components lead. -/
theorem leadsTo_form {lead : Str} (hl : lead = [] ∨ lead = ['/'] ∨ lead = ['/', '/']) {cs : List Str} (hne : cs ≠ [])
    (h : ∀ c ∈ cs, c ≠ [] ∧ '/' ∉ c) (cwd : List Str) :
    leadsTo cwd (lead ++ slashed cs) = cs.foldl walkStep (if lead = [] then cwd else []) := by
  have hs := split_slashed hne fun c hc => (h c hc).2
  have hh := slashed_head h
  have he : ∀ d, walkStep d [] = d := fun d => by simp [walkStep]
  unfold leadsTo
  rcases hl with rfl | rfl | rfl
  · simp only [List.nil_append, hs, if_neg hh, if_true]
  · simp only [List.singleton_append, split_slash, hs, List.foldl_cons, he]
    simp
  · simp only [List.cons_append, List.nil_append, split_slash, hs, List.foldl_cons, he]
    simp

/-- **C84** Whatever the path of the predictions looks like (relative or absolute, with `.` and `..`, doubled and trailing
slashes, or empty): without `--output-path` the results go to a new name `edge_results_<time>` in the directory that path leads
to, on a file system without symbolic links; and the directory is named without needless parts. -/
theorem C84_default_output_place (w : World) (hstamp : '/' ∉ w.stamp) (pred : Str) :
    (∀ cwd, leadsTo cwd (outputDir w pred none) = leadsTo cwd pred ++ ["edge_results_".toList ++ w.stamp]) ∧
    ∃ lead ups names, (∀ c ∈ names, PathName c) ∧ (lead = [] ∨ ((lead = ['/'] ∨ lead = ['/', '/']) ∧ ups = 0)) ∧
      (outputDir w pred none = lead ++ slashed (List.replicate ups ['.', '.'] ++ names ++ ["edge_results_".toList ++ w.stamp]) ∨
        outputDir w pred none = slashed [['.'], "edge_results_".toList ++ w.stamp]) := by
  obtain ⟨lead, k, names, hn, hlead, -, hform, hwalk⟩ := normpath_form pred
  have hlead' : lead = [] ∨ lead = ['/'] ∨ lead = ['/', '/'] := by tauto
  set x : Str := "edge_results_".toList ++ w.stamp with hx
  obtain ⟨tl, htl⟩ : ∃ t, x = 'e' :: 'd' :: t := by
    rw [hx, show "edge_results_".toList = 'e' :: 'd' :: "ge_results_".toList from rfl]; exact ⟨_, rfl⟩
  have hxn : PathName x := by
    refine ⟨by simp [htl], by simp [htl], by simp [htl], ?_⟩
    rw [hx, List.mem_append]
    rintro (h | h)
    · exact absurd h (by decide)
    · exact hstamp h
  have hxh : x.head? ≠ some '/' := by simp [htl]
  have hkept : ∀ c ∈ List.replicate k (['.', '.'] : Str) ++ names, c ≠ [] ∧ '/' ∉ c := by
    intro c hc
    rcases List.mem_append.1 hc with hc | hc
    · rw [List.eq_of_mem_replicate hc]; exact ⟨by simp, by decide⟩
    · exact ⟨(hn c hc).1, (hn c hc).2.2.2⟩
  have hkx : ∀ c ∈ List.replicate k (['.', '.'] : Str) ++ names ++ [x], c ≠ [] ∧ '/' ∉ c := by
    intro c hc
    rcases List.mem_append.1 hc with hc | hc
    · exact hkept c hc
    · rw [List.mem_singleton.1 hc]; exact ⟨hxn.1, hxn.2.2.2⟩
  have hout : outputDir w pred none = pjoin (normpath pred) x := rfl
  generalize hL : List.replicate k (['.', '.'] : Str) ++ names = L at hform hwalk hkept hkx ⊢
  by_cases h1 : lead = [] ∧ L = []
  · rw [if_pos h1] at hform
    obtain ⟨rfl, rfl⟩ := h1
    have ho : outputDir w pred none = slashed [['.'], x] := by
      rw [hout, hform]
      unfold pjoin
      rw [if_neg hxh]
      rfl
    constructor
    · intro cwd
      have := leadsTo_form (lead := []) (.inl rfl) (cs := [['.'], x]) (by simp) (by
        intro c hc
        rcases List.mem_cons.1 hc with rfl | hc
        · exact ⟨by simp, by decide⟩
        · rw [List.mem_singleton.1 hc]; exact ⟨hxn.1, hxn.2.2.2⟩) cwd
      rw [ho, ← hwalk cwd]
      rw [List.nil_append] at this
      rw [this]
      simp only [List.foldl_cons, List.foldl_nil, if_true, walkStep_name hxn]
      simp [walkStep]
    · exact ⟨[], 0, [], by simp, .inl rfl, .inr ho⟩
  · rw [if_neg h1] at hform
    have ho : outputDir w pred none = lead ++ slashed (L ++ [x]) := by
      rw [hout, hform]
      cases L with
      | nil =>
        have hl : lead = ['/'] ∨ lead = ['/', '/'] := by
          rcases hlead' with h | h
          · exact absurd ⟨h, rfl⟩ h1
          · exact h
        unfold pjoin
        rw [if_neg hxh, if_pos (by rcases hl with h | h <;> simp [h, slashed])]
        simp [slashed]
      | cons a r =>
        have hne : slashed (a :: r) ≠ [] := by
          cases r with
          | nil => exact (hkept a (by simp)).1
          | cons _ _ => simp [slashed]
        have hlast := slashed_last hkept
        unfold pjoin
        rw [if_neg hxh, if_neg, slashed_append _ _ (by simp), List.append_assoc]
        rintro (h | h)
        · exact hne (List.append_eq_nil_iff.1 h).2
        · rw [List.getLast?_append] at h
          cases hg : (slashed (a :: r)).getLast? with
          | none => exact hne (List.getLast?_eq_none_iff.1 hg)
          | some z => rw [hg] at h hlast; exact hlast (by simpa using h)
    constructor
    · intro cwd
      rw [ho, leadsTo_form hlead' (by simp) hkx, List.foldl_append, hwalk]
      simp only [List.foldl_cons, List.foldl_nil, walkStep_name hxn]
    · exact ⟨lead, k, names, hn, hlead, .inl (by rw [hL]; exact ho)⟩

/-- A winding path. -/
example : leadsTo ["home".toList, "u".toList] (outputDir ⟨⟨fun _ => true, fun _ => none, fun _ => none⟩,
      fun _ => .error .oserror, fun _ => true, "0".toList, "0".toList⟩ "../x//./y/../runs/".toList none) =
    ["home".toList, "x".toList, "runs".toList, "edge_results_0".toList] :=
  ((C84_default_output_place _ (by decide) _).1 _).trans (by decide)

end

end EdgeEval.Props
