import Verif.Spec.MatlabTest
import Verif.Props.ConvertFail
import Verif.Props.Progress

/-!
# C79: the comparison of the converted edges with those of the MATLAB code
-/

namespace EdgeEval.Props

open Spec Text Samples Datasets PathU EdgeEval.Convert MatlabTest

/-! ## Arrays -/

theorem mem_indices {s i : List Nat} : i ∈ indices s ↔ Inside s i := by
  unfold Inside
  induction s generalizing i with
  | nil => simp [indices]
  | cons n s ih =>
    cases i with
    | nil => simp [indices]
    | cons k i =>
      simp only [indices, List.mem_flatMap, List.mem_range, List.mem_map, List.cons.injEq, List.forall₂_cons]
      constructor
      · rintro ⟨j, hj, t, ht, rfl, rfl⟩; exact ⟨hj, ih.1 ht⟩
      · rintro ⟨hj, ht⟩; exact ⟨k, hj, i, ih.2 ht, rfl, rfl⟩

theorem nodup_indices (s : List Nat) : (indices s).Nodup := by
  induction s with
  | nil => simp [indices]
  | cons n s ih =>
    rw [indices, List.nodup_flatMap]
    refine ⟨fun i _ => ih.map (fun a b h => by simpa using h), ?_⟩
    refine List.nodup_range.imp ?_
    intro i j hij
    simp only [Function.onFun]
    rw [List.disjoint_left]
    intro t h1 h2
    rw [List.mem_map] at h1 h2
    obtain ⟨u, -, rfl⟩ := h1
    obtain ⟨v, -, h⟩ := h2
    exact hij (List.cons.inj h).1.symm

theorem arrayEqual_iff (a b : NpArr) : arrayEqual a b = true ↔ SamePicture a b := by
  unfold arrayEqual SamePicture
  simp only [Bool.and_eq_true, decide_eq_true_eq, List.all_eq_true, mem_indices]

theorem bcRev_self (s : List Nat) : bcRev s s = some s := by
  induction s with
  | nil => rfl
  | cons x s ih => simp [bcRev, bcDim, ih]

theorem bcShape_self (s : List Nat) : bcShape s s = some s := by
  unfold bcShape; rw [bcRev_self]; simp

theorem zip_inside {s i : List Nat} (h : Inside s i) : i.zipWith (fun k n => if n = 1 then 0 else k) s = i := by
  unfold Inside at h
  induction h with
  | nil => rfl
  | cons h1 _ ih =>
    simp only [List.zipWith_cons_cons, List.cons.injEq]
    refine ⟨?_, ih⟩
    split <;> omega

theorem bcAt_inside {a : NpArr} {i : List Nat} (h : Inside a.shape i) : bcAt a i = a.at_ i := by
  unfold bcAt
  have hl : i.length = a.shape.length := List.Forall₂.length_eq h
  rw [hl, Nat.sub_self, List.drop_zero, zip_inside h]

theorem countDiff_same (legacy : Bool) {a b : NpArr} (h : a.shape = b.shape) : countDiff legacy a b = .ok (differences a b) := by
  unfold countDiff differences
  rw [← h, bcShape_self]
  show Except.ok ((indices a.shape).countP fun i => decide (bcAt a i ≠ bcAt b i)) = _
  congr 1
  rw [List.countP_eq_length_filter]
  have hn : ((indices a.shape).filter fun i => decide (bcAt a i ≠ bcAt b i)).Nodup := (nodup_indices _).filter _
  rw [← List.toFinset_card_of_nodup hn, ← Set.ncard_coe_finset]
  congr 1
  ext i
  simp only [List.coe_toFinset, List.mem_filter, mem_indices, decide_eq_true_eq, Set.mem_ofPred_eq]
  constructor
  · rintro ⟨h1, h2⟩
    rw [bcAt_inside h1, bcAt_inside (h ▸ h1)] at h2
    exact ⟨h1, h2⟩
  · rintro ⟨h1, h2⟩
    rw [bcAt_inside h1, bcAt_inside (h ▸ h1)]
    exact ⟨h1, h2⟩

theorem cast_bytes {a : NpArr} (h : Bytes a) {i : List Nat} (hi : Inside a.shape i) : (castTo 256 a).at_ i = a.at_ i := by
  obtain ⟨h0, h1⟩ := h i hi
  exact Int.emod_eq_of_lt h0 (by exact_mod_cast h1)

theorem cast_same {a b : NpArr} (ha : Bytes a) (hb : Bytes b) : SamePicture (castTo 256 a) (castTo 256 b) ↔ SamePicture a b := by
  unfold SamePicture
  constructor
  · rintro ⟨h1, h2⟩
    have h1' : a.shape = b.shape := h1
    refine ⟨h1', fun i hi => ?_⟩
    rw [← cast_bytes ha hi, ← cast_bytes hb (h1' ▸ hi)]; exact h2 i hi
  · rintro ⟨h1, h2⟩
    refine ⟨h1, fun i hi => ?_⟩
    have hi' : Inside a.shape i := hi
    rw [cast_bytes ha hi', cast_bytes hb (h1 ▸ hi')]; exact h2 i hi'

theorem cast_differences {a b : NpArr} (h : a.shape = b.shape) (ha : Bytes a) (hb : Bytes b) :
    differences (castTo 256 a) (castTo 256 b) = differences a b := by
  unfold differences
  congr 1
  ext i
  simp only [Set.mem_ofPred_eq]
  constructor
  · rintro ⟨h1, h2⟩
    have h1' : Inside a.shape i := h1
    rw [cast_bytes ha h1', cast_bytes hb (h ▸ h1')] at h2; exact ⟨h1', h2⟩
  · rintro ⟨h1, h2⟩
    refine ⟨h1, ?_⟩
    rw [cast_bytes ha h1, cast_bytes hb (h ▸ h1)]; exact h2

theorem inside_finite (s : List Nat) : {i | Inside s i}.Finite := by
  refine (List.finite_toSet (indices s)).subset ?_
  intro i hi
  exact mem_indices.2 hi

theorem differences_zero {a b : NpArr} (h : a.shape = b.shape) : differences a b = 0 ↔ SamePicture a b := by
  unfold differences SamePicture
  rw [Set.ncard_eq_zero ((inside_finite a.shape).subset fun i hi => hi.1)]
  constructor
  · intro he
    refine ⟨h, fun i hi => by_contra fun hne => ?_⟩
    have : i ∈ ({i | Inside a.shape i ∧ a.at_ i ≠ b.at_ i} : Set _) := ⟨hi, hne⟩
    rw [he] at this
    exact this
  · rintro ⟨-, h2⟩
    ext i
    simp only [Set.mem_ofPred_eq, Set.mem_empty_iff_false, iff_false, not_and, not_not]
    exact h2 i

/-! ## One file -/

/-- C79: two byte pictures of the same size are compared entry by entry: the number returned is the number of different
entries, the flag says whether there are none. -/
theorem C79_test_edges (legacy : Bool) (pics : Str → Option NpArr) (origDir testDir origSuffix testSuffix f : Str) (a b : NpArr)
    (hx : pathExt f = ".png".toList) (h1 : pics f = some a) (h2 : pics (testFile origDir testDir origSuffix testSuffix f) = some b)
    (ha : Bytes a) (hb : Bytes b) (hs : a.shape = b.shape) :
    ∃ eq : Bool, testEdges legacy pics origDir testDir origSuffix testSuffix f = .ok (f, differences a b, eq) ∧
      (eq = true ↔ SamePicture a b) ∧ (eq = true ↔ differences a b = 0) := by
  refine ⟨arrayEqual (castTo 256 a) (castTo 256 b), ?_, ?_, ?_⟩
  · unfold testEdges openArr
    simp only [hx, h1, h2, if_true, bind, Except.bind]
    rw [countDiff_same legacy (show (castTo 256 a).shape = (castTo 256 b).shape from hs)]
    simp only [cast_differences hs ha hb]
  · rw [arrayEqual_iff, cast_same ha hb]
  · rw [arrayEqual_iff, cast_same ha hb, differences_zero hs]

/-- C79: the flag is never set for pictures of different sizes. -/
theorem C79_sizes (legacy : Bool) (pics : Str → Option NpArr) (origDir testDir origSuffix testSuffix f : Str) (a b : NpArr)
    (h1 : pics f = some a) (h2 : pics (testFile origDir testDir origSuffix testSuffix f) = some b)
    (hs : a.shape ≠ b.shape) (r : Str × Nat × Bool)
    (h : testEdges legacy pics origDir testDir origSuffix testSuffix f = .ok r) : r.2.2 = false := by
  have key : ∀ m, arrayEqual (castTo m a) (castTo m b) = false := by
    intro m
    rw [Bool.eq_false_iff]
    intro he
    rw [arrayEqual_iff] at he
    exact hs he.1
  unfold testEdges openArr at h
  simp only [h1, h2, bind, Except.bind] at h
  split at h
  · cases h
  · rename_i m hm
    split at h
    · cases h
    · cases h
      exact key m

/-! ## Paths -/

/-- A sample name such as `frankfurt/frankfurt_000000_000294`, in which the name `pat` of a directory does not occur. -/
structure NameFree (pat n : Str) : Prop where
  rel : Relative n
  noEmpty : ¬ "//".toList <:+: n
  plain : ¬ pat <:+: n

theorem nameFree_parts {pat n : Str} (h : NameFree pat n) :
    '/' ∉ n ∨ ∃ d stem, n = d ++ '/' :: stem ∧ DirArg d ∧ '/' ∉ stem := by
  by_cases hs : '/' ∈ n
  · right
    obtain ⟨as, bs, e, hne⟩ := List.eq_append_cons_of_mem (List.mem_reverse.2 hs)
    have hn : n = bs.reverse ++ '/' :: as.reverse := by
      rw [← List.reverse_reverse n, e]; simp
    refine ⟨bs.reverse, as.reverse, hn, ⟨?_, ?_⟩, by simpa using hne⟩
    · intro hd
      rw [hd] at hn
      exact h.rel (by rw [hn]; rfl)
    · intro hl
      obtain ⟨d', hd'⟩ := List.getLast?_eq_some_iff.1 hl
      refine h.noEmpty ⟨d', as.reverse, ?_⟩
      rw [hn, hd']
      simp
  · exact Or.inl hs

theorem free_form {pat split n : Str} (hsl : '/' ∉ pat) (hs : DirArg split) (hs' : ¬ pat <:+: split) (hn : NameFree pat n) :
    ∃ post stem, '/' ∉ stem ∧ ¬ pat <:+: post ∧ ¬ pat <:+: stem ∧ DirArg post ∧
      ∀ root mid sfx, sampleFile root mid split n sfx = (root ++ '/' :: mid ++ '/' :: post) ++ '/' :: (stem ++ sfx) := by
  rcases nameFree_parts hn with h | ⟨d, stem, rfl, hd, hst⟩
  · refine ⟨split, n, h, hs', hn.plain, hs, ?_⟩
    intro root mid sfx
    simp [sampleFile, slashed]
  · have hpl : ¬ pat <:+: d ∧ ¬ pat <:+: stem := by
      refine ⟨fun h => hn.plain (infix_append_left h), fun h => hn.plain ?_⟩
      rw [show d ++ '/' :: stem = (d ++ ['/']) ++ stem by simp]
      exact infix_append_right h
    refine ⟨split ++ '/' :: d, stem, hst, not_infix_slash hsl hs' hpl.1, hpl.2, dirArg_append (dirArg_cons hd), ?_⟩
    intro root mid sfx
    simp [sampleFile, slashed]

theorem borderless_gtProc : Borderless "gtProc".toList := (borderless_iff _).2 (by decide)
theorem borderless_procEdge : Borderless "_gtProc_edge.png".toList := (borderless_iff _).2 (by decide)

/-- C79: the MATLAB picture of a sample is compared with the picture of the same sample in the directory of the
converter, with the ending asked for. -/
theorem C79_same_sample (root split n proc sfx : Str) (hr' : ¬ "gtProc".toList <:+: root)
    (hs : split ∈ ["train".toList, "val".toList]) (hn : NameFree "gtProc".toList n)
    (hp : ¬ "_gtProc_edge.png".toList <:+: proc) :
    testFile "gtProc".toList proc "_gtProc_edge.png".toList sfx (sampleFile root "gtProc".toList split n "_gtProc_edge.png".toList) =
      sampleFile root proc split n sfx ∧
    pathExt (sampleFile root "gtProc".toList split n "_gtProc_edge.png".toList) = ".png".toList := by
  have hs2 : DirArg split ∧ ¬ "gtProc".toList <:+: split := by
    have : ∀ s ∈ ["train".toList, "val".toList], DirArg s ∧ ¬ "gtProc".toList <:+: s := by unfold DirArg; decide
    exact this split hs
  have hsl : '/' ∉ "gtProc".toList := by decide
  have hsl2 : '/' ∉ "_gtProc_edge.png".toList := by decide
  have hin : "gtProc".toList <:+: "_gtProc_edge.png".toList := by decide
  obtain ⟨post, stem, p1, p2, p3, p4, p5⟩ := free_form hsl hs2.1 hs2.2 hn
  have hb : '/' ∉ stem ++ "_gtProc_edge.png".toList := by simp only [List.mem_append, not_or]; exact ⟨p1, hsl2⟩
  have hd : ∀ mid, DirArg (root ++ '/' :: mid ++ '/' :: post) := fun mid => dirArg_append (dirArg_cons p4)
  have e1 : dirname (sampleFile root "gtProc".toList split n "_gtProc_edge.png".toList) =
      root ++ '/' :: "gtProc".toList ++ '/' :: post := by
    rw [p5]; exact dirname_slash (hd _) hb
  have e2 : basename (sampleFile root "gtProc".toList split n "_gtProc_edge.png".toList) = stem ++ "_gtProc_edge.png".toList := by
    rw [p5]; exact basename_slash hb
  have h0 : ¬ "gtProc".toList <:+: [] := by
    intro h; rw [List.infix_nil] at h; exact absurd h (by decide)
  have e4 : replaceAll "gtProc".toList proc (root ++ '/' :: "gtProc".toList ++ '/' :: post) = root ++ '/' :: proc ++ '/' :: post := by
    have hpre : ¬ "gtProc".toList <:+: root ++ ['/'] := not_infix_slash hsl hr' h0
    have := replaceAll_once "gtProc".toList proc (root ++ ['/']) ('/' :: post) (by decide) borderless_gtProc hpre
      (not_infix_slash (a := []) hsl h0 p2)
    simpa using this
  have hrel : Relative (stem ++ "_gtProc_edge.png".toList) := by
    refine relative_append ?_ (by unfold Relative; decide)
    unfold Relative
    intro h
    rw [List.head?_eq_some_iff] at h
    obtain ⟨_, rfl⟩ := h
    exact p1 (by simp)
  refine ⟨?_, ?_⟩
  · unfold testFile
    rw [e1, e2, e4, pjoin_slash (hd _) hrel, p5]
    have hfree : ¬ "_gtProc_edge.png".toList <:+: root ++ '/' :: (proc ++ '/' :: (post ++ '/' :: stem)) :=
      not_infix_slash hsl2 (fun h => hr' (hin.trans h)) (not_infix_slash hsl2 hp
        (not_infix_slash hsl2 (fun h => p2 (hin.trans h)) (fun h => p3 (hin.trans h))))
    have := replaceAll_once "_gtProc_edge.png".toList sfx _ [] (by decide) borderless_procEdge hfree
      (fun h => absurd (List.infix_nil.1 h) (by decide))
    simpa [slashed] using this
  · unfold pathExt
    rw [e2]
    have := splitext_dot (stem ++ "_gtProc_edge".toList) "png".toList (by decide) ⟨'_', by
      rw [List.mem_append]; exact Or.inr (by decide), by decide⟩
    have h2 : stem ++ "_gtProc_edge".toList ++ '.' :: "png".toList = stem ++ "_gtProc_edge.png".toList := by
      rw [List.append_assoc]; rfl
    rw [h2] at this
    rw [this]
    rfl

/-! ## The reports -/

theorem tally_foldl (rs : List (Str × Nat × Bool)) (r0 : Report) :
    rs.foldl (fun r x =>
      let r := if x.2.2 then r else { r with misses := r.misses + 1 }
      if x.2.1 > 3 then { r with shown := r.shown ++ [(x.1, x.2.1)] } else r) r0 =
    ⟨r0.shown ++ (rs.filter fun x => decide (3 < x.2.1)).map fun x => (x.1, x.2.1),
      r0.misses + (rs.filter fun x => !x.2.2).length⟩ := by
  induction rs generalizing r0 with
  | nil => simp
  | cons x rs ih =>
    rw [List.foldl_cons, ih]
    rcases x with ⟨f, d, e⟩
    by_cases hd : 3 < d <;> cases e <;> simp [hd] <;> omega

theorem tally_eq (rs : List (Str × Nat × Bool)) :
    tally rs = ⟨(rs.filter fun x => decide (3 < x.2.1)).map fun x => (x.1, x.2.1), (rs.filter fun x => !x.2.2).length⟩ := by
  unfold tally
  rw [tally_foldl]
  simp

theorem tracked_eq {α β : Type} (f : α → Except PyErr β) (l : List α) (nproc : Nat) (sched : List PoolEvent)
    (out : Except PyErr (List β)) (h : tracked f l nproc sched = some out) : out = l.mapM f := by
  unfold tracked at h
  split at h
  · cases ht : trackParallel f ⟨nproc, 1, false, true, false⟩ (.list l) sched with
    | error e =>
      exfalso
      unfold trackParallel parInit at ht
      rename_i hn
      have : nproc ≠ 0 := by omega
      simp [TaskArg.resolve, bind, Except.bind, this, pure, Except.pure] at ht
    | ok s =>
      rw [ht] at h
      obtain ⟨c1, c2, -⟩ := C06_parallel_eq_sequential f _ (.list l) sched s l l.length rfl rfl ht
      simp only at h
      cases hst : s.status with
      | running => rw [hst] at h; cases h
      | finished => rw [hst] at h; cases h; exact (c1 hst).symm
      | raised e => rw [hst] at h; cases h; exact (c2 e hst).symm
  · have := (C34_track_progress f (.list l) l l.length rfl).2
    rw [this] at h
    cases h
    cases l.mapM f <;> rfl

theorem mapM_ok_of_forall {α β γ : Type} {f : β → Except PyErr γ} {k : α → β} {g : α → γ} {l : List α}
    (h : ∀ x ∈ l, f (k x) = .ok (g x)) : (l.map k).mapM f = .ok (l.map g) := by
  induction l with
  | nil => rfl
  | cons x l ih =>
    rw [List.map_cons, List.mapM_cons, h x (by simp), ih fun y hy => h y (by simp [hy])]
    rfl

/-- The ending of the pictures compared in a split. -/
def comparedEnding (ext split : Str) : Str :=
  if split = "train".toList then "_gtProc_edge.".toList ++ ext else "_gtProc_raw_edge.png".toList

/-- The situation in which a comparison makes sense: below `root/gtProc` there are, in the training and in the validation
split, the MATLAB pictures `matlab s n` of the samples `names s`; the directory of the converter has the picture `ours s n`
of each of them, of the same size. -/
structure Comparable (pics : Str → Option NpArr) (tree : Str → Option Entries) (a : TestArgs) (names : Str → List Str)
    (matlab ours : Str → Str → NpArr) : Prop where
  inst : a.inst = false
  dir : a.matlabDirname = "gtProc".toList
  root : DirArg a.root ∧ ¬ "gtProc".toList <:+: a.root
  proc : ¬ "_gtProc_edge.png".toList <:+: a.procDirname
  scan : ∀ s ∈ ["train".toList, "val".toList], scandir tree (.path (slashed [a.root, "gtProc".toList, s]))
    (.str "_gtProc_edge.png".toList) true true = .ok ((names s).map (· ++ "_gtProc_edge.png".toList))
  free : ∀ s ∈ ["train".toList, "val".toList], ∀ n ∈ names s, NameFree "gtProc".toList n
  pics1 : ∀ s ∈ ["train".toList, "val".toList], ∀ n ∈ names s,
    pics (sampleFile a.root "gtProc".toList s n "_gtProc_edge.png".toList) = some (matlab s n)
  pics2 : ∀ s ∈ ["train".toList, "val".toList], ∀ n ∈ names s,
    pics (sampleFile a.root a.procDirname s n (comparedEnding a.ext s)) = some (ours s n)
  bytes : ∀ s ∈ ["train".toList, "val".toList], ∀ n ∈ names s, Bytes (matlab s n) ∧ Bytes (ours s n)
  size : ∀ s ∈ ["train".toList, "val".toList], ∀ n ∈ names s, (matlab s n).shape = (ours s n).shape

/-- The report due for a split. -/
noncomputable def dueReport (a : TestArgs) (names : Str → List Str) (matlab ours : Str → Str → NpArr) (s : Str) : Report :=
  reportOn ((names s).map fun n => (sampleFile a.root "gtProc".toList s n "_gtProc_edge.png".toList, matlab s n, ours s n))

theorem split_jobs_list {pics : Str → Option NpArr} {tree : Str → Option Entries} {a : TestArgs} {names : Str → List Str}
    {matlab ours : Str → Str → NpArr} (H : Comparable pics tree a names matlab ours) {s : Str} (hs : s ∈ ["train".toList, "val".toList]) :
    scandir tree (.path (pjoin (pjoin a.root a.matlabDirname) s)) (.str "_gtProc_edge.png".toList) true true =
      .ok ((names s).map (· ++ "_gtProc_edge.png".toList)) ∧
    ((names s).map (· ++ "_gtProc_edge.png".toList)).map (fun rel => pjoin (pjoin (pjoin a.root a.matlabDirname) s) rel) =
      (names s).map fun n => sampleFile a.root "gtProc".toList s n "_gtProc_edge.png".toList := by
  have hs2 : DirArg s ∧ Relative s := by
    have : ∀ s ∈ ["train".toList, "val".toList], DirArg s ∧ Relative s := by unfold DirArg Relative; decide
    exact this s hs
  have hg : DirArg "gtProc".toList ∧ Relative "gtProc".toList := by unfold DirArg Relative; decide
  have e1 : pjoin a.root a.matlabDirname = a.root ++ '/' :: "gtProc".toList := by
    rw [H.dir, pjoin_slash H.root.1 hg.2]; rfl
  have e2 : pjoin (pjoin a.root a.matlabDirname) s = a.root ++ '/' :: "gtProc".toList ++ '/' :: s := by
    rw [e1, pjoin_slash (dirArg_append (dirArg_cons hg.1)) hs2.2]; rfl
  refine ⟨?_, ?_⟩
  · have := H.scan s hs
    rw [e2]
    rw [show a.root ++ '/' :: "gtProc".toList ++ '/' :: s = slashed [a.root, "gtProc".toList, s] by simp [slashed]]
    exact this
  · rw [List.map_map]
    apply List.map_congr_left
    intro n hn
    have hrel : Relative (n ++ "_gtProc_edge.png".toList) := relative_append (H.free s hs n hn).rel (by unfold Relative; decide)
    simp only [Function.comp]
    rw [e2, pjoin_slash (dirArg_append (dirArg_cons hs2.1)) hrel]
    simp [sampleFile, slashed]

theorem split_report {legacy : Bool} {pics : Str → Option NpArr} {tree : Str → Option Entries} {a : TestArgs} {names : Str → List Str}
    {matlab ours : Str → Str → NpArr} (H : Comparable pics tree a names matlab ours) {s : Str} (hs : s ∈ ["train".toList, "val".toList])
    (nproc : Nat) (sched : List PoolEvent) (out : Except PyErr Report)
    (h : testSplit legacy pics tree a nproc sched s (comparedEnding a.ext s) = some out) :
    out = .ok (dueReport a names matlab ours s) := by
  classical
  obtain ⟨e1, e2⟩ := split_jobs_list H hs
  unfold testSplit at h
  simp only [e1, e2] at h
  rw [Option.map_eq_some_iff] at h
  obtain ⟨r, hr, rfl⟩ := h
  have key : ∀ n ∈ names s, testEdges legacy pics a.matlabDirname a.procDirname "_gtProc_edge.png".toList (comparedEnding a.ext s)
      (sampleFile a.root "gtProc".toList s n "_gtProc_edge.png".toList) =
      .ok (sampleFile a.root "gtProc".toList s n "_gtProc_edge.png".toList, differences (matlab s n) (ours s n),
        decide (SamePicture (matlab s n) (ours s n))) := by
    intro n hn
    obtain ⟨f1, f2⟩ := C79_same_sample a.root s n a.procDirname (comparedEnding a.ext s) H.root.2 hs (H.free s hs n hn) H.proc
    obtain ⟨eq, t1, t2, -⟩ := C79_test_edges legacy pics "gtProc".toList a.procDirname "_gtProc_edge.png".toList
      (comparedEnding a.ext s) _ (matlab s n) (ours s n) f2 (H.pics1 s hs n hn) (by rw [f1]; exact H.pics2 s hs n hn)
      (H.bytes s hs n hn).1 (H.bytes s hs n hn).2 (H.size s hs n hn)
    rw [H.dir, t1]
    have : eq = decide (SamePicture (matlab s n) (ours s n)) := by
      rw [Bool.eq_iff_iff, t2, decide_eq_true_eq]
    rw [this]
  rw [tracked_eq _ _ _ _ _ hr, mapM_ok_of_forall key]
  show Except.ok (tally _) = _
  rw [tally_eq]
  unfold dueReport reportOn
  congr 2
  · rw [List.filter_map, List.filter_map, List.map_map, List.map_map]
    rfl
  · rw [List.filter_map, List.filter_map, List.length_map, List.length_map]
    congr 2
    funext n
    simp only [Function.comp, decide_not]

/-- C79: the reports printed count the samples whose pictures differ and name those with more than three different
entries, whatever the number of workers and their order. -/
theorem C79_reports (legacy : Bool) (pics : Str → Option NpArr) (tree : Str → Option Entries) (a : TestArgs) (names : Str → List Str)
    (matlab ours : Str → Str → NpArr) (H : Comparable pics tree a names matlab ours) (nproc : Nat) (sched1 sched2 : List PoolEvent)
    (out : Except PyErr (Report × Report)) (h : testAgainstMatlab legacy pics tree a nproc sched1 sched2 = some out) :
    out = .ok (dueReport a names matlab ours "train".toList, dueReport a names matlab ours "val".toList) := by
  unfold testAgainstMatlab at h
  rw [H.inst] at h
  simp only [Bool.false_eq_true, if_false] at h
  have c1 : comparedEnding a.ext "train".toList = "_gtProc_edge.".toList ++ a.ext := by unfold comparedEnding; rw [if_pos rfl]
  have c2 : comparedEnding a.ext "val".toList = "_gtProc_raw_edge.png".toList := by unfold comparedEnding; rw [if_neg (by decide)]
  rw [← c1, ← c2] at h
  cases h1 : testSplit legacy pics tree a nproc sched1 "train".toList (comparedEnding a.ext "train".toList) with
  | none => rw [h1] at h; cases h
  | some r1 =>
    have e1 := split_report H (by simp) nproc sched1 r1 h1
    subst e1
    rw [h1] at h
    cases h2 : testSplit legacy pics tree a nproc sched2 "val".toList (comparedEnding a.ext "val".toList) with
    | none => rw [h2] at h; cases h
    | some r2 =>
      have e2 := split_report H (by simp) nproc sched2 r2 h2
      subst e2
      rw [h2] at h
      cases h
      rfl

/-- C79: a report has no misses exactly when all pairs are the same pictures, and then names no file. -/
theorem C79_no_misses (l : List (Str × NpArr × NpArr)) :
    ((reportOn l).misses = 0 ↔ ∀ x ∈ l, SamePicture x.2.1 x.2.2) ∧
    ((reportOn l).misses ≤ l.length) ∧
    ((∀ x ∈ l, x.2.1.shape = x.2.2.shape) → (reportOn l).shown.length ≤ (reportOn l).misses) := by
  classical
  unfold reportOn
  refine ⟨?_, ?_, ?_⟩
  · simp only [List.length_eq_zero_iff, List.filter_eq_nil_iff, decide_eq_true_eq, not_not]
  · simpa using List.length_filter_le _ _
  · intro hs
    simp only [List.length_map]
    rw [← List.countP_eq_length_filter, ← List.countP_eq_length_filter]
    refine List.countP_mono_left ?_
    intro x hx h3
    simp only [decide_eq_true_eq] at h3 ⊢
    intro hsame
    rw [(differences_zero (hs x hx)).2 hsame] at h3
    omega

/-- C79: the comparison ends: when every worker finishes its file, the reports are printed. -/
theorem C79_ends (legacy : Bool) (pics : Str → Option NpArr) (tree : Str → Option Entries) (a : TestArgs) (nproc : Nat)
    (sched1 sched2 : List PoolEvent)
    (h1 : ∀ l, scandir tree (.path (pjoin (pjoin a.root a.matlabDirname) "train".toList)) (.str "_gtProc_edge.png".toList) true true = .ok l →
      ∀ i < l.length, PoolEvent.complete i ∈ sched1)
    (h2 : ∀ l, scandir tree (.path (pjoin (pjoin a.root a.matlabDirname) "val".toList)) (.str "_gtProc_edge.png".toList) true true = .ok l →
      ∀ i < l.length, PoolEvent.complete i ∈ sched2) :
    ∃ k1 k2 out, testAgainstMatlab legacy pics tree a nproc (sched1 ++ List.replicate k1 .next) (sched2 ++ List.replicate k2 .next) =
      some out := by
  have htr : ∀ {α β : Type} (f : α → Except PyErr β) (l : List α) (sched : List PoolEvent),
      (∀ i < l.length, PoolEvent.complete i ∈ sched) → ∃ k out, tracked f l nproc (sched ++ List.replicate k .next) = some out := by
    intro α β f l sched hall
    unfold tracked
    by_cases hn : nproc > 1
    · have hlen : ∀ (fuel : Nat) (l : List α), l.length ≤ fuel → (chunksOf 1 fuel l).length = l.length := by
        intro fuel
        induction fuel with
        | zero => intro l hl; have : l = [] := by simpa using hl
                  subst this; rfl
        | succ n ih =>
          intro l hl
          cases l with
          | nil => rfl
          | cons x l => simpa [chunksOf] using ih l (by simpa using hl)
      obtain ⟨k, s, e1, e2⟩ := C06_parallel_terminates f ⟨nproc, 1, false, true, false⟩ (.list l) sched l l.length rfl rfl
        (by show 0 < nproc; omega) (by show 0 < 1; omega) (fun i hi => hall i (by rwa [hlen _ _ le_rfl] at hi))
      refine ⟨k, ?_⟩
      rw [if_pos hn, e1]
      cases hst : s.status with
      | running => exact absurd hst e2
      | finished => exact ⟨.ok s.results, by simp [hst]⟩
      | raised e => exact ⟨.error e, by simp [hst]⟩
    · exact ⟨0, _, by rw [if_neg hn]⟩
  have hsplit : ∀ (s sfx : Str) (sched : List PoolEvent),
      (∀ l, scandir tree (.path (pjoin (pjoin a.root a.matlabDirname) s)) (.str "_gtProc_edge.png".toList) true true = .ok l →
        ∀ i < l.length, PoolEvent.complete i ∈ sched) →
      ∃ k out, testSplit legacy pics tree a nproc (sched ++ List.replicate k .next) s sfx = some out := by
    intro s sfx sched hall
    unfold testSplit
    cases hsc : scandir tree (.path (pjoin (pjoin a.root a.matlabDirname) s)) (.str "_gtProc_edge.png".toList) true true with
    | error e => exact ⟨0, .error e, by simp only [hsc]⟩
    | ok l =>
      obtain ⟨k, out, e⟩ := htr (testEdges legacy pics a.matlabDirname a.procDirname "_gtProc_edge.png".toList sfx)
        (l.map fun rel => pjoin (pjoin (pjoin a.root a.matlabDirname) s) rel) sched (by simpa using hall l hsc)
      refine ⟨k, out.map tally, ?_⟩
      simp only [hsc, e, Option.map_some]
  obtain ⟨k1, o1, e1⟩ := hsplit "train".toList ("_gtProc_edge.".toList ++ a.ext) sched1 h1
  obtain ⟨k2, o2, e2⟩ := hsplit "val".toList "_gtProc_raw_edge.png".toList sched2 h2
  refine ⟨k1, k2, ?_⟩
  unfold testAgainstMatlab
  rw [e1, e2]
  split
  · exact ⟨_, rfl⟩
  · cases o1 with
    | error e => exact ⟨_, rfl⟩
    | ok r1 =>
      cases o2 with
      | error e => exact ⟨_, rfl⟩
      | ok r2 => exact ⟨_, rfl⟩

/-! ## Against the converter -/

theorem samePicture_rgb (p q : Rgb) : SamePicture (rgbArr p) (rgbArr q) ↔ SameRgb p q := by
  have hin : ∀ (p : Rgb) y x k, y < p.h → x < p.w → k < 3 → Inside (rgbArr p).shape [y, x, k] := by
    intro p y x k hy hx hk
    exact .cons hy (.cons hx (.cons hk .nil))
  unfold SamePicture SameRgb
  constructor
  · rintro ⟨hs, h⟩
    have e1 : p.h = q.h := by have := congrArg (fun l => l.getD 0 0) hs; exact this
    have e2 : p.w = q.w := by have := congrArg (fun l => l.getD 1 0) hs; exact this
    refine ⟨e1, e2, fun y hy x hx => ⟨?_, ?_, ?_⟩⟩
    · exact Int.ofNat.inj (h _ (hin p y x 0 hy hx (by omega)))
    · exact Int.ofNat.inj (h _ (hin p y x 1 hy hx (by omega)))
    · exact Int.ofNat.inj (h _ (hin p y x 2 hy hx (by omega)))
  · rintro ⟨e1, e2, h⟩
    refine ⟨by show [p.h, p.w, 3] = [q.h, q.w, 3]; rw [e1, e2], ?_⟩
    intro i hi
    have hi' : List.Forall₂ (· < ·) i [p.h, p.w, 3] := hi
    cases hi' with
    | @cons y _ l _ hy hl =>
      cases hl with
      | @cons x _ l _ hx hl =>
        cases hl with
        | @cons k _ l _ hk hl =>
          cases hl
          obtain ⟨h1, h2, h3⟩ := h y hy x hx
          have : k = 0 ∨ k = 1 ∨ k = 2 := by omega
          rcases this with rfl | rfl | rfl
          · exact congrArg Int.ofNat h1
          · exact congrArg Int.ofNat h2
          · exact congrArg Int.ofNat h3

/-- The channels are bytes. -/
def ByteRgb (p : Rgb) : Prop := ∀ y x, p.r y x < 256 ∧ p.g y x < 256 ∧ p.b y x < 256

theorem bytes_rgb {p : Rgb} (h : ByteRgb p) : Bytes (rgbArr p) := by
  intro i hi
  have hi' : List.Forall₂ (· < ·) i [p.h, p.w, 3] := hi
  cases hi' with
  | @cons y _ l _ hy hl =>
    cases hl with
    | @cons x _ l _ hx hl =>
      cases hl with
      | @cons k _ l _ hk hl =>
        cases hl
        obtain ⟨h1, h2, h3⟩ := h y x
        have : k = 0 ∨ k = 1 ∨ k = 2 := by omega
        rcases this with rfl | rfl | rfl
        · exact ⟨Int.natCast_nonneg _, by show ((p.r y x : Nat) : Int) < 256; exact_mod_cast h1⟩
        · exact ⟨Int.natCast_nonneg _, by show ((p.g y x : Nat) : Int) < 256; exact_mod_cast h2⟩
        · exact ⟨Int.natCast_nonneg _, by show ((p.b y x : Nat) : Int) < 256; exact_mod_cast h3⟩

theorem rgbEncode_bytes {e : MLEdges} {im : Rgb} (h : rgbEncode e = .ok im) : ByteRgb im := by
  have hstep : ∀ (acc acc' : Rgb) t, ByteRgb acc → rgbStep e acc t = .ok acc' → ByteRgb acc' := by
    intro acc acc' t ha hs
    have hb : ∀ f k m y x, addBit f k m y x < 256 := fun f k m y x => Nat.mod_lt _ (by omega)
    unfold rgbStep at hs
    split at hs
    · cases hs; exact fun y x => ⟨(ha y x).1, (ha y x).2.1, hb _ _ _ _ _⟩
    · split at hs
      · cases hs; exact fun y x => ⟨(ha y x).1, hb _ _ _ _ _, (ha y x).2.2⟩
      · split at hs
        · cases hs; exact fun y x => ⟨hb _ _ _ _ _, (ha y x).2.1, (ha y x).2.2⟩
        · cases hs
  have key : ∀ (l : List Nat) (acc : Rgb), ByteRgb acc → l.foldlM (rgbStep e) acc = .ok im → ByteRgb im := by
    intro l
    induction l with
    | nil => intro acc ha hl; cases hl; exact ha
    | cons t l ih =>
      intro acc ha hl
      rw [List.foldlM_cons] at hl
      obtain ⟨acc', h1, h2⟩ := bind_ok.mp hl
      exact ih acc' (hstep _ _ _ ha h1) h2
  exact key _ _ (fun y x => ⟨Nat.zero_lt_succ _, Nat.zero_lt_succ _, Nat.zero_lt_succ _⟩) h

theorem convertLabel_bytes {lib : DTLib} {fuel : Nat} {pics : Pictures} {o : ConvOpts} {f out : Str} {im : Rgb}
    (h : convertLabel lib fuel pics o f = .ok (some (out, .png im))) : ByteRgb im := by
  unfold convertLabel at h
  obtain ⟨_, -, h⟩ := Run.bind_eq_ok.1 h
  obtain ⟨_, -, h⟩ := Run.bind_eq_ok.1 h
  obtain ⟨_, -, h⟩ := Run.bind_eq_ok.1 h
  obtain ⟨L0, -, h⟩ := Run.bind_eq_ok.1 h
  obtain ⟨L, -, h⟩ := Run.bind_eq_ok.1 h
  obtain ⟨m, -, h⟩ := Run.bind_eq_ok.1 h
  obtain ⟨ids, -, h⟩ := Run.bind_eq_ok.1 h
  obtain ⟨e, -, h⟩ := Run.bind_eq_ok.1 h
  obtain ⟨e', -, h⟩ := Run.bind_eq_ok.1 h
  obtain ⟨enc, he, h⟩ := Run.bind_eq_ok.1 h
  simp only [Except.ok.injEq, Option.some.injEq, Prod.mk.injEq] at h
  rw [h.2] at he
  unfold encode now at he
  split at he
  · rename_i x hx
    simp only [Except.ok.injEq, Option.some.injEq] at he
    subst he
    split at hx
    · cases hr : rgbEncode e' with
      | error er => rw [hr] at hx; cases hx
      | ok im' => rw [hr] at hx; cases hx; exact rgbEncode_bytes hr
    · split at hx
      · cases hx
      · split at hx <;> cases hx
  · cases he

/-- The job of the converter whose result is compared in a split: the full-size edges, not thinned. -/
def comparedJob (c : CityArgs) (split : Str) : ConvOpts :=
  if split = "train".toList then jobOpts c [] c.trainRadius false false else jobOpts c "raw_".toList c.rawValRadius false false

/-- C79: run after a conversion to PNG without instances, the comparison reports no miss in either split exactly when
every MATLAB picture is the picture the converter made of the label map of that sample. -/
theorem C79_checks_converter (legacy : Bool) (lib : DTLib) (fuel : Nat) (pics : Pictures) (c : CityArgs) (poly names : Str → List Str)
    (hc : c.inst = false ∧ c.ext = "png".toList) (hjob : JobsOk lib fuel pics c names (IsJob c))
    (written : List (Str × Content)) (hw : ∀ x, x ∈ written ↔ Expected lib fuel pics c poly names x)
    (arrays : Str → Option NpArr) (hshow : ∀ f im, (f, Content.edges (.png im)) ∈ written → arrays f = some (rgbArr im))
    (tree : Str → Option Entries) (ml : Str → Str → Rgb)
    (hroot : DirArg c.root ∧ ¬ "gtProc".toList <:+: c.root) (hproc : ¬ "_gtProc_edge.png".toList <:+: c.procDirname)
    (hscan : ∀ s ∈ ["train".toList, "val".toList], scandir tree (.path (slashed [c.root, "gtProc".toList, s]))
      (.str "_gtProc_edge.png".toList) true true = .ok ((names s).map (· ++ "_gtProc_edge.png".toList)))
    (hfree : ∀ s ∈ ["train".toList, "val".toList], ∀ n ∈ names s, SampleName n ∧ NameFree "gtProc".toList n)
    (hml : ∀ s ∈ ["train".toList, "val".toList], ∀ n ∈ names s,
      arrays (sampleFile c.root "gtProc".toList s n "_gtProc_edge.png".toList) = some (rgbArr (ml s n)) ∧ ByteRgb (ml s n))
    (hsize : ∀ s ∈ ["train".toList, "val".toList], ∀ n ∈ names s, ∀ f im,
      convertLabel lib fuel pics (comparedJob c s) (sampleFile c.root "gtFine".toList s n "_gtFine_labelIds.png".toList) =
        .ok (some (f, .png im)) → (ml s n).h = im.h ∧ (ml s n).w = im.w)
    (nproc : Nat) (sched1 sched2 : List PoolEvent) (out : Except PyErr (Report × Report))
    (h : testAgainstMatlab legacy arrays tree { procDirname := c.procDirname, root := c.root, inst := false } nproc sched1 sched2 =
      some out) :
    ∃ r1 r2, out = .ok (r1, r2) ∧ (r1.misses = 0 ∧ r2.misses = 0 ↔
      ∀ s ∈ ["train".toList, "val".toList], ∀ n ∈ names s, ∃ f im,
        convertLabel lib fuel pics (comparedJob c s) (sampleFile c.root "gtFine".toList s n "_gtFine_labelIds.png".toList) =
          .ok (some (f, .png im)) ∧ SameRgb (ml s n) im) := by
  have hend : ∀ s ∈ ["train".toList, "val".toList], IsJob c s (comparedJob c s) ∧
      (comparedJob c s).edgeSuffix = comparedEnding "png".toList s ∧ ∃ pre, (comparedJob c s).edgeSuffix = pre ++ '.' :: "png".toList ∧
        '/' ∉ pre ∧ ∃ ch ∈ pre, ch ≠ '.' := by
    intro s hs
    rw [List.mem_cons, List.mem_singleton] at hs
    unfold comparedJob comparedEnding
    rcases hs with rfl | rfl
    · rw [if_pos rfl, if_pos rfl]
      refine ⟨Or.inl ⟨rfl, rfl⟩, ?_, "_gtProc_edge".toList, ?_, by decide, '_', by decide, by decide⟩
      · unfold jobOpts; rw [hc.1, hc.2]; dsimp only; decide
      · unfold jobOpts; rw [hc.1, hc.2]; dsimp only; decide
    · rw [if_neg (by decide), if_neg (by decide)]
      refine ⟨Or.inr ⟨rfl, false, false, by simp, by simp⟩, ?_, "_gtProc_raw_edge".toList, ?_, by decide, '_', by decide, by decide⟩
      · unfold jobOpts; rw [hc.1, hc.2]; dsimp only; decide
      · unfold jobOpts; rw [hc.1, hc.2]; dsimp only; decide
  have hconv : ∀ s n, ∃ im, s ∈ ["train".toList, "val".toList] → n ∈ names s →
      convertLabel lib fuel pics (comparedJob c s) (sampleFile c.root "gtFine".toList s n "_gtFine_labelIds.png".toList) =
        .ok (some (sampleFile c.root c.procDirname s n (comparedEnding "png".toList s), .png im)) := by
    intro s n
    by_cases hs : s ∈ ["train".toList, "val".toList]
    · by_cases hn : n ∈ names s
      · obtain ⟨j1, j2, pre, j3, j4, j5⟩ := hend s hs
        obtain ⟨enc, he⟩ := hjob s _ j1 n hn
        have hx := (C52_written _ _ _ _ _ _ _ he).2.1
        have hs3 : s ∈ ["train".toList, "val".toList, "test".toList] := by
          simp only [List.mem_cons, List.not_mem_nil, or_false] at hs ⊢; tauto
        rw [j3, pathExt_sample hs3 (hfree s hs n hn).1 _ _ pre "png".toList j4 (by decide) (by decide) j5] at hx
        rw [j2] at he
        cases enc with
        | png im => exact ⟨im, fun _ _ => he⟩
        | tif im => exact absurd (show '.' :: "png".toList = ".tif".toList from hx) (by decide)
      · exact ⟨⟨0, 0, fun _ _ => 0, fun _ _ => 0, fun _ _ => 0⟩, fun _ hn' => absurd hn' hn⟩
    · exact ⟨⟨0, 0, fun _ _ => 0, fun _ _ => 0, fun _ _ => 0⟩, fun hs' => absurd hs' hs⟩
  choose im him using hconv
  have H : Comparable arrays tree { procDirname := c.procDirname, root := c.root, inst := false } names
      (fun s n => rgbArr (ml s n)) (fun s n => rgbArr (im s n)) := by
    refine ⟨rfl, rfl, hroot, hproc, hscan, fun s hs n hn => (hfree s hs n hn).2, fun s hs n hn => (hml s hs n hn).1, ?_, ?_, ?_⟩
    · intro s hs n hn
      refine hshow _ _ ((hw _).2 (Or.inr (Or.inl ?_)))
      obtain ⟨j1, j2, -⟩ := hend s hs
      refine ⟨s, comparedJob c s, j1, n, hn, .png (im s n), ?_, ?_⟩
      · rw [j2]; exact him s n hs hn
      · rw [j2]
    · intro s hs n hn
      exact ⟨bytes_rgb (hml s hs n hn).2, bytes_rgb (convertLabel_bytes (him s n hs hn))⟩
    · intro s hs n hn
      obtain ⟨e1, e2⟩ := hsize s hs n hn _ _ (him s n hs hn)
      show [(ml s n).h, (ml s n).w, 3] = [(im s n).h, (im s n).w, 3]
      rw [e1, e2]
  refine ⟨_, _, C79_reports legacy arrays tree _ names _ _ H nproc sched1 sched2 out h, ?_⟩
  have hm : ∀ s, (dueReport { procDirname := c.procDirname, root := c.root, inst := false } names
      (fun s n => rgbArr (ml s n)) (fun s n => rgbArr (im s n)) s).misses = 0 ↔ ∀ n ∈ names s, SameRgb (ml s n) (im s n) := by
    intro s
    unfold dueReport
    rw [(C79_no_misses _).1]
    simp only [List.forall_mem_map, samePicture_rgb]
  rw [hm, hm]
  constructor
  · rintro ⟨h1, h2⟩ s hs n hn
    refine ⟨_, _, him s n hs hn, ?_⟩
    rw [List.mem_cons, List.mem_singleton] at hs
    rcases hs with rfl | rfl
    · exact h1 n hn
    · exact h2 n hn
  · intro hall
    have : ∀ s ∈ ["train".toList, "val".toList], ∀ n ∈ names s, SameRgb (ml s n) (im s n) := by
      intro s hs n hn
      obtain ⟨f, im', e1, e2⟩ := hall s hs n hn
      rw [him s n hs hn] at e1
      simp only [Except.ok.injEq, Option.some.injEq, Prod.mk.injEq, Encoded.png.injEq] at e1
      rw [e1.2]; exact e2
    exact ⟨this _ (by simp), this _ (by simp)⟩

/-! ## When it does not work -/

/-- C79: with instances (the default) the comparison is refused, whatever the files. -/
theorem C79_instances_refused (legacy : Bool) (pics : Str → Option NpArr) (tree : Str → Option Entries) (a : TestArgs) (nproc : Nat)
    (sched1 sched2 : List PoolEvent) (h : a.inst = true) :
    testAgainstMatlab legacy pics tree a nproc sched1 sched2 = some (.error .assertionError) := by
  unfold testAgainstMatlab
  rw [if_pos h]

/-- C79 (finding): converted edges in 32-bit TIFF format cannot be compared: the first training sample wider than three
pixels ends the run with `ValueError`, since an `(h, w, 3)` array does not compare with an `(h, w)` array. -/
theorem C79_tif_fails (pics : Str → Option NpArr) (tree : Str → Option Entries) (a : TestArgs) (nproc : Nat)
    (sched1 sched2 : List PoolEvent) (names : List Str) (n0 : Str) (rest : List Str) (hnames : names = n0 :: rest)
    (hi : a.inst = false) (hm : a.matlabDirname = "gtProc".toList) (hx : a.ext = "tif".toList)
    (hroot : DirArg a.root ∧ ¬ "gtProc".toList <:+: a.root) (hproc : ¬ "_gtProc_edge.png".toList <:+: a.procDirname)
    (hscan : scandir tree (.path (slashed [a.root, "gtProc".toList, "train".toList]))
      (.str "_gtProc_edge.png".toList) true true = .ok (names.map (· ++ "_gtProc_edge.png".toList)))
    (hfree : ∀ n ∈ names, NameFree "gtProc".toList n) (p : Rgb) (q : NpArr) (h w : Nat)
    (hp : pics (sampleFile a.root "gtProc".toList "train".toList n0 "_gtProc_edge.png".toList) = some (rgbArr p))
    (hq : pics (sampleFile a.root a.procDirname "train".toList n0 "_gtProc_edge.tif".toList) = some q)
    (hs : q.shape = [h, w]) (hw : 3 < w) (out : Except PyErr (Report × Report))
    (hrun : testAgainstMatlab false pics tree a nproc sched1 sched2 = some out) : out = .error .valueError := by
  have hg : DirArg "gtProc".toList ∧ Relative "gtProc".toList := by unfold DirArg Relative; decide
  have ht : DirArg "train".toList ∧ Relative "train".toList := by unfold DirArg Relative; decide
  have e1 : pjoin a.root a.matlabDirname = a.root ++ '/' :: "gtProc".toList := by
    rw [hm, pjoin_slash hroot.1 hg.2]; rfl
  have e2 : pjoin (pjoin a.root a.matlabDirname) "train".toList = a.root ++ '/' :: "gtProc".toList ++ '/' :: "train".toList := by
    rw [e1, pjoin_slash (dirArg_append (dirArg_cons hg.1)) ht.2]; rfl
  have e3 : a.root ++ '/' :: "gtProc".toList ++ '/' :: "train".toList = slashed [a.root, "gtProc".toList, "train".toList] := by
    simp [slashed]
  have e4 : pjoin (pjoin (pjoin a.root a.matlabDirname) "train".toList) (n0 ++ "_gtProc_edge.png".toList) =
      sampleFile a.root "gtProc".toList "train".toList n0 "_gtProc_edge.png".toList := by
    have hrel : Relative (n0 ++ "_gtProc_edge.png".toList) :=
      relative_append (hfree n0 (by simp [hnames])).rel (by unfold Relative; decide)
    rw [e2, pjoin_slash (dirArg_append (dirArg_cons ht.1)) hrel]
    simp [sampleFile, slashed]
  obtain ⟨f1, f2⟩ := C79_same_sample a.root "train".toList n0 a.procDirname ("_gtProc_edge.".toList ++ a.ext) hroot.2 (by simp)
    (hfree n0 (by simp [hnames])) hproc
  have f3 : "_gtProc_edge.".toList ++ a.ext = "_gtProc_edge.tif".toList := by rw [hx]; decide
  have hbad : testEdges false pics a.matlabDirname a.procDirname "_gtProc_edge.png".toList ("_gtProc_edge.".toList ++ a.ext)
      (sampleFile a.root "gtProc".toList "train".toList n0 "_gtProc_edge.png".toList) = .error .valueError := by
    unfold testEdges openArr
    rw [hm, f1, f2, f3]
    simp only [hp, hq, if_true, bind, Except.bind]
    have hb : bcShape (castTo 256 (rgbArr p)).shape (castTo 256 q).shape = none := by
      have : (castTo 256 q).shape = [h, w] := hs
      rw [this]
      show (bcRev [3, p.w, p.h] [w, h]).map List.reverse = none
      have hd : bcDim 3 w = none := by
        unfold bcDim
        rw [if_neg (by omega), if_neg (by omega), if_neg (by omega)]
      unfold bcRev
      rw [hd]
      rfl
    unfold countDiff
    rw [hb]
    rfl
  have hsplit : ∀ r, testSplit false pics tree a nproc sched1 "train".toList ("_gtProc_edge.".toList ++ a.ext) = some r →
      r = .error .valueError := by
    intro r hr
    unfold testSplit at hr
    have hsc : scandir tree (.path (pjoin (pjoin a.root a.matlabDirname) "train".toList)) (.str "_gtProc_edge.png".toList) true true =
        .ok (names.map (· ++ "_gtProc_edge.png".toList)) := by rw [e2, e3]; exact hscan
    simp only [hsc] at hr
    rw [Option.map_eq_some_iff] at hr
    obtain ⟨o, ho, rfl⟩ := hr
    rw [tracked_eq _ _ _ _ _ ho, hnames, List.map_cons, List.map_cons, List.mapM_cons, e4, hbad]
    rfl
  unfold testAgainstMatlab at hrun
  rw [hi] at hrun
  simp only [Bool.false_eq_true, if_false] at hrun
  cases h1 : testSplit false pics tree a nproc sched1 "train".toList ("_gtProc_edge.".toList ++ a.ext) with
  | none => rw [h1] at hrun; cases hrun
  | some r1 =>
    have := hsplit r1 h1
    subst this
    rw [h1] at hrun
    cases hrun
    rfl

/-- C79 (finding): a `gtProc` in the path of the data directory is rewritten as well, so the picture is looked for in
another directory. -/
theorem C79_root_rewritten :
    testFile "gtProc".toList "gtEval".toList "_gtProc_edge.png".toList "_gtProc_raw_edge.png".toList
      "/d/gtProc_v2/gtProc/val/a_gtProc_edge.png".toList = "/d/gtEval_v2/gtEval/val/a_gtProc_raw_edge.png".toList := by
  decide +kernel

/-! ## Examples -/

section Example

/-- A tree with one training and one validation picture. -/
def mtTree : Str → Option Entries := fun d =>
  if d = "d/gtProc/train".toList then some (.cons "x_gtProc_edge.png".toList .file .nil)
  else if d = "d/gtProc/val".toList then some (.cons "y_gtProc_edge.png".toList .file .nil) else none

/-- A one-pixel picture. -/
def mtPic (v : Int) : NpArr := ⟨[1, 1, 3], fun _ => v⟩

def mtPics : Str → Option NpArr := fun f =>
  if f = "d/gtProc/train/x_gtProc_edge.png".toList then some (mtPic 5)
  else if f = "d/gtEval/train/x_gtProc_edge.png".toList then some (mtPic 5)
  else if f = "d/gtProc/val/y_gtProc_edge.png".toList then some (mtPic 5)
  else if f = "d/gtEval/val/y_gtProc_raw_edge.png".toList then some (mtPic 7) else none

example : testAgainstMatlab false mtPics mtTree { procDirname := "gtEval".toList, root := "d".toList, inst := false } 1 [] [] =
    some (.ok (⟨[], 0⟩, ⟨[], 1⟩)) := by decide +kernel

example : testAgainstMatlab false mtPics mtTree { procDirname := "gtEval".toList, root := "d".toList, inst := false } 2
    [.complete 0, .next, .next] [.complete 0, .next, .next] = some (.ok (⟨[], 0⟩, ⟨[], 1⟩)) := by decide +kernel

example : Comparable mtPics mtTree { procDirname := "gtEval".toList, root := "d".toList, inst := false }
    (fun s => if s = "train".toList then ["x".toList] else ["y".toList]) (fun _ _ => mtPic 5)
    (fun s _ => if s = "train".toList then mtPic 5 else mtPic 7) := by
  have hfree : ∀ n ∈ ["x".toList, "y".toList], NameFree "gtProc".toList n := by
    intro n hn
    have : ∀ n ∈ ["x".toList, "y".toList], Relative n ∧ ¬ "//".toList <:+: n ∧ ¬ "gtProc".toList <:+: n := by
      unfold Relative; decide
    obtain ⟨a, b, c⟩ := this n hn
    exact ⟨a, b, c⟩
  have hb : ∀ v, 0 ≤ v → v < 256 → Bytes (mtPic v) := fun v h0 h1 i _ => ⟨h0, h1⟩
  refine ⟨rfl, rfl, ?_, ?_, ?_, ?_, ?_, ?_, ?_, ?_⟩
  · unfold DirArg; decide
  · decide
  · intro s hs
    simp only [List.mem_cons, List.not_mem_nil, or_false] at hs
    rcases hs with rfl | rfl <;> decide +kernel
  · intro s hs n hn
    refine hfree n ?_
    simp only [List.mem_cons, List.not_mem_nil, or_false] at hs
    rcases hs with rfl | rfl
    · rw [if_pos rfl] at hn; simp only [List.mem_cons, List.not_mem_nil, or_false] at hn ⊢; exact Or.inl hn
    · rw [if_neg (by decide)] at hn; simp only [List.mem_cons, List.not_mem_nil, or_false] at hn ⊢; exact Or.inr hn
  · intro s hs n hn
    simp only [List.mem_cons, List.not_mem_nil, or_false] at hs
    rcases hs with rfl | rfl
    · rw [if_pos rfl, List.mem_singleton] at hn; subst hn
      unfold mtPics; rw [if_pos (by decide +kernel)]
    · rw [if_neg (by decide), List.mem_singleton] at hn; subst hn
      unfold mtPics; rw [if_neg (by decide +kernel), if_neg (by decide +kernel), if_pos (by decide +kernel)]
  · intro s hs n hn
    simp only [List.mem_cons, List.not_mem_nil, or_false] at hs
    rcases hs with rfl | rfl
    · rw [if_pos rfl, List.mem_singleton] at hn; subst hn
      unfold mtPics
      rw [if_neg (by decide +kernel), if_pos (by decide +kernel), if_pos rfl]
    · rw [if_neg (by decide), List.mem_singleton] at hn; subst hn
      unfold mtPics
      rw [if_neg (by decide +kernel), if_neg (by decide +kernel), if_neg (by decide +kernel), if_pos (by decide +kernel), if_neg (by decide)]
  · intro s hs n hn
    refine ⟨hb 5 (by omega) (by omega), ?_⟩
    split
    · exact hb 5 (by omega) (by omega)
    · exact hb 7 (by omega) (by omega)
  · intro s hs n hn
    split <;> rfl

/-- The first training picture of a TIFF conversion: `(1, 5)` against `(1, 5, 3)`. -/
def mtTif : Str → Option NpArr := fun f =>
  if f = "d/gtProc/train/x_gtProc_edge.png".toList then some ⟨[1, 5, 3], fun _ => 0⟩
  else if f = "d/gtEval/train/x_gtProc_edge.tif".toList then some ⟨[1, 5], fun _ => 0⟩ else none

example : testAgainstMatlab false mtTif mtTree { procDirname := "gtEval".toList, root := "d".toList, inst := false, ext := "tif".toList } 1 [] [] =
    some (.error .valueError) := by decide +kernel

/-- MATLAB pictures for the dataset converted in the examples of C53. -/
def mtProc (p : Str) : Option Entries :=
  if p = "d/gtProc/train".toList then some (.cons "aachen".toList (.dir (.cons "a_0_gtProc_edge.png".toList .file .nil)) .nil)
  else if p = "d/gtProc/val".toList then some (.cons "bonn".toList (.dir (.cons "b_0_gtProc_edge.png".toList .file .nil)) .nil)
  else none

theorem mtProc_scan :
    scandir mtProc (.path (pjoin (pjoin "d".toList "gtProc".toList) "train".toList)) (.str "_gtProc_edge.png".toList) true true =
      .ok ["aachen/a_0_gtProc_edge.png".toList] ∧
    scandir mtProc (.path (pjoin (pjoin "d".toList "gtProc".toList) "val".toList)) (.str "_gtProc_edge.png".toList) true true =
      .ok ["bonn/b_0_gtProc_edge.png".toList] := by decide +kernel

/-- The hypotheses of `C79_checks_converter` are met: the concrete dataset is converted, MATLAB made the same pictures, and
no miss is reported. -/
example : ∃ (fuel : Nat) (t : Convert.Trace) (arrays : Str → Option NpArr) (r1 r2 : Report),
    convertCity (refLib 1) fuel exMaps exDataset true (exArgs "png".toList false true 1) = some t ∧ t.err = none ∧
    testAgainstMatlab false arrays mtProc { procDirname := "gtEval".toList, root := "d".toList, inst := false } 1 [] [] =
      some (.ok (r1, r2)) ∧ r1.misses = 0 ∧ r2.misses = 0 := by
  classical
  obtain ⟨F, hF⟩ := exAllJobs false true
  have hjob := hF F le_rfl
  obtain ⟨t, t1, t2, t3, t4⟩ := C53_run (refLib 1) F exMaps exDataset (exArgs "png".toList false true 1) exPoly exLabels
    exRoot_ok (by decide) (by decide) exTree_ok hjob
  have hs3 : ∀ s ∈ ["train".toList, "val".toList], s ∈ ["train".toList, "val".toList, "test".toList] := by
    intro s hs; simp only [List.mem_cons, List.not_mem_nil, or_false] at hs ⊢; tauto
  have hj : ∀ s ∈ ["train".toList, "val".toList], IsJob (exArgs "png".toList false true 1) s (comparedJob (exArgs "png".toList false true 1) s) := by
    intro s hs
    simp only [List.mem_cons, List.not_mem_nil, or_false] at hs
    rcases hs with rfl | rfl
    · exact Or.inl ⟨rfl, rfl⟩
    · exact Or.inr ⟨rfl, false, false, by simp, by unfold comparedJob; rw [if_neg (by decide)]; simp⟩
  have hpng : ∀ s n, ∃ im, s ∈ ["train".toList, "val".toList] → n ∈ exLabels s → ∃ f,
      convertLabel (refLib 1) F exMaps (comparedJob (exArgs "png".toList false true 1) s)
        (sampleFile "d".toList "gtFine".toList s n "_gtFine_labelIds.png".toList) = .ok (some (f, .png im)) := by
    intro s n
    by_cases hs : s ∈ ["train".toList, "val".toList]
    · by_cases hn : n ∈ exLabels s
      · obtain ⟨enc, he⟩ := hjob s _ (hj s hs) n hn
        have hx := (C52_written _ _ _ _ _ _ _ he).2.1
        have : ∃ pre, (comparedJob (exArgs "png".toList false true 1) s).edgeSuffix = pre ++ '.' :: "png".toList ∧ '/' ∉ pre ∧
            ∃ ch ∈ pre, ch ≠ '.' := by
          have hs' := hs
          simp only [List.mem_cons, List.not_mem_nil, or_false] at hs'
          rcases hs' with rfl | rfl
          · exact ⟨"_gtProc_edge".toList, by decide +kernel, by decide, '_', by decide, by decide⟩
          · exact ⟨"_gtProc_raw_edge".toList, by decide +kernel, by decide, '_', by decide, by decide⟩
        obtain ⟨pre, p1, p2, p3⟩ := this
        rw [p1, pathExt_sample (hs3 s hs) (exName_good n (exNames s n (Or.inr hn))).1 _ _ pre "png".toList p2 (by decide)
          (by decide) p3] at hx
        cases enc with
        | png im => exact ⟨im, fun _ _ => ⟨_, he⟩⟩
        | tif im => exact absurd (show '.' :: "png".toList = ".tif".toList from hx) (by decide)
      · exact ⟨⟨0, 0, fun _ _ => 0, fun _ _ => 0, fun _ _ => 0⟩, fun _ hn' => absurd hn' hn⟩
    · exact ⟨⟨0, 0, fun _ _ => 0, fun _ _ => 0, fun _ _ => 0⟩, fun hs' => absurd hs' hs⟩
  choose im him using hpng
  let arrays : Str → Option NpArr := fun f =>
    if h : ∃ p, (f, Content.edges (.png p)) ∈ t.written then some (rgbArr h.choose)
    else if f = "d/gtProc/train/aachen/a_0_gtProc_edge.png".toList then some (rgbArr (im "train".toList "aachen/a_0".toList))
    else some (rgbArr (im "val".toList "bonn/b_0".toList))
  have hshow : ∀ f p, (f, Content.edges (.png p)) ∈ t.written → arrays f = some (rgbArr p) := by
    intro f p hp
    have hex : ∃ p, (f, Content.edges (.png p)) ∈ t.written := ⟨p, hp⟩
    have hch := hex.choose_spec
    have : (f, Content.edges (.png hex.choose)) = (f, Content.edges (.png p)) := List.inj_on_of_nodup_map t4 hch hp rfl
    simp only [Prod.mk.injEq, Content.edges.injEq, Encoded.png.injEq, true_and] at this
    show (if h : ∃ p, (f, Content.edges (.png p)) ∈ t.written then _ else _) = _
    rw [dif_pos hex, this]
  have hno : ∀ f, f.take 5 = "d/gtP".toList → ¬ ∃ p, (f, Content.edges (.png p)) ∈ t.written := by
    rintro f hf ⟨p, hp⟩
    rcases (t3 _).1 hp with h | h | h
    · obtain ⟨_, _, _, _, h⟩ := h; simp at h
    · obtain ⟨s, o, _, n, _, enc, _, h⟩ := h
      have h1 : f = sampleFile "d".toList "gtEval".toList s n o.edgeSuffix := (Prod.mk.inj h).1
      rw [h1] at hf
      have : (sampleFile "d".toList "gtEval".toList s n o.edgeSuffix).take 5 = "d/gtE".toList := by
        unfold sampleFile slashed slashed
        rfl
      rw [this] at hf
      exact absurd hf (by decide)
    · obtain ⟨_, _, h⟩ := h; simp at h
  have hlab : ∀ s ∈ ["train".toList, "val".toList], ∀ n ∈ exLabels s,
      (s = "train".toList ∧ n = "aachen/a_0".toList) ∨ (s = "val".toList ∧ n = "bonn/b_0".toList) := by
    intro s hs n hn
    simp only [List.mem_cons, List.not_mem_nil, or_false] at hs
    rcases hs with rfl | rfl
    · left; refine ⟨rfl, ?_⟩
      have : exLabels "train".toList = ["aachen/a_0".toList] := by decide +kernel
      rw [this] at hn; simpa using hn
    · right; refine ⟨rfl, ?_⟩
      have : exLabels "val".toList = ["bonn/b_0".toList] := by decide +kernel
      rw [this] at hn; simpa using hn
  obtain ⟨k1, k2, out, hout⟩ := C79_ends false arrays mtProc { procDirname := "gtEval".toList, root := "d".toList, inst := false } 1
    [.complete 0] [.complete 0]
    (fun l hl i hi => by
      have h0 := mtProc_scan.1
      rw [show scandir mtProc _ _ true true = .ok l from hl] at h0
      injection h0 with h0
      rw [h0] at hi
      have : i = 0 := by simpa using hi
      simp [this])
    (fun l hl i hi => by
      have h0 := mtProc_scan.2
      rw [show scandir mtProc _ _ true true = .ok l from hl] at h0
      injection h0 with h0
      rw [h0] at hi
      have : i = 0 := by simpa using hi
      simp [this])
  have hrun : testAgainstMatlab false arrays mtProc { procDirname := "gtEval".toList, root := "d".toList, inst := false } 1 [] [] = some out := by
    rw [← hout]; rfl
  obtain ⟨r1, r2, o1, o2⟩ := C79_checks_converter false (refLib 1) F exMaps (exArgs "png".toList false true 1) exPoly exLabels ⟨rfl, rfl⟩
    hjob t.written t3 arrays hshow mtProc im ⟨exRoot_ok.dir, by decide⟩ (by decide)
    (by decide +kernel)
    (by
      intro s hs n hn
      refine ⟨(exName_good n (exNames s n (Or.inr hn))).1, ?_⟩
      have : ∀ n ∈ ["aachen/a_0".toList, "bonn/b_0".toList], Relative n ∧ ¬ "//".toList <:+: n ∧ ¬ "gtProc".toList <:+: n := by
        unfold Relative; decide
      have hm : n ∈ ["aachen/a_0".toList, "bonn/b_0".toList] := by
        rcases hlab s hs n hn with ⟨-, h⟩ | ⟨-, h⟩ <;> rw [h] <;> simp
      obtain ⟨a, b, c⟩ := this n hm
      exact ⟨a, b, c⟩)
    (by
      intro s hs n hn
      refine ⟨?_, ?_⟩
      · have hx : ∀ f, f.take 5 = "d/gtP".toList → arrays f =
            if f = "d/gtProc/train/aachen/a_0_gtProc_edge.png".toList then some (rgbArr (im "train".toList "aachen/a_0".toList))
            else some (rgbArr (im "val".toList "bonn/b_0".toList)) := by
          intro f hf
          show (if h : ∃ p, (f, Content.edges (.png p)) ∈ t.written then _ else _) = _
          rw [dif_neg (hno f hf)]
        rcases hlab s hs n hn with ⟨rfl, rfl⟩ | ⟨rfl, rfl⟩
        · rw [hx _ (by decide +kernel), if_pos (by decide +kernel)]
        · rw [hx _ (by decide +kernel), if_neg (by decide +kernel)]
      · obtain ⟨f, hf⟩ := him s n hs hn
        exact convertLabel_bytes hf)
    (by
      intro s hs n hn f p hp
      obtain ⟨f', hf'⟩ := him s n hs hn
      have : Except.ok (some (f', Encoded.png (im s n))) = Except.ok (some (f, Encoded.png p)) := hf'.symm.trans hp
      simp only [Except.ok.injEq, Option.some.injEq, Prod.mk.injEq, Encoded.png.injEq] at this
      rw [this.2]; exact ⟨rfl, rfl⟩)
    1 [] [] out hrun
  refine ⟨F, t, arrays, r1, r2, t1, t2, by rw [hrun, o1], o2.2 ?_⟩
  intro s hs n hn
  obtain ⟨f, hf⟩ := him s n hs hn
  exact ⟨f, _, hf, rfl, rfl, fun _ _ _ _ => ⟨rfl, rfl, rfl⟩⟩

end Example

end EdgeEval.Props
