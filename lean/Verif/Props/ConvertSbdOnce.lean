import Verif.Props.SbdFiles

/-!
# C54, C81: one content per file of an SBD conversion
-/

namespace EdgeEval.Props

open Spec Text Evaluators Samples Datasets PathU MatFile EdgeEval.Convert EdgeEval.ConvertSbd

section

theorem run_bind_inv {α β : Type} {x : Run α} {f : α → Run β} {y : β} (h : x.bind f = .ok (some y)) :
    ∃ a, x = .ok (some a) ∧ f a = .ok (some y) := by
  match x, h with
  | .error _, h => cases h
  | .ok none, h => cases h
  | .ok (some a), h => exact ⟨a, rfl, h⟩

/-- What comes out of the jobs comes out of one of them. -/
theorem runJobs_from {job : Str → Run (List (Str × SbdContent))} : ∀ (l : List Str) (t : ConvertSbd.Trace),
    runJobs job l = some t → ∀ x ∈ t.written, ∃ n ∈ l, ∃ r, job n = .ok (some r) ∧ x ∈ r
  | [], t, h, x, hx => by
    cases h
    cases hx
  | m :: l, t, h, x, hx => by
    unfold runJobs at h
    match hj : job m, h with
    | .error _, h =>
      simp only [Option.some.injEq] at h
      subst h
      cases hx
    | .ok none, h => cases h
    | .ok (some r), h =>
      simp only [Option.map_eq_some_iff] at h
      obtain ⟨t', h1, rfl⟩ := h
      rcases List.mem_append.1 hx with hx | hx
      · exact ⟨m, by simp, r, hj, hx⟩
      · obtain ⟨n, hn, r', g1, g2⟩ := runJobs_from l t' h1 x hx
        exact ⟨n, by simp [hn], r', g1, g2⟩

theorem andThen_from {x y : Option ConvertSbd.Trace} {t : ConvertSbd.Trace} (h : andThen x y = some t) (z : Str × SbdContent)
    (hz : z ∈ t.written) : (∃ t', x = some t' ∧ z ∈ t'.written) ∨ ∃ t', y = some t' ∧ z ∈ t'.written := by
  unfold andThen at h
  match x, h with
  | some u, h =>
    match hu : u.err, h with
    | some _, h =>
      simp only [hu, Option.some.injEq] at h
      subst h
      exact Or.inl ⟨u, rfl, hz⟩
    | none, h =>
      simp only [hu, Option.map_eq_some_iff] at h
      obtain ⟨t', h1, rfl⟩ := h
      rcases List.mem_append.1 hz with hz | hz
      · exact Or.inl ⟨u, rfl, hz⟩
      · exact Or.inr ⟨t', h1, hz⟩

/-- The pictures of one job have different names, those of the sample. -/
theorem routine_files {lib : DTLib} {fuel : Nat} {fs : SbdFs} {a : SbdArgs} {thin : Bool} {n : Str} {r : List (Str × SbdContent)}
    (h : routine lib fuel fs (scriptOpts a thin) n = .ok (some r)) :
    ∃ g : Variant → SbdContent, ∀ x ∈ r, ∃ v, x = (pjoin (saveDirOf a) (variantName n v), g v) ∧
      (∀ t i, v = .edge t i → t = thin) ∧ ((∀ t i, v ≠ .edge t i) → thin = false) := by
  unfold routine at h
  obtain ⟨d, h1, h⟩ := run_bind_inv h
  obtain ⟨_, -, h⟩ := run_bind_inv h
  obtain ⟨_, -, h⟩ := run_bind_inv h
  obtain ⟨_, -, h⟩ := run_bind_inv h
  obtain ⟨_, -, h⟩ := run_bind_inv h
  obtain ⟨_, -, h⟩ := run_bind_inv h
  obtain ⟨r1, -, h⟩ := run_bind_inv h
  obtain ⟨r2, -, h⟩ := run_bind_inv h
  obtain ⟨e2, -, h⟩ := run_bind_inv h
  obtain ⟨e1, -, h⟩ := run_bind_inv h
  have hd : d = saveDirOf a := by
    have h1' : now (checkPath fs (saveDirOf a)) = .ok (some d) := h1
    unfold checkPath Samples.assert at h1'
    by_cases hx : fs.ex (saveDirOf a) = true
    · rw [if_pos hx] at h1'
      cases h1'
      rfl
    · rw [if_neg hx] at h1'
      cases h1'
  subst hd
  simp only [Except.ok.injEq, Option.some.injEq] at h
  subst h
  refine ⟨fun v => match v with
    | .edge _ false => .edges e2
    | .edge _ true => .edges e1
    | .labels => .map r1.2.1
    | .trainIds => .map (segToTrain r1.2.1 sbdLabel2TrainId)
    | .instances => .map (png16 (r1.2.2.getD ⟨0, 0, fun _ _ => 0⟩)), fun x hx => ?_⟩
  have name := fun inst => name_edge (a := a) thin inst n
  rcases List.mem_append.1 hx with hx | hx
  · simp only [List.mem_cons, List.not_mem_nil, or_false] at hx
    rcases hx with rfl | rfl
    · exact ⟨.edge thin false, by rw [← name false]; rfl, by rintro t i ⟨⟩; rfl, fun h => absurd rfl (h _ _)⟩
    · exact ⟨.edge thin true, by rw [← name true]; rfl, by rintro t i ⟨⟩; rfl, fun h => absurd rfl (h _ _)⟩
  · cases thin with
    | true => exact absurd hx (by simp [scriptOpts])
    | false =>
      simp only [scriptOpts, Bool.not_false, if_true, List.mem_cons, List.not_mem_nil, or_false] at hx
      rcases hx with rfl | rfl | rfl
      · exact ⟨Variant.labels, rfl, (by intro t i h; cases h), fun _ => rfl⟩
      · exact ⟨Variant.trainIds, rfl, (by intro t i h; cases h), fun _ => rfl⟩
      · exact ⟨Variant.instances, rfl, (by intro t i h; cases h), fun _ => rfl⟩

/-- **C54** A conversion without `--reanno` never writes two different pictures to one file, whether the two lists share samples,
list samples twice, or not. -/
theorem C54_one_content (lib : DTLib) (fs : SbdFs) (a : SbdArgs) (train val : List Str) (mats : Str → ClsMat × InstMat)
    (h : SbdTree fs a train val mats) (hre : a.reanno = false) (fuel : Nat) (t : ConvertSbd.Trace)
    (ht : convertSbd lib fuel fs a = some t) : ∀ f d d', (f, d) ∈ t.written → (f, d') ∈ t.written → d = d' := by
  have hdot : Relative ".txt".toList := by unfold Relative; decide
  have split : ∀ s l, Relative s → getSamples fs (slashed [a.root, s ++ ".txt".toList]) = .ok l → l ≠ [] → ∀ t,
      runSplit lib fuel (withDir fs (saveDirOf a)) a s = some t → ∀ z ∈ t.written,
        ∃ thin, ∃ n ∈ l, ∃ r, routine lib fuel (withDir fs (saveDirOf a)) (scriptOpts a thin) n = .ok (some r) ∧ z ∈ r := by
    intro s l hs hg hne t ht z hz
    unfold runSplit at ht
    rw [pjoin_slash h.base.root (relative_append hs hdot)] at ht
    have hg' : getSamples (withDir fs (saveDirOf a)) (slashed [a.root, s ++ ".txt".toList]) = .ok l := hg
    rw [hg'] at ht
    have hpos : decide (0 < l.length) = true := by
      rw [decide_eq_true_eq]; exact List.length_pos_iff.2 hne
    rw [show ((do
        let l' ← (Except.ok l : Except PyErr (List Str))
        assert (decide (0 < l'.length))
        .ok l') : Except PyErr (List Str)) = .ok l by
      show (do assert (decide (0 < l.length)); .ok l) = _
      rw [hpos]; rfl] at ht
    change andThen (runJobs _ l) (runJobs _ l) = _ at ht
    rcases andThen_from ht z hz with ⟨t', g1, g2⟩ | ⟨t', g1, g2⟩
    · obtain ⟨n, hn, r, q⟩ := runJobs_from l t' g1 z g2
      exact ⟨false, n, hn, r, q⟩
    · obtain ⟨n, hn, r, q⟩ := runJobs_from l t' g1 z g2
      exact ⟨true, n, hn, r, q⟩
  have all : ∀ z ∈ t.written, ∃ thin, ∃ n ∈ train ++ val, ∃ r,
      routine lib fuel (withDir fs (saveDirOf a)) (scriptOpts a thin) n = .ok (some r) ∧ z ∈ r := by
    intro z hz
    unfold convertSbd at ht
    rcases andThen_from ht z hz with ⟨t', g1, g2⟩ | ⟨t', g1, g2⟩
    · obtain ⟨thin, n, hn, q⟩ := split "train".toList train (by unfold Relative; decide) h.trainFile h.trainNe t' g1 z g2
      exact ⟨thin, n, by simp [hn], q⟩
    · rcases andThen_from g1 z g2 with ⟨t'', g3, g4⟩ | ⟨t'', g3, g4⟩
      · obtain ⟨thin, n, hn, q⟩ := split "val".toList val (by unfold Relative; decide) h.valFile h.valNe t'' g3 z g4
        exact ⟨thin, n, by simp [hn], q⟩
      · rw [hre] at g3
        cases g3
        cases g4
  intro f d d' hd hd'
  obtain ⟨thin, n, hn, r, q1, q2⟩ := all _ hd
  obtain ⟨thin', n', hn', r', q1', q2'⟩ := all _ hd'
  obtain ⟨g, hg⟩ := routine_files q1
  obtain ⟨g', hg'⟩ := routine_files q1'
  obtain ⟨v, e, e1, e2⟩ := hg _ q2
  obtain ⟨v', e', e1', e2'⟩ := hg' _ q2'
  have path : ∀ n ∈ train ++ val, ∀ v, pjoin (saveDirOf a) (variantName n v) = outFile a (variantName n v) := by
    intro n hn v
    have hr : Relative n := (h.base.samples n hn).relName
    rw [saveDir_eq h.base, pjoin_slash (dirArg_slash h.base.out)]
    · simp [slashed, outFile]
    · obtain ⟨s, hs, hs'⟩ : ∃ s, variantName n v = n ++ s ∧ Relative s := by
        cases v with
        | edge t i => exact ⟨_, (name_edge (a := a) t i n).symm, by
            cases t <;> cases i <;> (unfold Relative scriptOpts; simp)⟩
        | labels => exact ⟨_, rfl, by unfold Relative; decide⟩
        | trainIds => exact ⟨_, rfl, by unfold Relative; decide⟩
        | instances => exact ⟨_, rfl, by unfold Relative; decide⟩
      rw [hs]
      exact relative_append hr hs'
  simp only [Prod.mk.injEq] at e e'
  obtain ⟨rfl, rfl⟩ := C54_files_distinct a n n' v v' (by rw [← path n hn, ← path n' hn', ← e.1, ← e'.1])
  have hthin : thin = thin' := by
    by_cases hv : ∃ t i, v = .edge t i
    · obtain ⟨t, i, hv⟩ := hv
      rw [← e1 t i hv, ← e1' t i hv]
    · push Not at hv
      rw [e2 hv, e2' hv]
  subst hthin
  rw [q1] at q1'
  simp only [Except.ok.injEq, Option.some.injEq] at q1'
  subst q1'
  obtain ⟨v', e', -⟩ := hg _ q2'
  simp only [Prod.mk.injEq] at e'
  obtain ⟨-, rfl⟩ := C54_files_distinct a n n v v' (by rw [← path n hn, ← path n hn, ← e.1, ← e'.1])
  rw [e.2, e'.2]

/-- The concrete SBD directory: a complete conversion with a positive amount of files. -/
example : ∃ (fuel : Nat) (t : ConvertSbd.Trace), convertSbd (refLib 2) fuel exSbdFs (exSbdArgs false) = some t ∧ t.err = none ∧
    (∃ d, ("d/gtEval/b_labelIds.png".toList, d) ∈ t.written) ∧
    ∀ f d d', (f, d) ∈ t.written → (f, d') ∈ t.written → d = d' := by
  obtain ⟨F, h⟩ := C54_script (refLib 2) exSbdFs (exSbdArgs false) _ _ _ (exSbdTree false) exact2 exact1 rfl
  obtain ⟨w, h1, h2⟩ := h F le_rfl
  exact ⟨F, _, h1, rfl, h2.2 "b".toList (by simp) .labels,
    C54_one_content (refLib 2) exSbdFs (exSbdArgs false) _ _ _ (exSbdTree false) rfl F _ h1⟩

end

end EdgeEval.Props
