import Verif.Model.NmsBatch
import Verif.Props.SampleData
import Mathlib.Tactic.FinCases

/-!
# C60: the batch helpers of the thinning module
-/

namespace EdgeEval.Props

open Text Samples Spec NmsBatch

/-! ## The property's vocabulary -/

/-- A name that `os.listdir` can return. -/
def Listed (f : Str) : Prop := f ≠ [] ∧ '/' ∉ f

/-- A stem with a proper extension after it: not only dots. -/
def ProperStem (s : Str) : Prop := ∃ c ∈ s, c ≠ '.'

/-- Directories of a call of `nms_all_results` written without trailing slash, relative model names, and a listing. -/
structure BatchArgs (resultDir saveDir : Str) (models files : List Str) : Prop where
  result : DirArg resultDir
  save : DirArg saveDir
  models : ∀ m ∈ models, DirArg m ∧ Relative m
  files : ∀ f ∈ files, Listed f

/-- `save_dir/model/stem.png`. -/
def pngOf (saveDir model stem : Str) : Str := slashed [saveDir, model, stem ++ ".png".toList]

/-! ## The loop -/

theorem batchLoop_inv {σ ι : Type} {body : σ → ι → Except PyErr σ} (P : σ → Prop) (xs : List ι)
    (step : ∀ s, ∀ x ∈ xs, ∀ s', P s → body s x = .ok s' → P s') :
    ∀ s, P s → P (loop body s xs).1 := by
  induction xs with
  | nil => intro s hs; exact hs
  | cons x xs ih =>
    intro s hs
    unfold loop
    split
    · rename_i s' e
      exact ih (fun s y hy => step s y (List.mem_cons_of_mem _ hy)) s' (step s x (List.mem_cons_self ..) s' hs e)
    · exact hs

/-- What a successful loop has established for each element, if later iterations preserve it. -/
theorem batchLoop_each {σ ι : Type} {body : σ → ι → Except PyErr σ} (Q : ι → σ → Prop) (xs : List ι)
    (est : ∀ s, ∀ x ∈ xs, ∀ s', body s x = .ok s' → Q x s')
    (keep : ∀ s, ∀ y ∈ xs, ∀ s', body s y = .ok s' → ∀ x, Q x s → Q x s') :
    ∀ s, (loop body s xs).2 = none → ∀ x ∈ xs, Q x (loop body s xs).1 := by
  induction xs with
  | nil => intro s _ x hx; cases hx
  | cons y xs ih =>
    intro s h x hx
    unfold loop at h ⊢
    cases e : body s y with
    | error e' => rw [e] at h; cases h
    | ok s' =>
      rw [e] at h
      simp only at h ⊢
      rcases List.mem_cons.1 hx with rfl | hx
      · exact batchLoop_inv (Q x) xs (fun s z hz s' => fun hq hb => keep s z (List.mem_cons_of_mem _ hz) s' hb x hq) s'
          (est s x (List.mem_cons_self ..) s' e)
      · exact ih (fun s z hz => est s z (List.mem_cons_of_mem _ hz)) (fun s z hz => keep s z (List.mem_cons_of_mem _ hz))
          s' h x hx

theorem batchLoop_append {σ ι : Type} {body : σ → ι → Except PyErr σ} (xs ys : List ι) (s : σ) :
    loop body s (xs ++ ys) = if (loop body s xs).2 = none then loop body (loop body s xs).1 ys else loop body s xs := by
  induction xs generalizing s with
  | nil => simp [loop]
  | cons x xs ih =>
    have st : ∀ zs, loop body s (x :: zs) = (match body s x with
        | .ok s' => loop body s' zs
        | .error e => (s, some e)) := fun zs => by rw [loop]; rfl
    rw [List.cons_append, st, st]
    cases e : body s x with
    | error e' => simp
    | ok s' => exact ih s'

/-! ## Names -/

theorem listed_relative {f : Str} (h : Listed f) : Relative f := by
  intro e
  cases f with
  | nil => cases e
  | cons c cs =>
    simp only [List.head?_cons, Option.some.injEq] at e
    exact h.2 (by rw [e]; exact List.mem_cons_self ..)

theorem stem_relative {stem e : Str} (h : Listed (stem ++ e)) (hs : ProperStem stem) (t : Str) : Relative (stem ++ t) := by
  obtain ⟨c, hc, _⟩ := hs
  cases stem with
  | nil => cases hc
  | cons d ds =>
    intro e
    simp only [List.cons_append, List.head?_cons, Option.some.injEq] at e
    exact h.2 (by rw [e]; exact List.mem_append_left _ (List.mem_cons_self ..))

theorem slashed_dir {a b : Str} (hb : DirArg b) : DirArg (a ++ '/' :: b) := by
  refine ⟨by simp, ?_⟩
  have : (a ++ '/' :: b).getLast? = b.getLast? := by
    cases b with
    | nil => exact absurd rfl hb.1
    | cons c cs =>
      rw [List.getLast?_append, List.getLast?_cons_cons, List.getLast?_cons]
      rfl
  rw [this]
  exact hb.2

theorem slashed3 (a b c : Str) : slashed [a, b, c] = slashed [slashed [a, b], c] := by simp [slashed]

theorem slashed2 (a b : Str) : slashed [a, b] = a ++ '/' :: b := by simp [slashed]

/-- The path computed for a listed file with a proper extension. -/
theorem pngPath_eq {saveDir model stem e : Str} (hs : DirArg saveDir) (hm : DirArg model ∧ Relative model)
    (he : '.' ∉ e) (hf : Listed (stem ++ '.' :: e)) (hst : ProperStem stem) :
    pngPath saveDir model (stem ++ '.' :: e) = pngOf saveDir model stem := by
  unfold pngPath pngOf
  rw [splitext_dot stem e he hst, pjoin_slash hs hm.2, slashed3]
  rw [pjoin_slash (by rw [slashed2]; exact slashed_dir hm.1) (stem_relative hf hst _)]

theorem last_slash {a b c d : Str} (hb : '/' ∉ b) (hd : '/' ∉ d) (h : a ++ '/' :: b = c ++ '/' :: d) : b = d := by
  have h' := congrArg List.reverse h
  simp only [List.reverse_append, List.reverse_cons, List.append_assoc, List.singleton_append] at h'
  have hb' : '/' ∉ b.reverse := by simpa using hb
  have hd' : '/' ∉ d.reverse := by simpa using hd
  have key : ∀ (x y u v : Str), '/' ∉ x → '/' ∉ y → x ++ '/' :: u = y ++ '/' :: v → x = y := by
    intro x
    induction x with
    | nil =>
      intro y u v _ hy e
      cases y with
      | nil => rfl
      | cons c cs =>
        simp only [List.nil_append, List.cons_append, List.cons.injEq] at e
        exact absurd (e.1 ▸ List.mem_cons_self ..) hy
    | cons c cs ih =>
      intro y u v hx hy e
      cases y with
      | nil =>
        simp only [List.nil_append, List.cons_append, List.cons.injEq] at e
        exact absurd (e.1 ▸ List.mem_cons_self ..) hx
      | cons d ds =>
        simp only [List.cons_append, List.cons.injEq] at e
        rw [e.1, ih ds u v (fun hm => hx (List.mem_cons_of_mem _ hm)) (fun hm => hy (List.mem_cons_of_mem _ hm)) e.2]
  have := key _ _ _ _ hb' hd' h'
  simpa using congrArg List.reverse this

theorem png_noslash {s : Str} (h : '/' ∉ s) : '/' ∉ s ++ ".png".toList := by
  intro hm
  rcases List.mem_append.1 hm with hm | hm
  · exact h hm
  · revert hm
    decide

/-- Two stems share an output path only if they are equal, whatever the models. -/
theorem pngOf_inj {saveDir m m' s s' : Str} (hs : '/' ∉ s) (hs' : '/' ∉ s') (h : pngOf saveDir m s = pngOf saveDir m' s') :
    s = s' := by
  unfold pngOf at h
  rw [slashed3, slashed3 saveDir m', slashed2 _ (s ++ _), slashed2 _ (s' ++ _)] at h
  exact List.append_cancel_right (last_slash (png_noslash hs) (png_noslash hs') h)

/-! ## `nms_all_results` -/

section
variable {α β : Type} {loadMat loadNpy : Str → Except PyErr α} {nms : α → Except PyErr β}

/-- The loader that a format uses. -/
def loaderOf (loadMat loadNpy : Str → Except PyErr α) : Format → Str → Except PyErr α
  | .mat => loadMat
  | _ => loadNpy

theorem ext_shape {fmt : Format} (h : fmt ≠ .other) : ∃ e, fmt.ext = '.' :: e ∧ '.' ∉ e := by
  cases fmt with
  | mat => exact ⟨['m', 'a', 't'], rfl, by decide⟩
  | npy => exact ⟨['n', 'p', 'y'], rfl, by decide⟩
  | other => exact absurd rfl h

theorem listed_stem {stem e : Str} (h : Listed (stem ++ e)) : '/' ∉ stem := fun hm => h.2 (List.mem_append_left _ hm)

/-- One iteration for a file of the right kind whose output is missing. -/
theorem allBody_cases {resultDir saveDir : Str} {models files : List Str} (A : BatchArgs resultDir saveDir models files)
    {keyGiven : Bool} {fmt : Format} (hf : fmt ≠ .other) {d d' : Disk β} {m f : Str} (hm : m ∈ models) (hfl : f ∈ files)
    (h : allBody loadMat loadNpy nms resultDir saveDir keyGiven fmt m d f = .ok d') :
    (d' = d ∧ ∀ stem, ProperStem stem → f = stem ++ fmt.ext → (d (pngOf saveDir m stem)).isSome) ∨
    (∃ stem img out, ProperStem stem ∧ f = stem ++ fmt.ext ∧ d (pngOf saveDir m stem) = none ∧
      loaderOf loadMat loadNpy fmt (slashed [resultDir, f]) = .ok img ∧ nms img = .ok out ∧
      (fmt = .mat → keyGiven = true) ∧
      d' = d.write (pngOf saveDir m stem) out) := by
  obtain ⟨e, he, hne⟩ := ext_shape hf
  unfold allBody at h
  split at h
  · rename_i hsome
    left
    refine ⟨by cases h; rfl, ?_⟩
    intro stem hst hfe
    rw [he] at hfe
    subst hfe
    rwa [pngPath_eq A.save (A.models m hm) hne (A.files _ hfl) hst] at hsome
  · rename_i hsome
    split at h
    · rename_i hext
      left
      refine ⟨by cases h; rfl, ?_⟩
      intro stem hst hfe
      exfalso
      rw [he] at hfe
      subst hfe
      rw [splitext_dot stem e hne hst, he] at hext
      exact hext rfl
    · rename_i hext
      have hext : (splitext f).2 = fmt.ext := not_not.1 hext
      right
      obtain ⟨stem, e', hfe, hne', hst, hsp⟩ := splitext_inv f (by rw [hext, he]; simp)
      rw [hsp, he] at hext
      simp only [List.cons.injEq, true_and] at hext
      subst hext
      have hd : d (pngOf saveDir m stem) = none := by
        rw [hfe, pngPath_eq A.save (A.models m hm) hne' (hfe ▸ A.files _ hfl) hst] at hsome
        simpa using hsome
      have hp : pngPath saveDir m f = pngOf saveDir m stem := by
        rw [hfe, pngPath_eq A.save (A.models m hm) hne' (hfe ▸ A.files _ hfl) hst]
      have hj : pjoin resultDir f = slashed [resultDir, f] := pjoin_slash A.result (listed_relative (A.files _ hfl))
      rw [hp, hj] at h
      cases fmt with
      | other => exact absurd rfl hf
      | mat =>
        cases keyGiven with
        | false => cases h
        | true =>
          cases e1 : loadMat (slashed [resultDir, f]) with
          | error x => simp only [e1, if_true] at h; cases h
          | ok img =>
            cases e2 : nms img with
            | error x => simp only [e1, if_true, bind, Except.bind, e2] at h; cases h
            | ok out =>
              simp only [e1, if_true, bind, Except.bind, e2, pure, Except.pure, Except.ok.injEq] at h
              exact ⟨stem, img, out, hst, by rw [he]; exact hfe, hd, e1, e2, fun _ => rfl, h.symm⟩
      | npy =>
        cases e1 : loadNpy (slashed [resultDir, f]) with
        | error x => simp only [e1] at h; cases h
        | ok img =>
          cases e2 : nms img with
          | error x => simp only [e1, bind, Except.bind, e2] at h; cases h
          | ok out =>
            simp only [e1, bind, Except.bind, e2, pure, Except.pure, Except.ok.injEq] at h
            exact ⟨stem, img, out, hst, by rw [he]; exact hfe, hd, e1, e2, (fun hc => Format.noConfusion hc), h.symm⟩

theorem mem_allJobs {models files : List Str} {j : Str × Str} : j ∈ allJobs models files ↔ j.1 ∈ models ∧ j.2 ∈ files := by
  unfold allJobs
  rw [List.mem_flatMap]
  constructor
  · rintro ⟨m, hm, hj⟩
    obtain ⟨f, hf, rfl⟩ := List.mem_map.1 hj
    exact ⟨hm, hf⟩
  · rintro ⟨h1, h2⟩
    exact ⟨j.1, h1, List.mem_map.2 ⟨j.2, h2, rfl⟩⟩

theorem Disk.write_self (d : Disk β) (p : Str) (o : β) : d.write p o p = some o := by simp [Disk.write]

theorem Disk.write_ne (d : Disk β) {p q : Str} (o : β) (h : q ≠ p) : d.write p o q = d q := by simp [Disk.write, h]

end

/-- The extension that a format stands for. -/
def formatText : Format → Str
  | .mat => ".mat".toList
  | .npy => ".npy".toList
  | .other => []

/-- C60.  Whatever happens during `nms_all_results` (also when it raises halfway): no picture that existed is changed or
removed, and every picture that appears is `save_dir/model/stem.png` for a listed model and a listed file `stem.npy`
(`stem.mat`), holding the thinned image of exactly that file. -/
theorem C60_all_results_sound {α β : Type} (loadMat loadNpy : Str → Except PyErr α) (nms : α → Except PyErr β)
    {resultDir saveDir : Str} {models files : List Str} (A : BatchArgs resultDir saveDir models files)
    (keyGiven : Bool) (fmt : Format) (d : Disk β) (p : Str) :
    let d' := (nmsAllResults loadMat loadNpy nms models resultDir saveDir keyGiven fmt (some files) d).1
    (∀ v, d p = some v → d' p = some v) ∧
    (d p = none → ∀ v, d' p = some v →
      ∃ m ∈ models, ∃ stem, ProperStem stem ∧ stem ++ formatText fmt ∈ files ∧ p = pngOf saveDir m stem ∧
        ∃ img, (match fmt with | .mat => loadMat | _ => loadNpy) (slashed [resultDir, stem ++ formatText fmt]) = .ok img ∧
          nms img = .ok v) := by
  intro d'
  by_cases hf : fmt = .other
  · have e : d' = d := by simp only [d', nmsAllResults, if_pos hf]
    rw [e]
    exact ⟨fun _ h => h, fun h v hv => by rw [h] at hv; cases hv⟩
  · have e : d' = (loop (fun d (j : Str × Str) => allBody loadMat loadNpy nms resultDir saveDir keyGiven fmt j.1 d j.2) d
        (allJobs models files)).1 := by simp only [d', nmsAllResults, if_neg hf]
    rw [e]
    constructor
    · intro v hv
      refine batchLoop_inv (fun s => s p = some v) _ ?_ d hv
      rintro s ⟨m, f⟩ hj s' hs hb
      have hj := mem_allJobs.1 hj
      rcases allBody_cases A hf hj.1 hj.2 hb with ⟨rfl, _⟩ | ⟨stem, img, out, _, _, hn, _, _, _, rfl⟩
      · exact hs
      · rw [Disk.write_ne]
        · exact hs
        · rintro rfl
          rw [hn] at hs
          cases hs
    · intro hn
      refine batchLoop_inv (fun s => ∀ v, s p = some v →
        ∃ m ∈ models, ∃ stem, ProperStem stem ∧ stem ++ formatText fmt ∈ files ∧ p = pngOf saveDir m stem ∧
        ∃ img, (match fmt with | .mat => loadMat | _ => loadNpy) (slashed [resultDir, stem ++ formatText fmt]) = .ok img ∧
          nms img = .ok v) _ ?_ d (fun v hv => by rw [hn] at hv; cases hv)
      rintro s ⟨m, f⟩ hj s' hs hb v hv
      have hj := mem_allJobs.1 hj
      rcases allBody_cases A hf hj.1 hj.2 hb with ⟨rfl, _⟩ | ⟨stem, img, out, hst, hfe, _, h1, h2, _, rfl⟩
      · exact hs v hv
      · by_cases hp : p = pngOf saveDir m stem
        · subst hp
          rw [Disk.write_self] at hv
          cases hv
          have hx : fmt.ext = formatText fmt := by cases fmt <;> rfl
          rw [hx] at hfe
          subst hfe
          refine ⟨m, hj.1, stem, hst, hj.2, rfl, img, ?_, h2⟩
          cases fmt <;> exact h1
        · rw [Disk.write_ne _ _ hp] at hv
          exact hs v hv

/-- C60.  If `nms_all_results` returns, then for every model and every listed file of the right extension the picture
exists, and unless it already existed it is the thinned image of that file. -/
theorem C60_all_results_complete {α β : Type} (loadMat loadNpy : Str → Except PyErr α) (nms : α → Except PyErr β)
    {resultDir saveDir : Str} {models files : List Str} (A : BatchArgs resultDir saveDir models files)
    (keyGiven : Bool) (fmt : Format) (d d' : Disk β)
    (h : nmsAllResults loadMat loadNpy nms models resultDir saveDir keyGiven fmt (some files) d = (d', none)) :
    ∀ m ∈ models, ∀ stem, ProperStem stem → stem ++ formatText fmt ∈ files →
      (d (pngOf saveDir m stem) = none → ∃ img out,
        (match fmt with | .mat => loadMat | _ => loadNpy) (slashed [resultDir, stem ++ formatText fmt]) = .ok img ∧
        nms img = .ok out ∧ d' (pngOf saveDir m stem) = some out) ∧
      (d' (pngOf saveDir m stem)).isSome := by
  have hf : fmt ≠ .other := by
    rintro rfl
    simp [nmsAllResults] at h
  have hx : fmt.ext = formatText fmt := by cases fmt <;> rfl
  have e : loop (fun d (j : Str × Str) => allBody loadMat loadNpy nms resultDir saveDir keyGiven fmt j.1 d j.2) d
        (allJobs models files) = (d', none) := by
    rw [← h]; simp only [nmsAllResults, if_neg hf]
  intro m hm stem hst hfl
  have key : (d' (pngOf saveDir m stem)).isSome := by
    have := batchLoop_each (body := fun d (j : Str × Str) => allBody loadMat loadNpy nms resultDir saveDir keyGiven fmt j.1 d j.2)
      (fun (j : Str × Str) (s : Disk β) => j.1 ∈ models → j.2 ∈ files → ∀ stem, ProperStem stem → j.2 = stem ++ fmt.ext →
        (s (pngOf saveDir j.1 stem)).isSome) (allJobs models files)
      (by
        rintro s ⟨m, f⟩ hj s' hb hm hfl stem hst hfe
        simp only at hfe ⊢
        rcases allBody_cases A hf hm hfl hb with ⟨rfl, hq⟩ | ⟨stem', img, out, hst', hfe', _, _, _, _, rfl⟩
        · exact hq stem hst hfe
        · have : stem = stem' := List.append_cancel_right (hfe.symm.trans hfe')
          subst this
          rw [Disk.write_self]; rfl)
      (by
        rintro s ⟨m, f⟩ hj s' hb ⟨m', f'⟩ hq hm' hfl' stem hst hfe
        have hq := hq hm' hfl' stem hst hfe
        have hj := mem_allJobs.1 hj
        simp only at hq ⊢
        rcases allBody_cases A hf hj.1 hj.2 hb with ⟨rfl, _⟩ | ⟨stem', img, out, hst', hfe', _, _, _, _, rfl⟩
        · exact hq
        · by_cases hp : pngOf saveDir m' stem = pngOf saveDir m stem'
          · rw [hp, Disk.write_self]; rfl
          · rw [Disk.write_ne _ _ hp]; exact hq)
      d (by rw [e]) (m, stem ++ formatText fmt) (mem_allJobs.2 ⟨hm, hfl⟩) hm hfl stem hst (by rw [hx])
    rwa [e] at this
  refine ⟨fun hn => ?_, key⟩
  obtain ⟨v, hv⟩ := Option.isSome_iff_exists.1 key
  have hs := (C60_all_results_sound loadMat loadNpy nms A keyGiven fmt d (pngOf saveDir m stem)).2 hn v (by rw [h]; exact hv)
  obtain ⟨m', _, stem', hst', hfl', hp, img, h1, h2⟩ := hs
  have : stem = stem' := pngOf_inj (listed_stem (A.files _ hfl)) (listed_stem (A.files _ hfl')) hp
  subst this
  exact ⟨img, v, h1, h2, hv⟩

/-- C60.  A second run after a completed one loads nothing and changes nothing (it returns even if every file has become
unreadable and the key is no longer given). -/
theorem C60_all_results_resume {α β : Type} (loadMat loadNpy loadMat' loadNpy' : Str → Except PyErr α)
    (nms nms' : α → Except PyErr β)
    {resultDir saveDir : Str} {models files : List Str} (A : BatchArgs resultDir saveDir models files)
    (keyGiven keyGiven' : Bool) (fmt : Format) (d d' : Disk β)
    (h : nmsAllResults loadMat loadNpy nms models resultDir saveDir keyGiven fmt (some files) d = (d', none)) :
    nmsAllResults loadMat' loadNpy' nms' models resultDir saveDir keyGiven' fmt (some files) d' = (d', none) := by
  have hf : fmt ≠ .other := by
    rintro rfl
    simp [nmsAllResults] at h
  have hx : fmt.ext = formatText fmt := by cases fmt <;> rfl
  have hc := C60_all_results_complete loadMat loadNpy nms A keyGiven fmt d d' h
  simp only [nmsAllResults, if_neg hf]
  have step : ∀ j ∈ allJobs models files, allBody loadMat' loadNpy' nms' resultDir saveDir keyGiven' fmt j.1 d' j.2 = .ok d' := by
    rintro ⟨m, f⟩ hj
    obtain ⟨hm, hfl⟩ := mem_allJobs.1 hj
    simp only at hm hfl ⊢
    unfold allBody
    split
    · rfl
    · rename_i hsome
      split
      · rfl
      · rename_i hext
        have hext : (splitext f).2 = fmt.ext := not_not.1 hext
        exfalso
        obtain ⟨e, he, hne⟩ := ext_shape hf
        obtain ⟨stem, e', hfe, hne', hst, hsp⟩ := splitext_inv f (by rw [hext, he]; simp)
        rw [hsp, he] at hext
        simp only [List.cons.injEq, true_and] at hext
        subst hext
        apply hsome
        have hp : pngPath saveDir m f = pngOf saveDir m stem := by
          rw [hfe, pngPath_eq A.save (A.models m hm) hne' (hfe ▸ A.files _ hfl) hst]
        rw [hp]
        exact (hc m hm stem hst (by rw [← hx, he, ← hfe]; exact hfl)).2
  revert step
  generalize allJobs models files = jobs
  intro step
  induction jobs with
  | nil => rfl
  | cons j js ih =>
    unfold loop
    rw [step j (List.mem_cons_self ..)]
    exact ih (fun j hj => step j (List.mem_cons_of_mem _ hj))

/-- C60.  The model name never selects the input: if no output existed, all listed models get the same pictures. -/
theorem C60_models_identical {α β : Type} (loadMat loadNpy : Str → Except PyErr α) (nms : α → Except PyErr β)
    {resultDir saveDir : Str} {models files : List Str} (A : BatchArgs resultDir saveDir models files)
    (keyGiven : Bool) (fmt : Format) (d d' : Disk β)
    (h : nmsAllResults loadMat loadNpy nms models resultDir saveDir keyGiven fmt (some files) d = (d', none))
    (m m' : Str) (hm : m ∈ models) (hm' : m' ∈ models) (stem : Str) (hst : ProperStem stem)
    (hfl : stem ++ formatText fmt ∈ files)
    (hn : d (pngOf saveDir m stem) = none) (hn' : d (pngOf saveDir m' stem) = none) :
    d' (pngOf saveDir m stem) = d' (pngOf saveDir m' stem) := by
  have hc := C60_all_results_complete loadMat loadNpy nms A keyGiven fmt d d' h
  obtain ⟨i, o, h1, h2, h3⟩ := (hc m hm stem hst hfl).1 hn
  obtain ⟨i', o', h1', h2', h3'⟩ := (hc m' hm' stem hst hfl).1 hn'
  rw [h1] at h1'
  cases h1'
  rw [h2] at h2'
  cases h2'
  rw [h3, h3']

/-- C60.  A format other than `.mat` / `.npy`, or a result directory that does not exist, is refused before anything is
written; so is a `.mat` run without a key that still has a picture to make. -/
theorem C60_all_results_refusals {α β : Type} (loadMat loadNpy : Str → Except PyErr α) (nms : α → Except PyErr β)
    (models : List Str) (resultDir saveDir : Str) (keyGiven : Bool) (fmt : Format) (listing : Option (List Str)) (d : Disk β) :
    (fmt = .other → nmsAllResults loadMat loadNpy nms models resultDir saveDir keyGiven fmt listing d
      = (d, some .assertionError)) ∧
    (nmsAllResults loadMat loadNpy nms models resultDir saveDir keyGiven fmt none d = (d, some .assertionError)) ∧
    (∀ files, BatchArgs resultDir saveDir models files →
      (∃ m ∈ models, ∃ stem, ProperStem stem ∧ stem ++ ".mat".toList ∈ files ∧ d (pngOf saveDir m stem) = none) →
      nmsAllResults loadMat loadNpy nms models resultDir saveDir false .mat (some files) d = (d, some .assertionError)) := by
  refine ⟨?_, ?_, ?_⟩
  · rintro rfl
    simp [nmsAllResults]
  · unfold nmsAllResults
    split <;> rfl
  · rintro files A ⟨m, hm, stem, hst, hfl, hn⟩
    have hf : Format.mat ≠ .other := by decide
    have hbody : ∀ j : Str × Str, allBody loadMat loadNpy nms resultDir saveDir false .mat j.1 d j.2 = .ok d ∨
        allBody loadMat loadNpy nms resultDir saveDir false .mat j.1 d j.2 = .error .assertionError := by
      intro j
      unfold allBody
      split
      · exact Or.inl rfl
      · split
        · exact Or.inl rfl
        · exact Or.inr rfl
    have hall : ∀ jobs : List (Str × Str),
        loop (fun d (j : Str × Str) => allBody loadMat loadNpy nms resultDir saveDir false .mat j.1 d j.2) d jobs
          = (d, none) ∨
        loop (fun d (j : Str × Str) => allBody loadMat loadNpy nms resultDir saveDir false .mat j.1 d j.2) d jobs
          = (d, some .assertionError) := by
      intro jobs
      induction jobs with
      | nil => exact Or.inl rfl
      | cons j js ih =>
        unfold loop
        rcases hbody j with hb | hb
        · rw [hb]; exact ih
        · rw [hb]; exact Or.inr rfl
    have e : nmsAllResults loadMat loadNpy nms models resultDir saveDir false .mat (some files) d =
        loop (fun d (j : Str × Str) => allBody loadMat loadNpy nms resultDir saveDir false .mat j.1 d j.2) d
          (allJobs models files) := by
      simp only [nmsAllResults, if_neg hf]
    rw [e]
    rcases hall (allJobs models files) with h | h
    · exfalso
      have := (C60_all_results_complete loadMat loadNpy nms A false .mat d d (e.trans h) m hm stem hst hfl).2
      rw [hn] at this
      cases this
    · exact h

/-! ## `nms_results` -/

theorem charRepr_inj {c d : Char} (h : charRepr c = charRepr d) : c = d := by
  unfold charRepr at h
  by_cases h1 : c = '\'' <;> by_cases h2 : d = '\'' <;> by_cases h3 : c = '\\' <;> by_cases h4 : d = '\\' <;>
    simp only [h1, h2, h3, h4, if_true, if_false] at h ⊢ <;> first | rfl | simp_all

theorem tupleName_eq_iff {f g : Str} (hf : f ≠ []) (hg : g ≠ []) : tupleName f = tupleName g ↔ f.head? = g.head? := by
  cases f with
  | nil => exact absurd rfl hf
  | cons c cs =>
    cases g with
    | nil => exact absurd rfl hg
    | cons d ds =>
      simp only [tupleName, List.head?_cons, Option.some.injEq]
      constructor
      · intro h
        exact charRepr_inj (List.append_cancel_left (List.append_cancel_right h))
      · rintro rfl; rfl

theorem tupleName_relative (f : Str) : Relative (tupleName f) := by
  cases f with
  | nil => intro h; cases h
  | cons c cs => intro h; simp [tupleName] at h

/-- C60.  `nms_results` names its pictures after the *first character* of the file name only.  When it returns, the picture
under `save_dir/('c', '').png` is the thinned image of the last listed file whose name starts with `c` (existing files are
overwritten in spite of the message "exists... skipping"), and no other file changes. -/
theorem C60_results_collide {α β : Type} (loader : Str → Except PyErr α) (nms : α → Except PyErr β)
    {resultDir saveDir : Str} (hr : DirArg resultDir) (hs : DirArg saveDir) (files : List Str) (hl : ∀ f ∈ files, Listed f)
    (d d' : Disk β) (h : nmsResults loader nms resultDir saveDir (some files) d = (d', none)) :
    (∀ before after (c : Char) (rest : Str), files = before ++ (c :: rest) :: after → (∀ g ∈ after, g.head? ≠ some c) →
      ∃ img out, loader (slashed [resultDir, c :: rest]) = .ok img ∧ nms img = .ok out ∧
        d' (slashed [saveDir, ['('] ++ charRepr c ++ ", '').png".toList]) = some out) ∧
    (∀ p, (∀ f ∈ files, ∀ c, f.head? = some c → p ≠ slashed [saveDir, ['('] ++ charRepr c ++ ", '').png".toList]) →
      d' p = d p) := by
  have body : ∀ (s s' : Disk β) (f : Str), Listed f → resultsBody loader nms resultDir saveDir s f = .ok s' →
      ∃ img out, loader (slashed [resultDir, f]) = .ok img ∧ nms img = .ok out ∧
        s' = s.write (slashed [saveDir, tupleName f]) out := by
    intro s s' f hf hb
    unfold resultsBody at hb
    rw [pjoin_slash hr (listed_relative hf), pjoin_slash hs (tupleName_relative f)] at hb
    cases e1 : loader (slashed [resultDir, f]) with
    | error x => rw [e1] at hb; cases hb
    | ok img =>
      cases e2 : nms img with
      | error x => simp only [e1, bind, Except.bind, e2] at hb; cases hb
      | ok out =>
        simp only [e1, bind, Except.bind, e2, pure, Except.pure, Except.ok.injEq] at hb
        exact ⟨img, out, rfl, e2, hb.symm⟩
  have tn : ∀ (c : Char) (rest : Str), tupleName (c :: rest) = ['('] ++ charRepr c ++ ", '').png".toList := by
    intro c rest; rfl
  have e : loop (resultsBody loader nms resultDir saveDir) d files = (d', none) := h
  constructor
  · rintro before after c rest rfl hafter
    rw [batchLoop_append] at e
    split at e
    · unfold loop at e
      cases eb : resultsBody loader nms resultDir saveDir (loop (resultsBody loader nms resultDir saveDir) d before).1 (c :: rest) with
      | error x => rw [eb] at e; simp at e
      | ok s1 =>
        rw [eb] at e
        obtain ⟨img, out, h1, h2, h3⟩ := body _ _ _ (hl _ (by simp)) eb
        refine ⟨img, out, h1, h2, ?_⟩
        have := batchLoop_inv (body := resultsBody loader nms resultDir saveDir)
          (fun s => s (slashed [saveDir, tupleName (c :: rest)]) = some out) after
          (by
            intro s x hx s' hP hb
            obtain ⟨_, o, _, _, h3⟩ := body s s' x (hl x (by simp [hx])) hb
            rw [h3, Disk.write_ne]
            · exact hP
            · intro heq
              rw [slashed2, slashed2] at heq
              have heq := List.append_cancel_left heq
              simp only [List.cons.injEq, true_and] at heq
              have := (tupleName_eq_iff (by simp) (hl x (by simp [hx])).1).1 heq
              exact hafter x hx this.symm)
          s1 (by rw [h3, Disk.write_self])
        simp only at e
        rw [e, tn] at this
        exact this
    · rename_i hne
      rw [e] at hne
      exact absurd rfl hne
  · intro p hp
    have := batchLoop_inv (body := resultsBody loader nms resultDir saveDir) (fun s => s p = d p) files
      (by
        intro s x hx s' hP hb
        obtain ⟨_, o, _, _, h3⟩ := body s s' x (hl x hx) hb
        rw [h3, Disk.write_ne]
        · exact hP
        · cases x with
          | nil => exact absurd rfl (hl _ hx).1
          | cons c cs => rw [tn]; exact hp _ hx c rfl) d rfl
    rw [e] at this
    exact this

/-- C60.  So a directory of any size yields at most as many pictures as there are different first characters: all other
thinned images are lost. -/
theorem C60_results_lost {α β : Type} (loader : Str → Except PyErr α) (nms : α → Except PyErr β)
    {resultDir saveDir : Str} (hr : DirArg resultDir) (hs : DirArg saveDir) (files : List Str) (hl : ∀ f ∈ files, Listed f)
    (d d' : Disk β) (h : nmsResults loader nms resultDir saveDir (some files) d = (d', none)) :
    ∃ changed : Finset Str, (∀ p, d' p ≠ d p → p ∈ changed) ∧ changed.card ≤ (files.map List.head?).toFinset.card := by
  refine ⟨((files.map List.head?).toFinset).image (fun o => slashed [saveDir, ['('] ++ charRepr (o.getD 'a') ++ ", '').png".toList]),
    ?_, Finset.card_image_le⟩
  intro p hp
  by_contra hcon
  apply hp
  refine (C60_results_collide loader nms hr hs files hl d d' h).2 p ?_
  rintro f hf c hc rfl
  apply hcon
  rw [Finset.mem_image]
  exact ⟨some c, by rw [List.mem_toFinset, List.mem_map]; exact ⟨f, hf, hc⟩, rfl⟩

/-! ## `nms_process_one_image` -/

/-- C60.  `nms_process_one_image`: without `save` nothing is written; with a path not ending in `.png` the call is refused
before the image is even thinned; with a proper `.png` path exactly that file receives the returned picture; without a path
it raises after thinning, although that is the default call. -/
theorem C60_process_one {α β : Type} (nms : α → Except PyErr β) (img : α) (d : Disk β) :
    (∀ path out, nms img = .ok out → processOne nms img path false d = .ok (out, d)) ∧
    (∀ dir stem e, '/' ∉ stem → '/' ∉ e → '.' ∉ e → ProperStem stem → e ≠ "png".toList →
      processOne nms img (some (slashed [dir, stem ++ '.' :: e])) true d = .error .assertionError) ∧
    (∀ dir stem out, '/' ∉ stem → ProperStem stem → nms img = .ok out →
      processOne nms img (some (slashed [dir, stem ++ ".png".toList])) true d =
        .ok (out, d.write (slashed [dir, stem ++ ".png".toList]) out)) ∧
    (∀ out, nms img = .ok out → processOne nms img none true d = .error .typeError) := by
  have base : ∀ (dir name : Str), '/' ∉ name → ((slashed [dir, name]).reverse.takeWhile (· ≠ '/')).reverse = name := by
    intro dir name hn
    rw [slashed2, List.reverse_append, List.reverse_cons, List.append_assoc, List.takeWhile_append_of_pos]
    · simp
    · intro c hc
      rw [decide_eq_true_eq]
      rintro rfl
      exact hn (by simpa using hc)
  refine ⟨?_, ?_, ?_, ?_⟩
  · intro path out h
    cases path <;> simp [processOne, h, bind, Except.bind, pure, Except.pure]
  · intro dir stem e h1 h2 h3 h4 h5
    have hn : '/' ∉ stem ++ '.' :: e := by
      intro hm
      rcases List.mem_append.1 hm with hm | hm
      · exact h1 hm
      · rcases List.mem_cons.1 hm with hm | hm
        · revert hm; decide
        · exact h2 hm
    have hne : (splitext (((slashed [dir, stem ++ '.' :: e]).reverse.takeWhile (· ≠ '/')).reverse)).2 ≠ ".png".toList := by
      rw [base dir _ hn, splitext_dot stem e h3 h4]
      intro heq
      apply h5
      exact (List.cons.inj heq).2
    unfold processOne
    simp only [if_true]
    rw [if_pos hne]
    rfl
  · intro dir stem out h1 h4 h
    have hn : '/' ∉ stem ++ ".png".toList := png_noslash h1
    have hne : ¬ (splitext (((slashed [dir, stem ++ ".png".toList]).reverse.takeWhile (· ≠ '/')).reverse)).2 ≠ ".png".toList := by
      rw [base dir _ hn]
      have : splitext (stem ++ ".png".toList) = (stem, ".png".toList) := splitext_dot stem ['p', 'n', 'g'] (by decide) h4
      rw [this]
      exact fun hc => hc rfl
    unfold processOne
    simp only [if_true]
    rw [if_neg hne]
    simp only [h, bind, Except.bind, pure, Except.pure]
  · intro out h
    unfold processOne
    simp only [if_true, h, bind, Except.bind, pure, Except.pure]
    rfl

/-! ## The hypotheses are met -/

/-- Files hold a number; thinning doubles it. -/
def nbLoad (p : Str) : Except PyErr Nat :=
  if p = "r/a1.npy".toList then .ok 1 else if p = "r/a2.npy".toList then .ok 2 else if p = "r/b.mat".toList then .ok 3
  else .error .fileNotFoundError

/-- Thinning of the example. -/
def nbNms (x : Nat) : Except PyErr Nat := .ok (2 * x)

/-- A listing with two `.npy` files and one `.mat` file. -/
def nbFiles : List Str := ["a1.npy".toList, "b.mat".toList, "a2.npy".toList]

theorem nbBatch : BatchArgs "r".toList "out".toList ["m".toList, "n".toList] nbFiles where
  result := ⟨by decide, by decide⟩
  save := ⟨by decide, by decide⟩
  models := by
    intro m hm
    fin_cases hm
    · exact ⟨⟨by decide, by decide⟩, by unfold Relative; decide⟩
    · exact ⟨⟨by decide, by decide⟩, by unfold Relative; decide⟩
  files := by
    intro f hf
    fin_cases hf
    · exact ⟨by decide, by decide⟩
    · exact ⟨by decide, by decide⟩
    · exact ⟨by decide, by decide⟩

/-- The pictures already present in the example: `out/m/a1.png`. -/
def nbDisk : Disk Nat := fun p => if p = "out/m/a1.png".toList then some 99 else none

/-- `C60_all_results_sound`, `C60_all_results_complete`, `C60_all_results_resume`, `C60_models_identical`: a run that keeps
one picture and makes three. -/
example : (nmsAllResults nbLoad nbLoad nbNms ["m".toList, "n".toList] "r".toList "out".toList false .npy (some nbFiles) nbDisk).2
      = none ∧
    ["out/m/a1.png".toList, "out/m/a2.png".toList, "out/n/a1.png".toList, "out/n/a2.png".toList, "out/m/b.png".toList].map
      (nmsAllResults nbLoad nbLoad nbNms ["m".toList, "n".toList] "r".toList "out".toList false .npy (some nbFiles) nbDisk).1
      = [some 99, some 4, some 2, some 4, none] ∧
    ProperStem "a2".toList ∧ pngOf "out".toList "m".toList "a2".toList = "out/m/a2.png".toList := by
  refine ⟨by decide +kernel, by decide +kernel, ⟨'a', by decide, by decide⟩, by decide +kernel⟩

/-- `C60_all_results_refusals`: a `.mat` file to convert and no key. -/
example : nmsAllResults nbLoad nbLoad nbNms ["m".toList, "n".toList] "r".toList "out".toList false .mat (some nbFiles) nbDisk
    = (nbDisk, some .assertionError) :=
  (C60_all_results_refusals nbLoad nbLoad nbNms _ _ _ false .mat (some nbFiles) nbDisk).2.2 nbFiles nbBatch
    ⟨"m".toList, by decide, "b".toList, ⟨'b', by decide, by decide⟩, by decide +kernel, by decide +kernel⟩

/-- `C60_results_collide`, `C60_results_lost`: three files, two pictures; the one of `a1.npy` is lost. -/
example : (nmsResults nbLoad nbNms "r".toList "out".toList (some nbFiles) nbDisk).2 = none ∧
    ["out/('a', '').png".toList, "out/('b', '').png".toList, "out/a1.png".toList].map
      (nmsResults nbLoad nbNms "r".toList "out".toList (some nbFiles) nbDisk).1 = [some 4, some 6, none] ∧
    (nbFiles.map List.head?).toFinset.card = 2 := by
  refine ⟨by decide +kernel, by decide +kernel, by decide +kernel⟩

/-- `C60_process_one`: both kinds of path. -/
example : processOne nbNms 5 (some "x/y.jpg".toList) true nbDisk = .error .assertionError ∧
    ∃ d', processOne nbNms 5 (some "x/y.png".toList) true nbDisk = .ok (10, d') :=
  ⟨(C60_process_one nbNms 5 nbDisk).2.1 "x".toList "y".toList "jpg".toList (by decide) (by decide) (by decide)
    ⟨'y', by decide, by decide⟩ (by decide),
   _, (C60_process_one nbNms 5 nbDisk).2.2.1 "x".toList "y".toList 10 (by decide) ⟨'y', by decide, by decide⟩ rfl⟩

end EdgeEval.Props
