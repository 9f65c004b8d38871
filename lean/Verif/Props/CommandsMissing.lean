import Verif.Props.Commands

/-!
# C84: the commands when files are missing
-/

namespace EdgeEval.Props

open Text Evaluators Samples Argparse EndToEnd Datasets Spec Commands

section

/-- With all parameters set, the only way to fail to assemble the samples is an assertion. -/
theorem categoryData_error {fs : Fs} {e : Ev} (hk : e.kind ≠ .bsds) (ho : e.kind ≠ .otf) {inst : Bool} {ps : Params}
    (hi : e.attrs.instanceSensitive = some inst) (hps : evalParams e.kind e.ctor.thin e.attrs = .ok ps)
    {category : Int} {er : PyErr} (h : categoryData fs e category = .error er) : er = .assertionError := by
  have has : ∀ b x, assert b = .error x → x = .assertionError := by
    intro b x hx
    unfold assert at hx
    split at hx
    · cases hx
    · cases hx; rfl
  have hone : ∀ n x, sampleOf fs e category n = .error x → x = .assertionError := by
    intro n x hx
    unfold sampleOf at hx
    simp only [hi, attr, hps, bind, Except.bind] at hx
    split at hx
    next y hy => cases hx; exact has _ _ hy
    next =>
      split at hx
      next y hy => cases hx; exact has _ _ hy
      next => cases hx
  have hmap : ∀ (l : List Str) x, mapM' (sampleOf fs e category) l = .error x → x = .assertionError := by
    intro l
    induction l with
    | nil => intro x hx; cases hx
    | cons a l ih =>
      intro x hx
      unfold mapM' at hx
      cases ha : sampleOf fs e category a with
      | error y => rw [ha] at hx; cases hx; exact hone _ _ ha
      | ok y =>
        rw [ha] at hx
        cases hl : mapM' (sampleOf fs e category) l with
        | error z => rw [hl] at hx; cases hx; exact ih _ hl
        | ok z => rw [hl] at hx; cases hx
  have hbef : ∀ x, beforeEvaluation fs e = .error x → x = .assertionError := by
    intro x hx
    unfold beforeEvaluation at hx
    simp only [ne_eq, hk, not_false_eq_true, if_true, if_false, bind, Except.bind] at hx
    repeat' (split at hx)
    all_goals first | (cases hx; apply has; assumption) | exact has _ _ hx
  unfold categoryData at h
  simp only [bind, Except.bind, ho, if_false] at h
  split at h
  next y hy => cases h; exact hbef _ hy
  next =>
    split at h
    next y hy => cases h; exact has _ _ hy
    next =>
      split at h
      next y hy => cases h; exact hmap _ _ hy
      next =>
        split at h
        next y hy => cases h; exact has _ _ hy
        next => cases h

/-- The loop over the categories ends like the first category that does not succeed. -/
theorem categoryLoop_error (evalCat : Nat → Int → Except PyErr (Dict ℚ)) : ∀ (cs : List Int) (i : Nat) (d : Dict (List ℚ)) (j : Nat)
    (hj : j < cs.length), (∀ m, evalCat (i + j) cs[j] ≠ .ok m) → ∃ er, categoryLoop evalCat i cs d = .error er
  | [], _, _, _, hj, _ => absurd hj (by simp)
  | c :: cs, i, d, j, hj, h => by
    unfold categoryLoop
    cases h0 : evalCat i c with
    | error er => exact ⟨er, rfl⟩
    | ok m =>
      cases j with
      | zero => exact absurd h0 (h m)
      | succ j =>
        exact categoryLoop_error evalCat cs (i + 1) _ j (by simpa using hj) (by
          intro m'
          simpa [Nat.add_assoc, Nat.add_comm, Nat.add_left_comm] using h m')

theorem evaluate_error (classes : List String) (evalCat : Nat → Int → Except PyErr (Dict ℚ)) (cs : List Int)
    (hne : cs ≠ []) (save : Bool) (print : List String) (j : Nat) (hj : j < cs.length)
    (h : ∀ m, evalCat j cs[j] ≠ .ok m) : ∃ er, Evaluators.evaluate classes evalCat (.list cs) save print = .error er := by
  obtain ⟨er, her⟩ := categoryLoop_error evalCat cs 0 [] j hj (by simpa using h)
  unfold Evaluators.evaluate
  rw [show normCategories classes.length (.list cs) = .ok cs by simp [normCategories, hne]]
  simp only [her]
  exact ⟨er, rfl⟩

/-- What is missing: a directory, or a ground-truth file of a listed sample. -/
theorem multi_missing (w : World) (fs : Fs) (env : Env) (rnd : Nat → Nat → Nat → Nat → Nat → ℚ) (classes : List String)
    (k : Kind) (hk : k = .cityscapes ∨ k = .half ∨ k = .sbd) (thin : Bool)
    (bound : Int) (hbound : bound = (numClasses k : Int) + 1) (dataset pred : Str) (hroot : DirArg dataset) (hpred : DirArg pred)
    (output : Option Str) (out : Str) (hout : OutputReady w pred output out fs) (nproc : Int) (o : Cli.Opts) (a : Args)
    (cs : List Int) (hcs : Cli.parseCategories (numClasses k) o.categories = some cs) (hrange : ∀ c ∈ cs, 1 ≤ c ∧ c ≤ (numClasses k : Int))
    (arg : ThresholdArg) (harg : Cli.parseThresholds o.thresholds = some arg) (names : List Str) (hrel : ∀ n ∈ names, Relative n)
    (hlist : ListsSamples fs (if k = .sbd then slashed [dataset, "val.txt".toList]
      else slashed [dataset, "splits".toList, "val.txt".toList]) names)
    (st : Attrs) (hst : setEvalParams k a {} = (st, none)) (inst : Bool) (ps : Params)
    (hinst : st.instanceSensitive = some inst) (hps : evalParams k thin st = .ok ps)
    (gt : Str) (hgt : gt = if k = .sbd then slashed [dataset, "gtEval".toList] else slashed [dataset, "gtEval".toList, "val".toList])
    (sched : Nat → List PoolEvent) :
    ((fs.ex dataset = false ∨ fs.ex pred = false ∨ fs.ex gt = false ∨
        (k ≠ .sbd ∧ fs.ex (slashed [dataset, "gtFine".toList, "val".toList]) = false) ∨
        ∃ n ∈ names, fs.ex (slashed [gt, gtFile k thin inst n]) = false ∨ fs.ex (slashed [gt, segFile k n]) = false) →
      multi w env classes k thin bound "gtEval".toList dataset pred output nproc o a rnd sched = some (.raised .assertionError)) ∧
    ((∃ n ∈ names, ∃ c ∈ cs, env.pics.gray (slashed [pred, "class_".toList ++ threeDigits c.toNat,
        n ++ if k = .sbd then ".png".toList else "_leftImg8bit.png".toList]) = none) →
      ∀ o', multi w env classes k thin bound "gtEval".toList dataset pred output nproc o a rnd sched = some o' →
        ∃ er, o' = .raised er) := by
  have hkb : k ≠ .bsds ∧ k ≠ .reanno ∧ k ≠ .otf := by rcases hk with rfl | rfl | rfl <;> decide
  have h20 : 0 < numClasses k := by rcases hk with rfl | rfl | rfl <;> decide
  have hne : cs ≠ [] := parseCategories_ne_nil _ h20 _ _ hcs
  have hnorm : normCategories classes.length (.list cs) = .ok cs := by simp [normCategories, hne]
  rw [multi_runs w fs env rnd classes k hk thin bound hbound dataset pred hroot output out hout nproc o a cs hcs hrange arg harg
    names hlist st hst sched]
  set c : Ctor := { datasetRoot := dataset, predRoot := pred, split := "val".toList, thin := thin,
                    gtDir := some "gtEval".toList, predSuffix := none } with hc
  have hctor : CtorOk c := ⟨hroot, hpred, .inl rfl, fun d hd => by cases hd; right; unfold DirArg Relative; decide,
    fun d hd => by cases hd⟩
  have hgt' : gtDirOf k c = gt := by
    rw [hgt, hc]
    unfold gtDirOf
    have hd : ("gtEval".toList : Str) ≠ [] := by decide
    simp only [hkb.2.1, or_false, hd, if_false]
  have hend : predEnd k c = if k = .sbd then ".png".toList else "_leftImg8bit.png".toList := by
    rcases hk with rfl | rfl | rfl <;> rfl
  have hfine : fineDirOf c = slashed [dataset, "gtFine".toList, "val".toList] := rfl
  have h48 := fun category data => C48_samples fs ⟨k, c, some names, st⟩ hkb.1 hkb.2.2 hctor names rfl hrel category data
  constructor
  · intro hmiss
    obtain ⟨c0, cr, rfl⟩ := List.exists_cons_of_ne_nil hne
    have hdata : categoryData fs ⟨k, c, some names, st⟩ c0 = .error .assertionError := by
      cases hd : categoryData fs ⟨k, c, some names, st⟩ c0 with
      | error er => rw [categoryData_error hkb.1 hkb.2.2 hinst hps hd]
      | ok data =>
        obtain ⟨-, ⟨r1, r2, r3, r4⟩, -, -, inst', ps', i1, i2, hex, -⟩ := (h48 c0 data).1 hd
        simp only [hgt', hfine] at r1 r2 r3 r4 hex
        have hii : inst' = inst := by
          simp only [hinst, Option.some.injEq] at i1; exact i1.symm
        subst hii
        rcases hmiss with h | h | h | ⟨h0, h⟩ | ⟨n, hn, h | h⟩
        · rw [h] at r1; cases r1
        · rw [h] at r2; cases r2
        · rw [h] at r3; cases r3
        · rw [r4 (by rcases hk with h' | h' | h'; exacts [.inl h', .inr (.inl h'), absurd h' h0])] at h; cases h
        · rw [(hex n hn).1] at h; cases h
        · rw [(hex n hn).2] at h; cases h
    have : evaluateAll fs env ⟨k, c, some names, st⟩ classes (.list (c0 :: cr)) arg nproc.toNat (decide (out ≠ [])) defaultPrint rnd sched =
        .error .assertionError := by
      unfold evaluateAll Evaluators.evaluate
      rw [hnorm]
      simp only
      unfold categoryLoop
      unfold evaluateCategory
      rw [hdata]
    rw [this]; rfl
  · rintro ⟨n, hn, cc, hcc, hmiss⟩ o' ho
    have : ∃ er, evaluateAll fs env ⟨k, c, some names, st⟩ classes (.list cs) arg nproc.toNat (decide (out ≠ [])) defaultPrint rnd sched =
        .error er := by
      obtain ⟨j, hj, rfl⟩ := List.getElem_of_mem hcc
      unfold evaluateAll
      refine evaluate_error classes _ cs hne _ _ j hj fun m => ?_
      cases hx : evaluateCategory fs env ⟨k, c, some names, st⟩ cs[j] arg nproc.toNat (decide (out ≠ [])) (rnd j) (sched j) with
      | none => simp
      | some x =>
        suffices ∃ er, x = .error er by obtain ⟨er, rfl⟩ := this; simp
        cases hd : categoryData fs ⟨k, c, some names, st⟩ cs[j] with
        | error er =>
          unfold evaluateCategory at hx
          rw [hd] at hx
          exact ⟨er, by simpa using hx.symm⟩
        | ok data =>
          obtain ⟨-, -, -, -, inst', ps', -, -, -, hdd⟩ := (h48 _ data).1 hd
          refine C50_missing_prediction fs env _ _ arg data hd
            (expected ⟨k, c, some names, st⟩ cs[j] inst' ps' n) (by rw [hdd]; exact List.mem_map_of_mem hn) ?_ _ _ _ _ _ hx
          simp only [expected, hend]
          exact hmiss
    obtain ⟨er, her⟩ := this
    rw [her] at ho
    by_cases h0 : er = .user 0
    · simp [unlessRunning, h0, endOf] at ho
    · simp only [unlessRunning, h0, if_false, endOf, Option.map_some, Option.some.injEq] at ho
      exact ⟨er, ho.symm⟩

/-- **C84** `cityscapes_raw.py` with good words and parameters: if a directory of the data set or the predictions, or a
ground-truth file of a listed sample, is missing, the command ends with an `AssertionError`, whatever the schedules; if a
prediction of a listed sample for a requested category cannot be read, it can only end with an exception: no report is ever
made of the remaining samples. -/
theorem C84_cityscapes_raw_missing (w : World) (fs : Fs) (env : Env) (rnd : Nat → Nat → Nat → Nat → Nat → ℚ)
    (classes : List String) (argv : List Str) (items : List Item) (h : CommandLine cityRawParser argv items)
    (dataset pred : Str) (hpos : positionalsOf items = [dataset, pred]) (hroot : DirArg dataset) (hpred : DirArg pred)
    (out : Str) (hout : OutputReady w pred (textGiven items "--output-path" none) out fs)
    (cs : List Int) (hcs : Cli.parseCategories 19 (textGiven items "--categories" none) = some cs)
    (hrange : ∀ c ∈ cs, 1 ≤ c ∧ c ≤ 19)
    (arg : ThresholdArg) (harg : Cli.parseThresholds (wordGiven items "--thresholds" "99".toList) = some arg)
    (k : Kind) (hk : k = if flagGiven items "--half" then .half else .cityscapes)
    (hsc : k = .half ∨ (0 < numGiven items "--scale" (1 / 2) ∧ numGiven items "--scale" (1 / 2) ≤ 1))
    (hseal : flagGiven items "--pre-seal" = true → flagGiven items "--nonIS" = true) (pr : Protocol)
    (hpr : pr = if flagGiven items "--pre-seal" then preSeal
      else postSeal (numGiven items "--max-dist" (35 / 10000)) (!flagGiven items "--nonIS"))
    (names : List Str) (hrel : ∀ n ∈ names, Relative n)
    (hlist : ListsSamples fs (slashed [dataset, "splits".toList, "val.txt".toList]) names) (sched : Nat → List PoolEvent) :
    (Lacks fs [dataset, pred, slashed [dataset, "gtEval".toList, "val".toList], slashed [dataset, "gtFine".toList, "val".toList]] names
        (fun n => slashed [dataset, "gtEval".toList, "val".toList, gtFile k false pr.instances n])
        (fun n => slashed [dataset, "gtEval".toList, "val".toList, segFile k n]) →
      Commands.cityRaw w env classes argv rnd sched = some (.raised .assertionError)) ∧
    ((∃ n ∈ names, ∃ c ∈ cs,
        env.pics.gray (slashed [pred, "class_".toList ++ threeDigits c.toNat, n ++ "_leftImg8bit.png".toList]) = none) →
      ∀ o', Commands.cityRaw w env classes argv rnd sched = some o' → ∃ er, o' = .raised er) := by
  obtain ⟨st, s1, -, -, -, -, -, -, s2, s3⟩ := city_params k (by rw [hk]; split <;> simp) false (rawOptsGiven items) hsc hseal
  have hks : k ≠ .sbd := by rw [hk]; split <;> decide
  have hn : numClasses k = 19 := by rw [hk]; split <;> rfl
  rw [show (if (rawOptsGiven items).preSeal then preSeal else postSeal (rawOptsGiven items).maxDist (!(rawOptsGiven items).nonIS)) = pr
    from hpr.symm] at s2 s3
  have hj : ∀ x, slashed [slashed [dataset, "gtEval".toList, "val".toList], x] = slashed [dataset, "gtEval".toList, "val".toList, x] := by
    intro x; simp [slashed]
  obtain ⟨g1, g2⟩ := multi_missing w fs env rnd classes k (by rw [hk]; split <;> simp) false 20 (by rw [hn]; rfl) dataset pred hroot
    hpred _ out hout (intGiven items "--nproc" 4) (rawOptsGiven items) _ cs (by rw [hn]; exact hcs) (by rw [hn]; exact hrange)
    arg harg names hrel (by rw [if_neg hks]; exact hlist) st s1 _ _ s2 s3 _ (by rw [if_neg hks]) sched
  simp only [hj, if_neg hks] at g1 g2
  have hrun : Commands.cityRaw w env classes argv rnd sched =
      multi w env classes k false 20 "gtEval".toList dataset pred (textGiven items "--output-path" none)
        (intGiven items "--nproc" 4) (rawOptsGiven items) (Cli.argsOf (rawOptsGiven items) (Cli.modeOf (rawOptsGiven items))
          (rawOptsGiven items).scale (rawOptsGiven items).maxDist) rnd sched := by
    unfold Commands.cityRaw
    rw [C83_cityscapes_raw argv items h dataset pred hpos, hk]
  rw [hrun]
  refine ⟨fun hl => g1 ?_, g2⟩
  rcases hl with ⟨d, hd, hx⟩ | hx
  · simp only [List.mem_cons, List.not_mem_nil, or_false] at hd
    rcases hd with rfl | rfl | rfl | rfl
    exacts [.inl hx, .inr (.inl hx), .inr (.inr (.inl hx)), .inr (.inr (.inr (.inl ⟨hks, hx⟩)))]
  · exact .inr (.inr (.inr (.inr hx)))

/-- **C84** `cityscapes_thin.py`, in the same way. -/
theorem C84_cityscapes_thin_missing (w : World) (fs : Fs) (env : Env) (rnd : Nat → Nat → Nat → Nat → Nat → ℚ)
    (classes : List String) (argv : List Str) (items : List Item) (h : CommandLine cityThinParser argv items)
    (dataset pred : Str) (hpos : positionalsOf items = [dataset, pred]) (hroot : DirArg dataset) (hpred : DirArg pred)
    (out : Str) (hout : OutputReady w pred (textGiven items "--output-path" none) out fs)
    (cs : List Int) (hcs : Cli.parseCategories 19 (textGiven items "--categories" none) = some cs)
    (hrange : ∀ c ∈ cs, 1 ≤ c ∧ c ≤ 19)
    (arg : ThresholdArg) (harg : Cli.parseThresholds (wordGiven items "--thresholds" "99".toList) = some arg)
    (hseal : flagGiven items "--pre-seal" = true → flagGiven items "--nonIS" = true) (pr : Protocol)
    (hpr : pr = if flagGiven items "--pre-seal" then preSeal
      else postSeal (numGiven items "--max-dist" (35 / 10000)) (!flagGiven items "--nonIS"))
    (names : List Str) (hrel : ∀ n ∈ names, Relative n)
    (hlist : ListsSamples fs (slashed [dataset, "splits".toList, "val.txt".toList]) names) (sched : Nat → List PoolEvent) :
    (Lacks fs [dataset, pred, slashed [dataset, "gtEval".toList, "val".toList], slashed [dataset, "gtFine".toList, "val".toList]] names
        (fun n => slashed [dataset, "gtEval".toList, "val".toList, gtFile .half true pr.instances n])
        (fun n => slashed [dataset, "gtEval".toList, "val".toList, segFile .half n]) →
      Commands.cityThin w env classes argv rnd sched = some (.raised .assertionError)) ∧
    ((∃ n ∈ names, ∃ c ∈ cs,
        env.pics.gray (slashed [pred, "class_".toList ++ threeDigits c.toNat, n ++ "_leftImg8bit.png".toList]) = none) →
      ∀ o', Commands.cityThin w env classes argv rnd sched = some o' → ∃ er, o' = .raised er) := by
  obtain ⟨st, s1, -, -, -, -, -, -, s2, s3⟩ := city_params .half (.inr rfl) true (thinOptsGiven items) (.inl rfl) hseal
  rw [show (if (thinOptsGiven items).preSeal then preSeal else postSeal (thinOptsGiven items).maxDist (!(thinOptsGiven items).nonIS)) = pr
    from hpr.symm] at s2 s3
  have hks : Kind.half ≠ .sbd := by decide
  have hj : ∀ x, slashed [slashed [dataset, "gtEval".toList, "val".toList], x] = slashed [dataset, "gtEval".toList, "val".toList, x] := by
    intro x; simp [slashed]
  obtain ⟨g1, g2⟩ := multi_missing w fs env rnd classes .half (by simp) true 20 rfl dataset pred hroot
    hpred _ out hout (intGiven items "--nproc" 4) (thinOptsGiven items) _ cs hcs hrange
    arg harg names hrel (by rw [if_neg hks]; exact hlist) st s1 _ _ s2 s3 _ (by rw [if_neg hks]) sched
  simp only [hj, if_neg hks] at g1 g2
  have hrun : Commands.cityThin w env classes argv rnd sched =
      multi w env classes .half true 20 "gtEval".toList dataset pred (textGiven items "--output-path" none)
        (intGiven items "--nproc" 4) (thinOptsGiven items) (Cli.argsOf (thinOptsGiven items) (Cli.modeOf (thinOptsGiven items))
          (thinOptsGiven items).scale (thinOptsGiven items).maxDist) rnd sched := by
    unfold Commands.cityThin
    rw [C83_cityscapes_thin argv items h dataset pred hpos]
  rw [hrun]
  refine ⟨fun hl => g1 ?_, g2⟩
  rcases hl with ⟨d, hd, hx⟩ | hx
  · simp only [List.mem_cons, List.not_mem_nil, or_false] at hd
    rcases hd with rfl | rfl | rfl | rfl
    exacts [.inl hx, .inr (.inl hx), .inr (.inr (.inl hx)), .inr (.inr (.inr (.inl ⟨hks, hx⟩)))]
  · exact .inr (.inr (.inr (.inr hx)))

/-- **C84** `sbd.py`, in the same way. -/
theorem C84_sbd_missing (w : World) (fs : Fs) (env : Env) (rnd : Nat → Nat → Nat → Nat → Nat → ℚ)
    (classes : List String) (argv : List Str) (items : List Item) (h : CommandLine sbdParser argv items)
    (dataset pred : Str) (hpos : positionalsOf items = [dataset, pred]) (hroot : DirArg dataset) (hpred : DirArg pred)
    (out : Str) (hout : OutputReady w pred (textGiven items "--output-path" none) out fs)
    (cs : List Int) (hcs : Cli.parseCategories 20 (textGiven items "--categories" none) = some cs)
    (hrange : ∀ c ∈ cs, 1 ≤ c ∧ c ≤ 20)
    (arg : ThresholdArg) (harg : Cli.parseThresholds (wordGiven items "--thresholds" "99".toList) = some arg) (pr : Protocol)
    (hpr : pr = if flagGiven items "--pre-seal" then preSeal else postSeal (1 / 50) (!flagGiven items "--nonIS"))
    (names : List Str) (hrel : ∀ n ∈ names, Relative n)
    (hlist : ListsSamples fs (slashed [dataset, "val.txt".toList]) names) (sched : Nat → List PoolEvent) :
    (Lacks fs [dataset, pred, slashed [dataset, "gtEval".toList]] names
        (fun n => slashed [dataset, "gtEval".toList, gtFile .sbd (!flagGiven items "--raw") pr.instances n])
        (fun n => slashed [dataset, "gtEval".toList, segFile .sbd n]) →
      Commands.sbd w env classes argv rnd sched = some (.raised .assertionError)) ∧
    ((∃ n ∈ names, ∃ c ∈ cs,
        env.pics.gray (slashed [pred, "class_".toList ++ threeDigits c.toNat, n ++ ".png".toList]) = none) →
      ∀ o', Commands.sbd w env classes argv rnd sched = some o' → ∃ er, o' = .raised er) := by
  obtain ⟨st, s1, -, -, -, -, -, -, s2, s3⟩ := sbd_params (!flagGiven items "--raw") (sbdOptsGiven items)
  rw [show (if (sbdOptsGiven items).preSeal then preSeal else postSeal (1 / 50) (!(sbdOptsGiven items).nonIS)) = pr
    from hpr.symm] at s2 s3
  have hj : ∀ x, slashed [slashed [dataset, "gtEval".toList], x] = slashed [dataset, "gtEval".toList, x] := by
    intro x; simp [slashed]
  obtain ⟨g1, g2⟩ := multi_missing w fs env rnd classes .sbd (by simp) (!flagGiven items "--raw") 21 rfl dataset pred hroot
    hpred _ out hout (intGiven items "--nproc" 4) (sbdOptsGiven items) _ cs hcs hrange
    arg harg names hrel (by rw [if_pos rfl]; exact hlist) st s1 _ _ s2 s3 _ (by rw [if_pos rfl]) sched
  simp only [hj, if_true] at g1 g2
  have hrun : Commands.sbd w env classes argv rnd sched =
      multi w env classes .sbd (!flagGiven items "--raw") 21 "gtEval".toList dataset pred (textGiven items "--output-path" none)
        (intGiven items "--nproc" 4) (sbdOptsGiven items) (Cli.argsOf (sbdOptsGiven items) (Cli.modeOf (sbdOptsGiven items))
          1 (sbdOptsGiven items).maxDist) rnd sched := by
    unfold Commands.sbd
    rw [C83_sbd argv items h dataset pred hpos]
  rw [hrun]
  refine ⟨fun hl => g1 ?_, g2⟩
  rcases hl with ⟨d, hd, hx⟩ | hx
  · simp only [List.mem_cons, List.not_mem_nil, or_false] at hd
    rcases hd with rfl | rfl | rfl
    exacts [.inl hx, .inr (.inl hx), .inr (.inr (.inl hx))]
  · exact .inr (.inr (.inr (.inr hx)))

end

/-! ## BSDS -/

section

/-- With all parameters set, the only way to fail to assemble the samples is an assertion. -/
theorem bsdsData_error {fs : Fs} {e : Ev} (hk : e.kind = .bsds) {ps : Params}
    (hps : evalParams e.kind e.ctor.thin e.attrs = .ok ps) {names : List Str} (hn : e.names = some names)
    {er : PyErr} (h : bsdsData fs e false = .error er) : er = .assertionError := by
  have has : ∀ b x, assert b = .error x → x = .assertionError := by
    intro b x hx
    unfold assert at hx
    split at hx
    · cases hx
    · cases hx; rfl
  have hone : ∀ n x, sampleOfBsds fs e false n = .error x → x = .assertionError := by
    intro n x hx
    unfold sampleOfBsds at hx
    simp only [hps, bind, Except.bind] at hx
    split at hx
    next y hy => cases hx; exact has _ _ hy
    next =>
      split at hx
      next y hy => cases hx; exact has _ _ hy
      next => cases hx
  have hmap : ∀ (l : List Str) x, mapM' (sampleOfBsds fs e false) l = .error x → x = .assertionError := by
    intro l
    induction l with
    | nil => intro x hx; cases hx
    | cons a l ih =>
      intro x hx
      unfold mapM' at hx
      cases ha : sampleOfBsds fs e false a with
      | error y => rw [ha] at hx; cases hx; exact hone _ _ ha
      | ok y =>
        rw [ha] at hx
        cases hl : mapM' (sampleOfBsds fs e false) l with
        | error z => rw [hl] at hx; cases hx; exact ih _ hl
        | ok z => rw [hl] at hx; cases hx
  have hbef : ∀ x, beforeEvaluation fs e = .error x → x = .assertionError := by
    intro x hx
    unfold beforeEvaluation at hx
    simp only [ne_eq, hk, not_true_eq_false, if_true, if_false, bind, Except.bind] at hx
    repeat' (split at hx)
    all_goals first | (cases hx; apply has; assumption) | exact has _ _ hx
  unfold bsdsData at h
  simp only [bind, Except.bind, hn] at h
  split at h
  next y hy => cases h; exact hbef _ hy
  next =>
    split at h
    next y hy => cases h; exact hmap _ _ hy
    next =>
      split at h
      next y hy => cases h; exact has _ _ hy
      next => cases h

/-- An evaluation of listed pictures, something of which is missing. -/
theorem bsds_lacks (fs : Fs) (env : Env) (e : Ev) (hk : e.kind = .bsds) (hroot : DirArg e.ctor.datasetRoot)
    (hpred : DirArg e.ctor.predRoot) (names : List Str) (hn : e.names = some names) (hrel : ∀ n ∈ names, Relative n)
    {ps : Params} (hps : evalParams e.kind e.ctor.thin e.attrs = .ok ps)
    (h : Lacks fs [e.ctor.datasetRoot, slashed [e.ctor.datasetRoot, "groundTruth".toList], e.ctor.predRoot] names
      (fun n => slashed [e.ctor.datasetRoot, "groundTruth".toList, n ++ ".mat".toList])
      (fun n => slashed [e.ctor.predRoot, n ++ ".png".toList]))
    (arg : ThresholdArg) (nproc : Nat) (save : Bool) (rnd : Nat → Nat → Nat → Nat → ℚ) (sched : List PoolEvent) :
    evaluateBsds fs env e arg nproc save false rnd sched = some (.error .assertionError) := by
  have : bsdsData fs e false = .error .assertionError := by
    cases hd : bsdsData fs e false with
    | error er => rw [bsdsData_error hk hps hn hd]
    | ok data =>
      obtain ⟨-, h1, h2, h3, -, -, h4, -⟩ := (C48_bsds_samples fs e hk hroot hpred names hn hrel data).1 hd
      rcases h with ⟨d, hm, hx⟩ | ⟨n, hm, hx | hx⟩
      · simp only [List.mem_cons, List.not_mem_nil, or_false] at hm
        rcases hm with rfl | rfl | rfl
        · rw [h1] at hx; cases hx
        · rw [h2] at hx; cases hx
        · rw [h3] at hx; cases hx
      · rw [(h4 n hm).1] at hx; cases hx
      · rw [(h4 n hm).2] at hx; cases hx
  unfold evaluateBsds
  rw [this]

/-- **C84** `bsds500.py` with good words: if a directory, or the prediction of an annotated picture, does not exist, the command
ends with an `AssertionError` whatever the schedule; if all directories are there but the one with the annotations of the split
(or it holds no `.mat` file), it ends with a `TypeError`.  No table is ever made of the remaining pictures. -/
theorem C84_bsds_missing (w : World) (fs : Fs) (env : Env) (argv : List Str) (items : List Item)
    (h : CommandLine bsdsParser argv items) (dataset pred : Str) (hpos : positionalsOf items = [dataset, pred])
    (hroot : DirArg dataset) (hpred : DirArg pred)
    (split : Str) (hsplit : split = if flagGiven items "--use-val" then "val".toList else "test".toList) (out : Str)
    (hout : OutputReady w pred (textGiven items "--output-path" none) out fs)
    (arg : ThresholdArg) (harg : Cli.parseThresholds (wordGiven items "--thresholds" "99".toList) = some arg)
    (rnd : Nat → Nat → Nat → Nat → ℚ) (sched : List PoolEvent) :
    (∀ files, fs.list (slashed [dataset, "groundTruth".toList, split]) = some files →
      (∀ f ∈ files, '/' ∉ f) → files.Nodup →
      (∀ stem ext, stem ++ '.' :: ext ∈ files → lower ext = "mat".toList → ext = "mat".toList) →
      (∃ s, MatEntry files s) →
      (fs.ex dataset = false ∨ fs.ex (slashed [dataset, "groundTruth".toList]) = false ∨ fs.ex pred = false ∨
        ∃ s, MatEntry files s ∧ (fs.ex (slashed [dataset, "groundTruth".toList, split, s ++ ".mat".toList]) = false ∨
          fs.ex (slashed [pred, split, s ++ ".png".toList]) = false)) →
      Commands.bsds w env argv rnd sched = some (.raised .assertionError)) ∧
    (fs.list (slashed [dataset, "groundTruth".toList, split]) = none ∨
        (∃ files, fs.list (slashed [dataset, "groundTruth".toList, split]) = some files ∧
          ∀ f ∈ files, lower (splitext f).2 ≠ ".mat".toList) →
      fs.ex dataset = true → fs.ex (slashed [dataset, "groundTruth".toList]) = true → fs.ex pred = true →
      Commands.bsds w env argv rnd sched = some (.raised .typeError)) := by
  have hs : split = "val".toList ∨ split = "test".toList := by
    rw [hsplit]; split
    · exact .inl rfl
    · exact .inr rfl
  have hgr : DirArg "groundTruth".toList ∧ Relative "groundTruth".toList := by unfold DirArg Relative; decide
  constructor
  · intro files hlist hslash hnd hlower hsome hmiss
    obtain ⟨stems, s1, -, s3, s4⟩ := bsds_names fs { datasetRoot := dataset, predRoot := pred, split := split } hroot hs files
      hlist hslash hnd hlower hsome
    rw [C84_bsds_evaluator w fs env argv items h dataset pred hpos split hsplit out hout arg harg _ s4 rnd sched]
    rw [bsds_lacks fs env _ rfl hroot hpred (stems.map fun s => slashed [split, s]) rfl (by
      intro n hn
      obtain ⟨s, -, rfl⟩ := List.mem_map.1 hn
      unfold Relative
      rcases hs with h | h <;> rw [h] <;> simp [slashed])
      (ps := ⟨1, !flagGiven items "--raw", flagGiven items "--apply-nms", numGiven items "--max-dist" (75 / 10000), none, none, none⟩) rfl]
    · rfl
    · rcases hmiss with h | h | h | ⟨s, hm, h⟩
      · exact .inl ⟨_, by simp, h⟩
      · exact .inl ⟨_, by simp, h⟩
      · exact .inl ⟨pred, by simp, h⟩
      · refine .inr ⟨slashed [split, s], List.mem_map.2 ⟨s, (s3 s).2 hm, rfl⟩, ?_⟩
        have e1 : slashed [dataset, "groundTruth".toList, slashed [split, s] ++ ".mat".toList] =
            slashed [dataset, "groundTruth".toList, split, s ++ ".mat".toList] := by simp [slashed]
        have e2 : slashed [pred, slashed [split, s] ++ ".png".toList] = slashed [pred, split, s ++ ".png".toList] := by
          simp [slashed]
        simp only [e1, e2]
        exact h
  · intro hno h1 h2 h3
    have hsp : Relative split := by
      unfold Relative
      rcases hs with h | h <;> rw [h] <;> decide
    have hg : bsdsGtRoot { datasetRoot := dataset, predRoot := pred, split := split } = slashed [dataset, "groundTruth".toList] :=
      pjoin_slash hroot hgr.2
    have hj1 : pjoin (bsdsGtRoot { datasetRoot := dataset, predRoot := pred, split := split }) split =
        slashed [dataset, "groundTruth".toList, split] := by
      rw [hg, pjoin_slash (dirArg_slash hgr.1) hsp]
      simp [slashed]
    have hnone : construct fs .bsds { datasetRoot := dataset, predRoot := pred, split := split } = .ok none := by
      unfold construct
      rw [if_pos hs]
      simp only [setSampleNames, chooseNames, if_true, hj1]
      rcases hno with hl | ⟨files, hl, hm⟩
      · simp only [hl]
      · have : files.filter (fun fn => decide (lower (splitext fn).2 = ".mat".toList)) = [] := by
          rw [List.filter_eq_nil_iff]
          intro f hf
          simpa using hm f hf
        have : matNames split files = [] := by
          unfold matNames
          rw [this]; rfl
        simp only [hl, this, if_true]
    rw [C84_bsds_evaluator w fs env argv items h dataset pred hpos split hsplit out hout arg harg _ hnone rnd sched]
    have hb : ∀ (e : Ev), e.kind = .bsds → e.ctor = { datasetRoot := dataset, predRoot := pred, split := split } → e.names = none →
        bsdsData fs e false = .error .typeError := by
      intro e ek ec en
      unfold bsdsData beforeEvaluation
      simp only [ek, ec, en, hg, h1, h2, h3, assert, if_true, if_false, ne_eq, not_true_eq_false, bind, Except.bind]
    unfold evaluateBsds
    rw [hb _ rfl rfl rfl]
    rfl

/-- **C84** `script_bsds500.py`: if a directory, an annotation file or a prediction of the five pictures does not exist, the command
ends with an `AssertionError`. -/
theorem C84_script_missing (fs : Fs) (env : Env) (argv : List Str) (items : List Item) (h : CommandLine scriptParser argv items)
    (bench out : Str) (hpos : positionalsOf items = [bench, out]) (hroot : DirArg bench)
    (hlacks : Lacks fs [bench, slashed [bench, "groundTruth".toList], slashed [bench, "png".toList]]
      ["2018".toList, "3063".toList, "5096".toList, "6046".toList, "8068".toList]
      (fun n => slashed [bench, "groundTruth".toList, n ++ ".mat".toList])
      (fun n => slashed [bench, "png".toList, n ++ ".png".toList]))
    (rnd : Nat → Nat → Nat → Nat → ℚ) (sched : List PoolEvent) :
    Commands.script fs env argv rnd sched = some (.raised .assertionError) := by
  obtain ⟨g1, g2⟩ := C84_script_evaluator fs env argv items h bench out hpos hroot rnd sched
  by_cases h0 : fs.ex bench = false
  · exact g1 h0
  · rw [g2 (by simpa using h0)]
    have hj : ∀ x, slashed [slashed [bench, "png".toList], x] = slashed [bench, "png".toList, x] := by
      intro x; simp [slashed]
    rw [bsds_lacks fs env _ rfl hroot (show DirArg (slashed [bench, "png".toList]) from dirArg_slash (by unfold DirArg; decide)) _ rfl
      (by unfold Relative; decide) (ps := ⟨1, true, false, 75 / 10000, none, none, none⟩) rfl (by simp only [hj]; exact hlacks)]
    rfl

end

/-! ## Concrete cases -/

section

/-- As `exCmdFs`, without any instance-sensitive boundary labels. -/
def exBareFs : Fs := ⟨fun p => decide (p ≠ "d/gtEval/bonn/b_thin_isedge.png".toList), fun _ => some "bonn/b\n".toList, fun _ => none⟩

/-- `sbd.py d p --output-path= --categories=20` without the labels of the only sample. -/
example (env : Env) (rnd : Nat → Nat → Nat → Nat → Nat → ℚ) (sched : Nat → List PoolEvent) :
    Commands.sbd ⟨exBareFs, fun _ => .ok exBareFs, fun _ => true, "t".toList, "t".toList⟩ env []
      ["d".toList, "p".toList, "--output-path=".toList, "--categories=20".toList] rnd sched = some (.raised .assertionError) :=
  (C84_sbd_missing _ exBareFs env rnd [] _ _ exSbdLine "d".toList "p".toList rfl (by unfold DirArg; decide) (by unfold DirArg; decide) []
    ⟨by rfl, by rw [if_pos rfl], rfl⟩ [20] (by rfl) (by decide) (.int 99) (by rfl) (postSeal (1 / 50) true) rfl
    ["bonn/b".toList] (by unfold Relative; decide)
    ⟨rfl, by simp, ['\n'], ["bonn/b".toList], [], by simp, by unfold OneLine; decide, by unfold OneLine; decide, rfl, rfl⟩ sched).1
    (.inr ⟨_, List.mem_cons_self, .inl (by decide +kernel)⟩)

/-- The same command with labels but no prediction makes no report. -/
example (rnd : Nat → Nat → Nat → Nat → Nat → ℚ) (sched : Nat → List PoolEvent) (o : Ended Report)
    (ho : Commands.sbd exCmdWorld ⟨{ exCmdPics with gray := fun _ => none }, refLib 1, id, fun _ _ => 0, 9⟩ []
      ["d".toList, "p".toList, "--output-path=".toList, "--categories=20".toList] rnd sched = some o) : ∃ er, o = .raised er :=
  (C84_sbd_missing exCmdWorld exCmdFs _ rnd [] _ _ exSbdLine "d".toList "p".toList rfl (by unfold DirArg; decide) (by unfold DirArg; decide) []
    ⟨by rfl, by rw [if_pos rfl]; rfl, rfl⟩ [20] (by rfl) (by decide) (.int 99) (by rfl) (postSeal (1 / 50) true) rfl
    ["bonn/b".toList] (by unfold Relative; decide) (exCmdNames _) sched).2
    ⟨_, List.mem_cons_self, _, List.mem_cons_self, rfl⟩ o ho

/-- `cityscapes_thin.py d p --pre-seal --nonIS` without predictions. -/
example (rnd : Nat → Nat → Nat → Nat → Nat → ℚ) (sched : Nat → List PoolEvent) (o : Ended Report)
    (ho : Commands.cityThin exCmdWorld ⟨{ exCmdPics with gray := fun _ => none }, refLib 1, id, fun _ _ => 0, 9⟩ []
      ["d".toList, "p".toList, "--pre-seal".toList, "--nonIS".toList] rnd sched = some o) : ∃ er, o = .raised er :=
  (C84_cityscapes_thin_missing exCmdWorld exCmdFs _ rnd [] _ _ exThinLine "d".toList "p".toList rfl (by unfold DirArg; decide)
    (by unfold DirArg; decide) "p/edge_results_t".toList ⟨by rfl, by rw [if_neg (by decide)]; rfl, rfl⟩
    ((List.range 19).map fun (k : Nat) => (k : Int) + 1) rfl (by decide)
    (.int 99) (by rfl) (by intro _; rfl) preSeal rfl ["bonn/b".toList] (by unfold Relative; decide) (exCmdNames _) sched).2
    ⟨_, List.mem_cons_self, 1, by decide, rfl⟩ o ho

/-- The command line of `exArgv` without predictions. -/
example (rnd : Nat → Nat → Nat → Nat → Nat → ℚ) (sched : Nat → List PoolEvent) (o : Ended Report)
    (ho : Commands.cityRaw exCmdWorld ⟨{ exCmdPics with gray := fun _ => none }, refLib 1, id, fun _ _ => 0, 9⟩ []
      exArgv rnd sched = some o) : ∃ er, o = .raised er :=
  (C84_cityscapes_raw_missing exCmdWorld exCmdFs _ rnd [] exArgv exItems exCommandLine "root".toList "-".toList rfl (by unfold DirArg; decide)
    (by unfold DirArg; decide) "-/edge_results_t".toList ⟨by rfl, by rw [if_neg (by decide)]; rfl, rfl⟩
    ((List.range 19).map fun (k : Nat) => (k : Int) + 1) rfl (by decide)
    (.list [1 / 2]) exHalf .half rfl (.inl rfl) (by intro h0; cases h0) (postSeal (1 / 4) true) rfl
    ["bonn/b".toList] (by unfold Relative; decide) (exCmdNames _) sched).2
    ⟨_, List.mem_cons_self, 1, by decide, rfl⟩ o ho

/-- One annotated picture without its prediction. -/
def exNoPngFs : Fs := ⟨fun p => decide (p ≠ "p/val/1.png".toList), fun _ => none, fun _ => some ["1.mat".toList]⟩

/-- `bsds500.py data --use-val p` in that situation, and when the directory of annotations is empty. -/
example (env : Env) (rnd : Nat → Nat → Nat → Nat → ℚ) (sched : List PoolEvent) :
    Commands.bsds ⟨exNoPngFs, fun _ => .ok exNoPngFs, fun _ => true, "t".toList, "t".toList⟩ env
      ["data".toList, "--use-val".toList, "p".toList] rnd sched = some (.raised .assertionError) ∧
    Commands.bsds ⟨exCmdFs, fun _ => .ok { exCmdFs with list := fun _ => some [] }, fun _ => true, "t".toList, "t".toList⟩ env
      ["data".toList, "--use-val".toList, "p".toList] rnd sched = some (.raised .typeError) := by
  constructor
  · refine (C84_bsds_missing _ exNoPngFs env _ _ exBsdsLine "data".toList "p".toList rfl (by unfold DirArg; decide)
      (by unfold DirArg; decide) "val".toList rfl "p/edge_results_t".toList ⟨by rfl, by rw [if_neg (by decide)], rfl⟩ (.int 99)
      (by rfl) rnd sched).1 ["1.mat".toList] rfl (by decide) (by simp) ?_ ⟨"1".toList, by simp, '1', by decide, by decide⟩
      (.inr (.inr (.inr ⟨"1".toList, ⟨by simp, '1', by decide, by decide⟩, .inr (by decide +kernel)⟩)))
    intro stem ext hm hl
    have h0 := List.mem_singleton.1 hm
    have h3 : ext.length = "mat".toList.length := by
      have := congrArg List.length hl
      simpa [lower] using this
    have h4 : (stem ++ ['.']) ++ ext = "1.".toList ++ "mat".toList := by
      rw [List.append_assoc]; exact h0
    exact (List.append_inj' h4 h3).2
  · exact (C84_bsds_missing _ { exCmdFs with list := fun _ => some [] } env _ _ exBsdsLine "data".toList "p".toList rfl
      (by unfold DirArg; decide) (by unfold DirArg; decide) "val".toList rfl "p/edge_results_t".toList
      ⟨by rfl, by rw [if_neg (by decide)], rfl⟩ (.int 99) (by rfl) rnd sched).2 (.inr ⟨[], rfl, by simp⟩) rfl rfl rfl

/-- `script_bsds500.py bench ""` without a directory `png`. -/
example (env : Env) (rnd : Nat → Nat → Nat → Nat → ℚ) (sched : List PoolEvent) :
    Commands.script ⟨fun p => decide (p ≠ "bench/png".toList), fun _ => none, fun _ => none⟩ env ["bench".toList, []] rnd sched =
      some (.raised .assertionError) :=
  C84_script_missing _ env _ [.pos "bench".toList, .pos []]
    (.plain (.cons (a := ["bench".toList]) (.pos (Or.inl (by decide +kernel))) (.cons (a := [[]]) (.pos (Or.inl (by decide +kernel))) .nil)))
    "bench".toList [] rfl (by unfold DirArg; decide) (.inl ⟨"bench/png".toList, by decide, by decide +kernel⟩) rnd sched

end

end EdgeEval.Props
