import Verif.Lemmas.Cli
import Verif.Spec.Protocol

/-! ## C42  command-line arguments -/

namespace EdgeEval.Props

open Text Cli Evaluators Spec

/-- Blanks that `strip` removes. -/
def Blank (s : Str) : Prop := ∀ c ∈ s, isSpace c = true

/-- Bracketed, comma separated. -/
def bracketList (items : List Str) : Str := '[' :: join [','] items ++ [']']

/-- An integer, possibly surrounded by blanks, is that number of thresholds. -/
theorem C42_thresholds_int (z : Int) (a b : Str) (ha : Blank a) (hb : Blank b) :
    parseThresholds (a ++ intStr z ++ b) = some (.int z) := by
  unfold parseThresholds
  rw [intLit_stripped, intLit_pad ha hb]

example : parseThresholds " 99\n".toList = some (.int 99) := by
  have h : (" 99\n".toList : Str) = [' '] ++ intStr 99 ++ ['\n'] := by decide +kernel
  rw [h]
  exact C42_thresholds_int 99 [' '] ['\n'] (by simp [Blank, isSpace]) (by simp [Blank, isSpace])

/-- What the threshold parser accepts, exactly: a string `int` accepts, or a bracketed list of strings `float`
accepts.  Everything else prints a message and stops. -/
theorem C42_thresholds_iff (s : Str) (th : ThresholdArg) :
    parseThresholds s = some th ↔
      (∃ z, intLit s = .ok z ∧ th = .int z) ∨
      (∃ items xs, items ≠ [] ∧ (∀ i ∈ items, ',' ∉ i) ∧ strip s = bracketList items ∧
        List.Forall₂ (fun i x => floatLit i = .ok x) items xs ∧ th = .list xs) := by
  unfold parseThresholds
  rw [intLit_stripped]
  constructor
  · intro h
    split at h
    · rename_i z hz
      cases h
      exact .inl ⟨z, hz, rfl⟩
    · split at h
      · cases h
      · rename_i inner hin
        split at h
        · rename_i xs hxs
          cases h
          refine .inr ⟨_, xs, splitOnChar_ne_nil ',' inner, splitOnChar_no_sep ',' inner, ?_, ?_, rfl⟩
          · rw [bracketed_some hin, bracketList, join_splitOnChar]
          · rw [mapM'_forall₂] at hxs
            simpa only [floatLit_stripped] using hxs
        · cases h
  · rintro (⟨z, hz, rfl⟩ | ⟨items, xs, hne, hc, hs, hf, rfl⟩)
    · rw [hz]
    · rw [intLit_bracket (t := join [','] items ++ [']']) (by rw [hs]; rfl)]
      simp only
      have : strip s = '[' :: join [','] items ++ [']'] := hs
      rw [this, bracketed_bracket]
      simp only
      cases items with
      | nil => exact absurd rfl hne
      | cons x l =>
        rw [splitOnChar_join1 ',' x l hc]
        have : mapM' (fun t => floatLit (strip t)) (x :: l) = .ok xs := by
          rw [mapM'_forall₂]
          simpa only [floatLit_stripped] using hf
        rw [this]

/-- Printing numbers with six decimals in a bracketed list and parsing gives the (rounded) numbers back. -/
theorem C42_thresholds_list (xs : List ℚ) (hne : xs ≠ []) (a b : Str) (ha : Blank a) (hb : Blank b) :
    parseThresholds (a ++ bracketList (xs.map fixed6) ++ b) = some (.list (xs.map round6)) := by
  rw [C42_thresholds_iff]
  refine .inr ⟨xs.map fixed6, xs.map round6, by simpa using hne, ?_, ?_, ?_, rfl⟩
  · intro i hi hc
    obtain ⟨x, _, rfl⟩ := List.mem_map.1 hi
    unfold fixed6 at hc
    simp only [List.mem_append, List.mem_cons] at hc
    rcases hc with (h | h) | h | h
    · split at h <;> simp at h
    · obtain ⟨d, hd, e⟩ := natStr_mem h
      exact (digitCh_spec hd).2.2.1 e.symm
    · exact absurd h (by decide)
    · obtain ⟨d, hd, e⟩ := List.mem_map.1 h
      exact (digitCh_spec (zfill_lt_ten 6 _ (fun e he => pyStr_lt_ten _ e he) d hd)).2.2.1 e
  · exact strip_bracket a b _ ha hb
  · rw [List.forall₂_map_left_iff, List.forall₂_map_right_iff]
    exact List.forall₂_same.2 fun x _ => floatLit_fixed6 x (strip_noSpace (fixed6_noSpace x))

example : parseThresholds (bracketList ([1 / 4, 1 / 2].map fixed6)) = some (.list ([1 / 4, 1 / 2].map round6)) := by
  have := C42_thresholds_list [1 / 4, 1 / 2] (by simp) [] [] (by simp [Blank]) (by simp [Blank])
  simpa using this

/-- What the category parser accepts, exactly. -/
theorem C42_categories_iff (n : Nat) (s : Str) (cs : List Int) :
    parseCategories n (some s) = some cs ↔
      (∃ z, intLit s = .ok z ∧ cs = [z]) ∨
      (∃ items, items ≠ [] ∧ (∀ i ∈ items, ',' ∉ i) ∧ strip s = bracketList items ∧
        List.Forall₂ (fun i x => intLit i = .ok x) items cs) := by
  unfold parseCategories
  simp only
  rw [intLit_stripped]
  constructor
  · intro h
    split at h
    · rename_i z hz
      cases h
      exact .inl ⟨z, hz, rfl⟩
    · split at h
      · cases h
      · rename_i inner hin
        split at h
        · rename_i xs hxs
          cases h
          refine .inr ⟨_, splitOnChar_ne_nil ',' inner, splitOnChar_no_sep ',' inner, ?_, ?_⟩
          · rw [bracketed_some hin, bracketList, join_splitOnChar]
          · rw [mapM'_forall₂] at hxs
            simpa only [intLit_stripped] using hxs
        · cases h
  · rintro (⟨z, hz, rfl⟩ | ⟨items, hne, hc, hs, hf⟩)
    · simp only [hz]
    · rw [intLit_bracket (t := join [','] items ++ [']']) (by rw [hs]; rfl)]
      simp only
      have : strip s = '[' :: join [','] items ++ [']'] := hs
      rw [this, bracketed_bracket]
      simp only
      cases items with
      | nil => exact absurd rfl hne
      | cons x l =>
        rw [splitOnChar_join1 ',' x l hc]
        have : mapM' (fun t => intLit (strip t)) (x :: l) = .ok cs := by
          rw [mapM'_forall₂]
          simpa only [intLit_stripped] using hf
        rw [this]

/-- One category. -/
theorem C42_categories_int (n : Nat) (z : Int) (a b : Str) (ha : Blank a) (hb : Blank b) :
    parseCategories n (some (a ++ intStr z ++ b)) = some [z] :=
  (C42_categories_iff n _ _).2 (.inl ⟨z, intLit_pad ha hb z, rfl⟩)

/-- `str` of a non-empty list of ints, parsed, gives the list back. -/
theorem C42_categories_roundtrip (n : Nat) (cs : List Int) (hne : cs ≠ []) (a b : Str) (ha : Blank a) (hb : Blank b) :
    parseCategories n (some (a ++ listStr cs ++ b)) = some cs := by
  rw [C42_categories_iff]
  cases cs with
  | nil => exact absurd rfl hne
  | cons c cs =>
    refine .inr ⟨intStr c :: cs.map (fun z => ' ' :: intStr z), by simp, ?_, ?_, ?_⟩
    · have hno : ∀ z : Int, ',' ∉ intStr z := fun z =>
        intStr_no_char z (fun d hd => (digitCh_spec hd).2.2.1) (by decide)
      intro i hi
      rcases List.mem_cons.1 hi with rfl | hi
      · exact hno c
      · obtain ⟨z, _, rfl⟩ := List.mem_map.1 hi
        intro h
        rcases List.mem_cons.1 h with h | h
        · exact absurd h (by decide)
        · exact hno z h
    · have e : ∀ (l : List Int) (c : Int), join [',', ' '] ((c :: l).map intStr)
          = join [','] (intStr c :: l.map (fun z => ' ' :: intStr z)) := by
        intro l
        induction l with
        | nil => intro c; rfl
        | cons d l ih =>
          intro c
          rw [List.map_cons, List.map_cons, List.map_cons]
          have h := ih d
          rw [List.map_cons] at h
          rw [join, h]
          cases l <;> simp [join]
      unfold listStr
      rw [e, ← List.cons_append]
      exact strip_bracket a b _ ha hb
    · refine .cons (intLit_intStr c) ?_
      rw [List.forall₂_map_left_iff]
      refine List.forall₂_same.2 fun z _ => ?_
      have := intLit_pad (a := [' ']) (b := []) (by simp [isSpace]) (by simp) z
      simpa using this

example : parseCategories 19 (some "[1, 14]".toList) = some [1, 14] := by
  have := C42_categories_roundtrip 19 [1, 14] (by simp) [] [] (by simp [Blank]) (by simp [Blank])
  have e : ([] ++ listStr [1, 14] ++ [] : Str) = "[1, 14]".toList := by decide +kernel
  rwa [e] at this

example : parseCategories 19 (some "[]".toList) = none ∧ parseCategories 19 (some "[1,]".toList) = none ∧
    parseCategories 19 (some "1, 14".toList) = none ∧ parseCategories 19 (some "[1.0]".toList) = none ∧
    parseCategories 19 (some "[1_0,\t2 ]".toList) = some [10, 2] := by decide +kernel

/-- Without the option, all the classes. -/
theorem C42_categories_default (n : Nat) :
    ∃ cs, parseCategories n none = some cs ∧ cs.Nodup ∧ ∀ c : Int, c ∈ cs ↔ 1 ≤ c ∧ c ≤ n := by
  refine ⟨_, rfl, ?_, ?_⟩
  · refine List.Pairwise.map _ (fun (x y : Nat) (h : x < y) => ?_) (List.pairwise_lt_range)
    omega
  · intro c
    simp only [List.mem_map, List.mem_range]
    constructor
    · rintro ⟨k, hk, rfl⟩; omega
    · rintro ⟨h1, h2⟩
      exact ⟨(c - 1).toNat, by omega, by omega⟩

theorem parseCategories_ne_nil (n : Nat) (hn : 0 < n) (s : Option Str) (cs : List Int)
    (h : parseCategories n s = some cs) : cs ≠ [] := by
  cases s with
  | none =>
    obtain ⟨cs', h1, _, h2⟩ := C42_categories_default n
    rw [h1] at h
    cases h
    intro e
    have := (h2 1).2 (by omega)
    rw [e] at this
    simp at this
  | some s =>
    rcases (C42_categories_iff n s cs).1 h with ⟨z, _, rfl⟩ | ⟨items, hne, _, _, hf⟩
    · simp
    · intro e
      have := hf.length_eq
      rw [e] at this
      exact hne (List.length_eq_zero_iff.1 this)

theorem runWith_ok {k : Kind} {thin : Bool} {sfx : Option Str} {n : Nat} {b : Int} {o : Opts} {a : Args} {p : Plan}
    (hn : 0 < n) (h : runWith k thin sfx n b o a = .ok (some p)) :
    p.kind = k ∧ p.thin = thin ∧ p.predSuffix = sfx ∧ setEvalParams k a {} = (p.attrs, none) ∧
      p.categories ≠ [] ∧ (∀ c ∈ p.categories, 0 < c ∧ c < b) ∧
      parseCategories n o.categories = some p.categories ∧ parseThresholds o.thresholds = some p.thresholds := by
  unfold runWith at h
  split at h
  · cases h
  · rename_i cs hcs
    split at h
    · rename_i hall
      split at h
      · cases h
      · rename_i th hth
        split at h
        · cases h
        · rename_i st hst
          cases h
          refine ⟨rfl, rfl, rfl, hst, parseCategories_ne_nil n hn _ _ hcs, ?_, hcs, hth⟩
          intro c hc
          have := List.all_eq_true.1 hall c hc
          simpa using this
    · cases h

/-- Whatever the strings, a Cityscapes evaluation that starts evaluates a non-empty list of categories between 1
and 19, those that were given, with the thresholds that were given, on the evaluator that was asked for. -/
theorem C42_cityscapes_plan (thin half : Bool) (o : Opts) (p : Plan) (h : cityscapes thin half o = .ok (some p)) :
    p.categories ≠ [] ∧ (∀ c ∈ p.categories, 1 ≤ c ∧ c ≤ 19) ∧
    parseCategories 19 o.categories = some p.categories ∧ parseThresholds o.thresholds = some p.thresholds ∧
    p.kind = (if half then .half else .cityscapes) ∧ p.thin = thin ∧ p.predSuffix = none := by
  obtain ⟨h1, h2, h7, _, h3, h4, h5, h6⟩ := runWith_ok (by norm_num) h
  refine ⟨h3, fun c hc => ?_, h5, h6, h1, h2, h7⟩
  have := h4 c hc
  omega

/-- The same for SBD, with twenty classes. -/
theorem C42_sbd_plan (raw : Bool) (o : Opts) (p : Plan) (h : sbd raw o = .ok (some p)) :
    p.categories ≠ [] ∧ (∀ c ∈ p.categories, 1 ≤ c ∧ c ≤ 20) ∧
    parseCategories 20 o.categories = some p.categories ∧ parseThresholds o.thresholds = some p.thresholds ∧
    p.thin = !raw ∧ p.kind = .sbd ∧ p.predSuffix = none := by
  unfold sbd at h
  obtain ⟨h1, h2, h7, _, h3, h4, h5, h6⟩ := runWith_ok (by norm_num) h
  refine ⟨h3, fun c hc => ?_, h5, h6, h2, h1, h7⟩
  have := h4 c hc
  omega

/-- An out-of-range category is reported as an assertion failure, before anything is evaluated. -/
theorem C42_out_of_range (thin half : Bool) (o : Opts) (cs : List Int) (c : Int)
    (hp : parseCategories 19 o.categories = some cs) (hc : c ∈ cs) (hr : c < 1 ∨ 19 < c) :
    cityscapes thin half o = .error .assertionError := by
  unfold cityscapes runWith
  rw [hp]
  simp only
  rw [if_neg]
  intro hall
  have := List.all_eq_true.1 hall c hc
  simp at this
  omega

example : cityscapes false false ⟨some "[1, 20]".toList, "99".toList, false, false, 0, 1, false, false, []⟩
    = .error .assertionError :=
  C42_out_of_range _ _ _ [1, 20] 20 (by decide +kernel) (by simp) (by simp)

/-- A badly formatted argument stops the helper without evaluating anything. -/
theorem C42_bad_format (thin half : Bool) (o : Opts)
    (h : parseCategories 19 o.categories = none ∨
      (∃ cs, parseCategories 19 o.categories = some cs ∧ (∀ c ∈ cs, 1 ≤ c ∧ c ≤ 19) ∧
        parseThresholds o.thresholds = none)) :
    cityscapes thin half o = .ok none := by
  unfold cityscapes runWith
  rcases h with h | ⟨cs, h1, h2, h3⟩
  · rw [h]
  · rw [h1]
    simp only
    rw [if_pos, h3]
    rw [List.all_eq_true]
    intro c hc
    have := h2 c hc
    simp
    omega

example : cityscapes false false ⟨none, "[0.5, x]".toList, false, false, 0, 1, false, false, []⟩ = .ok none :=
  C42_bad_format _ _ _ (.inr ⟨_, rfl, by decide +kernel, by decide +kernel⟩)

/-- The protocol a Cityscapes command line selects: the default is instance-sensitive post-SEAL; `--nonIS`
switches instances off; `--pre-seal` needs `--nonIS`. -/
theorem C42_cityscapes_protocol (thin half : Bool) (o : Opts) (p : Plan) (h : cityscapes thin half o = .ok (some p)) :
    let pr := if o.preSeal then preSeal else postSeal o.maxDist (!o.nonIS)
    p.attrs.maxDist = some pr.maxDist ∧ p.attrs.killInternal = some pr.killInternal ∧
    p.attrs.skipIfNonexistent = some pr.skipAbsent ∧ p.attrs.instanceSensitive = some pr.instances ∧
    p.attrs.thinning = some o.thinning ∧ p.attrs.nms = some o.nms ∧
    (o.preSeal = true → o.nonIS = true) := by
  obtain ⟨-, -, -, hs, -⟩ := runWith_ok (by norm_num) h
  clear h
  obtain ⟨_, _, ps, ni, md, sc, tn, nm, _⟩ := o
  obtain ⟨_, _, _, st, _, _⟩ := p
  cases half <;> cases ps <;> cases ni <;>
    (simp [setEvalParams, setCityscapes, setHalf, cityModes, citySeal, argsOf, modeOf] at hs ⊢
     try (split at hs <;> simp at hs)
     try (subst hs; simp [preSeal, postSeal]; try norm_num))

/-- The "thin" command evaluates at half resolution with thinned predictions, whatever `scale` would be. -/
theorem C42_cityscapes_thin (o : Opts) (p : Plan) (h : cityscapesThin o = .ok (some p)) :
    p.kind = .half ∧ p.thin = true ∧ p.attrs.thinning = some true ∧
    ∃ q, evalParams p.kind p.thin p.attrs = .ok q ∧ q.scale = 1 ∧ q.thinning = true := by
  have hp := C42_cityscapes_plan _ _ _ _ h
  have hq := C42_cityscapes_protocol _ _ _ _ h
  obtain ⟨h1, h2, h3, h4, h5, h6, -⟩ := hq
  obtain ⟨-, -, -, -, hk, ht, -⟩ := hp
  simp only [if_true] at hk
  refine ⟨hk, ht, h5, ?_⟩
  rw [hk]
  simp only [evalParams, h1, h2, h3, h5, h6, attr]
  exact ⟨_, rfl, rfl, rfl⟩

/-- The "raw" command never thins. -/
theorem C42_cityscapes_raw (half : Bool) (o : Opts) (p : Plan) (h : cityscapesRaw half o = .ok (some p)) :
    p.thin = false ∧ p.attrs.thinning = some false :=
  ⟨(C42_cityscapes_plan _ _ _ _ h).2.2.2.2.2.1, (C42_cityscapes_protocol _ _ _ _ h).2.2.2.2.1⟩

/-- Finding: the SBD command line ignores `--max-dist` (both presets fix 0.02) and `--pred-suffix` (not passed to
the evaluator). -/
theorem C42_sbd_ignores_options (raw : Bool) (o : Opts) (p : Plan) (h : evaluateSbd raw o = .ok (some p)) :
    p.attrs.maxDist = some (1 / 50) ∧ p.predSuffix = none := by
  have hb : bindKeywords sbdParams sbdGiven = .ok () := by decide
  unfold evaluateSbd at h
  rw [hb] at h
  simp only [sbd] at h
  obtain ⟨-, -, hsfx, hs, -⟩ := runWith_ok (by norm_num) h
  refine ⟨?_, hsfx⟩
  clear h hsfx
  obtain ⟨_, _, ps, ni, md, sc, tn, nm, _⟩ := o
  obtain ⟨_, _, _, st, _, _⟩ := p
  cases ps <;> cases ni <;>
    (simp [setEvalParams, setSbd, sbdModes, argsOf, modeOf] at hs
     subst hs; norm_num)

example : ∃ p, evaluateSbd false ⟨none, "99".toList, false, false, 1 / 10, 1, true, false, ".bmp".toList⟩
    = .ok (some p) := by
  have hall : parseCategories 20 none = some ((List.range 20).map fun (k : Nat) => (k : Int) + 1) := rfl
  have hth : parseThresholds "99".toList = some (.int 99) := by decide +kernel
  simp only [evaluateSbd, show bindKeywords sbdParams sbdGiven = .ok () by decide, sbd, runWith, hall, hth]
  rw [if_pos (by decide)]
  simp [setEvalParams, setSbd, sbdModes, argsOf, modeOf]

/-- Finding: the re-annotated SBD command never runs: it passes a keyword its implementation does not have. -/
theorem C42_reanno_command_fails (raw : Bool) (o : Opts) : evaluateReannoSbd raw o = .error .typeError := by
  have : bindKeywords reannoParams reannoGiven = .error .typeError := by decide
  unfold evaluateReannoSbd
  rw [this]

/-- Called directly, the re-annotated SBD evaluation uses the fixed tolerance 0.0075 and keeps internal edges. -/
theorem C42_reanno_direct (o : Opts) (p : Plan) (h : reanno o = .ok (some p)) :
    p.attrs.maxDist = some (75 / 10000) ∧ p.attrs.killInternal = some false ∧
    p.attrs.instanceSensitive = some (!o.nonIS) ∧ p.predSuffix = some o.predSuffix ∧
    (∀ c ∈ p.categories, 1 ≤ c ∧ c ≤ 20) := by
  obtain ⟨-, -, h1, hs, -, h4, -⟩ := runWith_ok (by norm_num) h
  have : (0 : ℚ) < 1 ∧ (1 : ℚ) ≤ 1 := by norm_num
  simp [setEvalParams, setReanno, argsOf] at hs
  rw [← hs]
  refine ⟨rfl, rfl, rfl, h1, fun c hc => ?_⟩
  have := h4 c hc
  omega

/-- BSDS500: the tolerance and thresholds given are used, thinning unless `--raw`. -/
theorem C42_bsds (raw : Bool) (o : Opts) :
    bsds raw o = match parseThresholds o.thresholds with
      | none => .ok none
      | some th => .ok (some ({ scale := some 1, thinning := some (!raw), nms := some o.nms
                                maxDist := some o.maxDist }, th)) := by
  unfold bsds
  cases parseThresholds o.thresholds with
  | none => rfl
  | some th => simp [setEvalParams, setBsds, argsOf]

end EdgeEval.Props
