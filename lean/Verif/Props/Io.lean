import Mathlib.Tactic.Linarith
import Mathlib.Tactic.FieldSimp
import Mathlib.Tactic.NormNum
import Verif.Lemmas.Io
import Verif.Model.Evaluators

namespace EdgeEval.Props

open Text Io Spec

/-! ## C37  saved results -/

/-- Threshold file with at least two thresholds: `np.loadtxt` gives a table with one row per record, in order,
each number reproduced to six decimals. -/
theorem C37_threshold_file (l : List ThresholdResult) (hl : 2 ≤ l.length) :
    ∃ rows, loadtxt (thresholdFile l) = .ok (.mat rows) ∧
      List.Forall₂ (fun t r => Reproduces (thresholdCols t) r) l rows := by
  refine ⟨_, loadtxt_threshold l hl, ?_⟩
  rw [List.forall₂_map_right_iff]
  exact List.forall₂_same.2 fun t _ => reproduces_round6 _

example : ∃ rows, loadtxt (thresholdFile [⟨1 / 4, 1 / 3, 2 / 3, 4 / 9⟩, ⟨3 / 4, 1 / 7, 1, 1 / 4⟩]) = .ok (.mat rows) ∧
    rows.length = 2 := by
  obtain ⟨rows, h1, h2⟩ :=
    C37_threshold_file [⟨1 / 4, 1 / 3, 2 / 3, 4 / 9⟩, ⟨3 / 4, 1 / 7, 1, 1 / 4⟩] (by simp)
  exact ⟨rows, h1, h2.length_eq.symm⟩

/-- With a single threshold, `np.loadtxt` gives a vector. -/
theorem C37_threshold_file_single (t : ThresholdResult) :
    ∃ r, loadtxt (thresholdFile [t]) = .ok (.vec r) ∧ Reproduces (thresholdCols t) r :=
  ⟨_, loadtxt_threshold_one t, reproduces_round6 _⟩

/-- The overall file holds the nine scores. -/
theorem C37_overall_file (o : OverallResult) :
    ∃ r, loadtxt (overallFile o) = .ok (.vec r) ∧ Reproduces (overallCols o) r :=
  ⟨_, loadtxt_row (overallCols o) (by simp [overallCols]), reproduces_round6 _⟩

/-- The sample file has one line per sample, in order, terminated by newlines: the words of the name followed by
four numbers that reproduce the scores. -/
theorem C37_sample_file (l : List SampleResult) (hn : ∀ s ∈ l, '\n' ∉ s.name.toList) :
    ∃ lines, splitOnChar '\n' (sampleFile l) = lines ++ [[]] ∧
      List.Forall₂ (fun s line => ∃ fs ys, line = s.name.toList ++ ' ' :: fs ∧
        words line = words s.name.toList ++ words fs ∧
        mapM' floatLit (words fs) = .ok ys ∧ Reproduces (sampleCols s) ys) l lines := by
  refine ⟨l.map fun s => s.name.toList ++ ' ' :: row [s.threshold, s.recall, s.precision, s.f1], ?_, ?_⟩
  · unfold sampleFile sampleLine
    have := split_lines (fun s : SampleResult => s.name.toList ++ ' ' :: row [s.threshold, s.recall, s.precision, s.f1]) l
      (by
        intro s hs h
        rcases List.mem_append.1 h with h | h
        · exact hn s hs h
        · rcases List.mem_cons.1 h with h | h
          · exact absurd h (by decide)
          · exact row_no_nl _ h)
    simpa using this
  · rw [List.forall₂_map_right_iff]
    refine List.forall₂_same.2 fun s _ => ⟨_, _, rfl, words_append_blank _ _, ?_, reproduces_round6 (sampleCols s)⟩
    rw [row_singleton_words]
    exact mapM'_fixed _

/-- A name without white space is the first word of its line. -/
theorem C37_sample_name (s : SampleResult) (hs : NoSpace s.name.toList) (hne : s.name.toList ≠ []) (fs : Str) :
    words (s.name.toList ++ ' ' :: fs) = s.name.toList :: words fs := by
  rw [words_append_blank]
  have := words_word hs hne [] (by simp)
  rw [List.append_nil] at this
  rw [this, words_nil]; rfl

example : ∃ lines, splitOnChar '\n' (sampleFile [⟨"aachen/a_000", 1 / 4, 1 / 3, 2 / 3, 4 / 9⟩]) = lines ++ [[]] ∧
    lines.length = 1 := by
  obtain ⟨lines, h1, h2⟩ := C37_sample_file [⟨"aachen/a_000", 1 / 4, 1 / 3, 2 / 3, 4 / 9⟩] (by decide)
  exact ⟨lines, h1, h2.length_eq.symm⟩

/-- A value with at most six decimals is reproduced exactly by its text. -/
theorem C37_six_decimals_exact (x : ℚ) (k : ℤ) (hx : x * 10 ^ 6 = k) : floatLit (fixed6 x) = .ok x := by
  rw [floatLit_fixed]
  congr 1
  have hr : ∀ m : ℤ, roundEven (m : ℚ) = m := by
    intro m
    unfold roundEven
    simp
  have hxa : |x| * 10 ^ 6 = ((|k| : ℤ) : ℚ) := by
    rw [Int.cast_abs, ← hx, abs_mul, abs_of_pos (by norm_num : (0 : ℚ) < 10 ^ 6)]
  unfold round6
  rw [hxa, hr]
  have hc : (((|k|).toNat : ℕ) : ℚ) = |x| * 10 ^ 6 := by
    rw [hxa]
    have : (((|k|).toNat : ℕ) : ℤ) = |k| := Int.toNat_of_nonneg (abs_nonneg k)
    exact_mod_cast this
  rw [hc]
  by_cases h : x < 0
  · rw [if_pos h, abs_of_neg h]; ring
  · rw [if_neg h, abs_of_nonneg (by linarith)]; ring

/-- The averaged scores of a multi-category evaluation are rounded to six decimals before they are written
(`Evaluators.saveOverall`), so the file holds them exactly. -/
theorem C37_overall_average_exact (v : ℚ) :
    floatLit (fixed6 (Evaluators.roundDec 6 v)) = .ok (Evaluators.roundDec 6 v) := by
  unfold Evaluators.roundDec
  simp only
  exact C37_six_decimals_exact _ _ (div_mul_cancel₀ _ (by norm_num))

example : floatLit (fixed6 (333333 / 10 ^ 6)) = .ok (333333 / 10 ^ 6) :=
  C37_six_decimals_exact _ 333333 (by norm_num)

/-- Nothing is written for empty results, and each file at most once. -/
theorem C37_files (dir : Str) (ss : List SampleResult) (ts : List ThresholdResult) (o : Option OverallResult) :
    ((saveInto dir ss ts o).map Write.name).Nodup ∧
    (∀ w ∈ saveInto dir ss ts o, w.dir = dir ∧
      ((w.name = "eval_bdry_img.txt" ∧ ss ≠ [] ∧ w.contents = sampleFile ss) ∨
       (w.name = "eval_bdry_thr.txt" ∧ ts ≠ [] ∧ w.contents = thresholdFile ts) ∨
       (w.name = "eval_bdry.txt" ∧ ∃ r, o = some r ∧ w.contents = overallFile r))) ∧
    (saveInto dir ss ts o).length
      = (if ss = [] then 0 else 1) + (if ts = [] then 0 else 1) + (if o = none then 0 else 1) := by
  unfold saveInto
  refine ⟨?_, ?_, ?_⟩
  · by_cases h1 : ss = [] <;> by_cases h2 : ts = [] <;> cases o <;> simp [h1, h2]
  · intro w hw
    rcases List.mem_append.1 hw with h | h
    · rcases List.mem_append.1 h with h | h
      · split at h
        · simp at h
        · rename_i hne
          rw [List.mem_singleton.1 h]
          exact ⟨rfl, .inl ⟨rfl, hne, rfl⟩⟩
      · split at h
        · simp at h
        · rename_i hne
          rw [List.mem_singleton.1 h]
          exact ⟨rfl, .inr (.inl ⟨rfl, hne, rfl⟩)⟩
    · cases o with
      | none => simp at h
      | some r =>
        rw [List.mem_singleton.1 h]
        exact ⟨rfl, .inr (.inr ⟨rfl, r, rfl, rfl⟩)⟩
  · by_cases h1 : ss = [] <;> by_cases h2 : ts = [] <;> cases o <;> simp [h1, h2]

/-- Results of different categories go to different directories. -/
theorem C37_category_dirs {c c' : Nat} (h : c ≠ c') (ss ss' : List SampleResult)
    (ts ts' : List ThresholdResult) (o o' : Option OverallResult) :
    ∀ w ∈ saveCategory c ss ts o, ∀ w' ∈ saveCategory c' ss' ts' o', w.dir ≠ w'.dir := by
  intro w hw w' hw' e
  have h1 := ((C37_files _ ss ts o).2.1 w hw).1
  have h2 := ((C37_files _ ss' ts' o').2.1 w' hw').1
  rw [h1, h2] at e
  unfold classDir at e
  have e2 := List.append_cancel_left e
  have e3 : zfill 3 (pyStr c) = zfill 3 (pyStr c') := by
    have a1 := digitsU_map true (zfill 3 (pyStr c)) (zfill_lt_ten 3 _ fun d hd => pyStr_lt_ten _ d hd) (.inr rfl)
    have a2 := digitsU_map true (zfill 3 (pyStr c')) (zfill_lt_ten 3 _ fun d hd => pyStr_lt_ten _ d hd) (.inr rfl)
    rw [e2, a2] at a1
    exact (Option.some.inj a1).symm
  have e4 := congrArg digitsVal e3
  rw [digitsVal_zfill, digitsVal_zfill, digitsVal_pyStr, digitsVal_pyStr] at e4
  exact h e4

example : (saveCategory 7 [⟨"a", 0, 0, 0, 0⟩] [] none).map Write.dir = ["class_007".toList] ∧
    (saveCategory 1234 [⟨"a", 0, 0, 0, 0⟩] [] none).map Write.dir = ["class_1234".toList] := by
  constructor <;> simp [saveCategory, saveInto, classDir, zfill, pyStr, digitCh]

/-! ## C38  the precision-recall plot -/

/-- Every point of the contour of `f` has F-measure `f`, lies in the unit square's scale and on the right side. -/
theorem C38_contour (f r : ℝ) (hf : 0 < f) (hr : f / 2 < r) :
    let p := isoPrecision f r
    0 < p ∧ 2 * p * r / (p + r) = f ∧ (f ≤ r → p ≤ f) ∧ (f ≤ 1 → 1 ≤ r → p ≤ 1) := by
  have hd : 0 < 2 * r - f := by linarith
  have hr0 : 0 < r := by linarith
  have hp : 0 < isoPrecision f r := by
    unfold isoPrecision; positivity
  refine ⟨hp, ?_, ?_, ?_⟩
  · unfold isoPrecision at *
    have hs : f * r / (2 * r - f) + r = 2 * r ^ 2 / (2 * r - f) := by
      rw [div_add' _ _ _ hd.ne']; congr 1; ring
    rw [hs, div_div_eq_mul_div]
    have h2 : 2 * (f * r / (2 * r - f)) * r * (2 * r - f) = 2 * f * r ^ 2 := by
      have : f * r / (2 * r - f) * (2 * r - f) = f * r := div_mul_cancel₀ _ hd.ne'
      linear_combination 2 * r * this
    rw [h2]
    have : r ^ 2 ≠ 0 := by positivity
    rw [div_eq_iff (by positivity)]; ring
  · intro h
    unfold isoPrecision
    rw [div_le_iff₀ hd]
    nlinarith
  · intro h1 h2
    unfold isoPrecision
    rw [div_le_one hd]
    nlinarith

example : 2 * isoPrecision 0.5 1 * 1 / (isoPrecision 0.5 1 + 1) = 0.5 :=
  (C38_contour 0.5 1 (by norm_num) (by norm_num)).2.1

/-- All the points that are actually plotted: both arms of each of the contours. -/
theorem C38_plotted_points (q : ℝ × ℝ × ℝ) (hq : q ∈ contourPoints) :
    0.1 ≤ q.1 ∧ q.1 < 1 ∧ 0 < q.2.1 ∧ 0 < q.2.2 ∧ q.2.1 < 1.01 ∧ q.2.2 < 1.01 ∧
      2 * q.2.1 * q.2.2 / (q.2.1 + q.2.2) = q.1 := by
  have har : ∀ a b s x : ℝ, 0 < s → x ∈ arange a b s → a ≤ x ∧ x < b := by
    intro a b s x hs hx
    unfold arange at hx
    obtain ⟨k, hk, rfl⟩ := List.mem_map.1 hx
    rw [List.mem_range] at hk
    have h1 : (k : ℤ) < ⌈(b - a) / s⌉ := by omega
    have h2 : (k : ℝ) < (b - a) / s := by
      have := Int.lt_ceil.1 h1
      exact_mod_cast this
    have h3 : (k : ℝ) * s < b - a := by rwa [lt_div_iff₀ hs] at h2
    have h4 : 0 ≤ (k : ℝ) * s := by positivity
    constructor <;> linarith
  unfold contourPoints at hq
  obtain ⟨f, hf, hq⟩ := List.mem_flatMap.1 hq
  obtain ⟨hf1, hf2⟩ := har _ _ _ _ (by norm_num) hf
  have hf0 : 0 < f := by linarith
  rcases List.mem_append.1 hq with h | h
  · obtain ⟨r, hr, rfl⟩ := List.mem_map.1 h
    obtain ⟨h1, h2⟩ := har _ _ _ _ (by norm_num) hr
    obtain ⟨c1, c2, c3, -⟩ := C38_contour f r hf0 (by linarith)
    refine ⟨hf1, hf2, by simp only; linarith, c1, h2, ?_, ?_⟩
    · have := c3 h1; simp only; linarith
    · simp only
      refine Eq.trans ?_ c2
      rw [add_comm, mul_right_comm]
  · obtain ⟨r, hr, rfl⟩ := List.mem_map.1 h
    obtain ⟨h1, h2⟩ := har _ _ _ _ (by norm_num) hr
    obtain ⟨c1, c2, c3, -⟩ := C38_contour f r hf0 (by linarith)
    refine ⟨hf1, hf2, c1, by simp only; linarith, ?_, h2, c2⟩
    have := c3 h1; simp only; linarith

example : (0.1, 0.1, isoPrecision 0.1 0.1) ∈ contourPoints := by
  unfold contourPoints arange
  refine List.mem_flatMap.2 ⟨0.1, List.mem_map.2 ⟨0, ?_, by norm_num⟩, List.mem_append.2 (.inl ?_)⟩
  · rw [List.mem_range]
    have : (0 : ℤ) < ⌈((1 : ℝ) - 0.1) / 0.1⌉ := Int.lt_ceil.2 (by norm_num)
    omega
  · refine List.mem_map.2 ⟨0.1, List.mem_map.2 ⟨0, ?_, by norm_num⟩, rfl⟩
    rw [List.mem_range]
    have : (0 : ℤ) < ⌈((1.01 : ℝ) - 0.1) / 0.01⌉ := Int.lt_ceil.2 (by norm_num)
    omega

/-- Loading a saved threshold file for plotting keeps, in order, the records whose printed recall is at least
`0.001`. -/
theorem C38_threshold_loader (l : List ThresholdResult) (hl : 2 ≤ l.length) :
    ∃ kept, kept.Sublist l ∧ (∀ t ∈ l, 1001 / 10 ^ 6 ≤ t.recall → t ∈ kept) ∧
      (∀ t ∈ kept, 999 / 10 ^ 6 ≤ t.recall) ∧
      ∃ rows, loadThresholdData (thresholdFile l) = .ok rows ∧
        List.Forall₂ (fun t r => Reproduces (thresholdCols t) r) kept rows := by
  refine ⟨l.filter fun t => 1 / 1000 ≤ round6 t.recall, List.filter_sublist, ?_, ?_,
    (l.filter fun t => 1 / 1000 ≤ round6 t.recall).map fun t => (thresholdCols t).map round6, ?_, ?_⟩
  · intro t ht h
    refine List.mem_filter.2 ⟨ht, ?_⟩
    have := close_round6 t.recall
    unfold Close6 at this
    rw [abs_le] at this
    have : (1 : ℚ) / 1000 ≤ round6 t.recall := by
      have h1 := this.1
      norm_num at h1 h ⊢
      linarith
    simpa using this
  · intro t ht
    have h := (List.mem_filter.1 ht).2
    have h' : (1 : ℚ) / 1000 ≤ round6 t.recall := by simpa using h
    have := close_round6 t.recall
    unfold Close6 at this
    rw [abs_le] at this
    have h1 := this.2
    norm_num at h1 h' ⊢
    linarith
  · unfold loadThresholdData
    rw [loadtxt_threshold l hl]
    simp only
    rw [if_pos (by simp [thresholdCols]), List.filter_map]
    congr 2
  · rw [List.forall₂_map_right_iff]
    exact List.forall₂_same.2 fun t _ => reproduces_round6 _

example : ∃ rows, loadThresholdData (thresholdFile [⟨1 / 4, 1 / 3, 2 / 3, 4 / 9⟩, ⟨3 / 4, 0, 1, 0⟩]) = .ok rows := by
  obtain ⟨_, _, _, _, rows, h, _⟩ := C38_threshold_loader [⟨1 / 4, 1 / 3, 2 / 3, 4 / 9⟩, ⟨3 / 4, 0, 1, 0⟩] (by simp)
  exact ⟨rows, h⟩

/-- Finding: the plotter cannot load any pair of files written by the save functions: it stores the overall
file in eight columns, but nine numbers are written (and a file with one threshold is one-dimensional). -/
theorem C38_plot_rejects_saved_results (ts : List ThresholdResult) (o : OverallResult) :
    loadAlgorithm (thresholdFile ts) (overallFile o)
      = if ts.length < 2 then .error .indexError else .error .valueError := by
  unfold loadAlgorithm
  by_cases h : ts.length < 2
  · rw [if_pos h]
    match ts, h with
    | [], _ =>
      have : loadThresholdData (thresholdFile []) = .error .indexError := by decide +kernel
      rw [this]
    | [t], _ =>
      unfold loadThresholdData
      rw [loadtxt_threshold_one]
  · rw [if_neg h]
    obtain ⟨_, _, _, _, rows, h1, _⟩ := C38_threshold_loader ts (by omega)
    rw [h1]
    simp only
    unfold loadOverall
    have h2 : loadtxt (overallFile o) = .ok (.vec ((overallCols o).map round6)) :=
      loadtxt_row (overallCols o) (by simp [overallCols])
    rw [h2]
    simp [assignEight, overallCols]

example : loadAlgorithm (thresholdFile [⟨1 / 4, 1 / 3, 2 / 3, 4 / 9⟩, ⟨3 / 4, 0, 1, 0⟩])
    (overallFile ⟨1 / 4, 0, 0, 0, 0, 0, 0, 0, 0⟩) = .error .valueError := C38_plot_rejects_saved_results _ _

end EdgeEval.Props
