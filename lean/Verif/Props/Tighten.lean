import Verif.Props.Kill
import Verif.Props.Progress
import Verif.Props.ConvertDone
import Verif.Props.Cli
import Verif.Props.Io
import Verif.Props.Evaluators
import Verif.Props.Labels
import Verif.Props.SampleNames
import Verif.Props.SampleData

/-!
# Which exception, exactly which points: statements added after mutation testing

Each theorem here was added because an edited model survived the theorems that existed before.
-/

namespace EdgeEval.Props

open EdgeEval

/-! ## C31 -/

/-- C31: a segmentation of another shape raises `ValueError`; a prediction of another shape (the segmentation being
right) raises `AssertionError`; nothing else raises. -/
theorem C31_error_kinds (pred gt : Img ℚ) (seg : Seg) (maxDist : ℚ) (junk : Nat → Nat → ℚ) :
    (killInternal pred gt seg maxDist junk = .error .valueError ↔
      ¬ (gt.rows = seg.img.rows ∧ gt.cols = seg.img.cols)) ∧
    (killInternal pred gt seg maxDist junk = .error .assertionError ↔
      (gt.rows = seg.img.rows ∧ gt.cols = seg.img.cols) ∧ ¬ (gt.rows = pred.rows ∧ gt.cols = pred.cols)) := by
  simp only [killInternal]
  by_cases h1 : gt.rows = seg.img.rows ∧ gt.cols = seg.img.cols
  · rw [if_neg (not_not.2 h1)]
    by_cases h2 : gt.rows = pred.rows ∧ gt.cols = pred.cols
    · rw [if_neg (not_not.2 h2)]
      refine ⟨⟨fun h => ?_, fun h => absurd h1 h⟩, ⟨fun h => ?_, fun h => absurd h2 h.2⟩⟩ <;> cases h
    · rw [if_pos h2]
      refine ⟨⟨fun h => ?_, fun h => absurd h1 h⟩, ⟨fun _ => ⟨h1, h2⟩, fun _ => rfl⟩⟩
      cases h
  · rw [if_pos h1]
    refine ⟨⟨fun _ => h1, fun _ => rfl⟩, ⟨fun h => ?_, fun h => absurd h.1 h1⟩⟩
    cases h

/-- A case of each kind. -/
example :
    let a : Img ℚ := ⟨1, 2, fun _ _ => 0⟩
    let b : Img ℚ := ⟨2, 2, fun _ _ => 0⟩
    killInternal a a ⟨b, true⟩ 1 (fun _ _ => 0) = .error .valueError ∧
    killInternal b a ⟨a, true⟩ 1 (fun _ _ => 0) = .error .assertionError :=
  ⟨(C31_error_kinds _ _ _ _ _).1.2 (by decide), (C31_error_kinds _ _ _ _ _).2.2 (by decide)⟩

/-! ## C34 -/

/-- C34: `update` refuses exactly the counts that are not positive, whatever the state; with a positive count it
advances a started bar by that count and raises `AttributeError` on one that was not started. -/
theorem C34_update (b : Bar) (k : Int) :
    (b.update k = .error .assertionError ↔ ¬ 0 < k) ∧
    (b.update k = .error .attributeError ↔ 0 < k ∧ b.started = false) ∧
    (∀ b', b.update k = .ok b' ↔ 0 < k ∧ b.started = true ∧
      b'.taskNum = b.taskNum ∧ (b'.completed : Int) = b.completed + k ∧ b'.started = true) := by
  unfold Bar.update
  rcases b with ⟨t, c, s⟩
  by_cases hk : k ≤ 0
  · simp only [if_pos hk]
    refine ⟨by simp [hk], by simp; omega, fun b' => by simp; omega⟩
  · simp only [if_neg hk]
    have hk' : 0 < k := by omega
    cases s
    · simp [hk']
    · refine ⟨by simp [hk'], by simp, ?_⟩
      rintro ⟨t', c', s'⟩
      simp only [if_true, Except.ok.injEq, Bar.mk.injEq, hk', true_and]
      constructor
      · rintro ⟨rfl, rfl, rfl⟩
        refine ⟨rfl, ?_, rfl⟩
        push_cast
        omega
      · rintro ⟨rfl, h, rfl⟩
        refine ⟨rfl, ?_, rfl⟩
        omega

example : (Bar.mk' 5 true).update 0 = .error .assertionError ∧ (Bar.mk' 5 true).update 2 = .ok ⟨5, 2, true⟩ :=
  ⟨(C34_update _ _).1.2 (by decide), by decide⟩

/-! ## C33 -/

/-- C33: the name shown for category `i` is the `i`-th class (from one), with Python's wrap-around for
`i ≤ 0`; anything further out raises `IndexError`. -/
theorem C33_class_name (classes : List String) (i : Int) :
    (∀ k : Nat, ∀ s, classes[k]? = some s → (i = k + 1 ∨ i = (k : Int) + 1 - classes.length) →
      Evaluators.className classes i = .ok s) ∧
    (Evaluators.className classes i = .error .indexError ↔ ¬ (1 - (classes.length : Int) ≤ i ∧ i ≤ classes.length)) := by
  constructor
  · intro k s hk hi
    have hlt : k < classes.length := by
      by_contra h
      rw [List.getElem?_eq_none (by omega)] at hk
      cases hk
    unfold Evaluators.className
    have hidx : (if i - 1 < 0 then i - 1 + (classes.length : Int) else i - 1) = k := by
      rcases hi with h | h
      · rw [if_neg (by omega)]; omega
      · rw [if_pos (by omega)]; omega
    simp only [hidx]
    rw [if_pos (by omega)]
    simp [hk]
  · unfold Evaluators.className
    simp only
    by_cases h : 1 - (classes.length : Int) ≤ i ∧ i ≤ classes.length
    · have hb : 0 ≤ (if i - 1 < 0 then i - 1 + (classes.length : Int) else i - 1) ∧
          (if i - 1 < 0 then i - 1 + (classes.length : Int) else i - 1) < classes.length := by
        split <;> omega
      rw [if_pos hb]
      generalize (if i - 1 < 0 then i - 1 + (classes.length : Int) else i - 1) = k at hb
      have hk : k.toNat < classes.length := by omega
      rw [List.getElem?_eq_getElem hk]
      simp [h]
    · have hb : ¬ (0 ≤ (if i - 1 < 0 then i - 1 + (classes.length : Int) else i - 1) ∧
          (if i - 1 < 0 then i - 1 + (classes.length : Int) else i - 1) < classes.length) := by
        split <;> omega
      rw [if_neg hb]
      exact ⟨fun _ => h, fun _ => rfl⟩

example : Evaluators.className ["a", "b"] 1 = .ok "a" ∧ Evaluators.className ["a", "b"] 0 = .ok "b" ∧
    Evaluators.className ["a", "b"] 3 = .error .indexError :=
  ⟨(C33_class_name _ _).1 0 "a" rfl (by simp), (C33_class_name _ _).1 1 "b" rfl (by simp),
    (C33_class_name _ _).2.2 (by simp)⟩

/-! ## C38 -/

theorem arange_list (a b s : ℝ) (n : Nat) (h1 : (n : ℝ) - 1 < (b - a) / s) (h2 : (b - a) / s ≤ n) :
    Io.arange a b s = (List.range n).map fun (k : Nat) => a + k * s := by
  unfold Io.arange
  have : ⌈(b - a) / s⌉ = n := by
    rw [Int.ceil_eq_iff]
    push_cast
    exact ⟨h1, h2⟩
  rw [this]
  simp

/-- C38: the points plotted are exactly these: for each of the nine F-measures 0.1, …, 0.9 and each step
`m` = 0, …, 101 - 10k of a hundredth from `r = f` up to `r = 1`, the point (recall `r`, precision `p`) with
`p = f·r / (2r - f)` and its mirror image. -/
theorem C38_exact_points (q : ℝ × ℝ × ℝ) :
    q ∈ Io.contourPoints ↔ ∃ k m : Nat, 1 ≤ k ∧ k ≤ 9 ∧ 10 * k + m ≤ 100 ∧
      let f : ℝ := k / 10
      let r : ℝ := (10 * k + m : ℕ) / 100
      q.1 = f ∧ (q.2 = (r, f * r / (2 * r - f)) ∨ q.2 = (f * r / (2 * r - f), r)) := by
  unfold Io.contourPoints
  rw [arange_list 0.1 1 0.1 9 (by norm_num) (by norm_num)]
  simp only [List.mem_flatMap, List.mem_map, List.mem_range, List.mem_append]
  have key : ∀ k : Nat, 1 ≤ k → k ≤ 9 →
      Io.arange ((k : ℝ) / 10) 1.01 0.01 = (List.range (101 - 10 * k)).map fun (m : Nat) => (k : ℝ) / 10 + m * 0.01 := by
    intro k h1 h9
    apply arange_list
    · rw [Nat.cast_sub (by omega), lt_div_iff₀ (by norm_num)]; push_cast; linarith
    · rw [Nat.cast_sub (by omega), div_le_iff₀ (by norm_num)]; push_cast; linarith
  have hf : ∀ a : Nat, (0.1 : ℝ) + a * 0.1 = ((a + 1 : ℕ) : ℝ) / 10 := by
    intro a; push_cast; ring
  have hr : ∀ k m : Nat, (k : ℝ) / 10 + m * 0.01 = ((10 * k + m : ℕ) : ℝ) / 100 := by
    intro k m; push_cast; ring
  constructor
  · rintro ⟨f, ⟨a, ha, rfl⟩, h⟩
    rw [hf, key (a + 1) (by omega) (by omega)] at h
    simp only [List.mem_map, List.mem_range, exists_exists_and_eq_and] at h
    rcases h with ⟨m, hm, rfl⟩ | ⟨m, hm, rfl⟩
    · refine ⟨a + 1, m, by omega, by omega, by omega, rfl, .inl ?_⟩
      rw [hr]; rfl
    · refine ⟨a + 1, m, by omega, by omega, by omega, rfl, .inr ?_⟩
      rw [hr]; rfl
  · rintro ⟨k, m, h1, h9, hm, e1, e2⟩
    obtain ⟨a, rfl⟩ : ∃ a, k = a + 1 := ⟨k - 1, by omega⟩
    refine ⟨_, ⟨a, by omega, rfl⟩, ?_⟩
    rw [hf, key (a + 1) (by omega) (by omega)]
    simp only [List.mem_map, List.mem_range, exists_exists_and_eq_and]
    obtain ⟨q1, q2⟩ := q
    simp only at e1 e2
    subst e1
    rcases e2 with rfl | rfl
    · left
      refine ⟨m, by omega, ?_⟩
      rw [hr]; rfl
    · right
      refine ⟨m, by omega, ?_⟩
      rw [hr]; rfl

example : ((9 / 10 : ℝ), (1 : ℝ), (9 / 11 : ℝ)) ∈ Io.contourPoints :=
  (C38_exact_points _).2 ⟨9, 10, by norm_num, by norm_num, by norm_num, by norm_num, .inl (by norm_num)⟩

/-! ## C42 -/

/-- C42: a keyword call succeeds exactly when the keywords given are the parameters; otherwise it is a `TypeError`. -/
theorem C42_keywords (params given : List String) :
    (Cli.bindKeywords params given = .ok () ↔ ∀ s, s ∈ given ↔ s ∈ params) ∧
    (Cli.bindKeywords params given = .error .typeError ↔ (∃ s ∈ given, s ∉ params) ∨ ∃ s ∈ params, s ∉ given) := by
  unfold Cli.bindKeywords
  by_cases h : (∀ s ∈ given, s ∈ params) ∧ ∀ s ∈ params, s ∈ given
  · have hb : (given.all params.contains && params.all given.contains) = true := by
      simp only [Bool.and_eq_true, List.all_eq_true, List.contains_iff_mem]
      exact h
    rw [if_pos hb]
    refine ⟨⟨fun _ s => ⟨h.1 s, h.2 s⟩, fun _ => rfl⟩, ⟨fun h => by simp at h, ?_⟩⟩
    rintro (⟨s, a, b⟩ | ⟨s, a, b⟩)
    · exact absurd (h.1 s a) b
    · exact absurd (h.2 s a) b
  · have hb : ¬ (given.all params.contains && params.all given.contains) = true := by
      simp only [Bool.and_eq_true, List.all_eq_true, List.contains_iff_mem]
      exact h
    rw [if_neg hb]
    refine ⟨⟨fun h => by simp at h, fun h' => absurd ⟨fun s => (h' s).1, fun s => (h' s).2⟩ h⟩, ⟨fun _ => ?_, fun _ => rfl⟩⟩
    by_contra hc
    push Not at hc
    exact h ⟨hc.1, hc.2⟩

example : Cli.bindKeywords ["a", "b"] ["b", "a"] = .ok () ∧ Cli.bindKeywords ["a"] ["a", "c"] = .error .typeError :=
  ⟨(C42_keywords _ _).1.2 (by simp [or_comm]), (C42_keywords _ _).2.2 (.inl ⟨"c", by simp, by simp⟩)⟩

/-- C42: the re-annotated SBD evaluator takes no notice of the evaluation mode. -/
theorem C42_reanno_ignores_mode (a : Evaluators.Args) (m : Option String) (st : Evaluators.Attrs) :
    Evaluators.setEvalParams .reanno { a with evalMode := m } st = Evaluators.setEvalParams .reanno a st := rfl

/-! ## C52 -/

/-- C52: the extension that selects the encoding is what follows the last dot of the file name. -/
theorem C52_extension (dir stem ext : Text.Str) (h1 : '/' ∉ stem) (h2 : '/' ∉ ext) (h3 : '.' ∉ ext)
    (h4 : ∃ c ∈ stem, c ≠ '.') : Convert.pathExt (dir ++ '/' :: (stem ++ '.' :: ext)) = '.' :: ext := by
  unfold Convert.pathExt
  rw [Convert.basename_slash]
  · rw [splitext_dot _ _ h3 h4]
  · simp only [List.mem_append, List.mem_cons, not_or]
    exact ⟨h1, by decide, h2⟩

example : Convert.pathExt "a.b/c.d.png".toList = ".png".toList :=
  C52_extension "a.b".toList "c.d".toList "png".toList (by decide) (by decide) (by decide) ⟨'c', by decide, by decide⟩

/-- C52: reducing finished edges (the sealed, unthinned half-size pictures).  The new size is the old one times the
scale, rounded; a size that rounds below zero is a `ValueError`, one that rounds to zero an OpenCV error (`user 0`),
and otherwise the reduced edges have that size and the classes of the original. -/
theorem C52_reduced_sizes (o : Convert.ConvOpts) (h w : Nat) (e : MLEdges)
    (ho : o.scale < 1 ∧ o.sealed = true ∧ o.thin = false) :
    (Convert.postScaled o h w e = .error .valueError ↔ h * o.scale + 1 / 2 ≤ -1 ∨ w * o.scale + 1 / 2 ≤ -1) ∧
    (Convert.postScaled o h w e = .error (.user 0) ↔
      (-1 < h * o.scale + 1 / 2 ∧ -1 < w * o.scale + 1 / 2) ∧ (h * o.scale < 1 / 2 ∨ w * o.scale < 1 / 2)) ∧
    ((∃ e', Convert.postScaled o h w e = .ok e' ∧ e'.n = e.n ∧ 0 < e'.h ∧ 0 < e'.w ∧
        (e'.h : Int) = ⌊h * o.scale + 1 / 2⌋ ∧ (e'.w : Int) = ⌊w * o.scale + 1 / 2⌋) ↔
      1 / 2 ≤ h * o.scale ∧ 1 / 2 ≤ w * o.scale) := by
  have neg : ∀ x : ℚ, Datasets.pyTrunc x < 0 ↔ x ≤ -1 := by
    intro x
    unfold Datasets.pyTrunc
    split
    · have := Int.floor_nonneg.2 ‹0 ≤ x›
      constructor <;> intro h <;> first | omega | linarith
    · rw [show (⌈x⌉ < 0 ↔ ⌈x⌉ ≤ -1) by omega, Int.ceil_le]; norm_num
  have pos : ∀ x : ℚ, 0 < Datasets.pyTrunc x ↔ 1 ≤ x := by
    intro x
    unfold Datasets.pyTrunc
    split
    · rw [show (0 < ⌊x⌋ ↔ 1 ≤ ⌊x⌋) by omega, Int.le_floor]; norm_num
    · have : ⌈x⌉ ≤ 0 := Int.ceil_le.2 (by push_cast; linarith)
      constructor <;> intro h <;> first | omega | linarith
  have flo : ∀ x : ℚ, 0 ≤ x → Datasets.pyTrunc x = ⌊x⌋ := fun x hx => if_pos hx
  have nh : Datasets.scaledSize h o.scale < 0 ↔ _ := neg (h * o.scale + 1 / 2)
  have nw : Datasets.scaledSize w o.scale < 0 ↔ _ := neg (w * o.scale + 1 / 2)
  have ph : 0 < Datasets.scaledSize h o.scale ↔ _ := pos (h * o.scale + 1 / 2)
  have pw : 0 < Datasets.scaledSize w o.scale ↔ _ := pos (w * o.scale + 1 / 2)
  have fh : _ → Datasets.scaledSize h o.scale = _ := flo (h * o.scale + 1 / 2)
  have fw : _ → Datasets.scaledSize w o.scale = _ := flo (w * o.scale + 1 / 2)
  have eh : (1 : ℚ) ≤ h * o.scale + 1 / 2 ↔ 1 / 2 ≤ h * o.scale := by constructor <;> intro h <;> linarith
  have ew : (1 : ℚ) ≤ w * o.scale + 1 / 2 ↔ 1 / 2 ≤ w * o.scale := by constructor <;> intro h <;> linarith
  unfold Convert.postScaled
  rw [if_pos ho]
  dsimp only
  have wit : ∀ e' : MLEdges, (∃ x, (.ok e' : Except PyErr MLEdges) = .ok x ∧ x.n = e.n ∧ 0 < x.h ∧ 0 < x.w ∧
        (x.h : Int) = ⌊h * o.scale + 1 / 2⌋ ∧ (x.w : Int) = ⌊w * o.scale + 1 / 2⌋) ↔ e'.n = e.n ∧ 0 < e'.h ∧ 0 < e'.w ∧
        (e'.h : Int) = ⌊h * o.scale + 1 / 2⌋ ∧ (e'.w : Int) = ⌊w * o.scale + 1 / 2⌋ := by
    intro e'
    constructor
    · rintro ⟨x, hx, r⟩
      cases hx
      exact r
    · intro r
      exact ⟨e', rfl, r⟩
  by_cases a : Datasets.scaledSize h o.scale < 0 ∨ Datasets.scaledSize w o.scale < 0
  · rw [if_pos a]
    have a' := a
    rw [nh, nw] at a'
    refine ⟨⟨fun _ => a', fun _ => rfl⟩, ⟨fun h => ?_, fun h => ?_⟩, ⟨fun h => ?_, fun h => ?_⟩⟩
    · cases h
    · rcases a' with a' | a' <;> linarith [h.1.1, h.1.2]
    · obtain ⟨x, hx, -⟩ := h; cases hx
    · rcases a' with a' | a' <;> linarith [h.1, h.2]
  · rw [if_neg a]
    push Not at a
    have a1 : -1 < h * o.scale + 1 / 2 := by
      by_contra hc
      have := nh.2 (not_lt.1 hc); omega
    have a2 : -1 < w * o.scale + 1 / 2 := by
      by_contra hc
      have := nw.2 (not_lt.1 hc); omega
    by_cases b : Datasets.scaledSize h o.scale = 0 ∨ Datasets.scaledSize w o.scale = 0
    · rw [if_pos b]
      have b' : h * o.scale < 1 / 2 ∨ w * o.scale < 1 / 2 := by
        rcases b with b | b
        · left; by_contra hc
          have := ph.2 (eh.2 (not_lt.1 hc)); omega
        · right; by_contra hc
          have := pw.2 (ew.2 (not_lt.1 hc)); omega
      refine ⟨⟨fun h => ?_, fun h => ?_⟩, ⟨fun _ => ⟨⟨a1, a2⟩, b'⟩, fun _ => rfl⟩, ⟨fun h => ?_, fun h => ?_⟩⟩
      · cases h
      · rcases h with h | h <;> linarith
      · obtain ⟨x, hx, -⟩ := h; cases hx
      · rcases b' with b' | b' <;> linarith [h.1, h.2]
    · rw [if_neg b]
      push Not at b
      have c1 : 1 / 2 ≤ h * o.scale := eh.1 (ph.1 (by omega))
      have c2 : 1 / 2 ≤ w * o.scale := ew.1 (pw.1 (by omega))
      have d1 := fh (by linarith)
      have d2 := fw (by linarith)
      rw [wit]
      refine ⟨⟨fun h => ?_, fun h => ?_⟩, ⟨fun h => ?_, fun h => ?_⟩, ⟨fun _ => ⟨c1, c2⟩, fun _ => ⟨rfl, ?_, ?_, ?_, ?_⟩⟩⟩
      · cases h
      · rcases h with h | h <;> linarith
      · cases h
      · rcases h.2 with h | h <;> linarith
      · change 0 < Int.toNat _; omega
      · change 0 < Int.toNat _; omega
      · change ((Int.toNat _ : Nat) : Int) = _; omega
      · change ((Int.toNat _ : Nat) : Int) = _; omega

/-- Sizes 5 and 3 become 3 and 2 at scale one half; a negative scale is refused, a tiny one too. -/
example (e : MLEdges) :
    (∃ e', Convert.postScaled { scale := 1 / 2 } 5 3 e = .ok e' ∧ e'.n = e.n ∧ 0 < e'.h ∧ 0 < e'.w ∧
      (e'.h : Int) = ⌊(5 : ℚ) * (1 / 2) + 1 / 2⌋ ∧ (e'.w : Int) = ⌊(3 : ℚ) * (1 / 2) + 1 / 2⌋) ∧
    Convert.postScaled { scale := -1 } 5 3 e = .error .valueError ∧
    Convert.postScaled { scale := 1 / 8 } 5 3 e = .error (.user 0) :=
  ⟨(C52_reduced_sizes { scale := 1 / 2 } 5 3 e (by norm_num)).2.2.2 (by norm_num),
    (C52_reduced_sizes { scale := -1 } 5 3 e (by norm_num)).1.2 (by norm_num),
    (C52_reduced_sizes { scale := 1 / 8 } 5 3 e (by norm_num)).2.1.2 (by norm_num)⟩

/-! ## C27 -/

/-- C27, finding: a negative border `-c` is not refused: the slice `0:-c` reaches to `c` pixels before the end, so everything but
the last `c` rows and columns' corner is ignored. -/
theorem C27_negative_border {α : Type} (seg : Img α) (c : Nat) (hc : 1 ≤ c) (ignoreId : α) (i j : Nat) (hi : i < seg.rows)
    (hj : j < seg.cols) :
    (addIgnorePixel seg (-(c : Int)) ignoreId).at_ i j =
      if i + c < seg.rows ∨ j + c < seg.cols then ignoreId else seg.at_ i j := by
  have clip : ∀ (n k : Nat), k < n → (inSlice n 0 (-(c : Int)) k = true ↔ k + c < n) ∧
      inSlice n ((n : Int) - -(c : Int)) n k = false := by
    intro n k hk
    unfold inSlice
    simp only [decide_eq_true_eq, decide_eq_false_iff_not]
    rw [if_neg (by omega), if_pos (by omega), if_neg (by omega), if_neg (by omega)]
    omega
  obtain ⟨r1, r2⟩ := clip seg.rows i hi
  obtain ⟨c1, c2⟩ := clip seg.cols j hj
  simp only [addIgnorePixel, r1, c1, r2, c2]
  by_cases h1 : i + c < seg.rows <;> by_cases h3 : j + c < seg.cols <;> simp [h1, h3]

example : let s : Img Int := ⟨4, 5, fun i j => (i : Int) + j + 1⟩
    (addIgnorePixel s (-1) 0).at_ 2 4 = 0 ∧ (addIgnorePixel s (-1) 0).at_ 3 3 = 0 ∧ (addIgnorePixel s (-1) 0).at_ 3 4 = 8 := by
  decide

/-! ## C33 -/

/-- C33: the rounding of the reports: `np.round(x, k)` is the multiple of `10^-k` nearest to `x`; of two equally near ones it is the
one whose last digit is even. -/
theorem C33_round_half_even (k : Nat) (x y : ℚ) :
    Evaluators.roundDec k x = y ↔ ∃ m : ℤ, y = m / 10 ^ k ∧ |x * 10 ^ k - m| ≤ 1 / 2 ∧ (|x * 10 ^ k - m| = 1 / 2 → m % 2 = 0) := by
  have hp : (0 : ℚ) < 10 ^ k := by positivity
  unfold Evaluators.roundDec
  dsimp only
  generalize x * 10 ^ k = z
  have hf1 := Int.floor_le z
  have hf2 := Int.lt_floor_add_one z
  obtain ⟨r, hr⟩ : ∃ r, (if z - ⌊z⌋ < 1 / 2 then ⌊z⌋ else if 1 / 2 < z - ⌊z⌋ then ⌊z⌋ + 1 else if ⌊z⌋ % 2 = 0 then ⌊z⌋ else ⌊z⌋ + 1 : ℤ) = r :=
    ⟨_, rfl⟩
  have hr1 : |z - r| ≤ 1 / 2 ∧ (|z - r| = 1 / 2 → r % 2 = 0) := by
    rw [← hr]
    split_ifs with h1 h2 h3
    · rw [abs_of_nonneg (by linarith)]
      exact ⟨h1.le, fun h => absurd h (by linarith)⟩
    · push_cast
      rw [abs_of_nonpos (by linarith)]
      exact ⟨by linarith, fun h => absurd h (by linarith)⟩
    · rw [abs_of_nonneg (by linarith)]
      exact ⟨by linarith, fun _ => h3⟩
    · push_cast
      rw [abs_of_nonpos (by linarith)]
      exact ⟨by linarith, fun _ => by omega⟩
  rw [hr]
  constructor
  · rintro rfl
    exact ⟨r, rfl, hr1.1, hr1.2⟩
  · rintro ⟨m, rfl, h1, h2⟩
    have : r = m := by
      have d1 := abs_le.1 hr1.1
      have d2 := abs_le.1 h1
      rcases lt_trichotomy r m with hlt | heq | hgt
      · have hle : (r : ℚ) + 1 ≤ m := by exact_mod_cast hlt
        have e1 : z - r = 1 / 2 := by linarith
        have e2 : z - m = -(1 / 2) := by linarith
        have a1 := hr1.2 (by rw [e1]; norm_num)
        have a2 := h2 (by rw [e2]; norm_num)
        have e3 : ((m - r : ℤ) : ℚ) = 1 := by push_cast; linarith
        have e4 : m - r = 1 := by exact_mod_cast e3
        omega
      · exact heq
      · have hle : (m : ℚ) + 1 ≤ r := by exact_mod_cast hgt
        have e1 : z - m = 1 / 2 := by linarith
        have e2 : z - r = -(1 / 2) := by linarith
        have a1 := hr1.2 (by rw [e2]; norm_num)
        have a2 := h2 (by rw [e1]; norm_num)
        have e3 : ((r - m : ℤ) : ℚ) = 1 := by push_cast; linarith
        have e4 : r - m = 1 := by exact_mod_cast e3
        omega
    rw [this]

/-- Ties go to the even digit. -/
example : Evaluators.roundDec 2 (1 / 200) = 0 ∧ Evaluators.roundDec 2 (3 / 200) = 1 / 50 ∧ Evaluators.roundDec 3 (2 / 3) = 667 / 1000 := by
  refine ⟨(C33_round_half_even _ _ _).2 ⟨0, by norm_num, by norm_num, by norm_num⟩, (C33_round_half_even _ _ _).2 ⟨2, by norm_num, ?_, by norm_num⟩,
    (C33_round_half_even _ _ _).2 ⟨667, by norm_num, ?_, ?_⟩⟩
  · rw [abs_le]; norm_num
  · rw [abs_le]; norm_num
  · norm_num [abs_div]

/-! ## C42: options that reach the evaluator -/

section

open EdgeEval.Cli EdgeEval.Evaluators EdgeEval.Text

/-- C42: `--scale` reaches the full-resolution evaluator unchanged (and must be in (0,1]); the half-resolution one
does not look at it, so the thin command's 0.5 and any other value give the same run. -/
theorem C42_scale (thin : Bool) (o : Opts) :
    (∀ p, cityscapes thin false o = .ok (some p) → p.attrs.scale = some o.scale ∧ 0 < o.scale ∧ o.scale ≤ 1) ∧
    (∀ s : ℚ, cityscapes thin true { o with scale := s } = cityscapes thin true o) := by
  constructor
  · intro p h
    obtain ⟨-, -, -, hs, -⟩ := runWith_ok (by norm_num) h
    change (if 0 < o.scale ∧ o.scale ≤ 1 then cityModes _ _ else _) = _ at hs
    by_cases hc : 0 < o.scale ∧ o.scale ≤ 1
    · refine ⟨?_, hc⟩
      rw [if_pos hc] at hs
      have key : ∀ a st, (cityModes a st).1.scale = st.scale := by
        intro a st
        unfold cityModes citySeal
        by_cases h1 : a.evalMode = some "pre-seal" <;> by_cases h2 : a.evalMode = some "post-seal" <;>
          by_cases h3 : a.instanceSensitive = true <;> simp [h1, h2, h3]
      have := congrArg (fun x => x.1.scale) hs
      simp only [key] at this
      exact this.symm
    · rw [if_neg hc] at hs
      simp at hs
  · intro s
    rfl

/-- C42: with a preset (`--pre-seal` or not, always one of the two) the flags `skip_if_nonexistent` and
`kill_internal` of `set_eval_params` are not read; the helpers leave them at their defaults. -/
theorem C42_preset_flags (k : Evaluators.Kind) (hk : k ≠ .bsds) (o : Opts) (sc md : ℚ) (skip kill : Bool) (st : Attrs) :
    setEvalParams k { argsOf o (modeOf o) sc md with skipIfNonexistent := skip, killInternal := kill } st =
      setEvalParams k (argsOf o (modeOf o) sc md) st := by
  obtain ⟨_, _, ps, ni, _, _, _, _, _⟩ := o
  cases ps <;> cases ni <;> cases k <;>
    simp [setEvalParams, setCityscapes, setHalf, setSbd, setReanno, cityModes, citySeal, sbdModes, argsOf, modeOf] at hk ⊢

/-- A concrete command line: scale 3/4 is kept by the full-resolution run. -/
example (o : Opts) (p : Plan) (h : cityscapes true false { o with scale := 3 / 4 } = .ok (some p)) :
    p.attrs.scale = some (3 / 4) := ((C42_scale true _).1 p h).1

example : ∃ p, cityscapes true false ⟨some (intStr 3), intStr 99, false, false, 0, 3 / 4, false, false, []⟩ = .ok (some p) := by
  have h1 := C42_categories_int 19 3 [] [] (by simp [Blank]) (by simp [Blank])
  have h2 := C42_thresholds_int 99 [] [] (by simp [Blank]) (by simp [Blank])
  simp only [List.nil_append, List.append_nil] at h1 h2
  unfold cityscapes runWith
  rw [h1]
  dsimp only
  rw [if_pos (by decide), h2]
  have h3 : (0 : ℚ) < 3 / 4 ∧ (3 / 4 : ℚ) ≤ 1 := by norm_num
  simp [setEvalParams, setCityscapes, argsOf, h3, cityModes, modeOf]

end

/-! ## C38: any table -/

section

open EdgeEval.Io EdgeEval.Text

/-- C38: any text that reads as a table (two rows or more, two columns or more) is loaded; the rows kept are exactly
those whose second entry is at least 0.001, in order. Everything else (one row, one column, nothing) raises `IndexError`, and a
text that is no table `ValueError` as `loadtxt` does. -/
theorem C38_table_loader (s : Str) :
    (∀ rows, loadtxt s = .ok (.mat rows) →
      loadThresholdData s = .ok (rows.filter fun r => 1 / 1000 ≤ r.getD 1 0)) ∧
    (loadThresholdData s = .error .indexError ↔
      (∃ x, loadtxt s = .ok (.scalar x)) ∨ (∃ xs, loadtxt s = .ok (.vec xs)) ∨ loadtxt s = .error .indexError) := by
  have key : ∀ rows, loadtxt s = .ok (.mat rows) → rows.all (fun r => 1 < r.length) = true := by
    intro rows h
    unfold loadtxt at h
    split at h
    · cases h
    · cases h
    · split at h <;> cases h
    · rename_i r rs hne e
      split at h
      · rename_i hall
        split at h
        · cases h
        · rename_i h1
          simp only [Except.ok.injEq, Arr.mat.injEq] at h
          subst h
          have hpos : ∀ q ∈ r :: rs, q.length ≠ 0 := by
            have hf := (Cli.mapM'_forall₂ _ _ _).1 e
            intro q hq
            obtain ⟨w, hw, hwq⟩ : ∃ w ∈ ((splitOnChar '\n' s).map words).filter (· ≠ []), mapM' floatLit w = .ok q := by
              generalize ((splitOnChar '\n' s).map words).filter (· ≠ []) = ws at hf
              generalize r :: rs = qs at hf hq
              clear e hall h1 hne
              revert hq
              induction hf with
              | nil => intro hq; cases hq
              | cons a _ ih =>
                intro hq
                rcases List.mem_cons.1 hq with rfl | hq
                · exact ⟨_, List.mem_cons_self, a⟩
                · obtain ⟨w, hw, hh⟩ := ih hq
                  exact ⟨w, List.mem_cons_of_mem _ hw, hh⟩
            rw [mapM'_length _ _ _ hwq]
            have := (List.mem_filter.1 hw).2
            simp only [ne_eq, decide_eq_true_eq] at this
            exact fun hl => this (List.eq_nil_of_length_eq_zero hl)
          rw [List.all_eq_true] at hall ⊢
          have hr := hpos r List.mem_cons_self
          intro q hq
          rcases List.mem_cons.1 hq with rfl | hq
          · simp only [decide_eq_true_eq]; omega
          · have := hall q hq
            simp only [decide_eq_true_eq] at this ⊢
            omega
      · cases h
  have key2 : ∀ rows, loadtxt s = .ok (.mat rows) →
      loadThresholdData s = .ok (rows.filter fun r => 1 / 1000 ≤ r.getD 1 0) := by
    intro rows h
    unfold loadThresholdData
    rw [h]
    dsimp only
    rw [if_pos (key rows h)]
  refine ⟨key2, ?_⟩
  cases h : loadtxt s with
  | error e => unfold loadThresholdData; rw [h]; simp
  | ok a =>
    cases a with
    | scalar x => unfold loadThresholdData; rw [h]; simp
    | vec x => unfold loadThresholdData; rw [h]; simp
    | mat rows => rw [key2 rows h]; simp

/-- Two columns are enough. -/
example : loadThresholdData "0 1\n0 0\n".toList = .ok [[0, 1]] := by decide +kernel

end

/-! ## C33, C47, C48 -/

section

open Samples Evaluators Cli Io Text

/-- C33: nothing is written unless saving was asked for; with saving, a result in which any one of the nine overall
metrics is missing raises `KeyError`, and otherwise every metric present is written as its average with six
decimals. -/
theorem C33_saved_keys (save : Bool) (d : Dict (List ℚ)) :
    (save = false → saveOverall save d = .ok none) ∧
    (save = true →
      (saveOverall save d = .error .keyError ↔
        ∃ k ∈ ["ODS_threshold", "ODS_recall", "ODS_precision", "ODS_f1", "OIS_recall", "OIS_precision", "OIS_f1",
          "AUC", "AP"], ∀ kv ∈ d, kv.1 ≠ k) ∧
      (∀ out, saveOverall save d = .ok out → out = some (d.map fun kv =>
        (kv.1, roundDec 6 (kv.2.sum / kv.2.length))))) := by
  refine ⟨fun h => by subst h; rfl, fun h => ?_⟩
  subst h
  unfold saveOverall
  rw [if_pos rfl]
  change (_ ↔ ∃ k ∈ overallKeys, _) ∧ _
  by_cases hall : (overallKeys.all fun k => (d.map Prod.fst).contains k) = true
  · rw [if_pos hall]
    rw [List.all_eq_true] at hall
    refine ⟨⟨fun h => by simp at h, ?_⟩, fun out h => ?_⟩
    · rintro ⟨k, hk, hno⟩
      have := hall k hk
      rw [List.contains_iff_mem, List.mem_map] at this
      obtain ⟨kv, hkv, rfl⟩ := this
      exact absurd rfl (hno kv hkv)
    · cases h; rfl
  · rw [if_neg hall]
    refine ⟨⟨fun _ => ?_, fun _ => rfl⟩, fun out h => by cases h⟩
    by_contra hno
    push Not at hno
    refine hall (List.all_eq_true.2 fun k hk => ?_)
    obtain ⟨kv, hkv, e⟩ := hno k hk
    rw [List.contains_iff_mem, List.mem_map]
    exact ⟨kv, hkv, e⟩

/-- One metric only. -/
example : saveOverall true [("AP", [1, 0])] = .error .keyError ∧ saveOverall false [("AP", [1, 0])] = .ok none :=
  ⟨((C33_saved_keys true _).2 rfl).1.2 ⟨"AUC", by simp, by simp⟩, (C33_saved_keys false _).1 rfl⟩

/-- C47: while no samples were ever stored, `sample_names` yields no list and creates none. -/
theorem C47_getter_none (h : Heap) (hs : h.stored = none) : step h .get = (h, none) := by
  simp only [step, hs]

/-- After creating and writing lists only, there is still nothing to get. -/
example : (step (runOps ⟨fun _ => [], 0, none⟩ [.new ["a".toList], .write 0 ["b".toList]]) .get).2 = none := by
  rw [C47_getter_none _ rfl]

theorem mapM'_error {α β : Type} (f : α → Except PyErr β) (l : List α) (err : PyErr) (h : mapM' f l = .error err) :
    ∃ x ∈ l, f x = .error err := by
  induction l with
  | nil => cases h
  | cons x xs ih =>
    rw [mapM'] at h
    split at h
    · rename_i e he
      cases h
      exact ⟨x, List.mem_cons_self, he⟩
    · split at h
      · rename_i e he
        cases h
        obtain ⟨y, hy, hh⟩ := ih he
        exact ⟨y, List.mem_cons_of_mem _ hy, hh⟩
      · cases h

theorem bind_error {α β : Type} {x : Except PyErr α} {f : α → Except PyErr β} {err : PyErr} :
    (x >>= f) = .error err ↔ x = .error err ∨ ∃ a, x = .ok a ∧ f a = .error err := by
  cases x with
  | error e => simp [bind, Except.bind]
  | ok a => simp [bind, Except.bind]

theorem assert_error {b : Bool} {err : PyErr} (h : assert b = .error err) : err = .assertionError := by
  unfold assert at h
  split at h <;> cases h
  rfl

theorem beforeEvaluation_error {fs : Fs} {e : Ev} {err : PyErr} (h : beforeEvaluation fs e = .error err) :
    err = .assertionError := by
  unfold beforeEvaluation at h
  split at h <;> split at h <;> (try split at h) <;>
    simp only [bind_error, pure, Except.pure, reduceCtorEq, false_or] at h <;>
    rcases h with h | ⟨_, _, h⟩ <;> try exact assert_error h
  all_goals first
    | (rcases h with h | ⟨_, _, h⟩ <;> first
      | exact assert_error h
      | (rcases h with h | ⟨_, _, h⟩ <;> first
        | exact assert_error h
        | (rcases h with h | ⟨_, _, h⟩ <;> first
          | exact assert_error h
          | (rcases h with h | ⟨_, _, h⟩ <;> exact assert_error h))))

/-- C48: once the evaluation parameters have been set, the only way in which assembling the samples of a category can
fail is an `AssertionError` — missing samples, directories or ground truth, or a category out of range. -/
theorem C48_refusals (fs : Fs) (e : Ev) (category : Int) (inst : Bool) (ps : Params)
    (hi : e.attrs.instanceSensitive = some inst) (hp : evalParams e.kind e.ctor.thin e.attrs = .ok ps)
    (err : PyErr) (h : categoryData fs e category = .error err) : err = .assertionError := by
  unfold categoryData at h
  simp only [bind_error] at h
  rcases h with h | ⟨_, _, h⟩
  · exact beforeEvaluation_error h
  rcases h with h | ⟨_, _, h⟩
  · exact assert_error h
  rcases h with h | ⟨_, _, h⟩
  · obtain ⟨n, _, hn⟩ := mapM'_error _ _ _ h
    split at hn
    · unfold sampleOfOtf at hn
      simp only [bind_error, hi, hp, attr, reduceCtorEq, false_or, and_false, exists_false, or_false, Except.ok.injEq] at hn
      rcases hn with hn | ⟨_, _, _, _, hn⟩
      · exact assert_error hn
      · split at hn
        · simp only [bind_error, reduceCtorEq, false_or, and_false, exists_false, or_false] at hn
          exact assert_error hn
        · simp [bind, Except.bind, pure, Except.pure] at hn
    · unfold sampleOf at hn
      simp only [bind_error, hi, hp, attr, reduceCtorEq, false_or, and_false, exists_false, or_false, Except.ok.injEq] at hn
      rcases hn with ⟨_, _, hn | ⟨_, _, hn⟩⟩
      · exact assert_error hn
      · exact assert_error hn
  rcases h with h | ⟨_, _, h⟩
  · exact assert_error h
  · cases h

/-- A category out of range, and missing directories. -/
example (e : Ev) (inst : Bool) (ps : Params) (hi : e.attrs.instanceSensitive = some inst)
    (hp : evalParams e.kind e.ctor.thin e.attrs = .ok ps) (hk : e.kind ≠ .bsds) :
    categoryData ⟨fun _ => false, fun _ => none, fun _ => none⟩ e 99 = .error .assertionError := by
  have hok : ∀ d, categoryData ⟨fun _ => false, fun _ => none, fun _ => none⟩ e 99 ≠ .ok d := by
    intro d hd
    unfold categoryData beforeEvaluation at hd
    cases hn : e.names <;> simp [hk, hn, assert, bind, Except.bind] at hd
  cases h : categoryData ⟨fun _ => false, fun _ => none, fun _ => none⟩ e 99 with
  | ok d => exact absurd h (hok d)
  | error err => rw [C48_refusals _ e 99 inst ps hi hp err h]

/-- C48: the same for BSDS500, where having no samples at all is a `TypeError`. -/
theorem C48_bsds_refusals (fs : Fs) (e : Ev) (noSplitDir : Bool) (ps : Params)
    (hp : evalParams e.kind e.ctor.thin e.attrs = .ok ps) (err : PyErr) (h : bsdsData fs e noSplitDir = .error err) :
    err = .assertionError ∨ (err = .typeError ∧ e.names = none) := by
  unfold bsdsData at h
  simp only [bind_error] at h
  rcases h with h | ⟨_, _, h⟩
  · exact .inl (beforeEvaluation_error h)
  cases hn : e.names with
  | none => rw [hn] at h; cases h; exact .inr ⟨rfl, rfl⟩
  | some names =>
    rw [hn] at h
    simp only [bind_error] at h
    left
    rcases h with h | ⟨_, _, h⟩
    · obtain ⟨n, _, hs⟩ := mapM'_error _ _ _ h
      unfold sampleOfBsds at hs
      simp only [bind_error, hp, reduceCtorEq, false_or, and_false, exists_false, or_false] at hs
      rcases hs with hs | ⟨_, _, hs⟩ <;> exact assert_error hs
    · rcases h with h | ⟨_, _, h⟩
      · exact assert_error h
      · cases h

example (e : Ev) (hk : e.kind = .bsds) (hn : e.names = none) :
    bsdsData ⟨fun _ => true, fun _ => none, fun _ => none⟩ e true = .error .typeError := by
  simp [bsdsData, beforeEvaluation, hk, hn, assert, bind, Except.bind]

end

end EdgeEval.Props
