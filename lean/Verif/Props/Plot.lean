import Verif.Model.Plot
import Verif.Lemmas.Calc
import Verif.Lemmas.Cli
import Verif.Props.Io

/-!
# C61: the PR-curve plot
-/

namespace EdgeEval.Props

open Text Io Plot Cli

/-! ## The property's vocabulary -/

/-- Precision of row `i` of a threshold table (threshold, recall, precision, F). -/
def precOf (pr : List (List ℚ)) (i : Nat) : ℚ := (pr.getD i []).getD 2 0

/-- Recall of row `i`. -/
def recOf (pr : List (List ℚ)) (i : Nat) : ℚ := (pr.getD i []).getD 1 0

/-- Row `i` is the first one with its precision. -/
def FirstPrec (pr : List (List ℚ)) (i : Nat) : Prop := i < pr.length ∧ ∀ j < i, precOf pr j ≠ precOf pr i

/-- A sorting function for numbers: `argsort keys` lists all indices in the order of non-decreasing keys. -/
def SortsIndices (argsort : List ℚ → List Nat) : Prop :=
  ∀ keys, (argsort keys).Perm (List.range keys.length) ∧
    (argsort keys).Pairwise fun i j => keys.getD i 0 ≤ keys.getD j 0

/-! ## R50 -/

theorem keySorted_head {k v : ℚ} {rest : List (ℚ × ℚ)} (hs : KeySorted ((k, v) :: rest)) :
    ∀ y ∈ (k, v) :: rest, k ≤ y.1 := by
  induction rest generalizing k v with
  | nil => intro y hy; simp at hy; rw [hy]
  | cons a rest ih =>
    obtain ⟨k', v'⟩ := a
    intro y hy
    rcases List.mem_cons.1 hy with rfl | hy
    · exact le_refl _
    · exact le_trans (le_of_lt hs.1) (ih hs.2 y hy)

theorem column_ok {pr : List (List ℚ)} {k : Nat} (h : ∀ r ∈ pr, k < r.length) :
    column k pr = .ok (pr.map fun r => r.getD k 0) := by
  unfold column
  refine Text.mapM'_ok _ _ _ ?_
  intro r hr
  unfold getItem
  have := h r hr
  simp [this]

section
variable {pr : List (List ℚ)}

theorem getD_map_col (k i : Nat) : (pr.map fun r => r.getD k 0).getD i 0 = (pr.getD i []).getD k 0 := by
  by_cases h : i < pr.length
  · simp [h]
  · simp [not_lt.1 h]

/-- The points interpolated by `_calc_r50`. -/
def r50Points (pr : List (List ℚ)) : List (ℚ × ℚ) :=
  uniqueFirst (pr.map fun r => r.getD 2 0) (pr.map fun r => r.getD 1 0)

theorem r50_first {i : Nat} (h : FirstPrec pr i) : (precOf pr i, recOf pr i) ∈ r50Points pr := by
  have := uniqueFirst_first (r := pr.map fun r => r.getD 2 0) (p := pr.map fun r => r.getD 1 0) (k := i)
    (by simp) (by simpa using h.1) (fun j hj => by rw [getD_map_col, getD_map_col]; exact h.2 j hj)
  rwa [getD_map_col, getD_map_col] at this

theorem r50_mem {y : ℚ × ℚ} (h : y ∈ r50Points pr) : ∃ i < pr.length, y = (precOf pr i, recOf pr i) := by
  obtain ⟨k, hk⟩ := List.getElem?_of_mem (uniqueFirst_mem h)
  obtain ⟨a, b⟩ := y
  rw [List.getElem?_zip_eq_some] at hk
  have hlt := (List.getElem?_eq_some_iff.mp hk.1).1
  rw [List.length_map] at hlt
  refine ⟨k, hlt, ?_⟩
  obtain ⟨h1, h2⟩ := hk
  simp only [List.getElem?_map, Option.map_eq_some_iff] at h1 h2
  obtain ⟨r, hr, rfl⟩ := h1
  obtain ⟨r', hr', rfl⟩ := h2
  rw [hr] at hr'
  cases hr'
  unfold precOf recOf
  simp [List.getD_eq_getElem?_getD, hr]

theorem first_exists {i : Nat} (h : i < pr.length) : ∃ k, FirstPrec pr k ∧ precOf pr k = precOf pr i := by
  classical
  have hex : ∃ k, k < pr.length ∧ precOf pr k = precOf pr i := ⟨i, h, rfl⟩
  refine ⟨Nat.find hex, ⟨(Nat.find_spec hex).1, ?_⟩, (Nat.find_spec hex).2⟩
  intro j hj heq
  exact Nat.find_min hex hj ⟨lt_trans hj (Nat.find_spec hex).1, heq.trans (Nat.find_spec hex).2⟩

theorem r50_ne_nil (hne : pr ≠ []) : r50Points pr ≠ [] := by
  have h0 : 0 < pr.length := List.length_pos_of_ne_nil hne
  obtain ⟨k, hk, _⟩ := first_exists h0
  exact List.ne_nil_of_mem (r50_first hk)

theorem r50_sorted : KeySorted (r50Points pr) := uniqueFirst_sorted _ _

/-- The least precision, as used by `_calc_r50`. -/
theorem calcR50_eq (hw : ∀ r ∈ pr, 3 ≤ r.length) (hne : pr ≠ []) :
    ∃ m < pr.length, (∀ i < pr.length, precOf pr m ≤ precOf pr i) ∧
      calcR50 pr = if ∀ i < pr.length, precOf pr i < max (precOf pr m) (1 / 2) then .ok none
        else .ok (some (npInterp (max (precOf pr m) (1 / 2)) 0 0 (r50Points pr))) := by
  have hs := r50_sorted (pr := pr)
  cases hp : r50Points pr with
  | nil => exact absurd hp (r50_ne_nil hne)
  | cons a rest =>
    obtain ⟨p0, v0⟩ := a
    have hmem : (p0, v0) ∈ r50Points pr := by rw [hp]; exact List.mem_cons_self ..
    obtain ⟨m, hm, hme⟩ := r50_mem hmem
    have hp0 : p0 = precOf pr m := congrArg Prod.fst hme
    refine ⟨m, hm, ?_, ?_⟩
    · intro i hi
      obtain ⟨k, hk, hke⟩ := first_exists hi
      have := r50_first hk
      rw [hp] at this
      have := keySorted_head (hp ▸ hs) _ this
      rw [← hp0, ← hke]
      exact this
    · unfold calcR50
      rw [column_ok (fun r hr => by have := hw r hr; omega), column_ok (fun r hr => by have := hw r hr; omega)]
      have hu : uniqueFirst (pr.map fun r => r.getD 2 0) (pr.map fun r => r.getD 1 0) = (p0, v0) :: rest := hp
      simp only [hu]
      have hiff : (((p0, v0) :: rest).all fun y => decide (y.1 < max p0 (1 / 2))) = true ↔
          ∀ i < pr.length, precOf pr i < max (precOf pr m) (1 / 2) := by
        rw [List.all_eq_true, ← hp, ← hp0]
        constructor
        · intro h i hi
          obtain ⟨k, hk, hke⟩ := first_exists hi
          have := h _ (r50_first hk)
          rw [← hke]
          simpa using this
        · intro h y hy
          obtain ⟨i, hi, rfl⟩ := r50_mem hy
          simpa using h i hi
      by_cases hc : ∀ i < pr.length, precOf pr i < max (precOf pr m) (1 / 2)
      · rw [if_pos hc, if_pos (hiff.2 hc)]
      · rw [if_neg hc, if_neg (fun h => hc (hiff.1 h)), hp0]

end

/-- C61.  The R50 printed by the plot ("recall at 50% precision"): `nan` if no row reaches precision 1/2; the recall of the first row
with precision exactly 1/2 if there is one; the recall of the first row of least precision if all precisions exceed 1/2; otherwise
the straight line between the rows of the nearest precisions below and above, at precision 1/2. -/
theorem C61_r50 (pr : List (List ℚ)) (hw : ∀ r ∈ pr, 3 ≤ r.length) (hne : pr ≠ []) :
    ((∀ i < pr.length, precOf pr i < 1 / 2) → calcR50 pr = .ok none) ∧
    (∀ k, FirstPrec pr k → precOf pr k = 1 / 2 → calcR50 pr = .ok (some (recOf pr k))) ∧
    (∀ k, FirstPrec pr k → 1 / 2 < precOf pr k → (∀ i < pr.length, precOf pr k ≤ precOf pr i) →
      calcR50 pr = .ok (some (recOf pr k))) ∧
    (∀ i j, FirstPrec pr i → FirstPrec pr j → precOf pr i < 1 / 2 → 1 / 2 < precOf pr j →
      (∀ k < pr.length, ¬ (precOf pr i < precOf pr k ∧ precOf pr k < precOf pr j)) →
      calcR50 pr = .ok (some (recOf pr i +
        (recOf pr j - recOf pr i) / (precOf pr j - precOf pr i) * (1 / 2 - precOf pr i)))) := by
  obtain ⟨m, hm, hmin, he⟩ := calcR50_eq hw hne
  refine ⟨?_, ?_, ?_, ?_⟩
  · intro h
    rw [he, if_pos]
    intro i hi
    rw [max_eq_right (le_of_lt (h m hm))]
    exact h i hi
  · intro k hk hke
    have hq : max (precOf pr m) (1 / 2) = 1 / 2 := max_eq_right (hke ▸ hmin k hk.1)
    rw [he, hq, if_neg]
    · have := r50_first hk
      rw [hke] at this
      rw [npInterp_at r50_sorted this]
    · intro h
      have := h k hk.1
      rw [hke] at this
      exact lt_irrefl _ this
  · intro k hk hlt hle
    have hmk : precOf pr m = precOf pr k := le_antisymm (hmin k hk.1) (hle m hm)
    have hq : max (precOf pr m) (1 / 2) = precOf pr k := by rw [hmk]; exact max_eq_left (le_of_lt hlt)
    rw [he, hq, if_neg]
    · rw [npInterp_at r50_sorted (r50_first hk)]
    · intro h
      exact lt_irrefl _ (h k hk.1)
  · intro i j hi hj hi2 hj2 hno
    have hq : max (precOf pr m) (1 / 2) = 1 / 2 := max_eq_right (le_of_lt (lt_of_le_of_lt (hmin i hi.1) hi2))
    rw [he, hq, if_neg]
    · rw [npInterp_between r50_sorted (r50_first hi) (r50_first hj) (lt_trans hi2 hj2) ?_ (le_of_lt hi2) (le_of_lt hj2)]
      intro y hy
      obtain ⟨k, hk, rfl⟩ := r50_mem hy
      exact hno k hk
    · intro h
      exact absurd (h j hj.1) (not_lt.2 (le_of_lt hj2))

/-- C61.  R50 of a table with recalls in [0,1] is `nan` or in [0,1]; an empty table is an error. -/
theorem C61_r50_range (pr : List (List ℚ)) (hw : ∀ r ∈ pr, 3 ≤ r.length)
    (hr : ∀ i < pr.length, 0 ≤ recOf pr i ∧ recOf pr i ≤ 1) :
    (pr = [] → calcR50 pr = .error .indexError) ∧
    (pr ≠ [] → calcR50 pr = .ok none ∨ ∃ v, calcR50 pr = .ok (some v) ∧ 0 ≤ v ∧ v ≤ 1) := by
  constructor
  · rintro rfl
    rfl
  · intro hne
    obtain ⟨m, hm, hmin, he⟩ := calcR50_eq hw hne
    rw [he]
    split
    · exact Or.inl rfl
    · right
      refine ⟨_, rfl, ?_⟩
      refine npInterp_bounds r50_sorted (by norm_num) ?_
      intro y hy
      obtain ⟨k, hk, rfl⟩ := r50_mem hy
      exact hr k hk

/-! ## The figure -/

/-- Entry, curve and printed line for algorithm `j` agree with its own name, colour and files. -/
structure Describes {C : Type} [Inhabited C] (f32 : ℚ → ℚ) (algs : List Alg) (names : List Str) (colors : List C)
    (j : Nat) (x : Curve C × Entry C × Line) : Prop where
  index : j < algs.length
  name : x.2.1.name = names.getD j [] ∧ x.2.2.name = names.getD j []
  color : x.1.color = colors.getD j default
  attached : x.2.1.curve = some x.1
  files : ∃ a pr ov, algs[j]? = some a ∧ loadAlgorithm a.thresholds a.overall = .ok (pr, ov) ∧
    x.1.points = pr.map (fun r => (r.getD 1 0, r.getD 2 0)) ∧
    x.2.1.f1 = (ov.map f32).getD 3 0 ∧ x.2.2.ods = (ov.map f32).getD 3 0 ∧ x.2.2.ois = (ov.map f32).getD 6 0 ∧
    x.2.2.ap = (ov.map f32).getD 7 0 ∧ ∃ r, calcR50 pr = .ok r ∧ x.2.2.r50 = r.map f32

theorem loadOne_ok {f32 : ℚ → ℚ} {a : Alg} {l : Loaded} (h : loadOne f32 a = .ok l) :
    ∃ pr ov r, loadAlgorithm a.thresholds a.overall = .ok (pr, ov) ∧ calcR50 pr = .ok r ∧
      l = ⟨ov.map f32, r.map f32, pr⟩ := by
  unfold loadOne at h
  split at h
  · cases h
  · rename_i pr ov he
    split at h
    · cases h
    · rename_i r hr
      cases h
      exact ⟨pr, ov, r, he, hr, rfl⟩

theorem describes_drawOne {C : Type} [Inhabited C] {f32 : ℚ → ℚ} {algs : List Alg} (names : List Str) (colors : List C)
    {ls : List Loaded} (h : mapM' (loadOne f32) algs = .ok ls) {j : Nat} (hj : j < algs.length) :
    Describes f32 algs names colors j (drawOne names colors ls j) := by
  have hf := (mapM'_forall₂ _ _ _).1 h
  have hlen := hf.length_eq
  have hjl : j < ls.length := hlen ▸ hj
  have := (List.forall₂_iff_get.1 hf).2 j hj hjl
  obtain ⟨pr, ov, r, h1, h2, h3⟩ := loadOne_ok this
  have hl : ls.getD j ⟨[], none, []⟩ = ⟨ov.map f32, r.map f32, pr⟩ := by
    rw [← h3]
    simp [List.getD_eq_getElem?_getD, hjl]
  constructor
  · exact hj
  · exact ⟨rfl, rfl⟩
  · rfl
  · rfl
  · refine ⟨algs.get ⟨j, hj⟩, pr, ov, by simp [hj], h1, ?_⟩
    unfold drawOne
    simp only [hl]
    exact ⟨trivial, trivial, trivial, trivial, trivial, r, h2, rfl⟩

/-- C61.  If `plot_pr_curve` draws, then the legend lists every algorithm exactly once, in the order of decreasing (stored) ODS F, each
entry with the name, colour, curve and scores of the same algorithm; the curves are drawn in the reverse order, so the best one
is on top; and the printed lines come in drawing order. -/
theorem C61_plot {C : Type} [Inhabited C] (f32 : ℚ → ℚ) (argsort : List ℚ → List Nat) (hsort : SortsIndices argsort)
    (rainbow : Nat → List C) (algs : List Alg) (names : Option (List Str)) (colors : Option (List C)) (human : Bool)
    (fig : Figure C) (h : plotPrCurve f32 argsort rainbow algs names colors human = .ok fig) :
    ∃ (order : List Nat) (xs : List (Curve C × Entry C × Line)),
      order.Perm (List.range algs.length) ∧
      List.Forall₂ (Describes f32 algs (names.getD (algs.map Alg.name))
        (colors.getD (rainbow (if human then algs.length + 1 else algs.length)))) order xs ∧
      (xs.Pairwise fun a b => b.2.1.f1 ≤ a.2.1.f1) ∧
      fig.drawn = (xs.map fun x => x.1).reverse ∧
      fig.legend = (if human then [⟨4 / 5, "Human".toList, none⟩] else []) ++ xs.map (fun x => x.2.1) ∧
      fig.printed = (xs.map fun x => x.2.2).reverse := by
  unfold plotPrCurve at h
  simp only at h
  generalize (if human = true then algs.length + 1 else algs.length) = n' at h ⊢
  generalize (if human = true then [(⟨4 / 5, "Human".toList, none⟩ : Entry C)] else []) = mk at h ⊢
  split at h
  · cases h
  · split at h
    · cases h
    · split at h
      · cases h
      · split at h
        · cases h
        · rename_i ls hls
          split at h
          · simp only [Except.ok.injEq] at h
            have hlen : ls.length = algs.length := ((mapM'_forall₂ _ _ _).1 hls).length_eq.symm
            obtain ⟨hperm, hpw⟩ := hsort (ls.map fun l => l.overall.getD 3 0)
            rw [List.length_map, hlen] at hperm
            refine ⟨_, (argsort (ls.map fun l => l.overall.getD 3 0)).reverse.map
              (drawOne (names.getD (algs.map Alg.name)) (colors.getD (rainbow n')) ls),
              (List.reverse_perm _).trans hperm, ?_, ?_, ?_⟩
            rotate_left 2
            · rw [← h]
              exact ⟨rfl, rfl, rfl⟩
            · rw [List.forall₂_map_right_iff]
              refine List.forall₂_same.2 ?_
              intro j hj
              refine describes_drawOne _ _ hls ?_
              have := hperm.mem_iff.1 (List.mem_reverse.1 hj)
              exact List.mem_range.1 this
            · rw [List.pairwise_map, List.pairwise_reverse]
              refine hpw.imp ?_
              intro i j hij
              have e : ∀ i, (ls.map fun l => l.overall.getD 3 0).getD i 0 = (drawOne (names.getD (algs.map Alg.name))
                  (colors.getD (rainbow n')) ls i).2.1.f1 := by
                intro i
                unfold drawOne
                by_cases hi : i < ls.length
                · simp [hi]
                · simp [not_lt.1 hi]
              rw [e, e] at hij
              exact hij
          · cases h

/-- C61.  Argument checks: at least one algorithm, as many names as algorithms, as many colours as algorithms — one more when the human
point is drawn. -/
theorem C61_plot_arguments {C : Type} [Inhabited C] (f32 : ℚ → ℚ) (argsort : List ℚ → List Nat)
    (rainbow : Nat → List C) (algs : List Alg) (names : Option (List Str)) (colors : Option (List C)) (human : Bool) :
    (algs = [] → plotPrCurve f32 argsort rainbow algs names colors human = .error .assertionError) ∧
    (∀ ns, names = some ns → ns.length ≠ algs.length →
      plotPrCurve f32 argsort rainbow algs names colors human = .error .assertionError) ∧
    (∀ cs, colors = some cs → cs.length ≠ algs.length + (if human then 1 else 0) →
      plotPrCurve f32 argsort rainbow algs names colors human = .error .assertionError) := by
  refine ⟨?_, ?_, ?_⟩
  · rintro rfl
    rfl
  · rintro ns rfl hl
    unfold plotPrCurve
    simp only
    split
    · rfl
    · rw [if_pos (by simpa using hl)]
  · rintro cs rfl hl
    unfold plotPrCurve
    simp only
    split
    · rfl
    · split
      · rfl
      · rw [if_pos]
        cases human <;> simpa using hl

/-- C61, finding.  Two algorithms whose tables keep different numbers of rows (recall at least 0.001) cannot be drawn together. -/
theorem C61_plot_needs_equal_lengths {C : Type} [Inhabited C] (f32 : ℚ → ℚ) (argsort : List ℚ → List Nat)
    (rainbow : Nat → List C) (algs : List Alg) (names : Option (List Str)) (colors : Option (List C)) (human : Bool)
    (a b : Alg) (ha : a ∈ algs) (hb : b ∈ algs) (pra prb : List (List ℚ)) (ova ovb : List ℚ)
    (hla : loadAlgorithm a.thresholds a.overall = .ok (pra, ova)) (hlb : loadAlgorithm b.thresholds b.overall = .ok (prb, ovb))
    (hne : pra.length ≠ prb.length) :
    ∃ e, plotPrCurve f32 argsort rainbow algs names colors human = .error e := by
  unfold plotPrCurve
  simp only
  generalize (if human = true then algs.length + 1 else algs.length) = n'
  generalize (if human = true then [(⟨4 / 5, "Human".toList, none⟩ : Entry C)] else []) = mk
  split
  · exact ⟨_, rfl⟩
  · split
    · exact ⟨_, rfl⟩
    · split
      · exact ⟨_, rfl⟩
      · split
        · exact ⟨_, rfl⟩
        · rename_i ls hls
          split
          · rename_i hst
            exfalso
            have hf := (mapM'_forall₂ _ _ _).1 hls
            have find : ∀ c pr ov, c ∈ algs → loadAlgorithm c.thresholds c.overall = .ok (pr, ov) → pr ∈ ls.map Loaded.pr := by
              intro c pr ov hc hload
              obtain ⟨j, hj, hcj⟩ := List.getElem_of_mem hc
              have hjl : j < ls.length := hf.length_eq ▸ hj
              have := (List.forall₂_iff_get.1 hf).2 j hj hjl
              obtain ⟨pr', ov', r, h1, _, h3⟩ := loadOne_ok this
              have hcj' : algs.get ⟨j, hj⟩ = c := hcj
              rw [hcj', hload] at h1
              cases h1
              refine List.mem_map.2 ⟨ls.get ⟨j, hjl⟩, List.get_mem .., ?_⟩
              rw [h3]
            have key : ∀ pr ∈ ls.map Loaded.pr, ∀ pr' ∈ ls.map Loaded.pr, pr.length = pr'.length := by
              unfold stackable at hst
              split at hst
              · cases hst
              · rename_i p ps hp
                rw [List.all_eq_true] at hst
                have base : ∀ q ∈ ls.map Loaded.pr, q.length = p.length := by
                  intro q hq
                  rw [hp] at hq
                  rcases List.mem_cons.1 hq with rfl | hq
                  · rfl
                  · have := hst q hq
                    rw [decide_eq_true_eq] at this
                    exact congrArg Prod.fst this
                intro q hq q' hq'
                rw [base q hq, base q' hq']
            exact hne (key _ (find a _ _ ha hla) _ (find b _ _ hb hlb))
          · exact ⟨_, rfl⟩

/-- C61, finding.  Results written by this project's own save functions can never be plotted (the overall file has nine numbers, the
plotter wants eight): one such algorithm makes the call raise. -/
theorem C61_plot_never_own_results {C : Type} [Inhabited C] (f32 : ℚ → ℚ) (argsort : List ℚ → List Nat)
    (rainbow : Nat → List C) (algs : List Alg) (names : Option (List Str)) (colors : Option (List C)) (human : Bool)
    (name : Str) (ts : List ThresholdResult) (o : OverallResult) (ha : (⟨name, thresholdFile ts, overallFile o⟩ : Alg) ∈ algs) :
    ∃ e, plotPrCurve f32 argsort rainbow algs names colors human = .error e := by
  unfold plotPrCurve
  simp only
  generalize (if human = true then algs.length + 1 else algs.length) = n'
  generalize (if human = true then [(⟨4 / 5, "Human".toList, none⟩ : Entry C)] else []) = mk
  split
  · exact ⟨_, rfl⟩
  · split
    · exact ⟨_, rfl⟩
    · split
      · exact ⟨_, rfl⟩
      · split
        · exact ⟨_, rfl⟩
        · rename_i ls hls
          exfalso
          have hf := (mapM'_forall₂ _ _ _).1 hls
          obtain ⟨j, hj, hcj⟩ := List.getElem_of_mem ha
          have hjl : j < ls.length := hf.length_eq ▸ hj
          have := (List.forall₂_iff_get.1 hf).2 j hj hjl
          obtain ⟨pr', ov', r, h1, _, h3⟩ := loadOne_ok this
          have hcj' : algs.get ⟨j, hj⟩ = ⟨name, thresholdFile ts, overallFile o⟩ := hcj
          rw [hcj', C38_plot_rejects_saved_results] at h1
          split at h1 <;> cases h1

/-! ## The hypotheses are met -/

/-- Insertion of an index into a list sorted by key. -/
def insertIdx' (keys : List ℚ) (i : Nat) : List Nat → List Nat
  | [] => [i]
  | j :: js => if keys.getD i 0 ≤ keys.getD j 0 then i :: j :: js else j :: insertIdx' keys i js

/-- Insertion sort of indices: an `argsort`. -/
def sortIdx (keys : List ℚ) : List Nat := (List.range keys.length).foldr (insertIdx' keys) []

theorem insertIdx'_perm (keys : List ℚ) (i : Nat) (l : List Nat) : (insertIdx' keys i l).Perm (i :: l) := by
  induction l with
  | nil => exact List.Perm.refl _
  | cons j js ih =>
    unfold insertIdx'
    split
    · exact List.Perm.refl _
    · exact (ih.cons j).trans (List.Perm.swap i j js)

theorem insertIdx'_sorted (keys : List ℚ) (i : Nat) (l : List Nat)
    (h : l.Pairwise fun i j => keys.getD i 0 ≤ keys.getD j 0) :
    (insertIdx' keys i l).Pairwise fun i j => keys.getD i 0 ≤ keys.getD j 0 := by
  induction l with
  | nil => simp [insertIdx']
  | cons j js ih =>
    rw [List.pairwise_cons] at h
    unfold insertIdx'
    split
    · rename_i hij
      rw [List.pairwise_cons]
      refine ⟨?_, List.pairwise_cons.2 h⟩
      intro k hk
      rcases List.mem_cons.1 hk with rfl | hk
      · exact hij
      · exact le_trans hij (h.1 k hk)
    · rename_i hij
      rw [List.pairwise_cons]
      refine ⟨?_, ih h.2⟩
      intro k hk
      rcases List.mem_cons.1 ((insertIdx'_perm keys i js).mem_iff.1 hk) with rfl | hk
      · exact le_of_lt (not_le.1 hij)
      · exact h.1 k hk

theorem sortIdx_ok : SortsIndices sortIdx := by
  intro keys
  unfold sortIdx
  generalize List.range keys.length = l
  induction l with
  | nil => exact ⟨List.Perm.refl _, List.Pairwise.nil⟩
  | cons i l ih =>
    exact ⟨(insertIdx'_perm keys i _).trans (ih.1.cons i), insertIdx'_sorted keys i _ ih.2⟩

/-- A detector with two thresholds. -/
def algA : Alg := ⟨"A".toList, "0.25 0.8 0.4 0.53\n0.75 0.6 0.8 0.69\n".toList, "0.5 0.7 0.6 0.65 0.7 0.7 0.7 0.5".toList⟩
/-- A better one. -/
def algB : Alg := ⟨"B".toList, "0.25 0.9 0.5 0.64\n0.75 0.7 0.9 0.79\n".toList, "0.5 0.8 0.8 0.80 0.8 0.8 0.8 0.7".toList⟩
/-- One whose second threshold has recall 0. -/
def algC : Alg := ⟨"C".toList, "0.25 0.9 0.5 0.64\n0.75 0.0 0.0 0.0\n".toList, "0.5 0.8 0.8 0.80 0.8 0.8 0.8 0.7".toList⟩

/-- `C61_plot`: a figure with two algorithms; the better one leads the legend and is drawn last. -/
example : ((plotPrCurve id sortIdx (fun n => List.range n) [algA, algB] none none false).toOption.map fun f =>
      (f.legend.map fun e => (e.name, e.f1), f.drawn.map Curve.color, f.printed.map Line.r50)) =
    some ([("B".toList, 4 / 5), ("A".toList, 13 / 20)], [0, 1], [some (3 / 4), some (9 / 10)]) := by decide +kernel

/-- `C61_plot_needs_equal_lengths`: both load, with two rows and one row. -/
example : ∃ e, plotPrCurve id sortIdx (fun n => List.range n) [algA, algC] none none false = .error e :=
  C61_plot_needs_equal_lengths _ _ _ _ _ _ _ algA algC (by simp) (by simp)
    [[1 / 4, 4 / 5, 2 / 5, 53 / 100], [3 / 4, 3 / 5, 4 / 5, 69 / 100]] [[1 / 4, 9 / 10, 1 / 2, 16 / 25]]
    [1 / 2, 7 / 10, 3 / 5, 13 / 20, 7 / 10, 7 / 10, 7 / 10, 1 / 2] [1 / 2, 4 / 5, 4 / 5, 4 / 5, 4 / 5, 4 / 5, 4 / 5, 7 / 10]
    (by decide +kernel) (by decide +kernel) (by decide)

/-- `C61_r50`: the interpolated case. -/
example : FirstPrec [[1 / 4, 4 / 5, 2 / 5, 53 / 100], [3 / 4, 3 / 5, 4 / 5, 69 / 100]] 0 ∧
    FirstPrec [[1 / 4, 4 / 5, 2 / 5, 53 / 100], [3 / 4, 3 / 5, 4 / 5, 69 / 100]] 1 ∧
    calcR50 [[1 / 4, 4 / 5, 2 / 5, 53 / 100], [3 / 4, 3 / 5, 4 / 5, 69 / 100]] = .ok (some (3 / 4)) := by
  refine ⟨⟨by decide, by intro j hj; omega⟩, ⟨by decide, ?_⟩, by decide +kernel⟩
  intro j hj
  have : j = 0 := by omega
  subst this
  decide +kernel

/-- `C61_plot_never_own_results`. -/
example : ∃ e, plotPrCurve id sortIdx (fun n => List.range n)
    [algA, ⟨"mine".toList, thresholdFile [⟨1 / 4, 1 / 3, 2 / 3, 4 / 9⟩, ⟨3 / 4, 0, 1, 0⟩],
      overallFile ⟨1 / 4, 0, 0, 0, 0, 0, 0, 0, 0⟩⟩] none none true = .error e :=
  C61_plot_never_own_results _ _ _ _ _ _ _ "mine".toList [⟨1 / 4, 1 / 3, 2 / 3, 4 / 9⟩, ⟨3 / 4, 0, 1, 0⟩]
    ⟨1 / 4, 0, 0, 0, 0, 0, 0, 0, 0⟩ (List.mem_cons_of_mem _ (List.mem_cons_self ..))

end EdgeEval.Props
