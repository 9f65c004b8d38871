import Verif.Lemmas.Evaluators

/-!
# C32, C33: evaluator parameters and multi-category evaluation
-/

set_option linter.unusedSimpArgs false

namespace EdgeEval.Props

open Spec Evaluators

/-! ## C32 -/

/-- The observable parameters of an object agree with a protocol (for the multi-label classes). -/
def Follows (k : Kind) (thin : Bool) (st : Attrs) (a : Args) : Prop :=
  ∃ p : Params, evalParams k thin st = .ok p ∧
    p.scale = (if k = .half then 1 else a.scale) ∧ p.thinning = a.thinning ∧ p.nms = a.nms ∧
    (k = .bsds → p.maxDist = a.maxDist ∧ p.killInternal = none ∧ p.skipIfNonexistent = none) ∧
    (k ≠ .bsds → p.maxDist = (requested k a).maxDist ∧ p.killInternal = some (requested k a).killInternal ∧
      p.skipIfNonexistent = some (requested k a).skipAbsent ∧
      st.instanceSensitive = some (requested k a).instances) ∧
    p.radius = (if k = .otf then some (if thin then 1 else 2) else none)

/-- C32: after any history of calls (successful or not) on an object in any state, a successful call
determines all the parameters: they are those of the protocol it requests. -/
theorem C32_last_call_decides (k : Kind) (thin : Bool) (st : Attrs) (hist : List Args) (a : Args)
    (hok : (setEvalParams k a (history k st hist)).2 = none) :
    Follows k thin (history k st (hist ++ [a])) a := by
  have e : history k st (hist ++ [a]) = (setEvalParams k a (history k st hist)).1 := by
    simp [history, List.foldl_append]
  rw [e]
  generalize history k st hist = s at hok ⊢
  cases k
  · -- cityscapes
    simp only [setEvalParams, setCityscapes, cityModes, citySeal] at hok ⊢
    by_cases hs : 0 < a.scale ∧ a.scale ≤ 1
    · by_cases h1 : a.evalMode = some "pre-seal"
      · by_cases h2 : a.instanceSensitive
        · simp [hs, h1, h2] at hok
        · simp only [hs, h1, h2]
          refine ⟨_, rfl, ?_⟩
          simp [requested, preSeal, h1]; norm_num
      · by_cases h3 : a.evalMode = some "post-seal"
        · by_cases h2 : a.instanceSensitive
          · simp only [hs, h1, h2, h3, if_true, if_false]
            refine ⟨_, rfl, ?_⟩
            simp [requested, postSeal, h2, h3]
          · simp only [hs, h1, h2, h3, if_true, if_false]
            refine ⟨_, rfl, ?_⟩
            simp [requested, postSeal, h2, h3]
        · simp only [hs, h1, h3, if_true, if_false]
          refine ⟨_, rfl, ?_⟩
          simp [requested, custom, h1, h3]
    · simp [hs] at hok
  · -- half
    simp only [setEvalParams, setHalf, cityModes, citySeal] at hok ⊢
    by_cases h1 : a.evalMode = some "pre-seal"
    · by_cases h2 : a.instanceSensitive
      · simp [h1, h2] at hok
      · simp only [h1, h2]
        refine ⟨_, rfl, ?_⟩
        simp [requested, preSeal, h1]; norm_num
    · by_cases h3 : a.evalMode = some "post-seal"
      · by_cases h2 : a.instanceSensitive
        · simp only [h1, h2, h3, if_true, if_false]
          refine ⟨_, rfl, ?_⟩
          simp [requested, postSeal, h2, h3]
        · simp only [h1, h2, h3, if_true, if_false]
          refine ⟨_, rfl, ?_⟩
          simp [requested, postSeal, h2, h3]
      · simp only [h1, h3, if_true, if_false]
        refine ⟨_, rfl, ?_⟩
        simp [requested, custom, h1, h3]
  · -- otf
    simp only [setEvalParams, setCityscapes, cityModes, citySeal] at hok ⊢
    by_cases hs : 0 < a.scale ∧ a.scale ≤ 1
    · by_cases h1 : a.evalMode = some "pre-seal"
      · by_cases h2 : a.instanceSensitive
        · simp [hs, h1, h2] at hok
        · simp only [hs, h1, h2]
          refine ⟨_, rfl, ?_⟩
          simp [requested, preSeal, h1]; norm_num
      · by_cases h3 : a.evalMode = some "post-seal"
        · by_cases h2 : a.instanceSensitive
          · simp only [hs, h1, h2, h3, if_true, if_false]
            refine ⟨_, rfl, ?_⟩
            simp [requested, postSeal, h2, h3]
          · simp only [hs, h1, h2, h3, if_true, if_false]
            refine ⟨_, rfl, ?_⟩
            simp [requested, postSeal, h2, h3]
        · simp only [hs, h1, h3, if_true, if_false]
          refine ⟨_, rfl, ?_⟩
          simp [requested, custom, h1, h3]
    · simp [hs] at hok
  · -- sbd
    simp only [setEvalParams, setSbd, sbdModes] at hok ⊢
    by_cases hs : 0 < a.scale ∧ a.scale ≤ 1
    · by_cases h1 : a.evalMode = some "pre-seal"
      · simp only [hs, h1]
        refine ⟨_, rfl, ?_⟩
        simp [requested, preSeal, h1]; norm_num
      · by_cases h3 : a.evalMode = some "post-seal"
        · by_cases h2 : a.instanceSensitive
          · simp only [hs, h1, h2, h3, if_true, if_false]
            refine ⟨_, rfl, ?_⟩
            simp [requested, postSeal, h2, h3]; norm_num
          · simp only [hs, h1, h2, h3, if_true, if_false]
            refine ⟨_, rfl, ?_⟩
            simp [requested, postSeal, h2, h3]; norm_num
        · simp only [hs, h1, h3, if_true, if_false]
          refine ⟨_, rfl, ?_⟩
          simp [requested, custom, h1, h3]
    · simp [hs] at hok
  · -- reanno
    simp only [setEvalParams, setReanno] at hok ⊢
    by_cases hs : 0 < a.scale ∧ a.scale ≤ 1
    · simp only [hs]
      refine ⟨_, rfl, ?_⟩
      simp [requested]
    · simp [hs] at hok
  · -- bsds
    simp only [setEvalParams, setBsds] at hok ⊢
    by_cases hs : 0 < a.scale ∧ a.scale ≤ 1
    · simp only [hs]
      refine ⟨_, rfl, ?_⟩
      simp
    · simp [hs] at hok

/-- C32: a call fails exactly when its scale is outside (0, 1] (except on the half-scale class, which has no
scale) or it asks for instance-sensitive pre-SEAL on a Cityscapes class; the exception is an
`AssertionError`. -/
theorem C32_failure_iff (k : Kind) (st : Attrs) (a : Args) :
    ((setEvalParams k a st).2 = some .assertionError ↔ Rejected k a) ∧
    ((setEvalParams k a st).2 = none ↔ ¬ Rejected k a) := by
  by_cases hs : 0 < a.scale ∧ a.scale ≤ 1 <;> by_cases h1 : a.evalMode = some "pre-seal" <;>
    by_cases h2 : a.instanceSensitive <;> cases k <;>
    simp [setEvalParams, setCityscapes, setHalf, setSbd, setReanno, setBsds, cityModes, Rejected, ScaleOk,
      hs, h1, h2]

/-- C32: a call rejected because of its scale leaves the object unchanged. -/
theorem C32_bad_scale_no_effect (k : Kind) (st : Attrs) (a : Args) (h : ¬ ScaleOk k a) :
    (setEvalParams k a st).1 = st := by
  unfold ScaleOk at h
  rw [not_or] at h
  obtain ⟨hk, hs⟩ := h
  cases k
  case half => exact absurd rfl hk
  all_goals simp [setEvalParams, setCityscapes, setSbd, setReanno, setBsds, hs]

/-- C32: a history in which only calls with a bad scale follow a successful call keeps its parameters. -/
theorem C32_bad_scales_keep_parameters (k : Kind) (thin : Bool) (st : Attrs) (hist : List Args) (a : Args)
    (later : List Args) (hok : (setEvalParams k a (history k st hist)).2 = none)
    (hbad : ∀ b ∈ later, ¬ ScaleOk k b) :
    Follows k thin (history k st (hist ++ [a] ++ later)) a := by
  have : history k st (hist ++ [a] ++ later) = history k st (hist ++ [a]) := by
    have key : ∀ (l : List Args) (s : Attrs), (∀ b ∈ l, ¬ ScaleOk k b) → history k s l = s := by
      intro l
      induction l with
      | nil => intro s _; rfl
      | cons b l ih =>
        intro s hb
        have e : history k s (b :: l) = history k (setEvalParams k b s).1 l := rfl
        rw [e, C32_bad_scale_no_effect k s b (hb b (by simp))]
        exact ih s fun c hc => hb c (List.mem_cons_of_mem _ hc)
    have e : history k st (hist ++ [a] ++ later) = history k (history k st (hist ++ [a])) later := by
      simp [history, List.foldl_append]
    rw [e, key later _ hbad]
  rw [this]
  exact C32_last_call_decides k thin st hist a hok

/-- C32 (finding): the call rejected for asking instance-sensitive pre-SEAL is *not* without effect: it has
already replaced the scale and the thinning and NMS flags, while the rest stays from the previous call. -/
theorem C32_failed_preseal_half_applied (st : Attrs) (a : Args) (hs : 0 < a.scale ∧ a.scale ≤ 1)
    (hm : a.evalMode = some "pre-seal") (hi : a.instanceSensitive = true) :
    (setEvalParams .cityscapes a st).2 = some .assertionError ∧
    (setEvalParams .cityscapes a st).1 =
      { st with scale := some a.scale, thinning := some a.thinning, nms := some a.nms } := by
  simp [setEvalParams, setCityscapes, cityModes, hs, hm, hi]

/-- C32: in every state reachable from a fresh object by any history, an assigned scale is in (0, 1], and the
scale reported by `eval_params` is in (0, 1]. -/
theorem C32_scale_always_valid (k : Kind) (thin : Bool) (hist : List Args) :
    (∀ s, (history k {} hist).scale = some s → 0 < s ∧ s ≤ 1) ∧
    (∀ p, evalParams k thin (history k {} hist) = .ok p → 0 < p.scale ∧ p.scale ≤ 1) := by
  have inv : ∀ (l : List Args) (st : Attrs), (∀ s, st.scale = some s → 0 < s ∧ s ≤ 1) →
      ∀ s, (history k st l).scale = some s → 0 < s ∧ s ≤ 1 := by
    intro l
    induction l with
    | nil => intro st h; exact h
    | cons a l ih =>
      intro st h
      have e : history k st (a :: l) = history k (setEvalParams k a st).1 l := rfl
      rw [e]
      apply ih
      intro s hs'
      by_cases hs : 0 < a.scale ∧ a.scale ≤ 1
      · have hsc : (setEvalParams k a st).1.scale = some a.scale ∨
            (setEvalParams k a st).1.scale = st.scale := by
          cases k <;> simp only [setEvalParams, setCityscapes, setHalf, setSbd, setReanno, setBsds, cityModes,
            citySeal, sbdModes, if_pos hs] <;> (try split_ifs) <;> simp
        rcases hsc with h1 | h1
        · rw [h1] at hs'
          cases hs'
          exact hs
        · exact h s (h1 ▸ hs')
      · by_cases hk : k = .half
        · have hsc : (setEvalParams k a st).1.scale = st.scale := by
            subst hk
            simp only [setEvalParams, setHalf, cityModes, citySeal]
            split_ifs <;> rfl
          exact h s (hsc ▸ hs')
        · rw [C32_bad_scale_no_effect k st a (by unfold ScaleOk; tauto)] at hs'
          exact h s hs'
  have h1 := inv hist {} (by simp)
  refine ⟨h1, fun p hp => ?_⟩
  by_cases hk : k = .half
  · subst hk
    unfold evalParams at hp
    revert hp
    generalize history Kind.half {} hist = st
    rcases st with ⟨_, _ | _, _ | _, _ | _, _ | _, _ | _, _⟩ <;> simp [attr, bind, Except.bind]
    rintro rfl
    norm_num
  · revert hp h1
    generalize history k {} hist = st
    intro h1 hp
    unfold evalParams at hp
    rw [if_neg hk] at hp
    rcases st with ⟨_ | sc, _ | _, _ | _, _ | _, _ | _, _ | _, _⟩ <;>
      simp [attr, bind, Except.bind] at hp <;> (try split_ifs at hp) <;> simp at hp <;>
      (rw [← hp]; exact h1 sc rfl)

/-- C32: with a preset mode, edges inside the class are removed exactly when the evaluation is not
instance-sensitive, so the conflict the code warns about cannot occur. -/
theorem C32_presets_consistent (k : Kind) (st : Attrs) (hist : List Args) (a : Args) (hk : k ≠ .bsds)
    (hk' : k ≠ .reanno) (hmode : a.evalMode = some "pre-seal" ∨ a.evalMode = some "post-seal")
    (hok : (setEvalParams k a (history k st hist)).2 = none) :
    ∃ b, (history k st (hist ++ [a])).instanceSensitive = some b ∧
      (history k st (hist ++ [a])).killInternal = some (!b) ∧
      (history k st (hist ++ [a])).skipIfNonexistent = some (!b) ∧
      (a.evalMode = some "pre-seal" → b = false) := by
  have e : history k st (hist ++ [a]) = (setEvalParams k a (history k st hist)).1 := by
    simp [history, List.foldl_append]
  rw [e]
  generalize history k st hist = s at hok ⊢
  clear e
  have hnr := (C32_failure_iff k s a).2.1 hok
  unfold Rejected ScaleOk at hnr
  rw [not_or, not_not] at hnr
  obtain ⟨hsc, hni⟩ := hnr
  cases k
  case half =>
    rcases hmode with h1 | h1 <;> cases h2 : a.instanceSensitive <;>
      simp [h1, h2] at hni <;> simp [setEvalParams, setHalf, cityModes, citySeal, h1, h2]
  case bsds => exact absurd rfl hk
  case reanno => exact absurd rfl hk'
  all_goals
    have hs : 0 < a.scale ∧ a.scale ≤ 1 := hsc.resolve_left (by decide)
    rcases hmode with h1 | h1 <;> cases h2 : a.instanceSensitive <;>
      simp [h1, h2] at hni <;>
      simp only [setEvalParams, setCityscapes, setSbd, cityModes, citySeal, sbdModes, if_pos hs] <;>
      simp [h1, h2]

/-- C32: a freshly constructed evaluator has no parameters: `eval_params` raises `AttributeError`. -/
theorem C32_unset (k : Kind) (thin : Bool) : evalParams k thin {} = .error .attributeError := by
  cases k <;> rfl

/-- C32 (finding): the command line flag `--pre-seal` without `--nonIS` always fails on Cityscapes
(evaluate_cityscapes.py:251-260 passes `instance_sensitive = not nonIS`). -/
theorem C32_cli_preseal_needs_nonIS (st : Attrs) (scale maxDist : ℚ) (thin nms skip kill : Bool) :
    (setEvalParams .half ⟨some "pre-seal", scale, thin, nms, !false, maxDist, skip, kill⟩ st).2
      = some .assertionError ∧
    (setEvalParams .cityscapes ⟨some "pre-seal", scale, thin, nms, !false, maxDist, skip, kill⟩ st).2
      = some .assertionError := by
  constructor
  · rfl
  · simp [setEvalParams, setCityscapes, cityModes]
    split_ifs <;> rfl

/-- A concrete history: a custom call, a failing pre-SEAL call, then post-SEAL. -/
def exHist : List Args :=
  [⟨none, 1, true, false, true, 1 / 100, false, true⟩, ⟨some "pre-seal", 1 / 2, false, true, true, 0, false, false⟩]
def exCall : Args := ⟨some "post-seal", 1 / 4, false, false, false, 7 / 2000, false, false⟩

example : (setEvalParams .cityscapes exCall (history .cityscapes {} exHist)).2 = none ∧
    evalParams .cityscapes false (history .cityscapes {} (exHist ++ [exCall]))
      = .ok ⟨1 / 4, false, false, 7 / 2000, some true, some true, none⟩ := by
  decide +kernel

/-! ## C33 -/

/-- The classes a `categories` argument stands for. -/
def Selected (n : Nat) (arg : CategoriesArg) (cs : List Int) : Prop :=
  match arg with
  | .none => cs.length = n ∧ ∀ i (h : i < cs.length), cs[i] = i + 1
  | .int c => cs = [c]
  | .list l => cs = l
  | .other => False

/-- C33: `None` means every class, an int that class, a list those classes; an empty selection or another
type is rejected with an `AssertionError`. -/
theorem C33_categories (n : Nat) (arg : CategoriesArg) :
    (∀ cs, normCategories n arg = .ok cs → Selected n arg cs ∧ cs ≠ []) ∧
    (∀ e, normCategories n arg = .error e → e = .assertionError ∧
      (arg = .other ∨ arg = .list [] ∨ (arg = .none ∧ n = 0))) := by
  constructor
  · intro cs h
    cases arg with
    | none =>
      simp only [normCategories] at h
      split at h
      · cases h
      · cases h
        refine ⟨⟨by simp, fun i hi => by simp⟩, ?_⟩
        intro hnil
        have := congrArg List.length hnil
        simp at this
        omega
    | int c => cases h; exact ⟨rfl, by simp⟩
    | list l =>
      simp only [normCategories] at h
      split at h
      · cases h
      · cases h; exact ⟨rfl, by assumption⟩
    | other => cases h
  · intro e h
    cases arg with
    | none =>
      simp only [normCategories] at h
      split at h
      · cases h; exact ⟨rfl, .inr (.inr ⟨rfl, by assumption⟩)⟩
      · cases h
    | int c => cases h
    | list l =>
      simp only [normCategories] at h
      split at h
      · cases h
        rename_i hl
        subst hl
        exact ⟨rfl, .inr (.inl rfl)⟩
      · cases h
    | other => cases h; exact ⟨rfl, .inl rfl⟩

/-- The average of `n` numbers. -/
def average (n : Nat) (f : Nat → ℚ) : ℚ := ((List.range n).map f).sum / n

/-- C33: if each requested category (all in range) is evaluated to an overall result `res i`, then `evaluate`
succeeds; row `i` of the class table is named after category `i` and holds that category's own scores (in
per cent, three decimals; the threshold with two); the summary holds the averages over the categories (in per
cent, three decimals), and the saved file the averages with six decimals. -/
theorem C33_report (classes : List String) (cats : CategoriesArg) (cs : List Int)
    (hsel : normCategories classes.length cats = .ok cs)
    (hrange : ∀ c ∈ cs, 1 ≤ c ∧ c ≤ classes.length)
    (evalCat : Nat → Int → Except PyErr (Dict ℚ)) (res : Nat → OverallResult)
    (hres : ∀ i (h : i < cs.length), evalCat i cs[i] = .ok (overallDict (res i))) (save : Bool) :
    evaluate classes evalCat cats save defaultPrint = .ok
      { saved := if save then some
          [("ODS_threshold", roundDec 6 (average cs.length fun i => (res i).odsThreshold)),
           ("ODS_recall", roundDec 6 (average cs.length fun i => (res i).odsRecall)),
           ("ODS_precision", roundDec 6 (average cs.length fun i => (res i).odsPrecision)),
           ("ODS_f1", roundDec 6 (average cs.length fun i => (res i).odsF1)),
           ("OIS_recall", roundDec 6 (average cs.length fun i => (res i).oisRecall)),
           ("OIS_precision", roundDec 6 (average cs.length fun i => (res i).oisPrecision)),
           ("OIS_f1", roundDec 6 (average cs.length fun i => (res i).oisF1)),
           ("AUC", roundDec 6 (average cs.length fun i => (res i).auc)),
           ("AP", roundDec 6 (average cs.length fun i => (res i).ap))] else none
        classNames := cs.map fun c => classes.getD (c - 1).toNat ""
        classTable :=
          [("ODS_recall", (List.range cs.length).map fun (i : Nat) => roundDec 3 ((res i).odsRecall * 100)),
           ("ODS_precision", (List.range cs.length).map fun (i : Nat) => roundDec 3 ((res i).odsPrecision * 100)),
           ("ODS_f1", (List.range cs.length).map fun (i : Nat) => roundDec 3 ((res i).odsF1 * 100)),
           ("ODS_threshold", (List.range cs.length).map fun (i : Nat) => roundDec 2 (res i).odsThreshold)]
        summary :=
          [("ODS_recall", roundDec 3 (average cs.length (fun i => (res i).odsRecall) * 100)),
           ("ODS_precision", roundDec 3 (average cs.length (fun i => (res i).odsPrecision) * 100)),
           ("ODS_f1", roundDec 3 (average cs.length (fun i => (res i).odsF1) * 100)),
           ("AUC", roundDec 3 (average cs.length (fun i => (res i).auc) * 100))] } := by
  have hne : cs ≠ [] := ((C33_categories classes.length cats).1 cs hsel).2
  have hloop := categoryLoop_eq (ks := overallKeys) (by decide) evalCat (fun i => overallDict (res i)) cs hne
    hres (fun _ _ => rfl)
  have hnames : mapE (className classes) cs = .ok (cs.map fun c => classes.getD (c - 1).toNat "") :=
    mapE_ok _ _ cs fun c hc => className_ok classes (hrange c hc).1 (hrange c hc).2
  unfold evaluate
  simp only [hsel, hloop, hnames]
  have hv : ∀ i, valueOf "ODS_threshold" (overallDict (res i)) = (res i).odsThreshold ∧
      valueOf "ODS_recall" (overallDict (res i)) = (res i).odsRecall ∧
      valueOf "ODS_precision" (overallDict (res i)) = (res i).odsPrecision ∧
      valueOf "ODS_f1" (overallDict (res i)) = (res i).odsF1 ∧
      valueOf "OIS_recall" (overallDict (res i)) = (res i).oisRecall ∧
      valueOf "OIS_precision" (overallDict (res i)) = (res i).oisPrecision ∧
      valueOf "OIS_f1" (overallDict (res i)) = (res i).oisF1 ∧
      valueOf "AUC" (overallDict (res i)) = (res i).auc ∧
      valueOf "AP" (overallDict (res i)) = (res i).ap := by
    intro i
    refine ⟨rfl, rfl, rfl, rfl, rfl, rfl, rfl, rfl, rfl⟩
  have hd : (overallKeys.map fun k => (k, (List.range cs.length).map fun (j : Nat) =>
      valueOf k (overallDict (res j)))) =
      [("ODS_threshold", (List.range cs.length).map fun (i : Nat) => (res i).odsThreshold),
       ("ODS_recall", (List.range cs.length).map fun (i : Nat) => (res i).odsRecall),
       ("ODS_precision", (List.range cs.length).map fun (i : Nat) => (res i).odsPrecision),
       ("ODS_f1", (List.range cs.length).map fun (i : Nat) => (res i).odsF1),
       ("OIS_recall", (List.range cs.length).map fun (i : Nat) => (res i).oisRecall),
       ("OIS_precision", (List.range cs.length).map fun (i : Nat) => (res i).oisPrecision),
       ("OIS_f1", (List.range cs.length).map fun (i : Nat) => (res i).oisF1),
       ("AUC", (List.range cs.length).map fun (i : Nat) => (res i).auc),
       ("AP", (List.range cs.length).map fun (i : Nat) => (res i).ap)] := by
    simp only [overallKeys, List.map_cons, List.map_nil]
    simp only [fun i => (hv i).1, fun i => (hv i).2.1, fun i => (hv i).2.2.1, fun i => (hv i).2.2.2.1,
      fun i => (hv i).2.2.2.2.1, fun i => (hv i).2.2.2.2.2.1, fun i => (hv i).2.2.2.2.2.2.1,
      fun i => (hv i).2.2.2.2.2.2.2.1, fun i => (hv i).2.2.2.2.2.2.2.2]
  rw [hd]
  have hmean : ∀ f : Nat → ℚ, mean ((List.range cs.length).map f) = average cs.length f := by
    intro f
    simp [mean, average]
  cases save
  · simp [saveOverall, lookup, removedMetrics, defaultPrint, hmean, List.map_map, Function.comp_def]
  · simp [saveOverall, lookup, removedMetrics, defaultPrint, overallKeys, hmean, List.map_map,
      Function.comp_def]

/-- C33: the reported averages are within half a unit of the last digit of the exact ones. -/
theorem C33_rounding (k : Nat) (x : ℚ) : |roundDec k x - x| ≤ 1 / 2 / 10 ^ k := roundDec_close k x

/-- C33: the first category whose evaluation fails aborts the evaluation with its exception. -/
theorem C33_first_failure (classes : List String) (cats : CategoriesArg) (cs : List Int)
    (hsel : normCategories classes.length cats = .ok cs)
    (evalCat : Nat → Int → Except PyErr (Dict ℚ)) (e : PyErr) (j : Nat) (hj : j < cs.length)
    (hpre : ∀ l (hl : l < j), ∃ m, evalCat l (cs[l]'(by omega)) = .ok m)
    (herr : evalCat j cs[j] = .error e) (save : Bool) (print : List String) :
    evaluate classes evalCat cats save print = .error e := by
  unfold evaluate
  simp only [hsel]
  rw [categoryLoop_error evalCat e cs 0 j hj [] (by simpa using hpre) (by simpa using herr)]

def exRes (i : Nat) : OverallResult := ⟨1 / 2, 1, 1 / (i + 1), 1 / 2, 0, 0, 0, 1 / 3, 1 / 4⟩

example : ∃ r, evaluate ["road", "car"] (fun i _ => .ok (overallDict (exRes i))) .none true defaultPrint = .ok r ∧
    r.classNames = ["road", "car"] ∧ lookup r.summary "AUC" = some (33333 / 1000) ∧
    lookup r.summary "ODS_precision" = some 75 := by
  refine ⟨_, C33_report ["road", "car"] .none [1, 2] rfl (by decide) _ exRes ?_ true, ?_⟩
  · intro i _; rfl
  · decide +kernel

end EdgeEval.Props
