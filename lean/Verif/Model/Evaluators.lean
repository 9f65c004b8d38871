import Mathlib.Algebra.Order.Floor.Ring
import Mathlib.Data.Rat.Floor
import Verif.Model.Metrics

/-!
# `pyEdgeEval/evaluators/*`

An evaluator object is modelled by its attributes; an attribute that was never assigned is `none` (reading
it raises `AttributeError`).  Messages to the logger and warnings are not modelled.
-/

namespace EdgeEval.Evaluators

/-- The evaluator classes with a `set_eval_params`: cityscapes.py, half_cityscapes.py, otf_cityscapes.py
(which inherits the method), sbd.py (two classes), bsds.py. -/
inductive Kind where
  | cityscapes | half | otf | sbd | reanno | bsds
  deriving DecidableEq, Repr

/-- The evaluation attributes of an evaluator object. -/
structure Attrs where
  scale : Option ℚ := none
  thinning : Option Bool := none
  nms : Option Bool := none
  maxDist : Option ℚ := none
  killInternal : Option Bool := none
  skipIfNonexistent : Option Bool := none
  instanceSensitive : Option Bool := none
  deriving DecidableEq, Repr

/-- The arguments of `set_eval_params` (defaults already filled in; flags are Python bools). -/
structure Args where
  evalMode : Option String
  scale : ℚ
  thinning : Bool
  nms : Bool
  instanceSensitive : Bool
  maxDist : ℚ
  skipIfNonexistent : Bool
  killInternal : Bool
  deriving DecidableEq, Repr

/-- cityscapes.py:171-193 and half_cityscapes.py:54-76: the branches other than `pre-seal`. -/
def citySeal (a : Args) (st : Attrs) : Attrs :=
  if a.evalMode = some "post-seal" then
    let st := { st with maxDist := some a.maxDist }
    if a.instanceSensitive then
      { st with instanceSensitive := some true, killInternal := some false, skipIfNonexistent := some false }
    else
      { st with instanceSensitive := some false, killInternal := some true, skipIfNonexistent := some true }
  else
    { st with maxDist := some a.maxDist, killInternal := some a.killInternal
              skipIfNonexistent := some a.skipIfNonexistent
              instanceSensitive := some a.instanceSensitive }

/-- cityscapes.py:162-170 and half_cityscapes.py:45-53, then the other branches.  The assertion is evaluated
after the earlier attributes were assigned, so the state is returned together with the error. -/
def cityModes (a : Args) (st : Attrs) : Attrs × Option PyErr :=
  if a.evalMode = some "pre-seal" then
    if a.instanceSensitive then (st, some .assertionError)
    else
      ({ st with maxDist := some (2 / 100), killInternal := some true, skipIfNonexistent := some true
                 instanceSensitive := some false }, none)
  else (citySeal a st, none)

/-- cityscapes.py:144-199 `CityscapesEvaluator.set_eval_params` (also OTF). -/
def setCityscapes (a : Args) (st : Attrs) : Attrs × Option PyErr :=
  if 0 < a.scale ∧ a.scale ≤ 1 then
    cityModes a { st with scale := some a.scale, thinning := some a.thinning, nms := some a.nms }
  else (st, some .assertionError)

/-- half_cityscapes.py:30-82: no `scale` argument (it is swallowed by `**kwargs`). -/
def setHalf (a : Args) (st : Attrs) : Attrs × Option PyErr :=
  cityModes a { st with thinning := some a.thinning, nms := some a.nms }

/-- sbd.py:149-174: the three modes of `SBDEvaluator`; `max_dist` is fixed in both presets and `pre-seal` only
warns about instance sensitivity. -/
def sbdModes (a : Args) (st : Attrs) : Attrs :=
  if a.evalMode = some "pre-seal" then
    { st with maxDist := some (2 / 100), killInternal := some true, skipIfNonexistent := some true
              instanceSensitive := some false }
  else if a.evalMode = some "post-seal" then
    let st := { st with maxDist := some (2 / 100) }
    if a.instanceSensitive then
      { st with instanceSensitive := some true, killInternal := some false, skipIfNonexistent := some false }
    else
      { st with instanceSensitive := some false, killInternal := some true, skipIfNonexistent := some true }
  else
    { st with maxDist := some a.maxDist, killInternal := some a.killInternal
              skipIfNonexistent := some a.skipIfNonexistent
              instanceSensitive := some a.instanceSensitive }

/-- sbd.py:131-180 `SBDEvaluator.set_eval_params`. -/
def setSbd (a : Args) (st : Attrs) : Attrs × Option PyErr :=
  if 0 < a.scale ∧ a.scale ≤ 1 then
    (sbdModes a { st with scale := some a.scale, thinning := some a.thinning, nms := some a.nms }, none)
  else (st, some .assertionError)

/-- sbd.py:354-381 `ReannoSBDEvaluator.set_eval_params`. -/
def setReanno (a : Args) (st : Attrs) : Attrs × Option PyErr :=
  if 0 < a.scale ∧ a.scale ≤ 1 then
    ({ st with scale := some a.scale, thinning := some a.thinning, nms := some a.nms
               maxDist := some a.maxDist, killInternal := some false, skipIfNonexistent := some false
               instanceSensitive := some a.instanceSensitive }, none)
  else (st, some .assertionError)

/-- bsds.py:75-88 `BSDS500Evaluator.set_eval_params`. -/
def setBsds (a : Args) (st : Attrs) : Attrs × Option PyErr :=
  if 0 < a.scale ∧ a.scale ≤ 1 then
    ({ st with scale := some a.scale, thinning := some a.thinning, nms := some a.nms
               maxDist := some a.maxDist }, none)
  else (st, some .assertionError)

/-- The method of each class. -/
def setEvalParams : Kind → Args → Attrs → Attrs × Option PyErr
  | .cityscapes => setCityscapes
  | .otf => setCityscapes
  | .half => setHalf
  | .sbd => setSbd
  | .reanno => setReanno
  | .bsds => setBsds

/-- A history of calls on one object, exceptions being caught by the caller. -/
def history (k : Kind) (st : Attrs) (calls : List Args) : Attrs :=
  calls.foldl (fun s a => (setEvalParams k a s).1) st

/-- The dictionary returned by `eval_params`; the keys a class does not have are `none`. -/
structure Params where
  scale : ℚ
  thinning : Bool
  nms : Bool
  maxDist : ℚ
  killInternal : Option Bool
  skipIfNonexistent : Option Bool
  radius : Option Nat
  deriving DecidableEq, Repr

/-- Reading an attribute. -/
def attr {α : Type} : Option α → Except PyErr α
  | some x => .ok x
  | none => .error .attributeError

/-- `eval_params` of each class: cityscapes.py:201-211, half_cityscapes.py:84-94, otf_cityscapes.py:34-54,
sbd.py:182-192, bsds.py:90-97.  `thin` is the constructor flag.  The constant entries `num_classes`,
`num_labels`, `ignore_labels` are omitted. -/
def evalParams (k : Kind) (thin : Bool) (st : Attrs) : Except PyErr Params := do
  let scale ← if k = .half then .ok 1 else attr st.scale
  let thinning ← attr st.thinning
  let nms ← attr st.nms
  let maxDist ← attr st.maxDist
  if k = .bsds then
    .ok ⟨scale, thinning, nms, maxDist, none, none, none⟩
  else do
    let kill ← attr st.killInternal
    let skip ← attr st.skipIfNonexistent
    .ok ⟨scale, thinning, nms, maxDist, some kill, some skip,
      if k = .otf then some (if thin then 1 else 2) else none⟩

/-! ## base.py -/

/-- The `categories` argument of `evaluate`. -/
inductive CategoriesArg where
  | none
  | int (c : Int)
  | list (cs : List Int)
  | other
  deriving DecidableEq, Repr

/-- base.py:98-106  normalisation of `categories`; `n` is `len(self.CLASSES)`. -/
def normCategories (n : Nat) : CategoriesArg → Except PyErr (List Int)
  | .int c => .ok [c]
  | .none => if n = 0 then .error .assertionError
             else .ok ((List.range n).map fun (k : Nat) => (k : Int) + 1)
  | .list cs => if cs = [] then .error .assertionError else .ok cs
  | .other => .error .assertionError

/-- A metrics dictionary, in insertion order. -/
abbrev Dict (α : Type) := List (String × α)

/-- base.py:117-121  `ret_metrics[k].append(v)` or `ret_metrics[k] = [v]`. -/
def pushMetric (d : Dict (List ℚ)) (k : String) (v : ℚ) : Dict (List ℚ) :=
  if (d.map Prod.fst).contains k then d.map fun kv => if kv.1 = k then (kv.1, kv.2 ++ [v]) else kv
  else d ++ [(k, [v])]

/-- base.py:117-121  the inner loop over one category's metrics. -/
def pushAll (d : Dict (List ℚ)) (m : Dict ℚ) : Dict (List ℚ) :=
  m.foldl (fun d kv => pushMetric d kv.1 kv.2) d

/-- base.py:109-121  the loop over categories; `evalCat i c` is the outcome of the `i`-th call of
`evaluate_category` (it may depend on the call, for instance because matching is randomised). -/
def categoryLoop (evalCat : Nat → Int → Except PyErr (Dict ℚ)) :
    Nat → List Int → Dict (List ℚ) → Except PyErr (Dict (List ℚ))
  | _, [], d => .ok d
  | i, c :: cs, d =>
    match evalCat i c with
    | .error e => .error e
    | .ok m => categoryLoop evalCat (i + 1) cs (pushAll d m)

/-- `np.round(x, k)`: decimal rounding, half to even. -/
def roundDec (k : Nat) (x : ℚ) : ℚ :=
  let y := x * 10 ^ k
  let f := ⌊y⌋
  ((if y - f < 1 / 2 then f else if 1 / 2 < y - f then f + 1 else if f % 2 = 0 then f else f + 1 : ℤ) : ℚ)
    / 10 ^ k

/-- `np.nanmean` of a non-empty list without NaN. -/
def mean (l : List ℚ) : ℚ := l.sum / l.length

/-- `dict.get`. -/
def lookup {α : Type} (d : Dict α) (k : String) : Option α := (d.find? fun kv => kv.1 = k).map Prod.snd

/-- `self.CLASSES[i - 1]`, with Python's negative indexing. -/
def className (classes : List String) (i : Int) : Except PyErr String :=
  let j := i - 1
  let k := if j < 0 then j + classes.length else j
  if 0 ≤ k ∧ k < classes.length then
    match classes[k.toNat]? with
    | some s => .ok s
    | none => .error .indexError
  else .error .indexError

/-- `[f x for x in l]` with exceptions. -/
def mapE {α β : Type} (f : α → Except PyErr β) : List α → Except PyErr (List β)
  | [] => .ok []
  | x :: xs =>
    match f x with
    | .error e => .error e
    | .ok y => match mapE f xs with
      | .error e => .error e
      | .ok ys => .ok (y :: ys)

/-- What `evaluate` reports: the contents of `overall_eval_bdry.txt` (if saving) and the two tables. -/
structure Report where
  saved : Option (Dict ℚ)
  classNames : List String
  classTable : Dict (List ℚ)
  summary : Dict ℚ
  deriving DecidableEq, Repr

/-- base.py:149  metrics left out of the class table. -/
def removedMetrics : List String := ["OIS_recall", "OIS_precision", "OIS_f1", "AUC", "AP"]

/-- base.py:82-88  the default of `print_metrics`. -/
def defaultPrint : List String := ["ODS_threshold", "ODS_recall", "ODS_precision", "ODS_f1", "AUC"]

/-- base.py:128-136  what `save_overall_metric` needs (io.py:44-64): all nine keys, else `KeyError`. -/
def overallKeys : List String :=
  ["ODS_threshold", "ODS_recall", "ODS_precision", "ODS_f1", "OIS_recall", "OIS_precision", "OIS_f1", "AUC", "AP"]

/-- base.py:123-135. -/
def saveOverall (save : Bool) (d : Dict (List ℚ)) : Except PyErr (Option (Dict ℚ)) :=
  if save then
    if overallKeys.all fun k => (d.map Prod.fst).contains k then
      .ok (some (d.map fun kv => (kv.1, roundDec 6 (mean kv.2))))
    else .error .keyError
  else .ok none

/-- base.py:76-188 `BaseMultilabelEvaluator.evaluate`, after `_before_evaluation`.  PrettyTable rejects a
column whose length differs from the number of rows.  The printed column order has `ODS_threshold` last (it
was popped and re-inserted). -/
def evaluate (classes : List String) (evalCat : Nat → Int → Except PyErr (Dict ℚ))
    (cats : CategoriesArg) (save : Bool) (print : List String) : Except PyErr Report :=
  match normCategories classes.length cats with
  | .error e => .error e
  | .ok cs =>
    match categoryLoop evalCat 0 cs [] with
    | .error e => .error e
    | .ok d =>
      match saveOverall save d with
      | .error e => .error e
      | .ok saved =>
        match lookup d "ODS_threshold", mapE (className classes) cs with
        | _, .error e => .error e
        | none, .ok _ => .error .typeError
        | some ths, .ok names =>
          let rest := d.filter fun kv => kv.1 ≠ "ODS_threshold"
          let summary := rest.map fun kv => (kv.1, roundDec 3 (mean kv.2 * 100))
          let cols := (rest.filter fun kv => !removedMetrics.contains kv.1).map
              (fun kv => (kv.1, kv.2.map fun v => roundDec 3 (v * 100)))
            ++ [("ODS_threshold", ths.map (roundDec 2))]
          let shown := cols.filter fun kv => print.contains kv.1
          if shown.all fun kv => kv.2.length = cs.length then
            .ok ⟨saved, names, shown, summary.filter fun kv => print.contains kv.1⟩
          else .error .valueError

/-- The dictionary built by `calculate_metrics` (calculate_metrics.py:153-163). -/
def overallDict (o : OverallResult) : Dict ℚ :=
  [("ODS_threshold", o.odsThreshold), ("ODS_recall", o.odsRecall), ("ODS_precision", o.odsPrecision),
   ("ODS_f1", o.odsF1), ("OIS_recall", o.oisRecall), ("OIS_precision", o.oisPrecision),
   ("OIS_f1", o.oisF1), ("AUC", o.auc), ("AP", o.ap)]

end EdgeEval.Evaluators
