import Verif.Model.Text
import Verif.Model.Evaluators

/-!
# `helpers/evaluate_*.py`: the command line

The arguments of the helper functions are the inputs; how `argparse` gets them from the command line is in
`Model/Argparse.lean`.  Creating the output directory, the log file and the evaluator is in `Model/Commands.lean`.
-/

namespace EdgeEval.Cli

open Text Evaluators

/-- `s[1:-1]` guarded by `s.startswith("[") and s.endswith("]")`. -/
def bracketed (s : Str) : Option Str :=
  if s.head? = some '[' ∧ s.getLast? = some ']' then some s.dropLast.tail else none

/-- evaluate_cityscapes.py:161-180, evaluate_sbd.py:132-151 and 279-298, evaluate_bsds500.py:82-100.
`none` is the "Bad threshold format" message followed by `return`. -/
def parseThresholds (s : Str) : Option ThresholdArg :=
  match intLit (strip s) with
  | .ok n => some (.int n)
  | .error _ =>
    match bracketed (strip s) with
    | none => none
    | some inner =>
      match mapM' (fun t => floatLit (strip t)) (splitOnChar ',' inner) with
      | .ok xs => some (.list xs)
      | .error _ => none

/-- evaluate_cityscapes.py:130-154, evaluate_sbd.py:101-125 and 248-272; `n` is `len(CLASSES)`.
`none` is the "Bad categories format" message followed by `return`. -/
def parseCategories (n : Nat) : Option Str → Option (List Int)
  | none => some ((List.range n).map fun (k : Nat) => (k : Int) + 1)
  | some s =>
    match intLit (strip s) with
    | .ok c => some [c]
    | .error _ =>
      match bracketed (strip s) with
      | none => none
      | some inner =>
        match mapM' (fun t => intLit (strip t)) (splitOnChar ',' inner) with
        | .ok xs => some xs
        | .error _ => none

/-- The options given to a helper. -/
structure Opts where
  categories : Option Str
  thresholds : Str
  preSeal : Bool
  nonIS : Bool
  maxDist : ℚ
  scale : ℚ
  thinning : Bool
  nms : Bool
  predSuffix : Str

/-- What the helper asks the evaluator to do. -/
structure Plan where
  kind : Kind
  thin : Bool
  /-- `pred_suffix` argument of the constructor -/
  predSuffix : Option Str
  attrs : Attrs
  categories : List Int
  thresholds : ThresholdArg

/-- The arguments of `set_eval_params` built by the helpers; `skip_if_nonexistent` and `kill_internal` keep
their defaults (`False`), which only matter when `eval_mode` is `None`. -/
def argsOf (o : Opts) (mode : Option String) (scale maxDist : ℚ) : Args where
  evalMode := mode
  scale := scale
  thinning := o.thinning
  nms := o.nms
  instanceSensitive := !o.nonIS
  maxDist := maxDist
  skipIfNonexistent := false
  killInternal := false

/-- The `eval_mode` of the helpers with a `--pre-seal` flag (evaluate_cityscapes.py:235, evaluate_sbd.py:190). -/
def modeOf (o : Opts) : Option String := some (if o.preSeal then "pre-seal" else "post-seal")

/-- The common part of the multi-label helpers: parse, range check (`0 < cat < bound`), build the evaluator,
set its parameters.  `ok none` is an early `return` after a message. -/
def runWith (kind : Kind) (thin : Bool) (suffix : Option Str) (nClasses : Nat) (bound : Int) (o : Opts) (a : Args) :
    Except PyErr (Option Plan) :=
  match parseCategories nClasses o.categories with
  | none => .ok none
  | some cs =>
    if cs.all fun c => decide (0 < c ∧ c < bound) then
      match parseThresholds o.thresholds with
      | none => .ok none
      | some th =>
        match setEvalParams kind a {} with
        | (_, some e) => .error e
        | (st, none) => .ok (some ⟨kind, thin, suffix, st, cs, th⟩)
    else .error .assertionError

/-- evaluate_cityscapes.py:111-252 `evaluate`. -/
def cityscapes (thin half : Bool) (o : Opts) : Except PyErr (Option Plan) :=
  runWith (if half then .half else .cityscapes) thin none 19 20 o (argsOf o (modeOf o) o.scale o.maxDist)

/-- evaluate_cityscapes.py:255-273 `evaluate_cityscapes_raw`: `apply_thinning=False`. -/
def cityscapesRaw (half : Bool) (o : Opts) : Except PyErr (Option Plan) :=
  cityscapes false half { o with thinning := false }

/-- evaluate_cityscapes.py:276-294 `evaluate_cityscapes_thin`: half resolution, thinning, scale 0.5. -/
def cityscapesThin (o : Opts) : Except PyErr (Option Plan) :=
  cityscapes true true { o with thinning := true, scale := 1 / 2 }

/-- evaluate_sbd.py:84-230 `evaluate` and `evaluate_sbd`; `raw` is `--raw`.  The constructor is called without
`pred_suffix` (lines 178-183). -/
def sbd (raw : Bool) (o : Opts) : Except PyErr (Option Plan) :=
  let o := { o with thinning := !raw }
  runWith .sbd (!raw) none 20 21 o (argsOf o (modeOf o) 1 o.maxDist)

/-- evaluate_sbd.py:233-351 `evaluate_reanno`: no `eval_mode`, `max_dist=0.0075`. -/
def reanno (o : Opts) : Except PyErr (Option Plan) :=
  runWith .reanno o.thinning (some o.predSuffix) 20 21 o (argsOf o none 1 (75 / 10000))

/-- A call with keyword arguments `given` to a function with parameters `params` (all without default). -/
def bindKeywords (params given : List String) : Except PyErr Unit :=
  if given.all params.contains && params.all given.contains then .ok () else .error .typeError

/-- evaluate_sbd.py:84-99  parameters of `evaluate`. -/
def sbdParams : List String :=
  ["gt_dir", "sbd_path", "pred_path", "pred_suffix", "output_path", "categories", "pre_seal", "apply_thinning",
   "apply_nms", "nonIS", "max_dist", "thresholds", "nproc"]

/-- evaluate_sbd.py:216-230  keywords given by `evaluate_sbd`. -/
def sbdGiven : List String :=
  ["gt_dir", "sbd_path", "pred_path", "pred_suffix", "output_path", "categories", "pre_seal", "apply_thinning",
   "apply_nms", "nonIS", "max_dist", "thresholds", "nproc"]

/-- evaluate_sbd.py:233-245  parameters of `evaluate_reanno`. -/
def reannoParams : List String :=
  ["gt_dir", "sbd_path", "pred_path", "pred_suffix", "output_path", "categories", "apply_thinning", "apply_nms",
   "nonIS", "thresholds", "nproc"]

/-- evaluate_sbd.py:360-373  keywords given by `evaluate_reanno_sbd`. -/
def reannoGiven : List String :=
  ["gt_dir", "sbd_path", "pred_path", "pred_suffix", "output_path", "categories", "apply_thinning", "apply_nms",
   "nonIS", "max_dist", "thresholds", "nproc"]

/-- evaluate_sbd.py:210-230 `evaluate_sbd`. -/
def evaluateSbd (raw : Bool) (o : Opts) : Except PyErr (Option Plan) :=
  match bindKeywords sbdParams sbdGiven with
  | .error e => .error e
  | .ok _ => sbd raw o

/-- evaluate_sbd.py:354-373 `evaluate_reanno_sbd`. -/
def evaluateReannoSbd (raw : Bool) (o : Opts) : Except PyErr (Option Plan) :=
  match bindKeywords reannoParams reannoGiven with
  | .error e => .error e
  | .ok _ => reanno { o with thinning := !raw }

/-- evaluate_bsds500.py:68-162 `evaluate` and `evaluate_bsds500`. -/
def bsds (raw : Bool) (o : Opts) : Except PyErr (Option (Attrs × ThresholdArg)) :=
  match parseThresholds o.thresholds with
  | none => .ok none
  | some th =>
    match setEvalParams .bsds (argsOf { o with thinning := !raw } none 1 o.maxDist) {} with
    | (_, some e) => .error e
    | (st, none) => .ok (some (st, th))

end EdgeEval.Cli
