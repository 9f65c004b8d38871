import Verif.Model.Argparse
import Verif.Model.BsdsFiles

/-!
# The evaluation commands as a whole

`scripts/evaluate/*.py` and `tests/script_bsds500.py`, from the words of the command line to what the process leaves
behind: the command line is read (`Model/Argparse.lean`), the strings are parsed (`Model/Cli.lean`), the output
directory and the log file are made, the evaluator is built (`Model/Samples.lean`, `Model/Evaluators.lean`) and run
(`Model/EndToEnd.lean`).  Printing and logging have no other effect here.
-/

namespace EdgeEval.Commands

open Text Evaluators Samples Argparse EndToEnd

/-- How a command ends; `out` is the output directory. -/
inductive Ended (α : Type) where
  /-- `argparse` ended the process with this status -/
  | exit (status : Nat)
  /-- a "Bad ... format" message, then `return` -/
  | message
  | raised (e : PyErr)
  | finished (out : Str) (result : α)

/-- The operating system as a command meets it. -/
structure World where
  /-- before anything is created -/
  fs : Fs
  /-- utils/path.py:18-22 `mkdir_or_exist` of a path that is not empty: it fails, or these are the answers of the
  operating system from then on -/
  mkdir : Str → Except PyErr Fs
  /-- can this log file be opened for writing? -/
  log : Str → Bool
  /-- `time.strftime("%Y%m%d_%H%M%S", time.localtime())`, asked twice -/
  stamp : Str
  stamp' : Str

/-- The components `os.path.normpath` (library, posixpath) keeps; `rooted` is "starts with a slash", `acc` is reversed. -/
def normComps (rooted : Bool) : List Str → List Str → List Str
  | [], acc => acc.reverse
  | c :: cs, acc =>
    if c = [] ∨ c = ['.'] then normComps rooted cs acc
    else if c ≠ ['.', '.'] ∨ (rooted = false ∧ acc = []) ∨ acc.head? = some ['.', '.'] then normComps rooted cs (c :: acc)
    else normComps rooted cs acc.tail

/-- `os.path.normpath` (library, posixpath). -/
def normpath (p : Str) : Str :=
  let rooted := p.head? = some '/'
  let slashes : Str := if List.isPrefixOf ['/', '/'] p && !(List.isPrefixOf ['/', '/', '/'] p) then ['/', '/']
    else if rooted then ['/'] else []
  let r := slashes ++ join ['/'] (normComps rooted (splitOnChar '/' p) [])
  if r = [] then ['.'] else r

/-- evaluate_cityscapes.py:192-196, evaluate_sbd.py:153-157, evaluate_bsds500.py:102-106  the output directory. -/
def outputDir (w : World) (pred : Str) (output : Option Str) : Str :=
  match output with
  | some o => o
  | none => pjoin (normpath pred) ("edge_results_".toList ++ w.stamp)

/-- evaluate_cityscapes.py:192-203, evaluate_sbd.py:153-163, evaluate_bsds500.py:102-115  making the output directory
(utils/path.py:18-20: nothing for the empty path) and the log file in it.  Simplification: a log file that cannot be
opened is an `OSError` whatever the reason. -/
def prepare (w : World) (pred : Str) (output : Option Str) : Except PyErr (Str × Fs) :=
  match (if outputDir w pred output = [] then Except.ok w.fs else w.mkdir (outputDir w pred output)) with
  | .error e => .error e
  | .ok fs =>
    if w.log (pjoin (outputDir w pred output) (w.stamp' ++ ".log".toList)) then .ok (outputDir w pred output, fs)
    else .error .oserror

/-- evaluate_cityscapes.py:224-228, evaluate_sbd.py:184-187  an evaluator without sample names tries again, and now the
exception is not caught. -/
def namesOf (fs : Fs) (k : Kind) (c : Ctor) : Except PyErr (List Str) :=
  match construct fs k c with
  | .error e => .error e
  | .ok (some l) => .ok l
  | .ok none => chooseNames fs k c .none none

/-- The end of an evaluation; `none` if it has not ended. -/
def endOf {α : Type} (out : Str) (r : Option (Except PyErr α)) : Option (Ended α) :=
  r.map fun x => match x with
    | .error e => .raised e
    | .ok o => .finished out o

/-- `evaluateAll` shows a run that has not ended as the exception `user 0`, which nothing raises. -/
def unlessRunning {α : Type} : Except PyErr α → Option (Except PyErr α)
  | .error e => if e = .user 0 then none else some (.error e)
  | .ok r => some (.ok r)

/-- evaluate_cityscapes.py:111-252, evaluate_sbd.py:84-207 `evaluate`: `k`, `thin` and `a` are what the helper chooses,
`bound` the upper bound of its check of the categories.  The number of processes matters only if it is above 1
(`nproc > 1`), so a negative one is read as 0.  `none` if the run has not ended under these schedules. -/
noncomputable def multi (w : World) (env : Datasets.Env) (classes : List String) (k : Kind) (thin : Bool) (bound : Int)
    (gtDir dataset pred : Str) (output : Option Str) (nproc : Int) (o : Cli.Opts) (a : Args)
    (rnd : Nat → Nat → Nat → Nat → Nat → ℚ) (sched : Nat → List PoolEvent) : Option (Ended Report) :=
  match Cli.parseCategories (numClasses k) o.categories with
  | none => some .message
  | some cs =>
    if cs.all fun c => decide (0 < c ∧ c < bound) then
      match Cli.parseThresholds o.thresholds with
      | none => some .message
      | some th =>
        match prepare w pred output with
        | .error e => some (.raised e)
        | .ok (out, fs) =>
          let c : Ctor := { datasetRoot := dataset, predRoot := pred, split := "val".toList, thin := thin,
                            gtDir := some gtDir, predSuffix := none }
          match namesOf fs k c with
          | .error e => some (.raised e)
          | .ok names =>
            match setEvalParams k a {} with
            | (_, some e) => some (.raised e)
            | (st, none) =>
              endOf out (unlessRunning (evaluateAll fs env ⟨k, c, some names, st⟩ classes (.list cs) th nproc.toNat
                (decide (out ≠ [])) defaultPrint rnd sched))
    else some (.raised .assertionError)

/-- scripts/evaluate/cityscapes_raw.py:6-7, evaluate_cityscapes.py:111-273. -/
noncomputable def cityRaw (w : World) (env : Datasets.Env) (classes : List String) (argv : List Str)
    (rnd : Nat → Nat → Nat → Nat → Nat → ℚ) (sched : Nat → List PoolEvent) : Option (Ended Report) :=
  match cityRawMain argv with
  | .error e => some (.exit e)
  | .ok c =>
    multi w env classes (if c.flag then .half else .cityscapes) false 20 c.gtDir c.dataset c.pred c.output c.nproc c.opts
      (Cli.argsOf c.opts (Cli.modeOf c.opts) c.opts.scale c.opts.maxDist) rnd sched

/-- scripts/evaluate/cityscapes_thin.py:6-7, evaluate_cityscapes.py:111-252, 276-294. -/
noncomputable def cityThin (w : World) (env : Datasets.Env) (classes : List String) (argv : List Str)
    (rnd : Nat → Nat → Nat → Nat → Nat → ℚ) (sched : Nat → List PoolEvent) : Option (Ended Report) :=
  match cityThinMain argv with
  | .error e => some (.exit e)
  | .ok c =>
    multi w env classes .half true 20 c.gtDir c.dataset c.pred c.output c.nproc c.opts
      (Cli.argsOf c.opts (Cli.modeOf c.opts) c.opts.scale c.opts.maxDist) rnd sched

/-- scripts/evaluate/sbd.py:6-7, evaluate_sbd.py:84-230. -/
noncomputable def sbd (w : World) (env : Datasets.Env) (classes : List String) (argv : List Str)
    (rnd : Nat → Nat → Nat → Nat → Nat → ℚ) (sched : Nat → List PoolEvent) : Option (Ended Report) :=
  match sbdMain argv with
  | .error e => some (.exit e)
  | .ok c =>
    multi w env classes .sbd (!c.flag) 21 c.gtDir c.dataset c.pred c.output c.nproc c.opts
      (Cli.argsOf c.opts (Cli.modeOf c.opts) 1 c.opts.maxDist) rnd sched

/-- scripts/evaluate/bsds500.py:6-7, evaluate_bsds500.py:68-162; `none` if the run has not ended under this schedule. -/
noncomputable def bsds (w : World) (env : Datasets.Env) (argv : List Str)
    (rnd : Nat → Nat → Nat → Nat → ℚ) (sched : List PoolEvent) : Option (Ended Outcome) :=
  match bsdsMain argv with
  | .error e => some (.exit e)
  | .ok c =>
    match Cli.parseThresholds c.opts.thresholds with
    | none => some .message
    | some th =>
      match prepare w c.pred c.output with
      | .error e => some (.raised e)
      | .ok (out, fs) =>
        let ct : Ctor := { datasetRoot := c.dataset, predRoot := c.pred, split := c.plan.split }
        match construct fs .bsds ct with
        | .error e => some (.raised e)
        | .ok names =>
          match setEvalParams .bsds (Cli.argsOf { c.opts with thinning := !c.flag } none 1 c.opts.maxDist) {} with
          | (_, some e) => some (.raised e)
          | (st, none) =>
            endOf out (evaluateBsds fs env ⟨.bsds, ct, names, st⟩ th c.nproc.toNat (decide (out ≠ [])) false rnd sched)

/-- tests/script_bsds500.py:129-130 `SAMPLE_NAMES`. -/
def sampleNames : List Str := ["2018".toList, "3063".toList, "5096".toList, "6046".toList, "8068".toList]

/-- tests/script_bsds500.py:128-158 `test`, `main`; the arguments of `set_eval_params` that are not given have their
defaults (bsds.py:75-82). -/
noncomputable def script (fs : Fs) (env : Datasets.Env) (argv : List Str)
    (rnd : Nat → Nat → Nat → Nat → ℚ) (sched : List PoolEvent) : Option (Ended Outcome) :=
  match scriptMain argv with
  | .error e => some (.exit e)
  | .ok (bench, out, nproc) =>
    if fs.ex bench then
      let ct : Ctor := { datasetRoot := bench, predRoot := pjoin bench "png".toList, split := "test".toList }
      match construct fs .bsds ct with
      | .error e => some (.raised e)
      | .ok names =>
        match setSampleNames fs .bsds ct (.list sampleNames) none names with
        | (_, some e) => some (.raised e)
        | (names, none) =>
          let a : Args :=
            { evalMode := none, scale := 1, thinning := true, nms := false, instanceSensitive := false,
              maxDist := 75 / 10000, skipIfNonexistent := false, killInternal := false }
          match setEvalParams .bsds a {} with
          | (_, some e) => some (.raised e)
          | (st, none) =>
            endOf out (evaluateBsds fs env ⟨.bsds, ct, names, st⟩ (.int 5) nproc.toNat (decide (out ≠ [])) false rnd sched)
    else some (.raised .assertionError)

end EdgeEval.Commands
