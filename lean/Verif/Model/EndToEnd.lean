import Verif.Model.Datasets
import Verif.Model.Io

/-!
# `evaluate_category` and the BSDS `evaluate` as a whole

evaluators/cityscapes.py:230-309, otf_cityscapes.py:56-132, sbd.py:208-290, bsds.py:108-178: the samples are assembled
(`Model/Samples.lean`), every sample is evaluated by a pool of workers (`Model/Datasets.lean`,
`Model/Progress.lean`), the counts are turned into scores (`Model/Metrics.lean`), the tables are saved
(`Model/Io.lean`) and the overall metric is returned.
-/

namespace EdgeEval.EndToEnd

open Text Evaluators Samples Datasets

/-- The sub-routine of an evaluator on the `x.1`-th sample; `rnd i` is the random stream used for the `i`-th
sample (a worker may be in any state of its generator).  Exhausted model fuel is shown as `user 0`; the theorems
are about sufficient fuel. -/
noncomputable def single (env : Env) (k : Kind) (arg : ThresholdArg) (rnd : Nat → Nat → Nat → Nat → ℚ)
    (x : Nat × Sample) : Except PyErr Counts :=
  match (if k = .bsds then bsdsSingle env arg x.2 (rnd x.1) else multiLabelSingle env k arg x.2 (rnd x.1)) with
  | .ok (some rows) => .ok (toCounts rows)
  | .ok none => .error (.user 0)
  | .error e => .error e

/-- The samples with their position. -/
def numbered (data : List Sample) : List (Nat × Sample) := data.zipIdx.map fun x => (x.2, x.1)

/-- What a finished evaluation leaves behind: the tables, the returned dictionary, the written files. -/
structure Outcome where
  samples : List SampleResult
  table : List ThresholdResult
  overall : OverallResult
  returned : Dict ℚ
  writes : List Io.Write

/-- `evaluate_category` from its arguments to its result; `none` if the run has not ended under this schedule.
The files are written after all samples were evaluated. -/
noncomputable def evaluateCategory (fs : Fs) (env : Env) (e : Ev) (category : Int) (arg : ThresholdArg) (nproc : Nat)
    (save : Bool) (rnd : Nat → Nat → Nat → Nat → ℚ) (schedule : List PoolEvent) : Option (Except PyErr Outcome) :=
  match categoryData fs e category with
  | .error er => some (.error er)
  | .ok data =>
    (calculateMetrics (single env e.kind arg rnd) (fun x => String.ofList x.2.name) arg (numbered data) nproc
      schedule).map fun r =>
      match r with
      | .error er => .error er
      | .ok (ss, ts, o) =>
        .ok ⟨ss, ts, o, overallDict o, if save then Io.saveCategory category.toNat ss ts (some o) else []⟩

/-- bsds.py:108-178  `BSDSEvaluator.evaluate`. -/
noncomputable def evaluateBsds (fs : Fs) (env : Env) (e : Ev) (arg : ThresholdArg) (nproc : Nat)
    (save noSplitDir : Bool) (rnd : Nat → Nat → Nat → Nat → ℚ) (schedule : List PoolEvent) :
    Option (Except PyErr Outcome) :=
  match bsdsData fs e noSplitDir with
  | .error er => some (.error er)
  | .ok data =>
    (calculateMetrics (single env e.kind arg rnd) (fun x => String.ofList x.2.name) arg (numbered data) nproc
      schedule).map fun r =>
      match r with
      | .error er => .error er
      | .ok (ss, ts, o) =>
        .ok ⟨ss, ts, o, overallDict o, if save then Io.saveResults ss ts (some o) else []⟩

/-- base.py:76-188  `evaluate` with the evaluator's own `evaluate_category`; `rnd i` and `sched i` belong to the run of
the `i`-th category.  A run that has not ended is shown as `user 0`; the theorems are about runs that end. -/
noncomputable def evaluateAll (fs : Fs) (env : Env) (e : Ev) (classes : List String) (cats : CategoriesArg)
    (arg : ThresholdArg) (nproc : Nat) (save : Bool) (print : List String) (rnd : Nat → Nat → Nat → Nat → Nat → ℚ)
    (sched : Nat → List PoolEvent) : Except PyErr Report :=
  evaluate classes (fun i c =>
    match evaluateCategory fs env e c arg nproc save (rnd i) (sched i) with
    | some (.ok o) => .ok o.returned
    | some (.error er) => .error er
    | none => .error (.user 0)) cats save print

end EdgeEval.EndToEnd
