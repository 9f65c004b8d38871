import Verif.Model.Workers
import Verif.Model.EndToEnd

/-!
# `evaluate_category` with processes that have a state

The same code as `evaluateCategory` in `Model/EndToEnd.lean`, but the random numbers are not given per sample: they come from the state of the
process that happens to evaluate the sample.
-/

namespace EdgeEval.Workers

open EdgeEval Text Evaluators Samples Datasets EndToEnd

/-- The sub-routine of an evaluator as it runs in a process: `streams st` are the random numbers drawn by the calls of `correspond_pixels` when
the process is in state `st`, and `after` is the state it is left in (datasets/cityscapes.py:14-86 and its siblings; Random.cc:28). -/
noncomputable def singleIn {σ : Type} (env : Env) (k : Kind) (arg : ThresholdArg) (streams : σ → Nat → Nat → Nat → ℚ) (after : Sample → σ → σ) :
    StFun σ Sample Counts := fun x st => (single env k arg (fun _ => streams st) (0, x), after x st)

/-- evaluators/cityscapes.py:230-309, otf_cityscapes.py:56-132, sbd.py:208-290  `evaluate_category` called in a process with state `st0`. -/
noncomputable def evaluateCategoryIn {σ : Type} (fs : Fs) (env : Env) (e : Ev) (category : Int) (arg : ThresholdArg) (nproc : Nat) (save : Bool)
    (streams : σ → Nat → Nat → Nat → ℚ) (after : Sample → σ → σ) (st0 : σ) (schedule : List FleetEvent) : Option (Except PyErr Outcome) :=
  match categoryData fs e category with
  | .error er => some (.error er)
  | .ok data =>
    (calculateMetricsIn (singleIn env e.kind arg streams after) (fun x => String.ofList x.name) arg data nproc st0 schedule).map fun r =>
      match r with
      | .error er => .error er
      | .ok (ss, ts, o) =>
        .ok ⟨ss, ts, o, overallDict o, if save then Io.saveCategory category.toNat ss ts (some o) else []⟩

end EdgeEval.Workers
