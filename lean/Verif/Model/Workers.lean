import Verif.Model.Progress

/-!
# `track_parallel_progress` with worker processes that have a state of their own

`Model/Progress.lean` takes the task function as a mathematical function of the task.  The real one runs in a
process and may read and change the state of that process (global variables; in this project the random stream
`Random::rand` of the C++ library, Random.cc:28).  Here the task function is a state transformer, each worker of
the pool has a copy of the parent's state from the moment the pool was created (`fork`), changed by the
`initializer`, and the parent's state is separate.
-/

namespace EdgeEval.Workers

open EdgeEval

/-- A Python callable of one argument executed in a process with state `σ`: result or exception, and new state. -/
abbrev StFun (σ α β : Type) := α → σ → Except PyErr β × σ

/-- progressbar.py:110-112 without the bar, and `mapstar` (CPython `multiprocessing/pool.py`): call `f` on each task in turn, in one process,
stopping at the first exception. -/
def runSeq {σ α β : Type} (f : StFun σ α β) : List α → σ → Except PyErr (List β) × σ
  | [], st => (.ok [], st)
  | x :: xs, st =>
    match f x st with
    | (.error e, st') => (.error e, st')
    | (.ok r, st') =>
      match runSeq f xs st' with
      | (.error e, st'') => (.error e, st'')
      | (.ok rs, st'') => (.ok (r :: rs), st'')

/-- The `initargs` argument of `init_pool`. -/
inductive InitArgs where
  | absent
  | tuple
  | notTuple
  deriving DecidableEq, Repr

/-- progressbar.py:118-126  `init_pool`: the effect on the state of each new worker. `initializer = none` ignores `initargs`. `Pool(0)` raises
`ValueError`. The effect of the initializer includes its arguments. An initializer that raises (the pool then replaces dead workers for ever) is
not modelled. -/
def initPool {σ : Type} (nproc : Nat) (initializer : Option (σ → σ)) (initargs : InitArgs) : Except PyErr (σ → σ) :=
  match initializer with
  | none => if nproc = 0 then .error .valueError else .ok id
  | some g =>
    match initargs with
    | .notTuple => .error .typeError
    | _ => if nproc = 0 then .error .valueError else .ok g

/-- The pool: the iterator and loop state of `Model/Progress.lean`, and the state of each worker process. -/
structure Fleet (σ β : Type) where
  pool : PoolState β
  procs : Nat → σ

inductive FleetEvent where
  /-- worker `w` ran chunk `i` and its result was stored -/
  | complete (w i : Nat)
  /-- the caller's loop asks for the next chunk -/
  | next
  deriving DecidableEq, Repr

/-- One event. A worker runs a whole chunk from the state it is in; its chunks are stored in the order in which it ran them (one result queue).
A worker that does not exist runs nothing. -/
def fleetStep {σ α β : Type} (f : StFun σ α β) (a : ParArgs) (chunks : List (List α)) (s : Fleet σ β) : FleetEvent → Fleet σ β
  | .complete w i =>
    if w < a.nproc then
      match chunks[i]? with
      | some c => ⟨poolSet a.keepOrder s.pool i (runSeq f c (s.procs w)).1,
                   fun v => if v = w then (runSeq f c (s.procs w)).2 else s.procs v⟩
      | none => s
    else s
  | .next => { s with pool := poolStep (fun (_ : α) => Except.error PyErr.terminated) a chunks s.pool .next }

/-- progressbar.py:129-204  `track_parallel_progress` called in a process with state `st0`, under a schedule.  The state of the calling process
does not change. -/
def trackFleet {σ α β : Type} (f : StFun σ α β) (a : ParArgs) (initializer : Option (σ → σ)) (initargs : InitArgs) (tasks : TaskArg α)
    (st0 : σ) (schedule : List FleetEvent) : Except PyErr (Fleet σ β) := do
  let _ ← tasks.resolve
  let g ← initPool a.nproc initializer initargs
  let (chunks, s) ← parInit a tasks
  pure (schedule.foldl (fleetStep f a chunks) ⟨s, fun _ => g st0⟩)

/-- progressbar.py:78-115  `track_progress` called in a process with state `st0`: the results and the new state of that process (the bar cannot
fail, `C34_track_progress`). -/
def trackHere {σ α β : Type} (f : StFun σ α β) (tasks : TaskArg α) (st0 : σ) : Except PyErr (List β) × σ :=
  match tasks.resolve with
  | .error e => (.error e, st0)
  | .ok (items, _) => runSeq f items st0

/-- calculate_metrics.py:37-48  how the per-sample metrics are obtained, in a process with state `st0`; as `sampleMetrics` of
`Model/Progress.lean`, with the state.  A run whose caller loop has not ended is `none`. -/
def sampleMetricsIn {σ S : Type} (f : StFun σ S Counts) (samples : List S) (nproc : Nat) (st0 : σ) (schedule : List FleetEvent) :
    Option (Except PyErr (List Counts)) :=
  if nproc > 1 then
    match trackFleet f ⟨nproc, 1, false, true, false⟩ none .absent (.list samples) st0 schedule with
    | .error e => some (.error e)
    | .ok s =>
      match s.pool.status with
      | .running => none
      | .finished => some (.ok s.pool.results)
      | .raised e => some (.error e)
  else some (trackHere f (.list samples) st0).1

/-- calculate_metrics.py:18-165  `calculate_metrics`, with the state. -/
def calculateMetricsIn {σ S : Type} (f : StFun σ S Counts) (name : S → String) (arg : ThresholdArg) (samples : List S) (nproc : Nat)
    (st0 : σ) (schedule : List FleetEvent) : Option (Except PyErr (List SampleResult × List ThresholdResult × OverallResult)) :=
  (sampleMetricsIn f samples nproc st0 schedule).map fun r => do
    let cs ← r
    calculateFromCounts arg (List.zip (samples.map name) cs)

end EdgeEval.Workers
