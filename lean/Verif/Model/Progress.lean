import Verif.Model.Metrics

/-!
# Model of `pyEdgeEval/utils/progressbar.py`

The progress bar is modelled by its counters (what is printed is a function of them and of the clock;
the text itself is modelled only as far as the bar field `[>>>  ]`).  The worker pool is CPython's
`multiprocessing.pool` `imap`/`imap_unordered` iterator: worker processes complete chunks in an
arbitrary order, a result thread stores them, the caller consumes them.  Schedules are arbitrary
interleavings of `complete i` and `next` events.
-/

namespace EdgeEval

/-- progressbar.py:17-31  `ProgressBar` fields that matter: `started` is whether `start()` has created
`self.timer`. -/
structure Bar where
  taskNum : Int
  completed : Nat
  started : Bool
  deriving DecidableEq, Repr

/-- progressbar.py:20-26  constructor. -/
def Bar.mk' (taskNum : Int) (start : Bool) : Bar := ⟨taskNum, 0, start⟩

/-- progressbar.py:33-42  `start` (does not reset `completed`). -/
def Bar.start (b : Bar) : Bar := { b with started := true }

/-- progressbar.py:44-75  `update(num_tasks)`: `assert num_tasks > 0`; without a timer
`self.timer` raises `AttributeError` after `completed` was already incremented. -/
def Bar.update (b : Bar) (k : Int) : Except PyErr Bar :=
  if k ≤ 0 then .error .assertionError
  else if b.started then .ok { b with completed := b.completed + k.toNat }
  else .error .attributeError

/-- progressbar.py:61-68  the characters between the brackets, as (number of `>`, number of blanks).
`tw` is the terminal width, `msgLen` the length of the message template.
`int(x)` of a non-negative quotient is the floor. `" " * negative` is empty. -/
def barField (barWidth : Int) (tw msgLen : Int) (completed taskNum : Nat) : Nat × Nat :=
  let bw := min barWidth (min (tw - msgLen + 2) (tw * 6 / 10))
  let bw := max 2 bw
  let mark := (bw * completed) / taskNum
  (mark.toNat, (bw - mark).toNat)

/-- The `tasks` argument (progressbar.py:94-105, 167-178, 221-232): a `(iterable, int)` pair, a tuple
of any other form, a sized iterable, an iterable without `len`, or something else. -/
inductive TaskArg (α : Type) where
  | pair (items : List α) (n : Int)
  | badTuple
  | list (items : List α)
  | unsized (items : List α)
  | notIterable

/-- progressbar.py:94-105  argument checking. -/
def TaskArg.resolve {α : Type} : TaskArg α → Except PyErr (List α × Int)
  | .pair items n => .ok (items, n)
  | .badTuple => .error .assertionError
  | .list items => .ok (items, items.length)
  | .unsized _ => .error .typeError
  | .notIterable => .error .typeError

/-- progressbar.py:109-112  loop of `track_progress` (`bar = none` is `no_bar=True`). -/
def trackLoop {α β : Type} (func : α → Except PyErr β) :
    List α → List β → Option Bar → Except PyErr (List β × Option Bar)
  | [], acc, bar => .ok (acc, bar)
  | t :: ts, acc, bar => do
    let r ← func t
    match bar with
    | none => trackLoop func ts (acc ++ [r]) none
    | some b =>
      let b' ← b.update 1
      trackLoop func ts (acc ++ [r]) (some b')

/-- progressbar.py:78-115  `track_progress`. Returns the results and the final bar. -/
def trackProgress {α β : Type} (func : α → Except PyErr β) (tasks : TaskArg α) (noBar : Bool) :
    Except PyErr (List β × Option Bar) := do
  let (items, n) ← tasks.resolve
  trackLoop func items [] (if noBar then none else some (Bar.mk' n true))

/-! ### The pool iterator -/

/-- `Pool._get_tasks`: split the tasks in chunks of `size` (CPython `multiprocessing/pool.py`, used
by progressbar.py:186,188). -/
def chunksOf {α : Type} (size : Nat) : Nat → List α → List (List α)
  | 0, _ => []
  | _, [] => []
  | fuel + 1, l => l.take size :: chunksOf size fuel (l.drop size)

/-- State of CPython's `IMapIterator` (`_index`, `_items`, `_unsorted`, `_length`), plus the caller's
loop of progressbar.py:189-199. -/
inductive Status where
  | running
  | finished
  | raised (e : PyErr)
  deriving DecidableEq, Repr

structure PoolState (β : Type) where
  index : Nat
  items : List (Except PyErr (List β))
  unsorted : List (Nat × Except PyErr (List β))
  results : List β
  bar : Option Bar
  status : Status

inductive PoolEvent where
  /-- a worker finished chunk `i` and the result thread stored it -/
  | complete (i : Nat)
  /-- the caller's loop asks for the next chunk -/
  | next
  deriving DecidableEq, Repr

/-- Parameters of `track_parallel_progress` (progressbar.py:129-141). -/
structure ParArgs where
  nproc : Nat
  chunksize : Nat
  skipFirst : Bool
  keepOrder : Bool
  noBar : Bool
  deriving DecidableEq, Repr

/-- `IMapIterator._set`: the `while self._index in self._unsorted` loop; `fuel` bounds it by the
number of buffered chunks. -/
def drain {β : Type} : Nat → PoolState β → PoolState β
  | 0, s => s
  | fuel + 1, s =>
    match s.unsorted.find? (fun x => x.1 == s.index) with
    | some (_, obj) =>
      drain fuel { s with
        items := s.items ++ [obj]
        unsorted := s.unsorted.filter (fun x => x.1 != s.index)
        index := s.index + 1 }
    | none => s

/-- `IMapIterator._set(i, obj)` when `ordered`, `IMapUnorderedIterator._set` otherwise. -/
def poolSet {β : Type} (ordered : Bool) (s : PoolState β) (i : Nat) (obj : Except PyErr (List β)) :
    PoolState β :=
  if ordered then
    if s.index = i then
      drain s.unsorted.length { s with items := s.items ++ [obj], index := s.index + 1 }
    else { s with unsorted := s.unsorted ++ [(i, obj)] }
  else { s with items := s.items ++ [obj], index := s.index + 1 }

/-- progressbar.py:190-199  what the loop body does with one result. -/
def onResult {β : Type} (a : ParArgs) (r : β) (results : List β) (bar : Option Bar) :
    Except PyErr (List β × Option Bar) :=
  let results := results ++ [r]
  if a.skipFirst && results.length < a.nproc * a.chunksize then .ok (results, bar)
  else if a.skipFirst && results.length == a.nproc * a.chunksize then
    .ok (results, bar.map Bar.start)
  else
    match bar with
    | none => .ok (results, none)
    | some b => do
      let b' ← b.update 1
      pure (results, some b')

/-- The loop body applied to all results of a chunk in order. -/
def onChunk {β : Type} (a : ParArgs) :
    List β → List β → Option Bar → Except PyErr (List β × Option Bar)
  | [], results, bar => .ok (results, bar)
  | r :: rs, results, bar => do
    let (results, bar) ← onResult a r results bar
    onChunk a rs results bar

/-- One event. `n` is the number of chunks.  `next` on an empty queue blocks (no effect) unless all
chunks were delivered, in which case the loop ends. -/
def poolStep {α β : Type} (func : α → Except PyErr β) (a : ParArgs) (chunks : List (List α))
    (s : PoolState β) : PoolEvent → PoolState β
  | .complete i =>
    match chunks[i]? with
    | some c => poolSet a.keepOrder s i (c.mapM func)
    | none => s
  | .next =>
    match s.status with
    | .running =>
      match s.items with
      | .ok rs :: rest =>
        match onChunk a rs s.results s.bar with
        | .ok (results, bar) => { s with items := rest, results := results, bar := bar }
        | .error e => { s with items := rest, status := .raised e }
      | .error e :: rest => { s with items := rest, status := .raised e }
      | [] => if s.index = chunks.length then { s with status := .finished } else s
    | _ => s

/-- progressbar.py:167-188  set-up: argument checks, pool, bar, iterator. `imap` with a chunk size
below 1 and `Pool(0)` raise `ValueError`. -/
def parInit {α β : Type} (a : ParArgs) (tasks : TaskArg α) :
    Except PyErr (List (List α) × PoolState β) := do
  let (items, n) ← tasks.resolve
  if a.nproc = 0 then throw .valueError
  let n' : Int := n - (a.nproc * a.chunksize : Nat) * (if a.skipFirst then 1 else 0)
  let bar := if a.noBar then none else some (Bar.mk' n' (!a.skipFirst))
  if a.chunksize = 0 then throw .valueError
  pure (chunksOf a.chunksize items.length items, ⟨0, [], [], [], bar, .running⟩)

/-- progressbar.py:129-204  `track_parallel_progress` under a schedule: the final state. -/
def trackParallel {α β : Type} (func : α → Except PyErr β) (a : ParArgs) (tasks : TaskArg α)
    (schedule : List PoolEvent) : Except PyErr (PoolState β) := do
  let (chunks, s) ← parInit a tasks
  pure (schedule.foldl (poolStep func a chunks) s)

/-! ### track_iter_progress -/

/-- Generator state of progressbar.py:233-237. -/
structure IterState (α : Type) where
  rest : List α
  bar : Bar
  suspended : Bool

/-- One `next()` on the generator (progressbar.py:234-237): `none` is `StopIteration`. -/
def iterNext {α : Type} (s : IterState α) : Except PyErr (Option α × IterState α) := do
  let bar ← if s.suspended then s.bar.update 1 else .ok s.bar
  match s.rest with
  | [] => .ok (none, { s with bar := bar, suspended := false })
  | x :: xs => .ok (some x, ⟨xs, bar, true⟩)

/-- progressbar.py:221-233. -/
def iterInit {α : Type} (tasks : TaskArg α) : Except PyErr (IterState α) := do
  let (items, n) ← tasks.resolve
  pure ⟨items, Bar.mk' n true, false⟩

/-! ### The whole of `calculate_metrics` -/

/-- calculate_metrics.py:37-48  how the per-sample metrics are obtained. `schedule` is only used when
`nproc > 1`. A run whose caller loop has not ended is `none`. -/
def sampleMetrics {S : Type} (evalSingle : S → Except PyErr Counts) (samples : List S) (nproc : Nat)
    (schedule : List PoolEvent) : Option (Except PyErr (List Counts)) :=
  if nproc > 1 then
    match trackParallel evalSingle ⟨nproc, 1, false, true, false⟩ (.list samples) schedule with
    | .error e => some (.error e)
    | .ok s =>
      match s.status with
      | .running => none
      | .finished => some (.ok s.results)
      | .raised e => some (.error e)
  else
    some ((trackProgress evalSingle (.list samples) false).map Prod.fst)

/-- calculate_metrics.py:18-165  `calculate_metrics`.  `name` is `sample["name"]`. -/
def calculateMetrics {S : Type} (evalSingle : S → Except PyErr Counts) (name : S → String)
    (arg : ThresholdArg) (samples : List S) (nproc : Nat) (schedule : List PoolEvent) :
    Option (Except PyErr (List SampleResult × List ThresholdResult × OverallResult)) :=
  (sampleMetrics evalSingle samples nproc schedule).map fun r => do
    let cs ← r
    calculateFromCounts arg (List.zip (samples.map name) cs)

end EdgeEval
