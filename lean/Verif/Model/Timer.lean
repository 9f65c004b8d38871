import Verif.Model.Py

/-!
# Model of `pyEdgeEval/utils/timer.py`

Every call carries the clock readings it makes (`time()` is called up to twice per method); readings
are arbitrary rationals, the clock need not even be monotone unless a theorem says so.
-/

namespace EdgeEval

/-- timer.py:43-47  the attributes of a `Timer`. `_t_start` and `_t_last` do not exist before the first
`start()`; they are never read before it (all readers test `_is_running` first). -/
structure TimerState where
  running : Bool
  tStart : ℚ
  tLast : ℚ
  deriving DecidableEq, Repr

/-- One method call with its clock readings: `t1` is the first `time()` of the call, `t2` the second. -/
inductive TimerOp where
  | start (t1 t2 : ℚ)
  | sinceStart (t1 : ℚ)
  | sinceLastCheck (t1 t2 : ℚ)
  | exit (t1 t2 : ℚ)
  | isRunning
  deriving DecidableEq, Repr

/-- timer.py:62-67  `start` (also `__enter__`, timer.py:54-56). When already running only one reading
is made; it is called `t2` in both cases. -/
def TimerState.start (s : TimerState) (t1 t2 : ℚ) : TimerState :=
  { running := true
    tStart := if s.running then s.tStart else t1
    tLast := t2 }

/-- timer.py:43-47  `Timer(start=...)`. -/
def TimerState.init (start : Bool) (t1 t2 : ℚ) : TimerState :=
  let s : TimerState := ⟨false, 0, 0⟩
  if start then s.start t1 t2 else s

/-- timer.py:69-78  `since_start`. -/
def TimerState.sinceStart (s : TimerState) (t1 : ℚ) : Except PyErr (ℚ × TimerState) :=
  if s.running then .ok (t1 - s.tStart, { s with tLast := t1 }) else .error .timerError

/-- timer.py:80-93  `since_last_check`. -/
def TimerState.sinceLastCheck (s : TimerState) (t1 t2 : ℚ) : Except PyErr (ℚ × TimerState) :=
  if s.running then .ok (t1 - s.tLast, { s with tLast := t2 }) else .error .timerError

/-- One call: what it returns (`none` for methods without a number) and the state afterwards. A call
that raises leaves the state as it was (the test precedes every assignment). `exit` is `__exit__`
(timer.py:58-60), which prints `since_last_check()` and stops the timer. -/
def TimerState.step (s : TimerState) : TimerOp → Except PyErr (Option ℚ) × TimerState
  | .start t1 t2 => (.ok none, s.start t1 t2)
  | .sinceStart t1 =>
    match s.sinceStart t1 with
    | .ok (d, s') => (.ok (some d), s')
    | .error e => (.error e, s)
  | .sinceLastCheck t1 t2 =>
    match s.sinceLastCheck t1 t2 with
    | .ok (d, s') => (.ok (some d), s')
    | .error e => (.error e, s)
  | .exit t1 t2 =>
    match s.sinceLastCheck t1 t2 with
    | .ok (d, s') => (.ok (some d), { s' with running := false })
    | .error e => (.error e, s)
  | .isRunning => (.ok none, s)

/-- State after a history of calls. -/
def TimerState.run (s : TimerState) (h : List TimerOp) : TimerState :=
  h.foldl (fun s op => (s.step op).2) s

/-- timer.py:96  `_g_timers`, a dict from timer ids to timers. -/
abbrev GTimers := List (String × TimerState)

/-- timer.py:99-123  `check_time(timer_id)`. -/
def checkTime (g : GTimers) (id : String) (t1 t2 : ℚ) : Except PyErr (ℚ × GTimers) :=
  match g.lookup id with
  | none => .ok (0, g ++ [(id, TimerState.init true t1 t2)])
  | some s => do
    let (d, s') ← s.sinceLastCheck t1 t2
    pure (d, g.map fun p => if p.1 == id then (p.1, s') else p)

/-- A history of `check_time` calls: (id, readings). -/
def checkTimes (g : GTimers) : List (String × ℚ × ℚ) → Except PyErr (List ℚ × GTimers)
  | [] => .ok ([], g)
  | (id, t1, t2) :: rest => do
    let (d, g) ← checkTime g id t1 t2
    let (ds, g) ← checkTimes g rest
    pure (d :: ds, g)

end EdgeEval
