import Verif.Model.Py

/-!
# Model of `pyEdgeEval/utils/logger.py`

The `logging` module is modelled by, for each logger name, its list of attached handlers and its level;
whether opening a log file succeeds is an argument of the call.  `logging.getLogger` itself has no other
observable effect here.
-/

namespace EdgeEval

inductive Handler where
  | stream (level : Nat)
  | file (path mode : String) (level : Nat)
  deriving DecidableEq, Repr

/-- logger.py:12 `logger_initialized` (names in insertion order) together with the handlers and levels
held by the `logging` module (0 = NOTSET). -/
structure LogState where
  initialized : List (List Char)
  handlers : List Char → List Handler
  level : List Char → Nat

def LogState.empty : LogState := ⟨[], fun _ => [], fun _ => 0⟩

/-- A call `get_logger(name, log_file, log_level, file_mode)`; `opens` says whether `FileHandler` can
open the file. -/
structure LogCall where
  name : List Char
  logFile : Option String
  level : Nat
  mode : String
  opens : Bool
  deriving DecidableEq

/-- logger.py:15-69  `get_logger`. The handlers are created before anything is attached, so a failing
`FileHandler` leaves the state unchanged. `str.startswith` is list prefix. -/
def getLogger (s : LogState) (c : LogCall) : Except PyErr LogState :=
  if c.name ∈ s.initialized then .ok s
  else if s.initialized.any (fun p => p.isPrefixOf c.name) then .ok s
  else
    let attach (hs : List Handler) : LogState :=
      { initialized := s.initialized ++ [c.name]
        handlers := fun n => if n = c.name then s.handlers n ++ hs else s.handlers n
        level := fun n => if n = c.name then c.level else s.level n }
    match c.logFile with
    | none => .ok (attach [.stream c.level])
    | some f => if c.opens then .ok (attach [.stream c.level, .file f c.mode c.level])
                else .error .oserror

/-- logger.py:101-124  `get_root_logger`. -/
def getRootLogger (s : LogState) (logFile : Option String) (level : Nat) (opens : Bool) :
    Except PyErr LogState :=
  getLogger s ⟨"pyEdgeEval".toList, logFile, level, "w", opens⟩

/-- The state after a history of `get_logger` calls (a call that raises is caught by the caller). -/
def LogState.run (s : LogState) (h : List LogCall) : LogState :=
  h.foldl (fun s c => match getLogger s c with | .ok s' => s' | .error _ => s) s

/-- The `logger` argument of `print_log` (logger.py:72-98). -/
inductive LogTarget where
  | none
  | logger (name : List Char)
  | name (name : List Char)
  | other
  deriving DecidableEq

inductive LogEffect where
  | printed
  | logged (name : List Char)
  | nothing
  deriving DecidableEq

/-- logger.py:72-98  `print_log`: the effect and the state afterwards. -/
def printLog (s : LogState) : LogTarget → Except PyErr (LogEffect × LogState)
  | .none => .ok (.printed, s)
  | .logger n => .ok (.logged n, s)
  | .name n =>
    if n = "silent".toList then .ok (.nothing, s)
    else do
      let s' ← getLogger s ⟨n, .none, 20, "w", true⟩
      pure (.logged n, s')
  | .other => .error .typeError

/-- Standard library rule (`logging.Logger.callHandlers`): a record logged to `n` is emitted by the
handlers of `n` and of all its dotted ancestors (and the root logger, name `[]`), propagation being on
by default. -/
def isAncestor (p n : List Char) : Bool :=
  p == [] || p == n || (p ++ ['.']).isPrefixOf n

/-- How often a record logged to `n` is written to the console, loggers named in `names` existing. -/
def emitCount (s : LogState) (names : List (List Char)) (n : List Char) : Nat :=
  ((names.filter (fun p => isAncestor p n)).map fun p => (s.handlers p).length).sum

end EdgeEval
