import Verif.Model.Workers

/-!
# Vocabulary for C78: what a pool of processes may do to a task function with state
-/

namespace EdgeEval.Spec

open EdgeEval EdgeEval.Workers

/-- The states a process can be in that started in `st0` and has only run `f` on some of the tasks. -/
inductive Reach {σ α β : Type} (f : StFun σ α β) (items : List α) (st0 : σ) : σ → Prop
  | start : Reach f items st0 st0
  | step {st : σ} {x : α} : x ∈ items → Reach f items st0 st → Reach f items st0 (f x st).2

/-- The pool hands every chunk to at most one worker. -/
def OnceEach (sched : List FleetEvent) : Prop :=
  (sched.filterMap fun ev => match ev with
    | .complete _ i => some i
    | .next => none).Nodup

/-- The chunks that worker `w` ran, in order. -/
def chunksRun (w : Nat) (sched : List FleetEvent) : List Nat :=
  sched.filterMap fun ev => match ev with
    | .complete v i => if v = w then some i else none
    | .next => none

/-- The numbers of the tasks in chunk `i`, when `count` tasks are cut in chunks of `size`. -/
def tasksOf (size count i : Nat) : List Nat := (List.range' (i * size) size).filter fun k => k < count

/-- One process, starting in state `s`, ran the tasks with numbers `ks` one after the other; `st k` is the state in which task `k` started. -/
inductive RunFrom {σ α β : Type} (f : StFun σ α β) (items : List α) (st : Nat → σ) : σ → List Nat → Prop
  | nil (s : σ) : RunFrom f items st s []
  | cons {s : σ} {k : Nat} {x : α} {ks : List Nat} : items[k]? = some x → st k = s → RunFrom f items st (f x s).2 ks →
      RunFrom f items st s (k :: ks)

/-- The schedule as seen by somebody who does not look at which worker does what; workers that do not exist do nothing. -/
def anonymous (nproc : Nat) (sched : List FleetEvent) : List PoolEvent :=
  sched.filterMap fun ev => match ev with
    | .complete w i => if w < nproc then some (.complete i) else none
    | .next => some .next

/-- The task function as a mathematical function of (task, number of the task), given the states in which the tasks start. -/
def inStates {σ α β : Type} (f : StFun σ α β) (st : Nat → σ) (xk : α × Nat) : Except PyErr β := (f xk.1 (st xk.2)).1

end EdgeEval.Spec
