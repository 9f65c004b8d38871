import Verif.Model.CsaMem

/-!
# The life of a `CSA` object

`Model/CsaMem.lean` describes what the assignment solver does with the contents of its blocks; here is where the blocks come
from and where they go.  Every `malloc` and `new []` may fail, as the schedule `fails` says (it is asked once per request).
A block is known by its address and by how it was obtained; addresses are not used twice.  The macros are those of
`Model/Csa.lean`: no reverse arcs, no buckets, no `reached_nodes`, a stack of active nodes.
-/

namespace EdgeEval.CsaLife

open EdgeEval

/-- How a block was obtained, and so how it must be given back. -/
inductive Kind
  | malloc | newArr
  deriving DecidableEq, Repr

/-- How a run can end early. `exit` is the end of the process with a status and a message on the terminal (the pieces one after the other); `badAlloc` is
the exception of a failed `new []`; `badFree` is `free` or `delete []` of something that is not a block obtained the right
way and still allocated (undefined behaviour); `memory` is a bad memory access. -/
inductive Stop
  | exit (status : Nat) (message : List String)
  | badAlloc
  | assertion
  | badFree
  | memory (e : CsaMem.MErr)
  | notInScope
  deriving DecidableEq, Repr

/-- The heap: the allocated blocks, the next fresh address, the number of requests so far. -/
structure Heap where
  live : Nat → Option Kind
  next : Nat
  tries : Nat

/-- An operation on the heap; the heap is known also when the operation ends the run. -/
def Op (α : Type) := Heap → Except Stop α × Heap

instance : Monad Op where
  pure a := fun h => (.ok a, h)
  bind x f := fun h =>
    match x h with
    | (.ok a, h') => f a h'
    | (.error e, h') => (.error e, h')

/-- End the run. -/
def stop {α : Type} (e : Stop) : Op α := fun h => (.error e, h)

/-- Change of one address. -/
def upd (f : Nat → Option Kind) (p : Nat) (x : Option Kind) : Nat → Option Kind := fun q => if q = p then x else f q

/-- `malloc (...)`: `none` is `NULL`. -/
def malloc (fails : Nat → Bool) : Op (Option Nat) := fun h =>
  if fails h.tries then (.ok none, { h with tries := h.tries + 1 })
  else (.ok (some h.next), ⟨upd h.live h.next (some .malloc), h.next + 1, h.tries + 1⟩)

/-- `new int [...]`. -/
def newArr (fails : Nat → Bool) : Op (Option Nat) := fun h =>
  if fails h.tries then (.error .badAlloc, { h with tries := h.tries + 1 })
  else (.ok (some h.next), ⟨upd h.live h.next (some .newArr), h.next + 1, h.tries + 1⟩)

/-- Give a block back. -/
def release (k : Kind) (p : Nat) : Op Unit := fun h =>
  if h.live p = some k then (.ok (), { h with live := upd h.live p none }) else (.error .badFree, h)

/-- `free (p)`; nothing happens for `NULL`. -/
def free : Option Nat → Op Unit
  | none => pure ()
  | some p => release .malloc p

/-- `if (p != NULL) { delete [] p; }` (csa.hh:133-135). -/
def deleteArr : Option Nat → Op Unit
  | none => pure ()
  | some p => release .newArr p

/-- csa.cc:4-14  `err_messages`. -/
def errMessages : List String :=
  ["Can't read from the input file.", "Not a correct assignment problem line.",
   "Error reading a node descriptor from the input.", "Error reading an arc descriptor from the input.",
   "Unknown line type in the input", "Inconsistent number of arcs in the input.",
   "Parsing noncontiguous node ID numbers not implemented.", "Can't obtain enough memory to solve this problem."]

/-- csa.hh:643-649  `parse_error`: the entry of the table, and `exit(1)`. -/
def parseError {α : Type} (err : Nat) : Op α :=
  match errMessages[err % 1000 - 1]? with
  | none => stop (.memory .outOfBounds)
  | some s => stop (.exit 1 ["CSA: Error while parsing the input: ", s, " \n"])

/-- csa.hh:635. -/
def BADINPUT4 : Nat := 1004

/-- csa.hh:639. -/
def NOMEM : Nat := 1008

/-- The pointers of a `CSA` object to blocks of its own (csa.hh:56-60, 204-262; `bottom` is a field of the block `stack`)
and its result, as the ints returned by `edge(i, …)`. -/
structure Obj where
  arcs : Option Nat
  lhs : Option Nat
  rhs : Option Nat
  stack : Option Nat
  bottom : Option Nat
  resA : Option Nat
  resB : Option Nat
  resCosts : Option Nat
  edges : List (Int × Int × Int)
  deriving DecidableEq, Repr

/-- csa.hh:38  `edges()`. -/
def Obj.count (o : Obj) : Nat := o.edges.length

/-- csa.hh:41, 409, 425  `cost()`: `result_cost` after the loop of `store_results`. Simplification: no `int` overflow. -/
def Obj.cost (o : Obj) : Int := o.edges.foldl (fun s e => s + e.2.2) 0

/-- csa.hh:46-52  `edge(i, a, b, cost)`. -/
def Obj.edge (o : Obj) (i : Int) : Op (Int × Int × Int) :=
  if i < 0 ∨ (o.count : Int) ≤ i then stop .assertion
  else match o.edges[i.toNat]? with
    | some e => pure e
    | none => stop (.memory .outOfBounds)

/-- csa.hh:657-827  `parse`: its requests in the order of the code (676, 690, 693, 696, 704), the check of 705-707, the loops
(whose effect on the contents is `CsaMem.parse`) and the two calls of `free` (820-821). The block of right nodes is not
among the checked ones; the loop 761-774 writes through its pointer. -/
def parse (fails : Nat → Bool) (n m : Nat) (graph : CsaMem.Blk Int) : Op (Option Nat × Option Nat × Option Nat) := do
  let arcs ← malloc fails
  let lhs ← malloc fails
  let rhs ← malloc fails
  let degree ← malloc fails
  let temp ← malloc fails
  if lhs = none ∨ arcs = none ∨ degree = none ∨ temp = none then parseError NOMEM
  else match CsaMem.parse n m graph with
    | .error .parseError => parseError BADINPUT4
    | .error e => stop (.memory e)
    | .ok _ =>
      if rhs = none then stop (.memory .nullPointer)
      else do
        free temp
        free degree
        pure (arcs, lhs, rhs)

/-- csa.cc:16  `nomem_msg`. -/
def nomemMsg : String := "Insufficient memory.\n"

/-- csa.hh:1203-1222  `st_create`. -/
def stCreate (fails : Nat → Bool) : Op (Option Nat × Option Nat) := do
  let s ← malloc fails
  if s = none then stop (.exit 9 [nomemMsg])
  else do
    let b ← malloc fails
    if b = none then stop (.exit 9 [nomemMsg]) else pure (s, b)

/-- csa.hh:1225-1230  `st_destroy`: `s->bottom` first. -/
def stDestroy (s bottom : Option Nat) : Op Unit :=
  if s = none then stop (.memory .nullPointer)
  else do
    free bottom
    free s

/-- csa.cc:18-26, csa.hh:63-130, 332-377, 396-473  the constructor: its assertions (compiled out with `NDEBUG`), `parse`,
`create_active`, the scaling loop, which requests nothing, and the three blocks of `store_results`. The contents are
`CsaMem.solve`. -/
def construct (fl : ℚ → ℚ) (fuel : Nat) (dbg : Bool) (fails : Nat → Bool) (n m : Int) (graph : Option (CsaMem.Blk Int)) : Op Obj :=
  if dbg ∧ ¬ (0 < n ∧ 0 < m ∧ graph ≠ none ∧ n % 2 = 0) then stop .assertion
  else match graph with
  | none => stop (.memory .nullPointer)
  | some g => do
    let x ← parse fails n.toNat m.toNat g
    let y ← stCreate fails
    match CsaMem.solve fl fuel n.toNat m.toNat g with
    | .error e => stop (.memory e)
    | .ok edges => do
      let a ← newArr fails
      let b ← newArr fails
      let c ← newArr fails
      pure ⟨x.1, x.2.1, x.2.2, y.1, y.2, a, b, c, edges⟩

/-- csa.cc:28-31, csa.hh:132-154  the destructor: `_delete`. -/
def destroy (o : Obj) : Op Unit := do
  deleteArr o.resA
  deleteArr o.resB
  deleteArr o.resCosts
  free o.arcs
  free o.lhs
  free o.rhs
  stDestroy o.stack o.bottom

/-- What a program can do with `CSA` objects: declare one, let one go out of scope, and copy one (csa.hh declares neither a
copy constructor nor an assignment, so the compiler's copies of the pointers are what there is). -/
inductive Cmd
  | make (v : Nat) (n m : Int) (graph : Option (CsaMem.Blk Int))
  | drop (v : Nat)
  | copy (v w : Nat)
  | assign (v w : Nat)

/-- The living objects, by name. -/
abbrev Vars := Nat → Option Obj

/-- Change of one name. -/
def setVar (s : Vars) (v : Nat) (o : Option Obj) : Vars := fun w => if w = v then o else s w

/-- One command. -/
def step (fl : ℚ → ℚ) (fuel : Nat) (dbg : Bool) (fails : Nat → Bool) (s : Vars) : Cmd → Op Vars
  | .make v n m g => if s v = none then do
      let o ← construct fl fuel dbg fails n m g
      pure (setVar s v (some o))
    else stop .notInScope
  | .drop v => match s v with
    | none => stop .notInScope
    | some o => do
      destroy o
      pure (setVar s v none)
  | .copy v w => match s v, s w with
    | none, some o => pure (setVar s v (some o))
    | _, _ => stop .notInScope
  | .assign v w => match s v, s w with
    | some _, some o => pure (setVar s v (some o))
    | _, _ => stop .notInScope

/-- A whole program. -/
def run (fl : ℚ → ℚ) (fuel : Nat) (dbg : Bool) (fails : Nat → Bool) : Vars → List Cmd → Op Vars
  | s, [] => pure s
  | s, c :: cs => do
    let s' ← step fl fuel dbg fails s c
    run fl fuel dbg fails s' cs

end EdgeEval.CsaLife
