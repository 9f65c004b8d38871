import Verif.Model.Py

/-!
# Model of `pyEdgeEval/_lib/include/csa.hh` (assignment solver)

Only the code selected by the active macros is modelled: `QUICK_MIN`, `MIN_COST`, `PREC_COSTS`,
`NUM_BEST = 3`; `USE_PRICE_OUT`, `STRONG_PO`, `USE_P_UPDATE`, `USE_SP_AUG`, `QUEUE_ORDER`, … are off, so
every node stays "priced in" and nodes wait on a stack.  `double` arithmetic is exact rational
arithmetic.  Pointers to arcs of a left node `v` are positions in `v`'s arc list.  The two `while`
loops take a fuel argument; `none` means the fuel was used up or the C++ code would have run into
undefined behaviour (a left node without arcs).
-/

namespace EdgeEval

/-- An arc of the input graph as handed over by match.cc: 1-based left node, 1-based right node (offset
by the number of left nodes), integer cost. -/
structure InArc where
  tail : Nat
  head : Nat
  cost : Int
  deriving DecidableEq, Repr

/-- csa_types.h:189-215  `lr_arc`: right node (0-based) and cost. -/
structure Arc where
  head : Nat
  cost : Int
  deriving DecidableEq, Repr, Inhabited

/-- csa.hh:656-822  `parse`: with `n` nodes in total, `n/2` on the left; `none` is `parse_error`
(`exit(1)`). Nodes become 0-based; the arcs of each left node keep their input order (the counting sort
of csa.hh:783-812 runs backwards over the input and fills each bucket from its end). `n` is even in
match.cc:254, so the `swap` branch is never taken. -/
def csaParse (n : Nat) (g : List InArc) : Option (Nat → List Arc) :=
  if g.all (fun a => 1 ≤ a.tail && a.tail ≤ n / 2 && n / 2 + 1 ≤ a.head && a.head ≤ n) then
    some fun v => (g.filter (fun a => a.tail = v + 1)).map fun a => ⟨a.head - n / 2 - 1, a.cost⟩
  else none

/-- csa.hh:667, 733, 826  `max_cost`: the largest absolute cost, returned by `parse` and used as the initial
`epsilon` (csa.hh:341). -/
def csaMaxCost (g : List InArc) : Nat := g.foldl (fun m a => max m a.cost.natAbs) 0

/-- Solver state: prices of right nodes, the two matched pointers, the `best[]`/`next_best` cache of
left nodes, the stack of active left nodes and the excess counter (csa.hh:211-262, csa_types.h). -/
structure CsaState where
  p : Nat → ℚ
  mL : Nat → Option Nat
  mR : Nat → Option Nat
  best : Nat → List Nat
  nextBest : Nat → ℚ
  active : List Nat
  totalE : Nat

/-- `NUM_BEST` (csa_types.h:4). -/
def numBest : Nat := 3

/-- The `k`-th arc of left node `v`. -/
def arcAt (adj : Nat → List Arc) (v k : Nat) : Arc := (adj v).getD k default

/-- `a->c - a->head->p`. -/
def redCost (adj : Nat → List Arc) (p : Nat → ℚ) (v k : Nat) : ℚ :=
  ((arcAt adj v k).cost : ℚ) - p (arcAt adj v k).head

/-- csa.hh:836-854  `sort_insert(best, size, a, a_prc, nsize)` with `size = best.length`: put `a` before
the first entry with larger reduced cost, drop what falls beyond `nsize`; at the end otherwise. -/
def sortInsert (rc : Nat → ℚ) (a : Nat) : List Nat → Nat → List Nat
  | [], _ => [a]
  | b :: bs, nsize =>
    if rc a < rc b then (a :: b :: bs).take nsize
    else b :: sortInsert rc a bs (nsize - 1)

/-- Last entry of `best[]`. -/
def lastBest (best : List Nat) : Nat := best.getD (numBest - 1) 0

/-- csa.hh:896-912  body of the second loop of `best_build` for arc `a`. -/
def bestStep (rc : Nat → ℚ) (s : List Nat × ℚ) (a : Nat) : List Nat × ℚ :=
  if rc a < s.2 then
    if rc a < rc (lastBest s.1) then (sortInsert rc a s.1 numBest, rc (lastBest s.1))
    else (s.1, rc a)
  else s

/-- csa.hh:859-914  `best_build(v)` for a node of degree `deg ≥ NUM_BEST + 1`: new `best[]` and
`next_best`. -/
def bestBuild (rc : Nat → ℚ) (deg : Nat) : List Nat × ℚ :=
  let b := (List.range numBest).foldl (fun best i => sortInsert rc i best (i + 1)) []
  let first : List Nat × ℚ :=
    if rc numBest < rc (lastBest b) then (sortInsert rc numBest b numBest, rc (lastBest b))
    else (b, rc numBest)
  (List.range' (numBest + 1) (deg - (numBest + 1))).foldl (bestStep rc) first

/-- Result of part I of `double_push`: the chosen arc and the two smallest reduced costs. -/
structure Scan where
  pref : ℚ
  second : ℚ
  adm : Nat

/-- csa.hh:968-975, 1000-1010  one comparison of the scan. -/
def scanStep (rc : Nat → ℚ) (s : Scan) (k : Nat) : Scan :=
  if s.pref > rc k then ⟨rc k, s.pref, k⟩
  else if s.second > rc k then { s with second := rc k }
  else s

/-- csa.hh:958-975  scan of all arcs (node with few arcs). -/
def scanAll (rc : Nat → ℚ) (deg : Nat) (eps po : ℚ) : Scan :=
  (List.range' 1 (deg - 1)).foldl (scanStep rc) ⟨rc 0, rc 0 + eps * (po + 1), 0⟩

/-- csa.hh:986-1012  scan of the cached `best[]`. -/
def scanBest (rc : Nat → ℚ) (best : List Nat) : Scan :=
  let b0 := best.getD 0 0
  let b1 := best.getD 1 0
  let s : Scan := if rc b0 > rc b1 then ⟨rc b1, rc b0, b1⟩ else ⟨rc b0, rc b1, b0⟩
  scanStep rc s (best.getD 2 0)

/-- csa.hh:933-1029  part I of `double_push`, with the possibly rebuilt cache. -/
def choose (rc : Nat → ℚ) (deg : Nat) (eps po : ℚ) (best : List Nat) (nextBest : ℚ) :
    Scan × List Nat × ℚ :=
  if deg < numBest + 1 then (scanAll rc deg eps po, best, nextBest)
  else
    let s := scanBest rc best
    if s.second > nextBest then
      let (b, nb) := bestBuild rc deg
      (⟨rc (b.getD 0 0), rc (b.getD 1 0), b.getD 0 0⟩, b, nb)
    else (s, best, nextBest)

/-- Function update. -/
def upd {β : Type} (f : Nat → β) (k : Nat) (x : β) : Nat → β := fun i => if i = k then x else f i

/-- csa.hh:918-1102  `double_push(v)` (`priced_in` is always true). -/
def doublePush (adj : Nat → List Arc) (eps po : ℚ) (v : Nat) (s : CsaState) : CsaState :=
  let rc := redCost adj s.p v
  let (sc, best', nb') := choose rc (adj v).length eps po (s.best v) (s.nextBest v)
  let gap := sc.second - sc.pref
  let w := (arcAt adj v sc.adm).head
  let s1 : CsaState :=
    { s with
      p := upd s.p w (s.p w - (gap + eps))
      best := upd s.best v best'
      nextBest := upd s.nextBest v nb' }
  match s.mR w with
  | some u =>
    { s1 with
      mL := upd (upd s.mL u none) v (some sc.adm)
      mR := upd s.mR w (some v)
      active := u :: s1.active }
  | none =>
    { s1 with
      mL := upd s.mL v (some sc.adm)
      mR := upd s.mR w (some v)
      totalE := s1.totalE - 1 }

/-- csa.hh:1127-1139  body of the first loop of `refine` for left node `v`. -/
def refineInitStep (adj : Nat → List Arc) (s : CsaState) (v : Nat) : CsaState :=
  let s' : CsaState :=
    match s.mL v with
    | some k => { s with mR := upd s.mR (arcAt adj v k).head none, mL := upd s.mL v none }
    | none => s
  { s' with totalE := s'.totalE + 1, active := v :: s'.active }

/-- csa.hh:1126-1139  start of `refine`: unmatch everything, make all left nodes active. -/
def refineInit (adj : Nat → List Arc) (N : Nat) (s : CsaState) : CsaState :=
  (List.range N).foldl (refineInitStep adj) { s with totalE := 0 }

/-- csa.hh:1153-1173  the main loop of `refine`: pop an active node, double push, until there is no
excess. A node without arcs is undefined behaviour (`a = v->first` is then not an arc of `v`). -/
def refineLoop (adj : Nat → List Arc) (eps po : ℚ) : Nat → CsaState → Option CsaState
  | 0, _ => none
  | fuel + 1, s =>
    if s.totalE = 0 then some s
    else
      match s.active with
      | [] => none
      | v :: rest =>
        if adj v = [] then none
        else refineLoop adj eps po fuel (doublePush adj eps po v { s with active := rest })

/-- csa.hh:1104-1182  `refine`. -/
def refine (adj : Nat → List Arc) (N : Nat) (eps po : ℚ) (fuel : Nat) (s : CsaState) :
    Option CsaState :=
  refineLoop adj eps po fuel (refineInit adj N s)

/-- csa_defs.h:4 `DEFAULT_SCALE_FACTOR`. -/
def scaleFactor : ℚ := 10

/-- csa.hh:1264-1266  `update_epsilon`. -/
def updateEpsilon (eps minEps : ℚ) : ℚ :=
  if eps / scaleFactor < minEps then minEps else eps / scaleFactor

/-- csa.hh:451-467  the scaling loop of `main`. -/
def mainLoop (adj : Nat → List Arc) (N : Nat) (po minEps : ℚ) (fuelR : Nat) :
    Nat → ℚ → CsaState → Option CsaState
  | 0, _, _ => none
  | fuel + 1, eps, s =>
    if eps > minEps then
      match refine adj N (updateEpsilon eps minEps) po fuelR s with
      | some s' => mainLoop adj N po minEps fuelR fuel (updateEpsilon eps minEps) s'
      | none => none
    else some s

/-- csa.hh:323-378  `init`: prices 0, nothing matched, `best_build` for nodes with enough arcs. -/
def csaInit (adj : Nat → List Arc) : CsaState where
  p := fun _ => 0
  mL := fun _ => none
  mR := fun _ => none
  best := fun v =>
    if (adj v).length < numBest + 1 then []
    else (bestBuild (redCost adj (fun _ => 0) v) (adj v).length).1
  nextBest := fun v =>
    if (adj v).length < numBest + 1 then 0
    else (bestBuild (redCost adj (fun _ => 0) v) (adj v).length).2
  active := []
  totalE := 0

/-- csa.hh:396-426  `store_results`: for each left node the matched pair (1-based, right nodes offset)
and its cost. An unmatched node is a null dereference. -/
def storeResults (adj : Nat → List Arc) (N : Nat) (s : CsaState) : Option (List InArc) :=
  (List.range N).mapM fun (v : Nat) => (s.mL v).map fun k =>
    (⟨v + 1, (arcAt adj v k).head + 1 + N, (arcAt adj v k).cost⟩ : InArc)

/-- csa.hh:428-473 and csa.cc  `CSA csa(n, m, graph)` followed by `csa.edge(i, …)` for all `i`. -/
def csaSolve (fuel : Nat) (n : Nat) (g : List InArc) : Option (List InArc) := do
  let adj ← csaParse n g
  let po : ℚ := 2 * n * (scaleFactor + 1)
  let minEps : ℚ := 2 / ((n : ℚ) + 1)
  let s ← mainLoop adj (n / 2) po minEps fuel fuel (csaMaxCost g) (csaInit adj)
  storeResults adj (n / 2) s

end EdgeEval
