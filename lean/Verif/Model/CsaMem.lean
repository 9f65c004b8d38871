import Verif.Model.CsaFloat

/-!
# Memory-level model of `csa.hh`

The assignment solver once more, now with its arrays: every `malloc`ed block has a size and cells that are uninitialised
until written; an arc, node or stack pointer is an index into its block; every read and write is checked.  A read or write
outside a block, a read of an uninitialised cell and the dereference of a null pointer are errors (undefined behaviour in
C++).  The fields of a struct are separate blocks of the same length, so each field is initialised separately.  The macros
are those of `Model/Csa.lean`; every arithmetic operation on `double` is rounded by `fl`.  Pointer differences that would go
below the start of a block are errors too (stricter than C++, where the pointer itself could still be formed).
-/

namespace EdgeEval.CsaMem

open EdgeEval

/-- What can go wrong. `parseError` is `exit(1)` of csa.hh:643-649; `assertion` is a failed C `assert` (used in
`Model/MatchMem.lean`); `outOfFuel` is the cut-off of the two unbounded loops. -/
inductive MErr
  | outOfBounds | uninitialised | nullPointer | parseError | assertion | outOfFuel
  deriving DecidableEq, Repr

/-- A block of memory: its size and its cells (`none` = uninitialised). -/
structure Blk (α : Type) where
  size : Nat
  cell : Nat → Option α

/-- `malloc(size * sizeof(α))`, assumed to succeed. -/
def malloc (α : Type) (size : Nat) : Blk α := ⟨size, fun _ => none⟩

/-- Read `b[i]`. -/
def Blk.rd {α : Type} (b : Blk α) (i : Nat) : Except MErr α :=
  if i < b.size then
    match b.cell i with
    | some x => .ok x
    | none => .error .uninitialised
  else .error .outOfBounds

/-- Write `b[i] = x`. -/
def Blk.wr {α : Type} (b : Blk α) (i : Nat) (x : α) : Except MErr (Blk α) :=
  if i < b.size then .ok ⟨b.size, fun j => if j = i then some x else b.cell j⟩ else .error .outOfBounds

/-- Dereference a pointer that may be null. -/
def deref {α : Type} : Option α → Except MErr α
  | some x => .ok x
  | none => .error .nullPointer

/-- `--x` on a counter or pointer that must not pass the start. -/
def dec (x : Nat) : Except MErr Nat := if x = 0 then .error .outOfBounds else .ok (x - 1)

/-- `for (i = lo; i < lo + cnt; i++)`. -/
def forLoop {σ : Type} (f : Nat → σ → Except MErr σ) : (cnt lo : Nat) → σ → Except MErr σ
  | 0, _, s => .ok s
  | cnt + 1, lo, s => do
    let s ← f lo s
    forLoop f cnt (lo + 1) s

/-- `for (a = lo; a != hi; a++)`; when `lo` is already past `hi` the loop runs off the block. -/
def forPtr {σ : Type} (f : Nat → σ → Except MErr σ) (lo hi : Nat) (s : σ) : Except MErr σ :=
  if hi < lo then .error .outOfBounds else forLoop f (hi - lo) lo s

/-- csa.hh:163-166, 231-234 and csa_types.h  the blocks of the solver. Arcs: `lr_arc`; `pricedOut … nextBest`: the fields of `lhs_node`
(`best` has three cells per node); `rMatched … pricedIn`: the fields of `rhs_node`; the stack of active nodes and its top;
`total_e`. -/
structure Heap where
  arcs : Blk Arc
  pricedOut : Blk Nat
  first : Blk Nat
  lMatched : Blk (Option Nat)
  few : Blk Bool
  best : Blk Nat
  nextBest : Blk ℚ
  rMatched : Blk (Option Nat)
  price : Blk ℚ
  pricedIn : Blk Bool
  stack : Blk Nat
  top : Nat
  totalE : Nat

/-! ## `parse` -/

/-- csa.hh:651-655  `temp_arc`. -/
structure TempArc where
  tail : Nat
  head : Nat
  cost : Int
  deriving DecidableEq, Repr

/-- State of the first loop of `parse`: `temp_arcs`, `temp_a` (as an index), `lhs_degree`, `max_cost`. -/
structure ParseSt where
  temp : Blk TempArc
  tempA : Nat
  degree : Blk Nat
  maxCost : Nat

/-- csa.hh:713-739  body of the loop over the input arcs. `tail` and `head` are `unsigned`; a negative difference becomes a
huge number there and is refused like here. -/
def readArc (n lhsN : Nat) (graph : Blk Int) (i : Nat) (st : ParseSt) : Except MErr ParseSt := do
  let tail ← graph.rd (3 * i)
  let head0 ← graph.rd (3 * i + 1)
  let cost ← graph.rd (3 * i + 2)
  let head := head0 - lhsN
  if tail < 1 ∨ tail > lhsN ∨ head < 1 ∨ head > (n - lhsN : Nat) then .error .parseError
  else
    let h := (head - 1).toNat
    let t := (tail - 1).toNat
    let temp ← st.temp.wr st.tempA ⟨t, h, cost⟩
    let d ← st.degree.rd t
    let degree ← st.degree.wr t (d + 1)
    .ok ⟨temp, st.tempA + 1, degree, if cost.natAbs > st.maxCost then cost.natAbs else st.maxCost⟩

/-- csa.hh:743-754  body of the loop over the left nodes: the running arc pointer `a` and the heap. -/
def layNode (degree : Blk Nat) (v : Nat) (s : Nat × Heap) : Except MErr (Nat × Heap) := do
  let first ← s.2.first.wr v s.1
  let pricedOut ← s.2.pricedOut.wr v s.1
  let lMatched ← s.2.lMatched.wr v none
  let d ← degree.rd v
  let few ← s.2.few.wr v (decide (d < numBest + 1))
  .ok (s.1 + d, { s.2 with first := first, pricedOut := pricedOut, lMatched := lMatched, few := few })

/-- csa.hh:761-776  body of the loop over the right nodes. -/
def initRight (w : Nat) (h : Heap) : Except MErr Heap := do
  let pricedIn ← h.pricedIn.wr w true
  let rMatched ← h.rMatched.wr w none
  let price ← h.price.wr w 0
  .ok { h with pricedIn := pricedIn, rMatched := rMatched, price := price }

/-- csa.hh:781-818  body of the last loop: put the arc into the block. -/
def placeArc (temp : Blk TempArc) (i : Nat) (s : Blk Nat × Heap) : Except MErr (Blk Nat × Heap) := do
  let t ← temp.rd i
  let f ← s.2.first.rd t.tail
  let d ← s.1.rd t.tail
  let d' ← dec d
  let degree ← s.1.wr t.tail d'
  let arcs ← s.2.arcs.wr (f + d') ⟨t.head, t.cost⟩
  .ok (degree, { s.2 with arcs := arcs })

/-- csa.hh:781  `for (temp_a--; temp_a != temp_arcs - 1; temp_a--)`: the arcs `cnt - 1, …, 0`. -/
def placeArcs (temp : Blk TempArc) : (cnt : Nat) → Blk Nat × Heap → Except MErr (Blk Nat × Heap)
  | 0, s => .ok s
  | cnt + 1, s => do
    let s ← placeArc temp cnt s
    placeArcs temp cnt s

/-- csa.hh:676-695 and 346  the allocated blocks, with `l` left and `r` right nodes (`create_active(n)` is listed here too). -/
def heap0 (l r m : Nat) : Heap where
  arcs := malloc Arc (m + 1)
  pricedOut := malloc Nat (l + 1)
  first := malloc Nat (l + 1)
  lMatched := malloc (Option Nat) (l + 1)
  few := malloc Bool (l + 1)
  best := malloc Nat (numBest * (l + 1))
  nextBest := malloc ℚ (l + 1)
  rMatched := malloc (Option Nat) (r + 1)
  price := malloc ℚ (r + 1)
  pricedIn := malloc Bool (r + 1)
  stack := malloc Nat (l + r)
  top := 0
  totalE := 0

/-- csa.hh:657-827  `parse`: the filled blocks and `max_cost`. With `lhs_n = n/2` the `swap` branch is never taken. -/
def parse (n m : Nat) (graph : Blk Int) : Except MErr (Heap × Nat) := do
  let lhsN := n / 2
  let degree0 ← forLoop (fun t (d : Blk Nat) => d.wr t 0) lhsN 0 (malloc Nat lhsN)
  let st ← forLoop (readArc n lhsN graph) m 0 ⟨malloc TempArc m, 0, degree0, 0⟩
  let x ← forLoop (layNode st.degree) lhsN 0 (0, heap0 lhsN (n - lhsN) m)
  let pricedOut ← x.2.pricedOut.wr lhsN x.1
  let h2 ← forLoop initRight (n - lhsN) 0 { x.2 with pricedOut := pricedOut }
  let y ← placeArcs st.temp st.tempA (st.degree, h2)
  .ok (y.2, st.maxCost)

/-! ## `best_build` -/

/-- `a->c - a->head->p`. -/
def rcM (fl : ℚ → ℚ) (h : Heap) (a : Nat) : Except MErr ℚ := do
  let x ← h.arcs.rd a
  let p ← h.price.rd x.head
  .ok (fl ((x.cost : ℚ) - p))

/-- Read `v->best[i]`. -/
def bestRd (h : Heap) (v i : Nat) : Except MErr Nat :=
  if i < numBest then h.best.rd (numBest * v + i) else .error .outOfBounds

/-- Write `v->best[i] = a`. -/
def bestWr (h : Heap) (v i a : Nat) : Except MErr Heap :=
  if i < numBest then do
    let b ← h.best.wr (numBest * v + i) a
    .ok { h with best := b }
  else .error .outOfBounds

/-- csa.hh:843-847  search of `sort_insert`: the first position among the next `cnt` whose reduced cost is larger, else the
position after them. -/
def findPos (fl : ℚ → ℚ) (h : Heap) (v : Nat) (prc : ℚ) : (cnt i : Nat) → Except MErr Nat
  | 0, i => .ok i
  | cnt + 1, i => do
    let b ← bestRd h v i
    let r ← rcM fl h b
    if prc < r then .ok i else findPos fl h v prc cnt (i + 1)

/-- csa.hh:848-849  `for (si_i = nsize - 1; si_i > si_j; si_i--) best[si_i] = best[si_i - 1]` with `cnt` values left. -/
def shiftUp (v j : Nat) : (cnt : Nat) → Heap → Except MErr Heap
  | 0, h => .ok h
  | cnt + 1, h => do
    let b ← bestRd h v (j + cnt)
    let h ← bestWr h v (j + cnt + 1) b
    shiftUp v j cnt h

/-- csa.hh:834-854  `sort_insert(v->best, size, a, prc, nsize)`. -/
def sortInsertM (fl : ℚ → ℚ) (v size a : Nat) (prc : ℚ) (nsize : Nat) (h : Heap) : Except MErr Heap :=
  if size = 0 then bestWr h v 0 a
  else do
    let j ← findPos fl h v prc size 0
    let h ← if j < size then shiftUp v j (nsize - 1 - j) h else .ok h
    bestWr h v j a

/-- csa.hh:893-912  body of the last loop of `best_build`. -/
def bestStepM (fl : ℚ → ℚ) (v a : Nat) (h : Heap) : Except MErr Heap := do
  let red ← rcM fl h a
  let nb ← h.nextBest.rd v
  if red < nb then
    let b2 ← bestRd h v (numBest - 1)
    let save ← rcM fl h b2
    if red < save then
      let h ← sortInsertM fl v numBest a red numBest h
      let x ← h.nextBest.wr v save
      .ok { h with nextBest := x }
    else
      let x ← h.nextBest.wr v red
      .ok { h with nextBest := x }
  else .ok h

/-- csa.hh:866-870  body of the first loop of `best_build`. -/
def bestFirstM (fl : ℚ → ℚ) (v a0 i : Nat) (h : Heap) : Except MErr Heap := do
  let red ← rcM fl h (a0 + i)
  sortInsertM fl v i (a0 + i) red (i + 1) h

/-- csa.hh:879-885  `best_build(v)`: the arc after the first `numBest` ones (`nb` is its reduced cost). -/
def bestFourthM (fl : ℚ → ℚ) (v a : Nat) (nb : ℚ) (h : Heap) : Except MErr Heap := do
  let b2 ← bestRd h v (numBest - 1)
  let red ← rcM fl h b2
  if nb < red then
    let h ← sortInsertM fl v numBest a nb numBest h
    let x ← h.nextBest.wr v red
    .ok { h with nextBest := x }
  else .ok h

/-- csa.hh:858-913  `best_build(v)`. -/
def bestBuildM (fl : ℚ → ℚ) (v : Nat) (h : Heap) : Except MErr Heap := do
  let a0 ← h.first.rd v
  let h ← forLoop (bestFirstM fl v a0) numBest 0 h
  let nb ← rcM fl h (a0 + numBest)
  let x ← h.nextBest.wr v nb
  let h ← bestFourthM fl v (a0 + numBest) nb { h with nextBest := x }
  let stop ← h.pricedOut.rd (v + 1)
  forPtr (bestStepM fl v) (a0 + numBest + 1) stop h

/-! ## `double_push`, `refine`, `main` -/

/-- csa_defs.h:42-46  `st_push`. -/
def push (v : Nat) (h : Heap) : Except MErr Heap := do
  let st ← h.stack.wr h.top v
  .ok { h with stack := st, top := h.top + 1 }

/-- csa.hh:1196-1201  `st_pop`. -/
def pop (h : Heap) : Except MErr (Nat × Heap) := do
  let t ← dec h.top
  let v ← h.stack.rd t
  .ok (v, { h with top := t })

/-- Result of part I of `double_push` (`adm` is a pointer into the arc block). -/
structure ScanM where
  pref : ℚ
  second : ℚ
  adm : Nat

/-- csa.hh:964-972, 998-1009  one comparison. -/
def scanStepM (fl : ℚ → ℚ) (h : Heap) (a : Nat) (s : ScanM) : Except MErr ScanM := do
  let red ← rcM fl h a
  .ok (if s.pref > red then ⟨red, s.pref, a⟩ else if s.second > red then { s with second := red } else s)

/-- csa.hh:955-972  part I of `double_push(v)`, few arcs. -/
def chooseFewM (fl : ℚ → ℚ) (eps po : ℚ) (v : Nat) (h : Heap) : Except MErr (ScanM × Heap) := do
  let stop ← h.pricedOut.rd (v + 1)
  let a ← h.first.rd v
  let pref ← rcM fl h a
  let s ← forPtr (scanStepM fl h) (a + 1) stop ⟨pref, fl (pref + fl (eps * fl (po + 1))), a⟩
  .ok (s, h)

/-- csa.hh:986-1009  part I of `double_push(v)`, the three cached arcs. -/
def chooseBestM (fl : ℚ → ℚ) (v : Nat) (h : Heap) : Except MErr ScanM := do
  let b1 ← bestRd h v 1
  let second ← rcM fl h b1
  let b0 ← bestRd h v 0
  let pref ← rcM fl h b0
  let b2 ← bestRd h v 2
  scanStepM fl h b2 (if pref > second then ⟨second, pref, b1⟩ else ⟨pref, second, b0⟩)

/-- csa.hh:1018-1022  part I of `double_push(v)`, after the cache was rebuilt. -/
def chooseBuiltM (fl : ℚ → ℚ) (v : Nat) (h : Heap) : Except MErr (ScanM × Heap) := do
  let h ← bestBuildM fl v h
  let b1 ← bestRd h v 1
  let second ← rcM fl h b1
  let b0 ← bestRd h v 0
  let pref ← rcM fl h b0
  .ok (⟨pref, second, b0⟩, h)

/-- csa.hh:945-1026  part I of `double_push(v)`. -/
def chooseM (fl : ℚ → ℚ) (eps po : ℚ) (v : Nat) (h : Heap) : Except MErr (ScanM × Heap) := do
  let few ← h.few.rd v
  if few then chooseFewM fl eps po v h
  else
    let s ← chooseBestM fl v h
    let nb ← h.nextBest.rd v
    if s.second > nb then chooseBuiltM fl v h else .ok (s, h)

/-- csa.hh:1069-1070, 1081-1082  `v->matched = a; w->node.matched = v`. -/
def matchM (v w a : Nat) (h : Heap) : Except MErr Heap := do
  let lm ← h.lMatched.wr v (some a)
  let rm ← h.rMatched.wr w (some v)
  .ok { h with lMatched := lm, rMatched := rm }

/-- csa.hh:1057-1083  the push itself: `w` was matched to `u?`. Gives the amount by which the price falls. -/
def pushToM (fl : ℚ → ℚ) (eps po : ℚ) (v w adm : Nat) (gap : ℚ) (h : Heap) : Option Nat → Except MErr (ℚ × Heap)
  | some u => do
    let pin ← h.pricedIn.rd w
    if pin then
      let lm ← h.lMatched.wr u none
      let h ← push u { h with lMatched := lm }
      let h ← matchM v w adm h
      .ok (gap, h)
    else
      let h ← push v h
      .ok (fl (eps * po), h)
  | none => do
    let te ← dec h.totalE
    let h ← matchM v w adm { h with totalE := te }
    .ok (gap, h)

/-- csa.hh:918-1102  `double_push(v)`. -/
def doublePushM (fl : ℚ → ℚ) (eps po : ℚ) (v : Nat) (h : Heap) : Except MErr Heap := do
  let s ← chooseM fl eps po v h
  let x ← s.2.arcs.rd s.1.adm
  let u? ← s.2.rMatched.rd x.head
  let g ← pushToM fl eps po v x.head s.1.adm (fl (s.1.second - s.1.pref)) s.2 u?
  let p ← g.2.price.rd x.head
  let price ← g.2.price.wr x.head (fl (p - fl (g.1 + eps)))
  .ok { g.2 with price := price }

/-- csa.hh:1127-1131  body of the first loop of `refine`: undo the matching of `v` unless it is priced in. -/
def unmatchArc (v : Nat) (h : Heap) : Option Nat → Except MErr Heap
  | some a => do
    let x ← h.arcs.rd a
    let pin ← h.pricedIn.rd x.head
    if pin then
      let rm ← h.rMatched.wr x.head none
      let lm ← h.lMatched.wr v none
      .ok { h with rMatched := rm, lMatched := lm }
    else .ok h
  | none => .ok h

/-- csa.hh:1125-1137  body of the first loop of `refine`. -/
def unmatch (v : Nat) (h : Heap) : Except MErr Heap := do
  let m ← h.lMatched.rd v
  let h ← unmatchArc v h m
  let m ← h.lMatched.rd v
  match m with
  | none => push v { h with totalE := h.totalE + 1 }
  | some _ => .ok h

/-- csa.hh:1150-1175  `while (total_e > 0)` of `refine`. -/
def refineLoopM (fl : ℚ → ℚ) (eps po : ℚ) : Nat → Heap → Except MErr Heap
  | 0, _ => .error .outOfFuel
  | fuel + 1, h =>
    if h.totalE = 0 then .ok h
    else do
      let x ← pop h
      let h ← doublePushM fl eps po x.1 x.2
      refineLoopM fl eps po fuel h

/-- csa.hh:1104-1182  `refine`. -/
def refineM (fl : ℚ → ℚ) (N : Nat) (eps po : ℚ) (fuel : Nat) (h : Heap) : Except MErr Heap := do
  let h ← forLoop unmatch N 0 { h with totalE := 0 }
  refineLoopM fl eps po fuel h

/-- csa.hh:454-469  the scaling loop of `main`. -/
def mainLoopM (fl : ℚ → ℚ) (N : Nat) (po minEps : ℚ) (fuelR : Nat) : Nat → ℚ → Heap → Except MErr Heap
  | 0, _, _ => .error .outOfFuel
  | fuel + 1, eps, h =>
    if eps > minEps then do
      let h ← refineM fl N (updateEpsilonF fl eps minEps) po fuelR h
      mainLoopM fl N po minEps fuelR fuel (updateEpsilonF fl eps minEps) h
    else .ok h

/-- csa.hh:368-370  the end of `init`: `best_build` for the nodes with many arcs. -/
def initBestM (fl : ℚ → ℚ) (v : Nat) (h : Heap) : Except MErr Heap := do
  let few ← h.few.rd v
  if few then .ok h else bestBuildM fl v h

/-- The blocks of the result (csa.hh:406-408). -/
structure Result where
  a : Blk Int
  b : Blk Int
  c : Blk Int

/-- csa.hh:413-425  body of the loop of `store_results`. -/
def storeArc (N : Nat) (h : Heap) (v : Nat) (r : Result) : Except MErr Result := do
  let m ← h.lMatched.rd v
  let k ← deref m
  let x ← h.arcs.rd k
  let c ← r.c.wr v x.cost
  let a ← r.a.wr v (v + 1)
  let b ← r.b.wr v (x.head + 1 + N)
  .ok ⟨a, b, c⟩

/-- csa.hh:46-52  `edge(i, a, b, cost)` for `i = 0, …, cnt - 1`, in order. -/
def readEdges (r : Result) : (cnt i : Nat) → Except MErr (List (Int × Int × Int))
  | 0, _ => .ok []
  | cnt + 1, i => do
    let a ← r.a.rd i
    let b ← r.b.rd i
    let c ← r.c.rd i
    let rest ← readEdges r cnt (i + 1)
    .ok ((a, b, c) :: rest)

/-- csa.cc:18-26, csa.hh:332-377, 396-473  `CSA csa(n, m, graph)` followed by `csa.edge(i, …)` for all `i`. -/
def solve (fl : ℚ → ℚ) (fuel n m : Nat) (graph : Blk Int) : Except MErr (List (Int × Int × Int)) := do
  let x ← parse n m graph
  let h ← forLoop (initBestM fl) (n / 2) 0 x.1
  let h ← mainLoopM fl (n / 2) (poF fl n) (minEpsF fl n) fuel fuel (fl x.2) h
  let r ← forLoop (storeArc (n / 2) h) (n / 2) 0 ⟨malloc Int (n / 2), malloc Int (n / 2), malloc Int (n / 2)⟩
  readEdges r (n / 2) 0

/-- csa.hh:46-52  an output arc as the three ints returned by `csa.edge`. -/
def triple (a : InArc) : Int × Int × Int := (a.tail, a.head, a.cost)

/-- match.cc:176-262  the rows of `igraph` as handed over (`igraph.data()`): three ints per arc. -/
def graphBlk (g : List InArc) : Blk Int :=
  ⟨3 * g.length, fun i => (g[i / 3]?).map fun a => if i % 3 = 0 then (a.tail : Int) else if i % 3 = 1 then (a.head : Int) else a.cost⟩

end EdgeEval.CsaMem
