import Verif.Model.CsaMem
import Verif.Model.Match

/-!
# Memory-level model of `match.cc`, `kofn.cc` and the array classes

`matchEdgeMaps` once more, statement by statement, with its arrays, vectors and loops in the order of the source.  Every
array access is checked (against both dimensions, as `Array2D::operator()` and `Matrix::operator()` do), a cell is
uninitialised until written, and the `assert`s are kept.  The assignment solver is the memory-level one of
`Model/CsaMem.lean`.  As in `Model/Match.lean`, `maxDist` and `outlierCost` enter through their squares and `sqrt`/`rint` are
exact; the random stream is a parameter; `int` is unbounded (see C58 for the ranges).
-/

namespace EdgeEval.MatchMem

open EdgeEval EdgeEval.CsaMem

/-- Array.hh:95-165 `Array2D<α>(d0, d1)`, element `(i, j)` at `i * d1 + j`.  A `Matrix` of `rows × cols`
(Matrix.cc:461-484: element `(row, col)` at `col * rows + row`) is an array with `d0 = cols`, `d1 = rows` and the indices
exchanged. -/
structure Arr (α : Type) where
  d0 : Nat
  d1 : Nat
  blk : Blk α

/-- Array.hh:104-106, 148-153  `new Elem[d0 * d1]`: the cells are uninitialised. -/
def Arr.new (α : Type) (d0 d1 : Nat) : Arr α := ⟨d0, d1, malloc α (d0 * d1)⟩

/-- Array.hh:131-144, Matrix.cc:474-484  `a(i, j)` as a value. -/
def Arr.rd {α : Type} (a : Arr α) (i j : Nat) : Except MErr α :=
  if i < a.d0 ∧ j < a.d1 then a.blk.rd (i * a.d1 + j) else .error .outOfBounds

/-- Array.hh:131-137, Matrix.cc:460-471  `a(i, j) = x`. -/
def Arr.wr {α : Type} (a : Arr α) (i j : Nat) (x : α) : Except MErr (Arr α) :=
  if i < a.d0 ∧ j < a.d1 then do
    let b ← a.blk.wr (i * a.d1 + j) x
    .ok { a with blk := b }
  else .error .outOfBounds

/-- Array.hh:116-120  `init(elem)`; Matrix.cc:2261-2263 (`calloc`) for a matrix of zeros. -/
def Arr.init {α : Type} (a : Arr α) (x : α) : Except MErr (Arr α) := do
  let b ← forLoop (fun k (b : Blk α) => b.wr k x) (a.d0 * a.d1) 0 a.blk
  .ok { a with blk := b }

/-- A C `assert`. -/
def need (p : Prop) [Decidable p] : Except MErr Unit := if p then .ok () else .error .assertion

/-- Reading element `i` of a `std::vector`. -/
def at' {α : Type} (l : List α) (i : Nat) : Except MErr α :=
  match l[i]? with
  | some x => .ok x
  | none => .error .outOfBounds

/-- `for (int u = -r; u <= r; u++)`. -/
def forSym {σ : Type} (f : Int → σ → Except MErr σ) (r : Nat) (s : σ) : Except MErr σ :=
  forLoop (fun k s => f ((k : Int) - r) s) (2 * r + 1) 0 s

/-! ## `kofn.cc` -/

/-- kofn.cc:12-19  body of the loop of `_kOfN_largeK`: the state is `j`, the stream position and the memory. -/
def largeStep (k n : Nat) (xs : Nat → ℚ) (off i : Nat) (s : Nat × Nat × Blk Int) : Except MErr (Nat × Nat × Blk Int) :=
  if xs s.2.1 < ((k : ℚ) - s.1) / ((n : ℚ) - i) then do
    let b ← s.2.2.wr (off + s.1) (i : Int)
    .ok (s.1 + 1, s.2.1 + 1, b)
  else .ok (s.1, s.2.1 + 1, s.2.2)

/-- kofn.cc:6-21  `_kOfN_largeK(k, n, values)`, `values` being the cells from `off` on. -/
def largeKM (k n : Nat) (xs : Nat → ℚ) (pos off : Nat) (b : Blk Int) : Except MErr (Nat × Blk Int) := do
  need (0 < k)
  need (k ≤ n)
  let s ← forLoop (largeStep k n xs off) n 0 (0, pos, b)
  need (s.1 = k)
  .ok (s.2.1, s.2.2)

/-- kofn.cc:48-50  body of the last loop of `_kOfN_smallK`. -/
def shiftVal (leftN off i : Nat) (b : Blk Int) : Except MErr (Blk Int) := do
  let v ← b.rd (off + i)
  b.wr (off + i) (v + leftN)

/-- kofn.cc:25-51  `_kOfN_smallK(k, n, values)`; `fuel` bounds the depth of the recursion. -/
def smallKM (xs : Nat → ℚ) : (fuel : Nat) → (k n pos off : Nat) → Blk Int → Except MErr (Nat × Blk Int)
  | 0, _, _, _, _, _ => .error .outOfFuel
  | fuel + 1, k, n, pos, off, b => do
    need (0 < k)
    need (k ≤ n)
    if k = 1 then
      let b ← b.wr off (randI32 (xs pos) 0 ((n : Int) - 1))
      .ok (pos + 1, b)
    else
      let leftN := n / 2
      let lr := smallKSplit n leftN xs k pos 0 0 0
      let s ← (if lr.1 > 0 then smallKM xs fuel lr.1 leftN (pos + k) off b else .ok (pos + k, b) : Except MErr _)
      let t ← (if lr.2 > 0 then smallKM xs fuel lr.2 (n - leftN) s.1 (off + lr.1) s.2 else .ok s : Except MErr _)
      let b ← forLoop (shiftVal leftN off) (k - lr.1) lr.1 t.2
      .ok (t.1, b)

/-- kofn.cc:55-68  `kOfN(k, n, values)`. -/
def kOfNM (k n : Nat) (xs : Nat → ℚ) (pos : Nat) (b : Blk Int) : Except MErr (Nat × Blk Int) :=
  if k = 0 then .ok (pos, b)
  else if k ^ k < 2 ^ (n / 2) then smallKM xs n k n pos 0 b
  else largeKM k n xs pos 0 b

/-! ## `match.cc`: which pixels are matchable -/

/-- match.cc:50-58  the two `match` arrays, every entry `Pixel(-1,-1)` (`none`). -/
def initMatch (h w : Nat) : Except MErr (Arr (Option Pix) × Arr (Option Pix)) :=
  forLoop (fun x s => forLoop (fun y (s : Arr (Option Pix) × Arr (Option Pix)) => do
      let a ← s.1.wr x y none
      let b ← s.2.wr x y none
      .ok (a, b)) h 0 s) w 0 (Arr.new _ w h, Arr.new _ w h)

/-- match.cc:74-82, 121-126  the distance test, and the range test on `x2 = x1 + u`, `y2 = y1 + v`: `none` is `continue`. -/
def hit (h w : Nat) (md2 : ℚ) (x1 y1 : Nat) (u v : Int) : Option (Nat × Nat) :=
  if ((u * u + v * v : Int) : ℚ) > md2 then none
  else if (x1 : Int) + u < 0 ∨ (x1 : Int) + u ≥ w then none
  else if (y1 : Int) + v < 0 ∨ (y1 : Int) + v ≥ h then none
  else some (((x1 : Int) + u).toNat, ((y1 : Int) + v).toNat)

/-- match.cc:74-82  body of the innermost loop; the state is `matchable1`, `matchable2`. -/
def markAt (h w : Nat) (md2 : ℚ) (b2 : Arr Bool) (x1 y1 : Nat) (u v : Int) (s : Arr Bool × Arr Bool) :
    Except MErr (Arr Bool × Arr Bool) :=
  match hit h w md2 x1 y1 u v with
  | none => .ok s
  | some q => do
    let b ← b2.rd q.1 q.2
    if b then
      let m1 ← s.1.wr x1 y1 true
      let m2 ← s.2.wr q.1 q.2 true
      .ok (m1, m2)
    else .ok s

/-- match.cc:71-84  one pixel of map 1: `v` is the outer loop, `u` the inner one. -/
def markPixel (h w : Nat) (md2 : ℚ) (b1 b2 : Arr Bool) (y1 x1 : Nat) (s : Arr Bool × Arr Bool) :
    Except MErr (Arr Bool × Arr Bool) := do
  let b ← b1.rd x1 y1
  if b then
    forSym (fun v s => forSym (fun u s => markAt h w md2 b2 x1 y1 u v s) (ceilSqrt md2) s) (ceilSqrt md2) s
  else .ok s

/-- match.cc:63-86  `matchable1`, `matchable2`. -/
def mark (h w : Nat) (md2 : ℚ) (b1 b2 : Arr Bool) : Except MErr (Arr Bool × Arr Bool) := do
  let m1 ← (Arr.new Bool w h).init false
  let m2 ← (Arr.new Bool w h).init false
  forLoop (fun y1 s => forLoop (fun x1 s => markPixel h w md2 b1 b2 y1 x1 s) w 0 s) h 0 (m1, m2)

/-! ## `match.cc`: nodes and edges -/

/-- match.cc:91-95  `pixToNode1`, `pixToNode2`, `nodeToPix1`, `nodeToPix2`, `n1`, `n2`. -/
structure NodeSt where
  p1 : Arr Int
  p2 : Arr Int
  v1 : List Pix
  v2 : List Pix
  n1 : Nat
  n2 : Nat

/-- match.cc:101-105  `if (matchable1(x,y)) …`. -/
def addNode1 (m : Arr Bool) (x y : Nat) (s : NodeSt) : Except MErr NodeSt := do
  let b ← m.rd x y
  if b then
    let p ← s.p1.wr x y s.n1
    .ok { s with p1 := p, v1 := s.v1 ++ [(x, y)], n1 := s.n1 + 1 }
  else .ok s

/-- match.cc:106-110  `if (matchable2(x,y)) …`. -/
def addNode2 (m : Arr Bool) (x y : Nat) (s : NodeSt) : Except MErr NodeSt := do
  let b ← m.rd x y
  if b then
    let p ← s.p2.wr x y s.n2
    .ok { s with p2 := p, v2 := s.v2 ++ [(x, y)], n2 := s.n2 + 1 }
  else .ok s

/-- match.cc:98-110  body of the loop. -/
def addNodes (m : Arr Bool × Arr Bool) (x y : Nat) (s : NodeSt) : Except MErr NodeSt := do
  let p1 ← s.p1.wr x y (-1)
  let p2 ← s.p2.wr x y (-1)
  let s ← addNode1 m.1 x y { s with p1 := p1, p2 := p2 }
  addNode2 m.2 x y s

/-- match.cc:88-112. -/
def nodes (h w : Nat) (m : Arr Bool × Arr Bool) : Except MErr NodeSt :=
  forLoop (fun x s => forLoop (fun y s => addNodes m x y s) h 0 s) w 0 ⟨Arr.new _ w h, Arr.new _ w h, [], [], 0, 0⟩

/-- match.cc:121-135  body of the innermost loop. -/
def addEdge (h w : Nat) (md2 oc2 : ℚ) (m2 : Arr Bool) (ns : NodeSt) (x1 y1 : Nat) (u v : Int) (es : List MEdge) :
    Except MErr (List MEdge) :=
  match hit h w md2 x1 y1 u v with
  | none => .ok es
  | some q => do
    let b ← m2.rd q.1 q.2
    if b then
      let i ← ns.p1.rd x1 y1
      let j ← ns.p2.rd q.1 q.2
      need (i ≥ 0 ∧ i < ns.n1)
      need (j ≥ 0 ∧ j < ns.n2)
      let d2 := u * u + v * v
      need ((d2 : ℚ) < oc2)
      .ok (es ++ [⟨i.toNat, j.toNat, d2.toNat⟩])
    else .ok es

/-- match.cc:118-137  one pixel: `u` is the outer loop, `v` the inner one. -/
def pixelEdges (h w : Nat) (md2 oc2 : ℚ) (m : Arr Bool × Arr Bool) (ns : NodeSt) (x1 y1 : Nat) (es : List MEdge) :
    Except MErr (List MEdge) := do
  let b ← m.1.rd x1 y1
  if b then
    forSym (fun u es => forSym (fun v es => addEdge h w md2 oc2 m.2 ns x1 y1 u v es) (ceilSqrt md2) es) (ceilSqrt md2) es
  else .ok es

/-- match.cc:114-139  the real edges. -/
def edges (h w : Nat) (md2 oc2 : ℚ) (m : Arr Bool × Arr Bool) (ns : NodeSt) : Except MErr (List MEdge) :=
  forLoop (fun x1 es => forLoop (fun y1 es => pixelEdges h w md2 oc2 m ns x1 y1 es) h 0 es) w 0 []

/-! ## `match.cc`: the graph -/

/-- match.cc:172-177  `igraph`, `count`, `outliers` and the position in the random stream. -/
structure GraphSt where
  g : Arr Int
  count : Nat
  outliers : Blk Int
  pos : Nat

/-- match.cc:184-187 and its copies: `igraph(count,0) = i; igraph(count,1) = j; igraph(count,2) = c; count++`. -/
def putRow (i j c : Int) (s : GraphSt) : Except MErr GraphSt := do
  let g ← s.g.wr s.count 0 i
  let g ← g.wr s.count 1 j
  let g ← g.wr s.count 2 c
  .ok { s with g := g, count := s.count + 1 }

/-- match.cc:180-187  body of the loop over the real edges. -/
def putReal (n1 n2 : Nat) (es : List MEdge) (a : Nat) (s : GraphSt) : Except MErr GraphSt := do
  let e ← at' es a
  need (e.i < n1)
  need (e.j < n2)
  putRow e.i e.j (rint100 e.d2 : Nat) s

/-- match.cc:191, 205, 219  `kOfN(k, n, outliers.data())`. -/
def draw (k n : Nat) (xs : Nat → ℚ) (s : GraphSt) : Except MErr GraphSt := do
  let r ← kOfNM k n xs s.pos s.outliers
  .ok { s with pos := r.1, outliers := r.2 }

/-- match.cc:193-200  body of the inner loop for map 1. -/
def putOut1 (n1 n2 ow i a : Nat) (s : GraphSt) : Except MErr GraphSt := do
  let j ← s.outliers.rd a
  let j' := if j ≥ i then j + 1 else j
  need ((i : Int) ≠ j')
  need (j' ≥ 0 ∧ j' < n1)
  putRow i (n2 + j') ow s

/-- match.cc:189-202  outlier edges for map 1. -/
def outlierLoop1 (n1 n2 ow d1 : Nat) (xs : Nat → ℚ) (i : Nat) (s : GraphSt) : Except MErr GraphSt := do
  let s ← draw d1 (n1 - 1) xs s
  forLoop (putOut1 n1 n2 ow i) d1 0 s

/-- match.cc:207-214  body of the inner loop for map 2. -/
def putOut2 (n1 n2 ow j a : Nat) (s : GraphSt) : Except MErr GraphSt := do
  let i ← s.outliers.rd a
  let i' := if i ≥ j then i + 1 else i
  need (i' ≠ (j : Int))
  need (i' ≥ 0 ∧ i' < n2)
  putRow (n1 + i') j ow s

/-- match.cc:203-216  outlier edges for map 2. -/
def outlierLoop2 (n1 n2 ow d2 : Nat) (xs : Nat → ℚ) (j : Nat) (s : GraphSt) : Except MErr GraphSt := do
  let s ← draw d2 (n2 - 1) xs s
  forLoop (putOut2 n1 n2 ow j) d2 0 s

/-- match.cc:221-235  body of the inner loop between outliers. -/
def putOut3 (n1 n2 ow i a : Nat) (s : GraphSt) : Except MErr GraphSt := do
  let j ← s.outliers.rd a
  need (j ≥ 0 ∧ j < (min n1 n2 : Nat))
  if n1 < n2 then
    need (i < n2)
    need (j ≥ 0 ∧ j < n1)
    putRow (n1 + i) (n2 + j) ow s
  else
    need (i < n1)
    need (j ≥ 0 ∧ j < n2)
    putRow (n1 + j) (n2 + i) ow s

/-- match.cc:217-237  outlier-to-outlier edges. -/
def outlierLoop3 (n1 n2 ow d3 : Nat) (xs : Nat → ℚ) (i : Nat) (s : GraphSt) : Except MErr GraphSt := do
  let s ← draw d3 (min n1 n2) xs s
  forLoop (putOut3 n1 n2 ow i) d3 0 s

/-- match.cc:254-259  body of the loop that checks the rows and adds the offsets. -/
def offsetRow (n i : Nat) (g : Arr Int) : Except MErr (Arr Int) := do
  let a ← g.rd i 0
  let b ← g.rd i 1
  need (a ≥ 0 ∧ a < n)
  need (b ≥ 0 ∧ b < n)
  let g ← g.wr i 0 (a + 1)
  g.wr i 1 (b + (1 + n))

/-- match.cc:172-259  the graph, `m` rows of three ints. -/
def graph (n1 n2 m ow : Nat) (es : List MEdge) (xs : Nat → ℚ) (pos : Nat) : Except MErr (Arr Int) := do
  let d1 := deg1 n1
  let d2 := deg1 n2
  let d3 := deg3 n1 n2
  let s ← forLoop (putReal n1 n2 es) es.length 0 ⟨Arr.new _ m 3, 0, malloc _ (max d1 (max d2 d3)), pos⟩
  let s ← forLoop (outlierLoop1 n1 n2 ow d1 xs) n1 0 s
  let s ← forLoop (outlierLoop2 n1 n2 ow d2 xs) n2 0 s
  let s ← forLoop (outlierLoop3 n1 n2 ow d3 xs) (max n1 n2) 0 s
  let s ← forLoop (fun i s => putRow i (n2 + i : Nat) (ow * multiplier : Nat) s) n1 0 s
  let s ← forLoop (fun i s => putRow (n1 + i : Nat) i (ow * multiplier : Nat) s) n2 0 s
  need (s.count = m)
  forLoop (offsetRow (n1 + n2)) m 0 s.g

/-! ## `match.cc`: reading the solution -/

/-- match.cc:266-270  body of the loop that fills `ograph`. -/
def takeEdge (n : Nat) (out : List (Int × Int × Int)) (i : Nat) (og : Arr Int) : Except MErr (Arr Int) := do
  let e ← at' out i
  let og ← og.wr i 0 (e.1 - 1)
  let og ← og.wr i 1 (e.2.1 - 1 - n)
  og.wr i 2 e.2.2

/-- match.cc:277-294  body of the checking loop; the state is `overlayCount`. -/
def checkEdge (n n1 n2 ow : Nat) (ns : NodeSt) (og : Arr Int) (a : Nat) (cnt : Nat) : Except MErr Nat := do
  let i ← og.rd a 0
  let j ← og.rd a 1
  let c ← og.rd a 2
  need (i ≥ 0 ∧ i < n)
  need (j ≥ 0 ∧ j < n)
  need (c ≥ 0)
  let cnt := if c = (ow * multiplier : Nat) then cnt + 1 else cnt
  if i ≥ n1 then .ok cnt
  else if j ≥ n2 then .ok cnt
  else
    let p ← at' ns.v1 i.toNat
    let q ← at' ns.v2 j.toNat
    need ((rint100 (pixDist2 p q) : Int) = c)
    .ok cnt

/-- match.cc:309-319  body of the loop that fills the match arrays. -/
def recordEdge (n1 n2 : Nat) (ns : NodeSt) (og : Arr Int) (a : Nat) (s : Arr (Option Pix) × Arr (Option Pix)) :
    Except MErr (Arr (Option Pix) × Arr (Option Pix)) := do
  let i ← og.rd a 0
  let j ← og.rd a 1
  if i ≥ n1 then .ok s
  else if j ≥ n2 then .ok s
  else
    let p ← at' ns.v1 i.toNat
    let q ← at' ns.v2 j.toNat
    let m1 ← s.1.wr p.1 p.2 (some q)
    let m2 ← s.2.wr q.1 q.2 (some p)
    .ok (m1, m2)

/-- match.cc:323-327 and 328-332  one cell of an output matrix. -/
def writeCell (h : Nat) (b : Arr Bool) (mt : Arr (Option Pix)) (x y : Nat) (o : Arr Nat) : Except MErr (Arr Nat) := do
  let v ← b.rd x y
  if v then
    let p ← mt.rd x y
    match p with
    | some q => o.wr x y (q.1 * h + q.2 + 1)
    | none => .ok o
  else .ok o

/-- match.cc:321-334  the output matrices. -/
def writeOut (h w : Nat) (b1 b2 : Arr Bool) (mt : Arr (Option Pix) × Arr (Option Pix)) (o : Arr Nat × Arr Nat) :
    Except MErr (Arr Nat × Arr Nat) :=
  forLoop (fun x o => forLoop (fun y (o : Arr Nat × Arr Nat) => do
    let o1 ← writeCell h b1 mt.1 x y o.1
    let o2 ← writeCell h b2 mt.2 x y o.2
    .ok (o1, o2)) h 0 o) w 0 o

/-- What `matchEdgeMaps` leaves: the two match matrices, and on its stack the two match arrays and the number of overlay
edges used (a warning is printed when it exceeds 5, match.cc:300-304). -/
structure Out where
  m1 : Arr Nat
  m2 : Arr Nat
  match1 : Arr (Option Pix)
  match2 : Arr (Option Pix)
  overlayCount : Nat

/-- match.cc:261-334  after the graph was built. -/
def finish (fl : ℚ → ℚ) (fuel h w : Nat) (b1 b2 : Arr Bool) (ns : NodeSt) (m ow : Nat) (g : Arr Int)
    (o : Arr Nat × Arr Nat) (mt : Arr (Option Pix) × Arr (Option Pix)) : Except MErr Out := do
  let n := ns.n1 + ns.n2
  let out ← CsaMem.solve fl fuel (2 * n) m g.blk
  need (out.length = n)
  let og ← forLoop (takeEdge n out) n 0 (Arr.new _ n 3)
  let cnt ← forLoop (checkEdge n ns.n1 ns.n2 ow ns og) n 0 0
  let mt ← forLoop (recordEdge ns.n1 ns.n2 ns og) n 0 mt
  let o ← writeOut h w b1 b2 mt o
  .ok ⟨o.1, o.2, mt.1, mt.2, cnt⟩

/-- match.cc:27-334  `matchEdgeMaps` without the cost. -/
def matchEdgeMapsM (fl : ℚ → ℚ) (fuel h w : Nat) (b1 b2 : Arr Bool) (md2 oc2 : ℚ) (xs : Nat → ℚ) (pos : Nat) :
    Except MErr Out := do
  need (0 ≤ md2)
  need (md2 < oc2)
  let o1 ← (Arr.new Nat w h).init 0
  let o2 ← (Arr.new Nat w h).init 0
  let mt ← initMatch h w
  let mb ← mark h w md2 b1 b2
  let ns ← nodes h w mb
  let es ← edges h w md2 oc2 mb ns
  let m := announcedM ns.n1 ns.n2 es.length
  if m = 0 then .ok ⟨o1, o2, mt.1, mt.2, 0⟩
  else
    let ow := ceilSqrt (oc2 * (multiplier * multiplier : Nat))
    let g ← graph ns.n1 ns.n2 m ow es xs pos
    finish fl fuel h w b1 b2 ns m ow g (o1, o2) mt

/-- correspond_pixels.pyx:26-34  a `Matrix` filled from an image: pixel `(y, x)` is an edge pixel iff it is not zero. -/
def ofMap (h w : Nat) (b : BMap) : Arr Bool := ⟨w, h, ⟨w * h, fun k => if k < w * h then some (b (k % h) (k / h)) else none⟩⟩

end EdgeEval.MatchMem
