import Verif.Model.Img
import Verif.Model.Csa
import Verif.Model.Kofn
import Mathlib.Analysis.SpecialFunctions.Pow.Real

/-!
# Model of `pyEdgeEval/_lib/src/match.cc` (bipartite matching of edge maps) and
# `pyEdgeEval/_lib/correspond_pixels.pyx`

`maxDist` and `outlierCost` enter through their squares `md2`, `oc2` (both are rational multiples of the
image diagonal, whose square is rational), so everything except the reported cost is exact and
computable; the cost is a real number.  The C `assert`s are kept: a failing one makes the model return
`none`, as does a failure of the assignment solver (compiled with `NDEBUG` the asserts vanish; C13 shows
that none of them can fire).  32-bit overflow of `int` costs is not modelled.
-/

namespace EdgeEval

/-- A pixel `(x, y)` (Point.hh `Pixel`). -/
abbrev Pix := Nat × Nat

/-- A binary image indexed `bmap(y, x)`; only `y < height`, `x < width` is meaningful. -/
abbrev BMap := Nat → Nat → Bool

/-- `⌈√q⌉` as the least natural number whose square is at least `q` (see `C11_ceilSqrt`). -/
def ceilSqrt (q : ℚ) : Nat :=
  let m := ⌈q⌉.toNat
  if Nat.sqrt m * Nat.sqrt m = m then Nat.sqrt m else Nat.sqrt m + 1

/-- `rint(√d2 * 100)`: nearest integer to `√(10000 d2)`; a tie is impossible for an integer `d2`
(see `C11_rint`). -/
def rint100 (d2 : Nat) : Nat :=
  let m := 10000 * d2
  if m > Nat.sqrt m * Nat.sqrt m + Nat.sqrt m then Nat.sqrt m + 1 else Nat.sqrt m

/-- Squared distance of two pixels. -/
def pixDist2 (p q : Pix) : Nat := ((p.1 : Int) - q.1).natAbs ^ 2 + ((p.2 : Int) - q.2).natAbs ^ 2

/-- match.cc:96-97, 116-117  loop order "x outer, y inner" over the image. -/
def pixels (h w : Nat) : List Pix :=
  (List.range w).flatMap fun (x : Nat) => (List.range h).map fun (y : Nat) => (x, y)

/-- match.cc:119-120  loop order of the search window: `u` outer, `v` inner, both in `[-r, r]`. -/
def window (r : Nat) : List (Int × Int) :=
  (List.range (2 * r + 1)).flatMap fun (u : Nat) =>
    (List.range (2 * r + 1)).map fun (v : Nat) => ((u : Int) - r, (v : Int) - r)

/-- match.cc:61, 72-78, 119-126  the pixels of the window around `p` that pass the distance and range
checks, `r = ceil(maxDist)`. -/
def targets (h w : Nat) (md2 : ℚ) (p : Pix) : List Pix :=
  (window (ceilSqrt md2)).filterMap fun (uv : Int × Int) =>
    if ((uv.1 * uv.1 + uv.2 * uv.2 : Int) : ℚ) > md2 then none
    else if (p.1 : Int) + uv.1 < 0 ∨ (p.1 : Int) + uv.1 ≥ w then none
    else if (p.2 : Int) + uv.2 < 0 ∨ (p.2 : Int) + uv.2 ≥ h then none
    else some (((p.1 : Int) + uv.1).toNat, ((p.2 : Int) + uv.2).toNat)

/-- match.cc:63-86  `matchable1(x1,y1)`. -/
def matchable1 (h w : Nat) (md2 : ℚ) (b1 b2 : BMap) (p : Pix) : Bool :=
  b1 p.2 p.1 && (targets h w md2 p).any fun q => b2 q.2 q.1

/-- match.cc:63-86  `matchable2(x2,y2)`: set by some pixel of map 1. -/
def matchable2 (h w : Nat) (md2 : ℚ) (b1 b2 : BMap) (q : Pix) : Bool :=
  (pixels h w).any fun p => b1 p.2 p.1 && (targets h w md2 p).any fun q' => b2 q'.2 q'.1 && q' == q

/-- match.cc:88-112  `nodeToPix1` (its index function is `pixToNode1`). -/
def nodes1 (h w : Nat) (md2 : ℚ) (b1 b2 : BMap) : List Pix :=
  (pixels h w).filter (matchable1 h w md2 b1 b2)

/-- match.cc:88-112  `nodeToPix2`. -/
def nodes2 (h w : Nat) (md2 : ℚ) (b1 b2 : BMap) : List Pix :=
  (pixels h w).filter (matchable2 h w md2 b1 b2)

/-- match.cc:15-18  an edge between node `i` of map 1 and node `j` of map 2; `d2` is the squared
weight. -/
structure MEdge where
  i : Nat
  j : Nat
  d2 : Nat
  deriving DecidableEq, Repr

/-- match.cc:114-140  the edges between pixels within `maxDist`. -/
def realEdges (h w : Nat) (md2 : ℚ) (b1 b2 : BMap) : List MEdge :=
  let ns1 := nodes1 h w md2 b1 b2
  let ns2 := nodes2 h w md2 b1 b2
  ns1.flatMap fun p => ((targets h w md2 p).filter (matchable2 h w md2 b1 b2)).map fun q =>
    ⟨ns1.idxOf p, ns2.idxOf q, pixDist2 p q⟩

/-- A row of `igraph`: left node, right node, cost (0-based). -/
structure GEdge where
  i : Nat
  j : Nat
  c : Int
  deriving DecidableEq, Repr

/-- Repeated calls of `kOfN(k, n, …)` (match.cc:191, 205, 219), threading the random stream: `cnt` rows
and the new stream position. -/
def kRows (k n : Nat) (xs : Nat → ℚ) : (cnt : Nat) → (pos : Nat) → List (List Nat) × Nat
  | 0, pos => ([], pos)
  | cnt + 1, pos =>
    let r := kOfN k n xs pos
    let rest := kRows k n xs cnt r.2
    (r.1 :: rest.1, rest.2)

/-- match.cc:22, `multiplier`. -/
def multiplier : Nat := 100

/-- match.cc:25, `degree`. -/
def degree : Nat := 6

/-- match.cc:189-202  outlier edges for map 1: node `i` to outlier `n2 + j`, `j ≠ i`. -/
def outlier1 (n2 ow : Nat) (rows : List (List Nat)) : List GEdge :=
  (List.range rows.length).flatMap fun (i : Nat) =>
    (rows.getD i []).map fun (j : Nat) => ⟨i, n2 + (if j ≥ i then j + 1 else j), ow⟩

/-- match.cc:203-216  outlier edges for map 2. -/
def outlier2 (n1 ow : Nat) (rows : List (List Nat)) : List GEdge :=
  (List.range rows.length).flatMap fun (j : Nat) =>
    (rows.getD j []).map fun (i : Nat) => ⟨n1 + (if i ≥ j then i + 1 else i), j, ow⟩

/-- match.cc:217-237  outlier-to-outlier edges. -/
def outlierOutlier (n1 n2 ow : Nat) (rows : List (List Nat)) : List GEdge :=
  (List.range rows.length).flatMap fun (i : Nat) =>
    (rows.getD i []).map fun (j : Nat) =>
      if n1 < n2 then ⟨n1 + i, n2 + j, ow⟩ else ⟨n1 + j, n2 + i, ow⟩

/-- match.cc:238-250  perfect match overlay. -/
def overlay (n1 n2 ow : Nat) : List GEdge :=
  ((List.range n1).map fun (i : Nat) => (⟨i, n2 + i, (ow * multiplier : Nat)⟩ : GEdge)) ++
  ((List.range n2).map fun (i : Nat) => (⟨n1 + i, i, (ow * multiplier : Nat)⟩ : GEdge))

/-- match.cc:146-149  degrees of the outlier connections. -/
def deg1 (n1 : Nat) : Nat := min degree (n1 - 1)
def deg3 (n1 n2 : Nat) : Nat := min degree (min n1 n2)

/-- match.cc:156-162  the announced number of edges `m`. -/
def announcedM (n1 n2 nreal : Nat) : Nat :=
  nreal + deg1 n1 * n1 + deg1 n2 * n2 + deg3 n1 n2 * max n1 n2 + (n1 + n2)

/-- match.cc:175-250  the rows of `igraph` before the id offsets. -/
def buildGraph (n1 n2 ow : Nat) (edges : List MEdge) (xs : Nat → ℚ) (pos : Nat) : List GEdge :=
  let r1 := kRows (deg1 n1) (n1 - 1) xs n1 pos
  let r2 := kRows (deg1 n2) (n2 - 1) xs n2 r1.2
  let r3 := kRows (deg3 n1 n2) (min n1 n2) xs (max n1 n2) r2.2
  (edges.map fun e => (⟨e.i, e.j, (rint100 e.d2 : Nat)⟩ : GEdge)) ++ outlier1 n2 ow r1.1 ++
    outlier2 n1 ow r2.1 ++ outlierOutlier n1 n2 ow r3.1 ++ overlay n1 n2 ow

/-- match.cc:253-259  `igraph(i,0) += 1; igraph(i,1) += 1+n`. -/
def toArc (n : Nat) (e : GEdge) : InArc := ⟨e.i + 1, e.j + 1 + n, e.c⟩

/-- match.cc:265-270  the solution as 0-based node ids. -/
def ofArc (n : Nat) (a : InArc) : GEdge := ⟨a.tail - 1, a.head - 1 - n, a.cost⟩

/-- The two `match` arrays; `none` is `Pixel(-1,-1)`. -/
structure Matches where
  m1 : Pix → Option Pix
  m2 : Pix → Option Pix

/-- match.cc:306-320  `match1(pix1) = pix2; match2(pix2) = pix1` for the edges between real nodes. -/
def recordMatch (ns1 ns2 : List Pix) (s : Matches) (e : GEdge) : Matches :=
  if e.i < ns1.length ∧ e.j < ns2.length then
    let p := ns1.getD e.i (0, 0)
    let q := ns2.getD e.j (0, 0)
    ⟨fun x => if x = p then some q else s.m1 x, fun x => if x = q then some p else s.m2 x⟩
  else s

/-- match.cc:272-295  the assertions on one solution edge. -/
def solutionOk (n : Nat) (ns1 ns2 : List Pix) (e : GEdge) : Bool :=
  e.i < n && e.j < n && 0 ≤ e.c &&
    (ns1.length ≤ e.i || ns2.length ≤ e.j ||
      e.c == (rint100 (pixDist2 (ns1.getD e.i (0, 0)) (ns2.getD e.j (0, 0))) : Nat))

/-- Result of `matchEdgeMaps`: the two match matrices (indexed `(y, x)`). The cost is a function of
them, see `matchCost`. -/
structure MatchOut where
  m1 : Nat → Nat → Nat
  m2 : Nat → Nat → Nat
  mt : Matches

/-- match.cc:321-334  one match matrix: `match(x,y).x*height + match(x,y).y + 1`. -/
def encodeMatch (h : Nat) (b : BMap) (m : Pix → Option Pix) (y x : Nat) : Nat :=
  if b y x then
    match m (x, y) with
    | some q => q.1 * h + q.2 + 1
    | none => 0
  else 0

/-- match.cc:27-334  `matchEdgeMaps` without the cost, for a given assignment solver (match.cc:262). -/
def matchWith (solve : Nat → List InArc → Option (List InArc)) (h w : Nat) (b1 b2 : BMap) (md2 oc2 : ℚ)
    (xs : Nat → ℚ) (pos : Nat) : Option MatchOut :=
  -- assert (maxDist >= 0); assert (outlierCost > maxDist)
  if ¬ (0 ≤ md2 ∧ md2 < oc2) then none else
  let ns1 := nodes1 h w md2 b1 b2
  let ns2 := nodes2 h w md2 b1 b2
  let n1 := ns1.length
  let n2 := ns2.length
  let edges := realEdges h w md2 b1 b2
  -- assert (e.i < n1), (e.j < n2), (e.w < outlierCost)
  if ¬ (edges.all fun e => e.i < n1 && e.j < n2 && decide ((e.d2 : ℚ) < oc2)) then none else
  let n := n1 + n2
  let m := announcedM n1 n2 edges.length
  if m = 0 then some ⟨fun _ _ => 0, fun _ _ => 0, ⟨fun _ => none, fun _ => none⟩⟩ else
  let ow := ceilSqrt (oc2 * (multiplier * multiplier : Nat))
  let g := buildGraph n1 n2 ow edges xs pos
  -- assert (count == m); range assertions
  if ¬ (g.length = m ∧ g.all fun e => e.i < n && e.j < n) then none else
  match solve (2 * n) (g.map (toArc n)) with
  | none => none
  | some out =>
    let sol := out.map (ofArc n)
    if ¬ (sol.length = n ∧ sol.all (solutionOk n ns1 ns2)) then none else
    let mt := sol.foldl (recordMatch ns1 ns2) ⟨fun _ => none, fun _ => none⟩
    some ⟨encodeMatch h b1 mt.m1, encodeMatch h b2 mt.m2, mt⟩

/-- match.cc:27-334  `matchEdgeMaps` with the solver of csa.hh in exact arithmetic. -/
def matchEdgeMaps (fuel : Nat) (h w : Nat) (b1 b2 : BMap) (md2 oc2 : ℚ) (xs : Nat → ℚ) (pos : Nat) :
    Option MatchOut := matchWith (csaSolve fuel) h w b1 b2 md2 oc2 xs pos

/-- match.cc:164-167, 336-362  the returned cost: `outlierCost` per unmatched pixel of each map and half
the distance per matched pixel of each map; but 0 when no pixel is matchable (early return). -/
noncomputable def matchCost (h w : Nat) (b1 b2 : BMap) (md2 oc2 : ℚ) (mt : Matches) : ℝ :=
  if announcedM (nodes1 h w md2 b1 b2).length (nodes2 h w md2 b1 b2).length
      (realEdges h w md2 b1 b2).length = 0 then 0
  else
    ((pixels h w).map fun p =>
      (if b1 p.2 p.1 then
        match mt.m1 p with
        | none => √(oc2 : ℝ)
        | some q => 0.5 * √(pixDist2 p q : ℝ)
      else 0) +
      (if b2 p.2 p.1 then
        match mt.m2 p with
        | none => √(oc2 : ℝ)
        | some q => 0.5 * √(pixDist2 p q : ℝ)
      else 0)).sum

/-- Result of `correspond_pixels` with the arguments needed to state its cost. -/
structure CorrOut where
  o0 : Nat → Nat → Nat
  o1 : Nat → Nat → Nat
  cost : ℝ
  oc : ℝ

/-- correspond_pixels.pyx:51-57  argument checks, in order, and lines 31-32: Cython's cast of a pointer to a typed view raises
`ValueError` when an axis has length 0. -/
def corrCheck (i0 i1 : Img ℚ) (maxDist outlierCost : ℚ) : Except PyErr Unit :=
  if ¬ (i0.rows = i1.rows ∧ i0.cols = i1.cols) then .error .valueError
  else if maxDist ≤ 0 then .error .valueError
  else if outlierCost ≤ 1 then .error .valueError
  else if i0.rows = 0 ∨ i0.cols = 0 then .error .valueError
  else .ok ()

/-- `max_dist * idiag`, squared (correspond_pixels.pyx:22, 40). -/
def maxDist2 (rows cols : Nat) (maxDist : ℚ) : ℚ := maxDist ^ 2 * (rows * rows + cols * cols : Nat)

/-- correspond_pixels.pyx:18-66  `correspond_pixels`; the inner `Option` is `none` when the C++ code does
not return normally. A pixel is an edge pixel iff it is non-zero. -/
noncomputable def correspondPixels (fuel : Nat) (i0 i1 : Img ℚ) (maxDist outlierCost : ℚ)
    (xs : Nat → ℚ) (pos : Nat) : Except PyErr (Option CorrOut) :=
  match corrCheck i0 i1 maxDist outlierCost with
  | .error e => .error e
  | .ok _ =>
    let md2 := maxDist2 i0.rows i0.cols maxDist
    let oc2 := outlierCost ^ 2 * md2
    let b1 : BMap := fun y x => i0.at_ y x ≠ 0
    let b2 : BMap := fun y x => i1.at_ y x ≠ 0
    .ok ((matchEdgeMaps fuel i0.rows i0.cols b1 b2 md2 oc2 xs pos).map fun r =>
      ⟨r.m1, r.m2, matchCost i0.rows i0.cols b1 b2 md2 oc2 r.mt, √(oc2 : ℝ)⟩)

end EdgeEval
