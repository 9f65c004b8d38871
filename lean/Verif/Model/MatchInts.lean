import Verif.Model.MatchFloat

/-!
# The `int` arithmetic of `correspond_pixels.pyx` and `match.cc`

The other models compute with unbounded integers.  The lists below contain, for one call, every value of C type `int`
(respectively `unsigned`) that the code computes: if all of them are in the range of their type, the machine arithmetic and
the models agree.
Not listed: the values inside kofn.cc (differences and halves of its argument `n`, never above it), loop variables that run
over listed ranges, and the solver's internal node numbers (below its argument `2*n`); the profiling counters of csa.hh are
`unsigned` and never read.
-/

namespace EdgeEval

/-- correspond_pixels.pyx:20-22  `rows`, `cols`, `rows * rows + cols * cols` (the operands are `cdef int`, so Cython multiplies
and adds in C `int` before `math.sqrt` is called). -/
def pyxInts (rows cols : Nat) : List ℤ :=
  [(rows : ℤ), cols, rows * rows, cols * cols, rows * rows + cols * cols]

/-- Matrix.cc:2251-2257, Array.hh:148-149, Matrix.cc:468, Array.hh:134, match.cc:43-58  sizes of the matrices and the
2-D arrays, and the index of every element. -/
def arrayInts (h w : Nat) : List ℤ :=
  [(h : ℤ), w, h * w] ++ (pixels h w).flatMap fun p => [(p.1 : ℤ) * h, (p.1 : ℤ) * h + p.2]

/-- match.cc:61, 69-80, 116-127  the search windows: bounds of the loops (the loop variable ends at `r + 1`), squared
offsets and neighbour coordinates, around every pixel. -/
def windowInts (h w r : Nat) : List ℤ :=
  [-(r : ℤ), r, r + 1] ++ (pixels h w).flatMap fun p => (window r).flatMap fun uv =>
    [uv.1, uv.2, uv.1 * uv.1, uv.2 * uv.2, uv.1 * uv.1 + uv.2 * uv.2, (p.1 : ℤ) + uv.1, (p.2 : ℤ) + uv.2]

/-- match.cc:91-112, 142-162, 262  numbers of nodes, the successive values of `m`, and `2*n`. -/
def countInts (n1 n2 ne : Nat) : List ℤ :=
  let d1 := deg1 n1
  let d2 := deg1 n2
  let d3 := deg3 n1 n2
  [(n1 : ℤ), n2, (n1 : ℤ) - 1, (n2 : ℤ) - 1, n1 + n2, ne, d1 * n1, ne + d1 * n1, d2 * n2, ne + d1 * n1 + d2 * n2,
    d3 * (max n1 n2 : Nat), ne + d1 * n1 + d2 * n2 + d3 * (max n1 n2 : Nat), (announcedM n1 n2 ne : Nat),
    2 * ((n1 : ℤ) + n2)]

/-- match.cc:170, 184-186, 239-250, 254-258  the outlier weights and, for every row of `igraph`, the node numbers before and
after the offsets, and the cost. -/
def graphInts (n ow : Nat) (g : List GEdge) : List ℤ :=
  [(ow : ℤ), ow * (multiplier : Nat), 1 + (n : ℤ)] ++
    g.flatMap fun e => [(e.i : ℤ), e.j, e.c, e.i + 1, e.j + (1 + n)]

/-- match.cc:265-295  the solution: 0-based node numbers, costs and, for two real nodes, the differences of their
coordinates, the squared distance and the recomputed weight. -/
def solutionInts (n : Nat) (ns1 ns2 : List Pix) (wt : Nat → ℤ) (out : List InArc) : List ℤ :=
  out.flatMap fun a => [(a.tail : ℤ), a.head, a.cost, (a.tail : ℤ) - 1, (a.head : ℤ) - 1, (a.head : ℤ) - 1 - n] ++
    let e := ofArc n a
    if e.i < ns1.length ∧ e.j < ns2.length then
      let p := ns1.getD e.i (0, 0)
      let q := ns2.getD e.j (0, 0)
      let dx := (p.1 : ℤ) - q.1
      let dy := (p.2 : ℤ) - q.2
      [dx, dy, dx * dx, dy * dy, dx * dx + dy * dy, wt (pixDist2 p q)]
    else []

/-- match.cc:321-334, 344-346, 353-355  one side of the result: the encoded partner of every matched pixel, and the squared
distance to it. -/
def partnerInts (h w : Nat) (m : Pix → Option Pix) : List ℤ :=
  (pixels h w).flatMap fun p =>
    match m p with
    | none => []
    | some q =>
      let dx := (p.1 : ℤ) - q.1
      let dy := (p.2 : ℤ) - q.2
      [(q.1 : ℤ) * h, (q.1 : ℤ) * h + q.2, (q.1 : ℤ) * h + q.2 + 1, dx, dy, dx * dx, dy * dy, dx * dx + dy * dy]

/-- match.cc:43-262  everything before the solver runs: `ns1`, `ns2` are the matchable pixels, `ne` the number of real edges,
`g` the rows of `igraph` before the offsets. -/
def preInts (h w r : Nat) (ns1 ns2 : List Pix) (ne ow : Nat) (g : List GEdge) : List ℤ :=
  arrayInts h w ++ windowInts h w r ++ countInts ns1.length ns2.length ne ++ graphInts (ns1.length + ns2.length) ow g

/-- match.cc:263-359  everything after the solver has returned `out`; `wt` is the weight of a squared distance. -/
def postInts (h w : Nat) (ns1 ns2 : List Pix) (wt : Nat → ℤ) (out : List InArc) : List ℤ :=
  let n := ns1.length + ns2.length
  let mt := (out.map (ofArc n)).foldl (recordMatch ns1 ns2) ⟨fun _ => none, fun _ => none⟩
  solutionInts n ns1 ns2 wt out ++ partnerInts h w mt.m1 ++ partnerInts h w mt.m2

/-- match.cc:176, 265, Array.hh:134, 149, csa.hh:713-716  the `unsigned` values: sizes of `igraph` and `ograph` and the index
of each of their elements. -/
def matchUnsigned (n m : Nat) : List Nat :=
  [m * 3, n * 3] ++ ((List.range m).flatMap fun (i : Nat) => [3 * i, 3 * i + 1, 3 * i + 2]) ++
    (List.range n).flatMap fun (i : Nat) => [3 * i, 3 * i + 1, 3 * i + 2]

/-- csa.hh:409-424  the successive values of `result_cost`, an `int` to which the costs of the assigned arcs are added. -/
def resultCosts (out : List InArc) : List ℤ := (out.map InArc.cost).scanl (· + ·) 0

end EdgeEval
