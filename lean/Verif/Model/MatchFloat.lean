import Verif.Model.Match
import Verif.Model.CsaFloat
import Verif.Model.Random
import Mathlib.Algebra.Order.Round

/-!
# Model of `match.cc` and `correspond_pixels.pyx` in floating point

`fl` is the rounding applied to the exact result of every `double` operation, `sq` the library's `sqrt`.  The integer
arithmetic (node numbers, squared pixel distances) is exact here as in `Model/Match.lean`; everything that the code computes
in `double` is rounded: the diagonal, the tolerance and its square, the outlier cost, the distances, the weights and the
returned cost.  The solver is the one of `Model/CsaFloat.lean`, the sampler the one of `Model/Random.lean`; `small` is the
outcome of its comparison of logarithms.  A C `assert` that fails makes the model return `none`.
-/

namespace EdgeEval

/-- `rint`: the nearest integer, ties to the even one. -/
def rintQ (x : ℚ) : ℤ :=
  if x - ⌊x⌋ < 1 / 2 then ⌊x⌋
  else if 1 / 2 < x - ⌊x⌋ then ⌊x⌋ + 1
  else if ⌊x⌋ % 2 = 0 then ⌊x⌋ else ⌊x⌋ + 1

/-- match.cc:61  `r = (int) ceil (maxDist)`. -/
def radiusF (md : ℚ) : Nat := ⌈md⌉.toNat

/-- match.cc:72-78, 119-126  the pixels of the window around `p` that pass the distance and range checks; the squared
distance is compared with the rounded square of the tolerance. -/
def targetsF (fl : ℚ → ℚ) (h w : Nat) (md : ℚ) (p : Pix) : List Pix :=
  (window (radiusF md)).filterMap fun (uv : Int × Int) =>
    if ((uv.1 * uv.1 + uv.2 * uv.2 : Int) : ℚ) > fl (md * md) then none
    else if (p.1 : Int) + uv.1 < 0 ∨ (p.1 : Int) + uv.1 ≥ w then none
    else if (p.2 : Int) + uv.2 < 0 ∨ (p.2 : Int) + uv.2 ≥ h then none
    else some (((p.1 : Int) + uv.1).toNat, ((p.2 : Int) + uv.2).toNat)

/-- match.cc:63-86  `matchable1(x1,y1)`. -/
def matchable1F (fl : ℚ → ℚ) (h w : Nat) (md : ℚ) (b1 b2 : BMap) (p : Pix) : Bool :=
  b1 p.2 p.1 && (targetsF fl h w md p).any fun q => b2 q.2 q.1

/-- match.cc:63-86  `matchable2(x2,y2)`. -/
def matchable2F (fl : ℚ → ℚ) (h w : Nat) (md : ℚ) (b1 b2 : BMap) (q : Pix) : Bool :=
  (pixels h w).any fun p => b1 p.2 p.1 && (targetsF fl h w md p).any fun q' => b2 q'.2 q'.1 && q' == q

/-- match.cc:88-112  `nodeToPix1`. -/
def nodes1F (fl : ℚ → ℚ) (h w : Nat) (md : ℚ) (b1 b2 : BMap) : List Pix :=
  (pixels h w).filter (matchable1F fl h w md b1 b2)

/-- match.cc:88-112  `nodeToPix2`. -/
def nodes2F (fl : ℚ → ℚ) (h w : Nat) (md : ℚ) (b1 b2 : BMap) : List Pix :=
  (pixels h w).filter (matchable2F fl h w md b1 b2)

/-- match.cc:114-140  the edges between pixels within `maxDist`; the weight `e.w` is `sq e.d2`. -/
def realEdgesF (fl : ℚ → ℚ) (h w : Nat) (md : ℚ) (b1 b2 : BMap) : List MEdge :=
  let ns1 := nodes1F fl h w md b1 b2
  let ns2 := nodes2F fl h w md b1 b2
  ns1.flatMap fun p => ((targetsF fl h w md p).filter (matchable2F fl h w md b1 b2)).map fun q =>
    ⟨ns1.idxOf p, ns2.idxOf q, pixDist2 p q⟩

/-- match.cc:186, 293  `(int) rint (sqrt(d2) * multiplier)`. -/
def weightF (fl sq : ℚ → ℚ) (d2 : Nat) : ℤ := rintQ (fl (sq (d2 : ℚ) * (multiplier : Nat)))

/-- match.cc:170  `ow = (int) ceil (outlierCost * multiplier)`. -/
def outlierWeightF (fl : ℚ → ℚ) (oc : ℚ) : Nat := ⌈fl (oc * (multiplier : Nat))⌉.toNat

/-- match.cc:175-250  the rows of `igraph` before the id offsets. -/
def buildGraphF (fl sq : ℚ → ℚ) (small : Nat → Nat → Bool) (n1 n2 ow : Nat) (edges : List MEdge) (xs : Nat → ℚ)
    (pos : Nat) : List GEdge :=
  let r1 := kRowsF fl small (deg1 n1) (n1 - 1) xs n1 pos
  let r2 := kRowsF fl small (deg1 n2) (n2 - 1) xs n2 r1.2
  let r3 := kRowsF fl small (deg3 n1 n2) (min n1 n2) xs (max n1 n2) r2.2
  (edges.map fun e => (⟨e.i, e.j, weightF fl sq e.d2⟩ : GEdge)) ++ outlier1 n2 ow r1.1 ++
    outlier2 n1 ow r2.1 ++ outlierOutlier n1 n2 ow r3.1 ++ overlay n1 n2 ow

/-- match.cc:272-295  the assertions on one solution edge. -/
def solutionOkF (fl sq : ℚ → ℚ) (n : Nat) (ns1 ns2 : List Pix) (e : GEdge) : Bool :=
  e.i < n && e.j < n && 0 ≤ e.c &&
    (ns1.length ≤ e.i || ns2.length ≤ e.j ||
      e.c == weightF fl sq (pixDist2 (ns1.getD e.i (0, 0)) (ns2.getD e.j (0, 0))))

/-- match.cc:27-334  `matchEdgeMaps` without the cost. -/
def matchEdgeMapsF (fl sq : ℚ → ℚ) (small : Nat → Nat → Bool) (fuel : Nat) (h w : Nat) (b1 b2 : BMap) (md oc : ℚ)
    (xs : Nat → ℚ) (pos : Nat) : Option MatchOut :=
  -- assert (maxDist >= 0); assert (outlierCost > maxDist)
  if ¬ (0 ≤ md ∧ md < oc) then none else
  let ns1 := nodes1F fl h w md b1 b2
  let ns2 := nodes2F fl h w md b1 b2
  let n1 := ns1.length
  let n2 := ns2.length
  let edges := realEdgesF fl h w md b1 b2
  -- assert (e.i < n1), (e.j < n2), (e.w < outlierCost)
  if ¬ (edges.all fun e => e.i < n1 && e.j < n2 && decide (sq (e.d2 : ℚ) < oc)) then none else
  let n := n1 + n2
  let m := announcedM n1 n2 edges.length
  if m = 0 then some ⟨fun _ _ => 0, fun _ _ => 0, ⟨fun _ => none, fun _ => none⟩⟩ else
  let ow := outlierWeightF fl oc
  let g := buildGraphF fl sq small n1 n2 ow edges xs pos
  -- assert (count == m); range assertions
  if ¬ (g.length = m ∧ g.all fun e => e.i < n && e.j < n) then none else
  match csaSolveF fl fuel (2 * n) (g.map (toArc n)) with
  | none => none
  | some out =>
    let sol := out.map (ofArc n)
    if ¬ (sol.length = n ∧ sol.all (solutionOkF fl sq n ns1 ns2)) then none else
    let mt := sol.foldl (recordMatch ns1 ns2) ⟨fun _ => none, fun _ => none⟩
    some ⟨encodeMatch h b1 mt.m1, encodeMatch h b2 mt.m2, mt⟩

/-- match.cc:339-347, 348-356  the term added for one pixel of one map: nothing for a pixel that is no edge, `outlierCost`
for an unmatched one, half the distance for a matched one. -/
def costStep (fl sq : ℚ → ℚ) (oc : ℚ) (b : Bool) (p : Pix) (m : Option Pix) (cost : ℚ) : ℚ :=
  if b then
    match m with
    | none => fl (cost + oc)
    | some q => fl (cost + fl (1 / 2 * sq (pixDist2 p q : ℚ)))
  else cost

/-- match.cc:164-167, 336-362  the returned cost, added up pixel by pixel; 0 when no pixel is matchable (early return). -/
def matchCostF (fl sq : ℚ → ℚ) (h w : Nat) (b1 b2 : BMap) (md oc : ℚ) (mt : Matches) : ℚ :=
  if announcedM (nodes1F fl h w md b1 b2).length (nodes2F fl h w md b1 b2).length
      (realEdgesF fl h w md b1 b2).length = 0 then 0
  else
    (pixels h w).foldl (fun cost p =>
      costStep fl sq oc (b2 p.2 p.1) p (mt.m2 p) (costStep fl sq oc (b1 p.2 p.1) p (mt.m1 p) cost)) 0

/-- Result of `correspond_pixels`. -/
structure CorrOutF where
  o0 : Nat → Nat → Nat
  o1 : Nat → Nat → Nat
  cost : ℚ
  oc : ℚ

/-- correspond_pixels.pyx:21  `idiag = math.sqrt(rows * rows + cols * cols)`. -/
def idiagF (sq : ℚ → ℚ) (rows cols : Nat) : ℚ := sq ((rows * rows + cols * cols : Nat) : ℚ)

/-- correspond_pixels.pyx:40  `max_dist * idiag`. -/
def tolF (fl sq : ℚ → ℚ) (rows cols : Nat) (maxDist : ℚ) : ℚ := fl (maxDist * idiagF sq rows cols)

/-- correspond_pixels.pyx:22  `outlier_cost * max_dist * idiag`. -/
def ocF (fl sq : ℚ → ℚ) (rows cols : Nat) (maxDist outlierCost : ℚ) : ℚ :=
  fl (fl (outlierCost * maxDist) * idiagF sq rows cols)

/-- correspond_pixels.pyx:18-66  `correspond_pixels`; `float()` of the two arguments is `fl`. -/
def correspondPixelsF (fl sq : ℚ → ℚ) (small : Nat → Nat → Bool) (fuel : Nat) (i0 i1 : Img ℚ) (maxDist outlierCost : ℚ)
    (xs : Nat → ℚ) (pos : Nat) : Except PyErr (Option CorrOutF) :=
  match corrCheck i0 i1 maxDist outlierCost with
  | .error e => .error e
  | .ok _ =>
    let md := tolF fl sq i0.rows i0.cols (fl maxDist)
    let oc := ocF fl sq i0.rows i0.cols (fl maxDist) (fl outlierCost)
    let b1 : BMap := fun y x => i0.at_ y x ≠ 0
    let b2 : BMap := fun y x => i1.at_ y x ≠ 0
    .ok ((matchEdgeMapsF fl sq small fuel i0.rows i0.cols b1 b2 md oc xs pos).map fun r =>
      ⟨r.m1, r.m2, matchCostF fl sq i0.rows i0.cols b1 b2 md oc r.mt, oc⟩)

end EdgeEval
