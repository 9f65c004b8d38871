import Verif.Model.Match
import Verif.Model.Thin
import Verif.Model.Metrics

/-!
# Model of `pyEdgeEval/common/binary_label/evaluate_boundaries.py`,
# `common/multi_label/evaluate_boundaries.py` and `common/multi_label/options.py`

`fast_nms` enters as an arbitrary function on images (`nms = some f` is `apply_nms=True`).  Every call of
`correspond_pixels` gets its own random stream: `rnd i g` is the stream used for threshold number `i` and
annotator number `g` (the C++ generator is global state, so nothing is assumed about how the streams are
related).  `gt.sum()` is exact (numpy accumulates in at least 64 bits).
-/

namespace EdgeEval

/-- The outcome of code that calls the C++ matcher: an exception, no normal return (`none`), or a value. -/
abbrev Run (α : Type) := Except PyErr (Option α)

/-- Sequencing of `Run`s. -/
def Run.bind {α β : Type} : Run α → (α → Run β) → Run β
  | .error e, _ => .error e
  | .ok none, _ => .ok none
  | .ok (some a), f => f a

/-- The four numbers written at index `i_t` of the result arrays. -/
structure Row where
  countR : ℚ
  sumR : ℚ
  countP : ℚ
  sumP : ℚ
  deriving DecidableEq, Repr

/-- The four returned arrays. -/
def toCounts (rows : List Row) : Counts :=
  ⟨rows.map Row.countR, rows.map Row.sumR, rows.map Row.countP, rows.map Row.sumP⟩

/-- evaluate_boundaries.py:66  `pred >= thresh` (a bool image). -/
def geThresh (pred : Img ℚ) (t : ℚ) : Img ℚ :=
  ⟨pred.rows, pred.cols, fun i j => if t ≤ pred.at_ i j then 1 else 0⟩

/-- evaluate_boundaries.py:66-69  threshold, then optionally `binary_thin`. -/
def processPred (fuel : Nat) (thin : Bool) (pred : Img ℚ) (t : ℚ) : Run (Img ℚ) :=
  if thin then .ok (binaryThin fuel (geThresh pred t) none) else .ok (some (geThresh pred t))

/-- evaluate_boundaries.py:71  `gt.any()`. -/
def imgAny (x : Img ℚ) : Bool :=
  (List.range x.rows).any fun (i : Nat) => (List.range x.cols).any fun (j : Nat) => x.at_ i j ≠ 0

/-- evaluate_boundaries.py:75-76  `match > 0` as a 0/1 image of the given shape. -/
def posImg (rows cols : Nat) (m : Nat → Nat → Nat) : Img ℚ :=
  ⟨rows, cols, fun i j => if m i j > 0 then 1 else 0⟩

/-- `correspond_pixels(_pred, gt, max_dist=max_dist)`: `outlier_cost` keeps its default 100
(correspond_pixels.pyx:18-19). -/
noncomputable def callMatch (fuel : Nat) (p gt : Img ℚ) (maxDist : ℚ) (xs : Nat → ℚ) : Run CorrOut :=
  correspondPixels fuel p gt maxDist 100 xs 0

/-- binary_label/evaluate_boundaries.py:72-84  the matched branch. -/
noncomputable def matchRow (fuel : Nat) (p gt : Img ℚ) (maxDist : ℚ) (xs : Nat → ℚ) : Run Row :=
  (callMatch fuel p gt maxDist xs).bind fun r =>
    .ok (some ⟨imgSum (posImg gt.rows gt.cols r.o1), imgSum gt, imgSum (posImg p.rows p.cols r.o0), imgSum p⟩)

/-- evaluate_boundaries.py:64  `for i_t, thresh in enumerate(list(thresholds))`. -/
def overThresholds (f : Nat → ℚ → Run Row) : Nat → List ℚ → Run (List Row)
  | _, [] => .ok (some [])
  | i, t :: ts => (f i t).bind fun row => (overThresholds f (i + 1) ts).bind fun rest => .ok (some (row :: rest))

/-- evaluate_boundaries.py:58-62  the optional NMS. -/
def preNms (nms : Option (Img ℚ → Img ℚ)) (pred : Img ℚ) : Img ℚ :=
  match nms with
  | some f => f pred
  | none => pred

/-- binary_label/evaluate_boundaries.py:66-89  one threshold. -/
noncomputable def binaryRow (fuel : Nat) (thin : Bool) (pred gt : Img ℚ) (maxDist : ℚ) (xs : Nat → ℚ) (t : ℚ) :
    Run Row :=
  (processPred fuel thin pred t).bind fun p =>
    if imgAny gt then matchRow fuel p gt maxDist xs else .ok (some ⟨0, 0, 0, imgSum p⟩)

/-- binary_label/evaluate_boundaries.py:9-91  `evaluate_boundaries_threshold`. -/
noncomputable def evalBinary (fuel : Nat) (ths : List ℚ) (pred gt : Img ℚ) (maxDist : ℚ) (thin : Bool)
    (nms : Option (Img ℚ → Img ℚ)) (rnd : Nat → Nat → Nat → ℚ) : Run (List Row) :=
  overThresholds (fun i t => binaryRow fuel thin (preNms nms pred) gt maxDist (rnd i 0) t) 0 ths

/-- Loop state of binary_label/evaluate_boundaries.py:158-171: `acc_prec`, `sum_r[i_t]`, `count_r[i_t]`. -/
structure GtAcc where
  acc : Nat → Nat → Bool
  sumR : ℚ
  countR : ℚ

/-- binary_label/evaluate_boundaries.py:158-171  the loop over the annotators (`g` numbers them). -/
noncomputable def overGts (fuel : Nat) (p : Img ℚ) (maxDist : ℚ) (rnd : Nat → Nat → ℚ) :
    Nat → List (Img ℚ) → GtAcc → Run GtAcc
  | _, [], s => .ok (some s)
  | g, gt :: gts, s =>
    (callMatch fuel p gt maxDist (rnd g)).bind fun r =>
      overGts fuel p maxDist rnd (g + 1) gts
        ⟨fun i j => s.acc i j || decide (r.o0 i j > 0), s.sumR + imgSum gt,
          s.countR + imgSum (posImg gt.rows gt.cols r.o1)⟩

/-- binary_label/evaluate_boundaries.py:151-175  one threshold with several annotators. -/
noncomputable def multiGtRow (fuel : Nat) (thin : Bool) (pred : Img ℚ) (gts : List (Img ℚ)) (maxDist : ℚ)
    (rnd : Nat → Nat → ℚ) (t : ℚ) : Run Row :=
  (processPred fuel thin pred t).bind fun p =>
    (overGts fuel p maxDist rnd 0 gts ⟨fun _ _ => false, 0, 0⟩).bind fun s =>
      .ok (some ⟨s.countR, s.sumR, imgSum ⟨p.rows, p.cols, fun i j => if s.acc i j then 1 else 0⟩, imgSum p⟩)

/-- binary_label/evaluate_boundaries.py:94-177  `evaluate_boundaries_threshold_multiple_gts`. -/
noncomputable def evalMultiGt (fuel : Nat) (ths : List ℚ) (pred : Img ℚ) (gts : List (Img ℚ)) (maxDist : ℚ)
    (thin : Bool) (nms : Option (Img ℚ → Img ℚ)) (rnd : Nat → Nat → Nat → ℚ) : Run (List Row) :=
  overThresholds (fun i t => multiGtRow fuel thin (preNms nms pred) gts maxDist (rnd i) t) 0 ths

/-! ## kill_internal -/

/-- A segmentation mask with its dtype: numpy's `invert` is logical on bool arrays and bitwise on uint8. -/
structure Seg where
  img : Img ℚ
  isBool : Bool

/-- The squared distance from `(i, j)` to `(a, b)`. -/
def sqDist (i j a b : Nat) : ℚ := ((i : ℚ) - a) ^ 2 + ((j : ℚ) - b) ^ 2

/-- The pixels where `1 - gt` is zero. -/
def gtOnes (gt : Img ℚ) : List (Nat × Nat) :=
  (List.range gt.rows).flatMap fun (a : Nat) =>
    ((List.range gt.cols).filter fun (b : Nat) => 1 - gt.at_ a b = 0).map fun (b : Nat) => (a, b)

/-- options.py:22  the square of `distance_transform_edt(1 - gt)[i, j]`: the exact squared distance to the
nearest zero; when there is none scipy's output is unspecified (`junk`). -/
def edt2 (gt : Img ℚ) (junk : Nat → Nat → ℚ) (i j : Nat) : ℚ :=
  match gtOnes gt with
  | [] => junk i j
  | z :: zs => zs.foldl (fun m a => min m (sqDist i j a.1 a.2)) (sqDist i j z.1 z.2)

/-- options.py:18-19, 23  `distmap > buffer`, in squares (`maxDist2` is the square of the buffer). -/
def farFromGt (gt : Img ℚ) (junk : Nat → Nat → ℚ) (bufRows bufCols : Nat) (maxDist : ℚ) (i j : Nat) : Bool :=
  decide (maxDist < 0 ∨ edt2 gt junk i j > maxDist2 bufRows bufCols maxDist)

/-- options.py:23  entry of `np.invert((distmap > buffer) * seg)`: logical for a bool mask, `255 - v` for a
uint8 one. -/
def killMaskAt (far : Bool) (seg : Seg) (i j : Nat) : ℚ :=
  if seg.isBool then (if far && decide (seg.img.at_ i j ≠ 0) then 0 else 1)
  else 255 - (if far then seg.img.at_ i j else 0)

/-- options.py:7-25  `kill_internal_prediction`.  Shapes that differ (numpy's broadcasting of length-1 axes
is not modelled) raise `ValueError` in the product and `AssertionError` for `pred`. -/
def killInternal (pred gt : Img ℚ) (seg : Seg) (maxDist : ℚ) (junk : Nat → Nat → ℚ) : Except PyErr (Img ℚ) :=
  if ¬ (gt.rows = seg.img.rows ∧ gt.cols = seg.img.cols) then .error .valueError
  else if ¬ (gt.rows = pred.rows ∧ gt.cols = pred.cols) then .error .assertionError
  else .ok ⟨pred.rows, pred.cols, fun i j =>
    pred.at_ i j * killMaskAt (farFromGt gt junk pred.rows pred.cols maxDist i j) seg i j⟩

/-- Options of the multi-label `evaluate_boundaries_threshold`. -/
structure MLOpts where
  maxDist : ℚ
  thin : Bool
  kill : Bool
  skip : Bool
  nms : Option (Img ℚ → Img ℚ)
  junk : Nat → Nat → ℚ

/-- multi_label/evaluate_boundaries.py:90-99  the optional `kill_internal` step. -/
def maybeKill (o : MLOpts) (p gt : Img ℚ) (seg : Option Seg) : Run (Img ℚ) :=
  if o.kill then
    match seg with
    | none => .error .assertionError
    | some s =>
      match killInternal p gt s o.maxDist o.junk with
      | .error e => .error e
      | .ok q => .ok (some q)
  else .ok (some p)

/-- multi_label/evaluate_boundaries.py:83-118  one threshold. -/
noncomputable def mlRow (fuel : Nat) (o : MLOpts) (pred gt : Img ℚ) (seg : Option Seg) (xs : Nat → ℚ) (t : ℚ) :
    Run Row :=
  (processPred fuel o.thin pred t).bind fun p =>
    if imgAny gt then
      (maybeKill o p gt seg).bind fun q => matchRow fuel q gt o.maxDist xs
    else .ok (some ⟨0, 0, 0, imgSum p⟩)

/-- multi_label/evaluate_boundaries.py:13-120  `evaluate_boundaries_threshold`. -/
noncomputable def evalMultiLabel (fuel : Nat) (ths : List ℚ) (pred gt : Img ℚ) (seg : Option Seg) (o : MLOpts)
    (rnd : Nat → Nat → Nat → ℚ) : Run (List Row) :=
  if o.skip && !imgAny gt then .ok (some (ths.map fun _ => ⟨0, 0, 0, 0⟩))
  else overThresholds (fun i t => mlRow fuel o (preNms o.nms pred) gt seg (rnd i 0) t) 0 ths

end EdgeEval
