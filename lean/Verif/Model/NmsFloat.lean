import Mathlib.Algebra.Order.Floor.Ring
import Mathlib.Data.Rat.Floor
import Verif.Model.Py
import Verif.Model.Img
import Verif.Model.Nms

/-!
# Non-maximum suppression in floating point: `_lib/src/benms.cc`, `_lib/nms.pyx`, `preprocess/nms/*`

The same code as `Model/Nms.lean`, with a rounding `fl` after every `double` operation.  `cosF` and `sinF` are the
values the C library returns.  The multiplier is declared `float` in nms.pyx:11-13, 16, so it is rounded to binary32
first (`fl32`).  Numbers are rationals; infinities, NaN, signed zeros and fused multiply-add are not modelled.
-/

namespace EdgeEval.NmsFloat

/-- Matrix.cc:461-483, nms.pyx:11-13  `I(row, col)`: outside the range an `Exception` is thrown, which nobody catches. -/
def readAt (I : Img ℚ) (row col : ℤ) : Except PyErr ℚ :=
  if 0 ≤ row ∧ row < I.rows ∧ 0 ≤ col ∧ col < I.cols then .ok (I.at_ row.toNat col.toNat)
  else .error .terminated

/-- C's `int(x)` of a double: truncation towards zero (no overflow modelled). -/
def cInt (x : ℚ) : ℤ := if 0 ≤ x then ⌊x⌋ else ⌈x⌉

/-- benms.cc:15-16  the right end `w - 1.001` of the admitted positions. -/
def lastPos (fl : ℚ → ℚ) (n : ℤ) : ℚ := fl ((n : ℚ) - fl 1.001)

/-- benms.cc:15-16  the clamping of one coordinate, `n` being `w` or `h`. -/
def clampCoord (fl : ℚ → ℚ) (n : ℤ) (x : ℚ) : ℚ :=
  if x < 0 then 0 else if lastPos fl n < x then lastPos fl n else x

/-- benms.cc:12-26 `interp`; `*` binds stronger than `+`, both associate to the left. -/
def interp (fl : ℚ → ℚ) (I : Img ℚ) (h w : ℤ) (x y : ℚ) : Except PyErr ℚ :=
  let cx := clampCoord fl w x
  let cy := clampCoord fl h y
  let x0 := cInt cx
  let y0 := cInt cy
  let dx0 := fl (cx - x0)
  let dy0 := fl (cy - y0)
  let dx1 := fl (1 - dx0)
  let dy1 := fl (1 - dy0)
  match readAt I y0 x0, readAt I y0 (x0 + 1), readAt I (y0 + 1) x0, readAt I (y0 + 1) (x0 + 1) with
  | .ok a, .ok b, .ok c, .ok d =>
    .ok (fl (fl (fl (fl (fl (a * dx1) * dy1) + fl (fl (b * dx0) * dy1)) + fl (fl (c * dx1) * dy0))
      + fl (fl (d * dx0) * dy0)))
  | _, _, _, _ => .error .terminated

/-- benms.cc:53-56  one comparison: is the response at distance `d` larger than `e`?  Positions are `x + d * cos_o`. -/
def beats (fl : ℚ → ℚ) (I : Img ℚ) (e c s : ℚ) (x y : Nat) (d : ℤ) : Except PyErr Bool :=
  match interp fl I I.rows I.cols (fl ((x : ℚ) + fl (d * c))) (fl ((y : ℚ) + fl (d * s))) with
  | .error er => .error er
  | .ok e0 => .ok (decide (e < e0))

/-- benms.cc:52-60  the loop over `d`: does it reach `out(y, x) = 0; break`?  `test` is the comparison. -/
def suppressLoop (test : ℤ → Except PyErr Bool) : List ℤ → Except PyErr Bool
  | [] => .ok false
  | d :: ds =>
    if d ≠ 0 then
      match test d with
      | .error er => .error er
      | .ok true => .ok true
      | .ok false => suppressLoop test ds
    else suppressLoop test ds

/-- benms.cc:45-60  the value written to `out(y, x)` by the first pass. -/
def nmsPixel (fl cosF sinF : ℚ → ℚ) (I O : Img ℚ) (r : ℤ) (m : ℚ) (y x : Nat) : Except PyErr ℚ :=
  let e := I.at_ y x
  if e = 0 then .ok e
  else
    match suppressLoop (beats fl I (fl (e * m)) (cosF (O.at_ y x)) (sinF (O.at_ y x)) x y) (Nms.offsets r) with
    | .error er => .error er
    | .ok b => .ok (if b then 0 else e)

/-- Write of one cell. -/
def setCell (out : Nat → Nat → ℚ) (y x : Nat) (v : ℚ) : Nat → Nat → ℚ :=
  fun (i j : Nat) => if i = y ∧ j = x then v else out i j

/-- benms.cc:43-62  the first pass, over a list of (x, y) in loop order. -/
def firstPass (fl cosF sinF : ℚ → ℚ) (I O : Img ℚ) (r : ℤ) (m : ℚ) :
    List (Nat × Nat) → (Nat → Nat → ℚ) → Except PyErr (Nat → Nat → ℚ)
  | [], out => .ok out
  | p :: ps, out =>
    match nmsPixel fl cosF sinF I O r m p.2 p.1 with
    | .error er => .error er
    | .ok v => firstPass fl cosF sinF I O r m ps (setCell out p.2 p.1 v)

/-- `out(y, x) *= double(k) / s`. -/
def mulCell (fl : ℚ → ℚ) (out : Nat → Nat → ℚ) (y x : Nat) (k s : Nat) : Nat → Nat → ℚ :=
  setCell out y x (fl (out y x * fl ((k : ℚ) / s)))

/-- benms.cc:67-72  damping of the left and right margins. -/
def dampCols (fl : ℚ → ℚ) (w s : Nat) (ps : List (Nat × Nat)) (out : Nat → Nat → ℚ) : Nat → Nat → ℚ :=
  ps.foldl (fun o p => mulCell fl (mulCell fl o p.2 p.1 p.1 s) p.2 (w - 1 - p.1) p.1 s) out

/-- benms.cc:73-78  damping of the top and bottom margins. -/
def dampRows (fl : ℚ → ℚ) (h s : Nat) (ps : List (Nat × Nat)) (out : Nat → Nat → ℚ) : Nat → Nat → ℚ :=
  ps.foldl (fun o p => mulCell fl (mulCell fl o p.2 p.1 p.2 s) (h - 1 - p.2) p.1 p.2 s) out

/-- benms.cc:28-79 `benms`. -/
def benms (fl cosF sinF : ℚ → ℚ) (I O : Img ℚ) (r s : ℤ) (m : ℚ) : Except PyErr (Img ℚ) :=
  match firstPass fl cosF sinF I O r m (Nms.loop2 I.cols I.rows) (fun _ _ => 0) with
  | .error er => .error er
  | .ok out =>
    let s' := Nms.margin I.rows I.cols s
    .ok { rows := I.rows, cols := I.cols,
          at_ := dampRows fl I.rows s' (Nms.loop2 I.cols s') (dampCols fl I.cols s' (Nms.loop2 s' I.rows) out) }

/-- nms.pyx:16-53 `nms`: the multiplier becomes a C `float`; Cython's cast of a pointer to a typed view (lines 25-26)
raises `ValueError` when an axis has length 0. -/
def nms (fl fl32 cosF sinF : ℚ → ℚ) (edge ori : Img ℚ) (r s : ℤ) (m : ℚ) : Except PyErr (Img ℚ) :=
  if edge.rows ≠ ori.rows ∨ edge.cols ≠ ori.cols then .error .valueError
  else if edge.rows = 0 ∨ edge.cols = 0 then .error .valueError
  else benms fl cosF sinF edge ori r s (fl32 m)

/-! ## toolbox.py, fast_nms.py -/

/-- toolbox.py:20-23, 29  the taps of radius 1: `p = 12 / 1 / 3 - 2`, `[1, p, 1] / (2 + p)`, converted to the type of
the image; `rd` is the rounding of that type. -/
def taps1 (fl rd : ℚ → ℚ) : List ℚ :=
  let p := fl (fl (fl (12 / 1) / (1 + 2)) - 2)
  [rd (fl (1 / fl (2 + p))), rd (fl (p / fl (2 + p))), rd (fl (1 / fl (2 + p)))]

/-- One output of a valid 1-D convolution (`scipy.signal.convolve2d` reverses the kernel): the window starts at `i`.
`sum` adds the products up in some order. -/
def conv1 (rd : ℚ → ℚ) (sum : List ℚ → ℚ) (f : List ℚ) (a : Nat → ℚ) (i : Nat) : ℚ :=
  sum ((List.range f.length).map fun (k : Nat) => rd (f.getD (f.length - 1 - k) 0 * a (i + k)))

/-- toolbox.py:9-42 `conv_tri(image, 1)` on an image of a float type with rounding `rd`. -/
def convTri1 (fl rd : ℚ → ℚ) (sum : List ℚ → ℚ) (im : Img ℚ) : Img ℚ :=
  if im.rows * im.cols = 0 then im
  else
    let f := taps1 fl rd
    let pad : Nat → Nat → ℚ := fun (i j : Nat) =>
      im.at_ (Nms.symIdx im.rows ((i : ℤ) - 1)) (Nms.symIdx im.cols ((j : ℤ) - 1))
    let hor : Nat → Nat → ℚ := fun (i j : Nat) => conv1 rd sum f (fun (k : Nat) => pad i k) j
    { rows := im.rows, cols := im.cols
      at_ := fun (i j : Nat) => conv1 rd sum f (fun (k : Nat) => hor k j) i }

/-- The input of `fast_nms`: 8-bit integers, doubles, floats or anything else. -/
inductive Input where
  | u8 (im : Img Nat)
  | f64 (im : Img ℚ)
  | f32 (im : Img ℚ)
  | other

/-- The rounding, and the order of summation, of each float type. -/
structure Machine where
  fl : ℚ → ℚ
  fl32 : ℚ → ℚ
  sum : List ℚ → ℚ
  sum32 : List ℚ → ℚ
  cosF : ℚ → ℚ
  sinF : ℚ → ℚ
  /-- fast_nms.py:60-68  the orientation computed from the smoothed response (`grad2`, `np.arctan`, `np.mod` in the
  type of the image): arbitrary. -/
  ori : Img ℚ → Nat → Nat → ℚ

/-- fast_nms.py:46-59  conversion to float and smoothing with radius 1; `half_prec` rounds the result to binary32. -/
def smoothed (M : Machine) (half : Bool) : Input → Except PyErr (Img ℚ)
  | .u8 im =>
    let f : Img ℚ := { rows := im.rows, cols := im.cols, at_ := fun (i j : Nat) => M.fl ((im.at_ i j : ℚ) / 255) }
    let e := convTri1 M.fl M.fl M.sum f
    .ok (if half then { e with at_ := fun (i j : Nat) => M.fl32 (e.at_ i j) } else e)
  | .f64 im =>
    let e := convTri1 M.fl M.fl M.sum im
    .ok (if half then { e with at_ := fun (i j : Nat) => M.fl32 (e.at_ i j) } else e)
  | .f32 im =>
    let e := convTri1 M.fl M.fl32 M.sum32 im
    .ok (if half then { e with at_ := fun (i j : Nat) => M.fl32 (e.at_ i j) } else e)
  | .other => .error .assertionError

/-- fast_nms.py:60-68  the orientation map; `np.gradient` raises `ValueError` on an axis shorter than 2. -/
def orientation (M : Machine) (e : Img ℚ) : Except PyErr (Img ℚ) :=
  if e.rows < 2 ∨ e.cols < 2 then .error .valueError
  else .ok { rows := e.rows, cols := e.cols, at_ := M.ori e }

/-- `np.round`: round half to even. -/
def npRound (x : ℚ) : ℤ :=
  let f := ⌊x⌋
  if x - f < 1 / 2 then f else if 1 / 2 < x - f then f + 1 else if f % 2 = 0 then f else f + 1

/-- fast_nms.py:72-75  clip to [0, 1], scale, round, cast. -/
def quantize (fl : ℚ → ℚ) (im : Img ℚ) : Img Nat :=
  { rows := im.rows, cols := im.cols
    at_ := fun (i j : Nat) => (npRound (fl (min (max (im.at_ i j) 0) 1 * 255))).toNat }

/-- fast_nms.py:21-77  the float computation of `fast_nms`. -/
def fastNmsFloat (M : Machine) (half : Bool) (im : Input) (r s : ℤ) (m : ℚ) : Except PyErr (Img ℚ) :=
  match smoothed M half im with
  | .error er => .error er
  | .ok edge =>
    match orientation M edge with
    | .error er => .error er
    | .ok ori => nms M.fl M.fl32 M.cosF M.sinF edge ori r s m

/-- The result of `fast_nms`. -/
inductive Output where
  | u8 (im : Img Nat)
  | f64 (im : Img ℚ)

/-- fast_nms.py:21-77 `fast_nms`. -/
def fastNms (M : Machine) (half : Bool) (im : Input) (r s : ℤ) (m : ℚ) (asU8 : Bool) : Except PyErr Output :=
  match fastNmsFloat M half im r s m with
  | .error er => .error er
  | .ok out => .ok (if asU8 then .u8 (quantize M.fl out) else .f64 out)

end EdgeEval.NmsFloat
