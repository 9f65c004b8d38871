import Mathlib.Analysis.SpecialFunctions.Trigonometric.Arctan
import Mathlib.Data.Sign.Basic
import Verif.Model.Py
import Verif.Model.Img

/-!
# Non-maximum suppression: `_lib/src/benms.cc`, `_lib/nms.pyx`, `preprocess/nms/*`

Floats are real numbers here (the code calls `cos`, `sin`, `arctan`); rounding is not modelled, and the
C `float` type of the multiplier `m` is therefore exact as well.  Reads of a `Matrix` are checked
(Matrix.cc:461-483 throws an `Exception`); nms.pyx:11-13 declares `benms` without `except +`, so the exception ends the process: `terminated`.
-/

namespace EdgeEval.Nms

/-- Matrix.cc:461-483, nms.pyx:11-13  `I(row, col)`: outside the range an `Exception` is thrown, which nobody catches. -/
def readAt (I : Img ℝ) (row col : ℤ) : Except PyErr ℝ :=
  if 0 ≤ row ∧ row < I.rows ∧ 0 ≤ col ∧ col < I.cols then .ok (I.at_ row.toNat col.toNat)
  else .error .terminated

/-- C's `int(x)` of a double: truncation towards zero (no overflow modelled). -/
noncomputable def cInt (x : ℝ) : ℤ := if 0 ≤ x then ⌊x⌋ else ⌈x⌉

/-- benms.cc:15-16  the clamping of one coordinate, `n` being `w` or `h`. -/
noncomputable def clampCoord (n : ℤ) (x : ℝ) : ℝ :=
  if x < 0 then 0 else if (n : ℝ) - 1.001 < x then (n : ℝ) - 1.001 else x

/-- benms.cc:12-26 `interp`. -/
noncomputable def interp (I : Img ℝ) (h w : ℤ) (x y : ℝ) : Except PyErr ℝ :=
  let cx := clampCoord w x
  let cy := clampCoord h y
  let x0 := cInt cx
  let y0 := cInt cy
  let dx0 := cx - x0
  let dy0 := cy - y0
  match readAt I y0 x0, readAt I y0 (x0 + 1), readAt I (y0 + 1) x0, readAt I (y0 + 1) (x0 + 1) with
  | .ok a, .ok b, .ok c, .ok d =>
    .ok (a * (1 - dx0) * (1 - dy0) + b * dx0 * (1 - dy0) + c * (1 - dx0) * dy0 + d * dx0 * dy0)
  | _, _, _, _ => .error .terminated

/-- benms.cc:52  `for (int d = -r; d <= r; ++d)`. -/
def offsets (r : ℤ) : List ℤ := (List.range (2 * r + 1).toNat).map fun (k : Nat) => (k : ℤ) - r

/-- benms.cc:52-60  the loop over `d`: does it reach `out(y, x) = 0; break`? -/
noncomputable def suppressLoop (I : Img ℝ) (e c s : ℝ) (x y : Nat) : List ℤ → Except PyErr Bool
  | [] => .ok false
  | d :: ds =>
    if d ≠ 0 then
      match interp I I.rows I.cols ((x : ℝ) + d * c) ((y : ℝ) + d * s) with
      | .error er => .error er
      | .ok e0 => if e < e0 then .ok true else suppressLoop I e c s x y ds
    else suppressLoop I e c s x y ds

/-- benms.cc:45-60  the value written to `out(y, x)` by the first pass. -/
noncomputable def nmsPixel (I O : Img ℝ) (r : ℤ) (m : ℝ) (y x : Nat) : Except PyErr ℝ :=
  let e := I.at_ y x
  if e = 0 then .ok e
  else
    match suppressLoop I (e * m) (Real.cos (O.at_ y x)) (Real.sin (O.at_ y x)) x y (offsets r) with
    | .error er => .error er
    | .ok b => .ok (if b then 0 else e)

/-- Write of one cell. -/
def setCell (out : Nat → Nat → ℝ) (y x : Nat) (v : ℝ) : Nat → Nat → ℝ :=
  fun (i j : Nat) => if i = y ∧ j = x then v else out i j

/-- benms.cc:43-62  the first pass, over a list of (x, y) in loop order. -/
noncomputable def firstPass (I O : Img ℝ) (r : ℤ) (m : ℝ) :
    List (Nat × Nat) → (Nat → Nat → ℝ) → Except PyErr (Nat → Nat → ℝ)
  | [], out => .ok out
  | p :: ps, out =>
    match nmsPixel I O r m p.2 p.1 with
    | .error er => .error er
    | .ok v => firstPass I O r m ps (setCell out p.2 p.1 v)

/-- Nested loops `for x < a: for y < b`. -/
def loop2 (a b : Nat) : List (Nat × Nat) :=
  (List.range a).flatMap fun (x : Nat) => (List.range b).map fun (y : Nat) => (x, y)

/-- `out(y, x) *= f`. -/
def mulCell (out : Nat → Nat → ℝ) (y x : Nat) (f : ℝ) : Nat → Nat → ℝ :=
  setCell out y x (out y x * f)

/-- benms.cc:67-72  damping of the left and right margins. -/
noncomputable def dampCols (w s : Nat) (ps : List (Nat × Nat)) (out : Nat → Nat → ℝ) :
    Nat → Nat → ℝ :=
  ps.foldl (fun o p => mulCell (mulCell o p.2 p.1 ((p.1 : ℝ) / s)) p.2 (w - 1 - p.1) ((p.1 : ℝ) / s)) out

/-- benms.cc:73-78  damping of the top and bottom margins. -/
noncomputable def dampRows (h s : Nat) (ps : List (Nat × Nat)) (out : Nat → Nat → ℝ) :
    Nat → Nat → ℝ :=
  ps.foldl (fun o p => mulCell (mulCell o p.2 p.1 ((p.2 : ℝ) / s)) (h - 1 - p.2) p.1 ((p.2 : ℝ) / s)) out

/-- benms.cc:65-66  the margin actually used; the C divisions of non-negative ints are `Nat` divisions,
and a negative `s` makes the loops empty, like 0. -/
def margin (h w : Nat) (s : ℤ) : Nat := min (min s.toNat (w / 2)) (h / 2)

/-- benms.cc:28-79 `benms`. -/
noncomputable def benms (I O : Img ℝ) (r s : ℤ) (m : ℝ) : Except PyErr (Img ℝ) :=
  match firstPass I O r m (loop2 I.cols I.rows) (fun _ _ => 0) with
  | .error er => .error er
  | .ok out =>
    let s' := margin I.rows I.cols s
    .ok { rows := I.rows, cols := I.cols,
          at_ := dampRows I.rows s' (loop2 I.cols s') (dampCols I.cols s' (loop2 s' I.rows) out) }

/-- nms.pyx:39-53 `nms`; Cython's cast of a pointer to a typed view (lines 25-26) raises `ValueError` when an axis has
length 0. -/
noncomputable def nms (edge ori : Img ℝ) (r s : ℤ) (m : ℝ) : Except PyErr (Img ℝ) :=
  if edge.rows ≠ ori.rows ∨ edge.cols ≠ ori.cols then .error .valueError
  else if edge.rows = 0 ∨ edge.cols = 0 then .error .valueError
  else benms edge ori r s m

/-! ## toolbox.py -/

/-- `np.pad(..., mode="symmetric")`: the source index of position `k` relative to an axis of length `n`
(`k` may be negative or beyond the end; the reflection repeats). -/
def symIdx (n : Nat) (k : ℤ) : Nat :=
  let q := (k % (2 * n)).toNat
  if q < n then q else 2 * n - 1 - q

/-- toolbox.py:20-28  the filter taps, `2 * r + 1` of them, for `r ≥ 1`.  For `r = 1` the first branch
gives `p = 12/1/3 - 2`. -/
noncomputable def triTaps (r : Nat) : List ℝ :=
  if r ≤ 1 then
    let p : ℝ := 12 / (r : ℝ) / ((r : ℝ) + 2) - 2
    [1 / (2 + p), p / (2 + p), 1 / (2 + p)]
  else
    (((List.range r).map fun (k : Nat) => ((k : ℝ) + 1)) ++ [(r : ℝ) + 1] ++
      ((List.range r).map fun (k : Nat) => ((r : ℝ) - k))).map
        fun t => t / ((r : ℝ) + 1) ^ 2

/-- One output of a valid 1-D convolution (`scipy.signal.convolve2d` reverses the kernel): the window
starts at `i`. -/
noncomputable def conv1 (f : List ℝ) (a : Nat → ℝ) (i : Nat) : ℝ :=
  ((List.range f.length).map fun (k : Nat) => f.getD (f.length - 1 - k) 0 * a (i + k)).sum

/-- Python slicing `start : stop : step` of an axis of length `n` (`start ≥ 0`, `step ≥ 1`, `stop` any
int): the number of selected indices. -/
def sliceLen (n start : Nat) (stop : ℤ) (step : Nat) : Nat :=
  let st : ℤ := if stop < 0 then max (stop + n) 0 else min stop n
  ((st - start).toNat + step - 1) / step

/-- toolbox.py:9-42 `conv_tri`.  `r ≥ 0`, `s ≥ 1`. -/
noncomputable def convTri (im : Img ℝ) (r s : Nat) : Except PyErr (Img ℝ) :=
  if im.rows * im.cols = 0 ∨ (r = 0 ∧ s = 1) then .ok im
  else if r = 0 then .error .zeroDivisionError
  else
    let f := triTaps r
    let pad : Nat → Nat → ℝ := fun (i j : Nat) =>
      im.at_ (symIdx im.rows ((i : ℤ) - r)) (symIdx im.cols ((j : ℤ) - r))
    let hor : Nat → Nat → ℝ := fun (i j : Nat) => conv1 f (fun (k : Nat) => pad i k) j
    let ver : Nat → Nat → ℝ := fun (i j : Nat) => conv1 f (fun (k : Nat) => hor k j) i
    let t := s / 2 + 1
    if 1 < s then
      .ok { rows := sliceLen im.rows (t - 1) ((im.rows : ℤ) - ((s : ℤ) - t) + 1) s
            cols := sliceLen im.cols (t - 1) ((im.cols : ℤ) - ((s : ℤ) - t) + 1) s
            at_ := fun (i j : Nat) => ver (t - 1 + i * s) (t - 1 + j * s) }
    else .ok { rows := im.rows, cols := im.cols, at_ := ver }

/-- `np.gradient` along one axis of length `n ≥ 2`: central differences inside, one-sided at the ends. -/
noncomputable def grad1 (n : Nat) (a : Nat → ℝ) (i : Nat) : ℝ :=
  if i = 0 then a 1 - a 0
  else if i = n - 1 then a (n - 1) - a (n - 2)
  else (a (i + 1) - a (i - 1)) / 2

/-- toolbox.py:45-52 `grad2`, returning `(ox, oy)`; numpy raises `ValueError` on an axis shorter than 2. -/
noncomputable def grad2 (im : Img ℝ) : Except PyErr (Img ℝ × Img ℝ) :=
  if im.rows < 2 ∨ im.cols < 2 then .error .valueError
  else .ok
    ({ im with at_ := fun (i j : Nat) => grad1 im.cols (fun (k : Nat) => im.at_ i k) j },
     { im with at_ := fun (i j : Nat) => grad1 im.rows (fun (k : Nat) => im.at_ k j) i })

/-! ## fast_nms.py -/

/-- The input of `fast_nms`: an array of one of the supported dtypes, or of another one. -/
inductive NmsInput where
  | u8 (im : Img Nat)
  | float (im : Img ℝ)
  | other

/-- The result of `fast_nms`. -/
inductive NmsOutput where
  | u8 (im : Img Nat)
  | float (im : Img ℝ)

/-- `np.mod(x, p)` for `p > 0`. -/
noncomputable def npMod (x p : ℝ) : ℝ := x - p * ⌊x / p⌋

/-- `np.round`: round half to even. -/
noncomputable def npRound (x : ℝ) : ℤ :=
  let f := ⌊x⌋
  if x - f < 1 / 2 then f else if 1 / 2 < x - f then f + 1 else if f % 2 = 0 then f else f + 1

/-- fast_nms.py:60-68  the orientation map from a smoothed response. -/
noncomputable def orientation (e4 : Img ℝ) : Except PyErr (Img ℝ) :=
  match grad2 e4 with
  | .error er => .error er
  | .ok (ox, oy) =>
    match grad2 ox, grad2 oy with
    | .ok (oxx, _), .ok (oxy, oyy) =>
      .ok { rows := e4.rows, cols := e4.cols,
            at_ := fun (i j : Nat) =>
              let xx := if oxx.at_ i j = 0 then 1e-5 else oxx.at_ i j
              let val := oyy.at_ i j * (SignType.sign (-(oxy.at_ i j)) : ℝ) / xx
              npMod (Real.arctan val) Real.pi }
    | .error er, _ => .error er
    | _, .error er => .error er

/-- fast_nms.py:54-70  the float computation. -/
noncomputable def fastNmsFloat (im : Img ℝ) (r s : ℤ) (m : ℝ) : Except PyErr (Img ℝ) :=
  match convTri im 1 1 with
  | .error er => .error er
  | .ok edge =>
    match convTri edge 4 1 with
    | .error er => .error er
    | .ok e4 =>
      match orientation e4 with
      | .error er => .error er
      | .ok ori => nms edge ori r s m

/-- fast_nms.py:46-52  dtype handling: uint8 is divided by 255, other dtypes fail the assertion. -/
noncomputable def toFloat : NmsInput → Except PyErr (Img ℝ)
  | .u8 im => .ok { rows := im.rows, cols := im.cols, at_ := fun (i j : Nat) => (im.at_ i j : ℝ) / 255 }
  | .float im => .ok im
  | .other => .error .assertionError

/-- fast_nms.py:72-75  clip to [0, 1], scale, round, cast. -/
noncomputable def quantize (im : Img ℝ) : Img Nat :=
  { rows := im.rows, cols := im.cols
    at_ := fun (i j : Nat) => (npRound (min (max (im.at_ i j) 0) 1 * 255)).toNat }

/-- fast_nms.py:21-77 `fast_nms`.  `half_prec` only changes rounding, so it is not an argument. -/
noncomputable def fastNms (im : NmsInput) (r s : ℤ) (m : ℝ) (asU8 : Bool) : Except PyErr NmsOutput :=
  match toFloat im with
  | .error er => .error er
  | .ok f =>
    match fastNmsFloat f r s m with
    | .error er => .error er
    | .ok out => .ok (if asU8 then .u8 (quantize out) else .float out)

end EdgeEval.Nms
