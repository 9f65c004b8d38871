import Verif.Model.MatrixMem

/-!
# `benms`, `_nms`, `nms`, `matchEdgeMaps`, `_correspond_pixels` and `correspond_pixels` as programs over `Matrix` objects

Cython keeps a C++ local of a `cdef` function as a default-constructed variable plus a default-constructed temporary:
`cdef Matrix a = Matrix(r, c)` becomes `t = Matrix(r, c); a = t;`, both by `operator=`; the destructors run when the function is
left, also by a Python exception.  The variables of all functions have numbers of their own here.
-/

namespace EdgeEval.MatrixMem

open EdgeEval EdgeEval.Nms

/-- A loop over the elements of a list. -/
def each {α ι : Type} : List ι → (ι → Prog α Unit) → Prog α Unit
  | [], _ => .ret ()
  | x :: xs, f => (f x).bind fun _ => each xs f

/-- `v = Matrix(rows, cols)`: a temporary `t`, the assignment, the end of the temporary. -/
def assignNew {α β : Type} (v t : Nat) (rows cols : Int) (k : Prog α β) : Prog α β :=
  .ctorSized t rows cols (.assign v t (.dtor t k))

/-! ## nms -/

/-- benms.cc:12-26 `interp`. -/
noncomputable def interpP (I : Nat) (h w : ℤ) (x y : ℝ) : Prog ℝ ℝ :=
  let cx := clampCoord w x
  let cy := clampCoord h y
  let x0 := cInt cx
  let y0 := cInt cy
  let dx0 := cx - x0
  let dy0 := cy - y0
  .get I y0 x0 fun a => .get I y0 (x0 + 1) fun b => .get I (y0 + 1) x0 fun c => .get I (y0 + 1) (x0 + 1) fun d =>
    .ret (a * (1 - dx0) * (1 - dy0) + b * dx0 * (1 - dy0) + c * (1 - dx0) * dy0 + d * dx0 * dy0)

/-- benms.cc:52-60  the loop over `d`. -/
noncomputable def suppressP (out edge : Nat) (h w : ℤ) (e c s : ℝ) (x y : ℤ) : List ℤ → Prog ℝ Unit
  | [] => .ret ()
  | d :: ds =>
    if d ≠ 0 then
      (interpP edge h w ((x : ℝ) + d * c) ((y : ℝ) + d * s)).bind fun e0 =>
        if e < e0 then .put out y x 0 (.ret ()) else suppressP out edge h w e c s x y ds
    else suppressP out edge h w e c s x y ds

/-- benms.cc:45-60  the body of the first pass. -/
noncomputable def pixelP (out edge ori : Nat) (h w r : ℤ) (m : ℝ) (x y : ℤ) : Prog ℝ Unit :=
  .get edge y x fun e => .put out y x e <|
    if e = 0 then .ret ()
    else .get ori y x fun o => .get ori y x fun o' => suppressP out edge h w (e * m) (Real.cos o) (Real.sin o') x y (offsets r)

/-- `out(row, col) *= f`. -/
noncomputable def mulP (out : Nat) (row col : ℤ) (f : ℝ) (k : Prog ℝ Unit) : Prog ℝ Unit :=
  .get out row col fun v => .put out row col (v * f) k

/-- benms.cc:65-66  the clamping of `s`. -/
def clampS (h w s : ℤ) : ℤ :=
  let s := if s > w / 2 then w / 2 else s
  if s > h / 2 then h / 2 else s

/-- benms.cc:28-79 `benms`; `t` is the temporary of line 41. -/
noncomputable def benmsP (t out edge ori : Nat) (r s : ℤ) (m : ℝ) : Prog ℝ Unit :=
  .size edge fun h w => .size ori fun h' w' =>
    if w = w' ∧ h = h' then
      assignNew out t h w <|
        (each (loop2 w h) fun p => pixelP out edge ori h w r m p.1 p.2).bind fun _ =>
        (each (loop2 (clampS h w s).toNat h) fun p =>
          mulP out p.2 p.1 ((p.1 : ℝ) / clampS h w s) <| mulP out p.2 (w - 1 - p.1) ((p.1 : ℝ) / clampS h w s) <| .ret ()).bind fun _ =>
        each (loop2 w (clampS h w s).toNat) fun p =>
          mulP out p.2 p.1 ((p.2 : ℝ) / clampS h w s) <| mulP out (h - 1 - p.2) p.1 ((p.2 : ℝ) / clampS h w s) <| .ret ()
    else .abort

/-- The variables: arrays `_edge`, `_ori`, `_out` of `nms`; `medge`, `mori`, `mout`, Cython's temporary, `benms`'s temporary. -/
def vEdge : Nat := 0
@[inherit_doc vEdge] def vOri : Nat := 1
@[inherit_doc vEdge] def vOut : Nat := 2
@[inherit_doc vEdge] def mEdge : Nat := 3
@[inherit_doc vEdge] def mOri : Nat := 4
@[inherit_doc vEdge] def mOut : Nat := 5
@[inherit_doc vEdge] def vTmp : Nat := 6
@[inherit_doc vEdge] def vTmp' : Nat := 7

/-- The end of four objects, when `_nms` or `_correspond_pixels` is left. -/
def dtor4 {α β : Type} (a b c d : Nat) (k : Prog α β) : Prog α β := .dtor d (.dtor c (.dtor b (.dtor a k)))

/-- nms.pyx:16-36 `_nms`; `false`: a `ValueError` of a cast.  Lines 25-28 cast both views before the first is copied; here each is
cast and copied at once, both casts having the same outcome. -/
noncomputable def nmsCy (r s : ℤ) (m : ℝ) : Prog ℝ Bool :=
  .size vEdge fun rows cols =>
    .ctorDefault mEdge <| .ctorDefault mOri <| .ctorDefault mOut <| .ctorDefault vTmp <|
    assignNew vTmp vTmp' rows cols <| .assign mEdge vTmp <|
    assignNew vTmp vTmp' rows cols <| .assign mOri vTmp <|
    .copyView false mEdge vEdge fun ok1 =>
      if ok1 = false then dtor4 mEdge mOri mOut vTmp (.ret false) else
    .copyView false mOri vOri fun ok2 =>
      if ok2 = false then dtor4 mEdge mOri mOut vTmp (.ret false) else
    (benmsP vTmp' mOut mEdge mOri r s m).bind fun _ =>
    .copyView true mOut vOut fun ok3 => dtor4 mEdge mOri mOut vTmp (.ret ok3)

/-- nms.pyx:39-53 `nms` on two float images; the arrays `_edge` and `_ori` die with the function, `_out` is returned
(`true`) or dies with the exception (`false`). -/
noncomputable def nmsP (edge ori : Img ℝ) (r s : ℤ) (m : ℝ) : Prog ℝ Bool :=
  if edge.rows ≠ ori.rows ∨ edge.cols ≠ ori.cols then .ret false
  else
    .arrayOf vEdge edge <| .arrayOf vOri ori <| .arrayOf vOut ⟨edge.rows, edge.cols, fun _ _ => 0⟩ <|
    (nmsCy r s m).bind fun ok =>
      if ok then .dtor vEdge (.dtor vOri (.ret true)) else .dtor vEdge (.dtor vOri (.dtor vOut (.ret false)))

/-! ## correspond_pixels -/

/-- match.cc:63-86  all the reads of a map before the matching, in some order: the pixels that are not 0. -/
def readMap (v : Nat) : List Pix → BMap → Prog ℚ BMap
  | [], b => .ret b
  | p :: ps, b => .get v p.2 p.1 fun x => readMap v ps fun y x' => if y = p.2 ∧ x' = p.1 then decide (x ≠ 0) else b y x'

/-- match.cc:323-327, 328-332  one entry of a match matrix. -/
def writeMatch (out bmap : Nat) (h : Nat) (m : Pix → Option Pix) (x y : Nat) (k : Prog ℚ Unit) : Prog ℚ Unit :=
  .get bmap y x fun v =>
    if v ≠ 0 then
      match m (x, y) with
      | some q => .put out y x ((q.1 * h + q.2 + 1 : Nat) : ℚ) k
      | none => k
    else k

/-- match.cc:27-363 `matchEdgeMaps` as far as it touches its `Matrix` arguments; in between is the matching of `Model/Match.lean`
on the pixels read (for the arrays of that part see `Model/MatchMem.lean`).  Lines 164-167: without a matchable pixel the matrices stay as
initialised.  The cost is computed from the pixels read. -/
noncomputable def matchP (t out0 out1 bmap0 bmap1 : Nat) (fuel : Nat) (md2 oc2 : ℚ) (xs : Nat → ℚ) (pos : Nat) : Prog ℚ ℝ :=
  .size bmap0 fun h w => .size bmap1 fun h' w' =>
    if h = h' ∧ w = w' then
      assignNew out0 t h w <| assignNew out1 t h w <|
      (readMap bmap0 (pixels h w) fun _ _ => false).bind fun b0 => (readMap bmap1 (pixels h w) fun _ _ => false).bind fun b1 =>
      match matchEdgeMaps fuel h w b0 b1 md2 oc2 xs pos with
      | none => .abort
      | some r =>
        (if announcedM (nodes1 h w md2 b0 b1).length (nodes2 h w md2 b0 b1).length (realEdges h w md2 b0 b1).length = 0 then .ret ()
          else each (pixels h w) fun p =>
            writeMatch out0 bmap0 h r.mt.m1 p.1 p.2 (writeMatch out1 bmap1 h r.mt.m2 p.1 p.2 (.ret ())) : Prog ℚ Unit).bind fun _ =>
          .ret (matchCost h w b0 b1 md2 oc2 r.mt)
    else .abort

/-- The end of five objects. -/
def dtor5 {α β : Type} (a b c d f : Nat) (k : Prog α β) : Prog α β := .dtor f (dtor4 a b c d k)

/-- The variables: arrays `i0`, `i1`, `o0`, `o1`; C++ `i0`, `i1`, `m0`, `m1`, Cython's temporary, a temporary of `matchEdgeMaps`. -/
def aI0 : Nat := 0
@[inherit_doc aI0] def aI1 : Nat := 1
@[inherit_doc aI0] def aO0 : Nat := 2
@[inherit_doc aI0] def aO1 : Nat := 3
@[inherit_doc aI0] def cI0 : Nat := 4
@[inherit_doc aI0] def cI1 : Nat := 5
@[inherit_doc aI0] def cM0 : Nat := 6
@[inherit_doc aI0] def cM1 : Nat := 7
@[inherit_doc aI0] def cTmp : Nat := 8
@[inherit_doc aI0] def cTmp' : Nat := 9

/-- correspond_pixels.pyx:18-48 `_correspond_pixels` (casts and copies as in `nmsCy`); `none`: `ValueError`. -/
noncomputable def corrCy (fuel : Nat) (md2 oc2 : ℚ) (xs : Nat → ℚ) (pos : Nat) : Prog ℚ (Option ℝ) :=
  .size aI0 fun rows cols =>
    .ctorDefault cI0 <| .ctorDefault cI1 <| .ctorDefault cM0 <| .ctorDefault cM1 <| .ctorDefault cTmp <|
    assignNew cTmp cTmp' rows cols <| .assign cI0 cTmp <|
    assignNew cTmp cTmp' rows cols <| .assign cI1 cTmp <|
    .copyView false cI0 aI0 fun ok1 =>
      if ok1 = false then dtor5 cI0 cI1 cM0 cM1 cTmp (.ret none) else
    .copyView false cI1 aI1 fun ok2 =>
      if ok2 = false then dtor5 cI0 cI1 cM0 cM1 cTmp (.ret none) else
    (matchP cTmp' cM0 cM1 cI0 cI1 fuel md2 oc2 xs pos).bind fun cost =>
    .copyView true cM0 aO0 fun ok3 =>
      if ok3 = false then dtor5 cI0 cI1 cM0 cM1 cTmp (.ret none) else
    .copyView true cM1 aO1 fun ok4 =>
      if ok4 = false then dtor5 cI0 cI1 cM0 cM1 cTmp (.ret none) else
    dtor5 cI0 cI1 cM0 cM1 cTmp (.ret (some cost))

/-- correspond_pixels.pyx:51-66 `correspond_pixels`: `some (cost, oc)` with the arrays `o0`, `o1`, or `none` for a `ValueError`. -/
noncomputable def corrP (fuel : Nat) (i0 i1 : Img ℚ) (maxDist outlierCost : ℚ) (xs : Nat → ℚ) (pos : Nat) : Prog ℚ (Option (ℝ × ℝ)) :=
  if ¬ (i0.rows = i1.rows ∧ i0.cols = i1.cols) then .ret none
  else if maxDist ≤ 0 then .ret none
  else if outlierCost ≤ 1 then .ret none
  else
    .arrayOf aI0 i0 <| .arrayOf aI1 i1 <| .arrayOf aO0 ⟨i0.rows, i0.cols, fun _ _ => 0⟩ <| .arrayOf aO1 ⟨i1.rows, i1.cols, fun _ _ => 0⟩ <|
    (corrCy fuel (maxDist2 i0.rows i0.cols maxDist) (outlierCost ^ 2 * maxDist2 i0.rows i0.cols maxDist) xs pos).bind fun c =>
      match c with
      | some cost => .dtor aI0 (.dtor aI1 (.ret (some (cost, √((outlierCost ^ 2 * maxDist2 i0.rows i0.cols maxDist : ℚ) : ℝ)))))
      | none => .dtor aI0 (.dtor aI1 (.dtor aO0 (.dtor aO1 (.ret none))))

end EdgeEval.MatrixMem
