import Verif.Model.Nms

/-!
# `conv_tri` on an image of any dtype
-/

namespace EdgeEval.Nms

/-- toolbox.py:9-42 `conv_tri`, with the conversion of the filter to the dtype of the image in line 29, `f.astype(image.dtype)`, as
an argument: the identity for `float64`, truncation for the integer types (wrap-around in the sums is not modelled). -/
noncomputable def convTriCast (cast : ℝ → ℝ) (im : Img ℝ) (r s : Nat) : Except PyErr (Img ℝ) :=
  if im.rows * im.cols = 0 ∨ (r = 0 ∧ s = 1) then .ok im
  else if r = 0 then .error .zeroDivisionError
  else
    let f := (triTaps r).map cast
    let pad : Nat → Nat → ℝ := fun (i j : Nat) =>
      im.at_ (symIdx im.rows ((i : ℤ) - r)) (symIdx im.cols ((j : ℤ) - r))
    let hor : Nat → Nat → ℝ := fun (i j : Nat) => conv1 f (fun (k : Nat) => pad i k) j
    let ver : Nat → Nat → ℝ := fun (i j : Nat) => conv1 f (fun (k : Nat) => hor k j) i
    let t := s / 2 + 1
    if 1 < s then
      .ok { rows := sliceLen im.rows (t - 1) ((im.rows : ℤ) - ((s : ℤ) - t) + 1) s
            cols := sliceLen im.cols (t - 1) ((im.cols : ℤ) - ((s : ℤ) - t) + 1) s
            at_ := fun (i j : Nat) => ver (t - 1 + i * s) (t - 1 + j * s) }
    else .ok { rows := im.rows, cols := im.cols, at_ := ver }

/-- `astype` of a non-negative number to an integer type. -/
noncomputable def truncCast (x : ℝ) : ℝ := (⌊x⌋ : ℤ)

end EdgeEval.Nms
