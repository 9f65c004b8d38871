import Verif.Model.Img
import Verif.Model.Py

/-!
# Model of `pyEdgeEval/preprocess/thin/thin.py` and `pyEdgeEval/preprocess/thin/bwmorph_thin.py`

Images are `Img ℚ` (a bool image has entries 0 and 1); only 2-D input is modelled (other ranks raise
`ValueError`).  The `while` loops take a fuel argument and return `none` when it runs out; C17 shows that
this does not happen.  numpy lookup tables are functions on their index range; C18 shows every index is in
range.
-/

namespace EdgeEval

/-! ## thin.py -/

/-- thin.py:32-42  `MASKS`. -/
def masks : List Nat := [16, 32, 4, 2, 1, 8, 64, 128, 256]

/-- thin.py:64-68  `x != 0` followed by `np.pad(x, [(1, 1), (1, 1)], mode="constant")`: entry `[i, j]` of
the padded array, as 0 or 1. -/
def padAt (x : Img ℚ) (i j : Nat) : Nat :=
  if 1 ≤ i ∧ i ≤ x.rows ∧ 1 ≤ j ∧ j ≤ x.cols then (if x.at_ (i - 1) (j - 1) ≠ 0 then 1 else 0) else 0

/-- thin.py:71-83  entry `[i, j]` of `binary_image_to_lut_indices(x)`. -/
def lutIndex (x : Img ℚ) (i j : Nat) : Nat :=
  padAt x i j * 1 + padAt x i (j + 1) * 2 + padAt x i (j + 2) * 4 +
    padAt x (i + 1) j * 8 + padAt x (i + 1) (j + 1) * 16 + padAt x (i + 1) (j + 2) * 32 +
    padAt x (i + 2) j * 64 + padAt x (i + 2) (j + 1) * 128 + padAt x (i + 2) (j + 2) * 256

/-- thin.py:108-115  `identity_lut()`. -/
def identityLut (n : Nat) : Bool := n &&& 16 != 0

/-- thin.py:131-143  `lut_masks_zero(neigh)`. -/
def lutMasksZero (neigh n : Nat) : Bool :=
  n &&& masks.getD (if neigh > 8 then neigh - 8 else neigh) 0 == 0

/-- thin.py:146-158  `lut_masks_one(neigh)`. -/
def lutMasksOne (neigh n : Nat) : Bool :=
  n &&& masks.getD (if neigh > 8 then neigh - 8 else neigh) 0 != 0

/-- thin.py:161-173  `_thin_cond_g1()`. -/
def thinCondG1 (n : Nat) : Bool :=
  ([1, 2, 3, 4].map fun (i : Nat) =>
    (lutMasksZero (2 * i - 1) n && (lutMasksOne (2 * i) n || lutMasksOne (2 * i + 1) n)).toNat).sum == 1

/-- thin.py:176-189  `_thin_cond_g2()`. -/
def thinCondG2 (n : Nat) : Bool :=
  let n1 := ([1, 2, 3, 4].map fun (k : Nat) => (lutMasksOne (2 * k - 1) n || lutMasksOne (2 * k) n).toNat).sum
  let n2 := ([1, 2, 3, 4].map fun (k : Nat) => (lutMasksOne (2 * k) n || lutMasksOne (2 * k + 1) n).toNat).sum
  decide (min n1 n2 ≥ 2) && decide (min n1 n2 ≤ 3)

/-- thin.py:192-202  `_thin_cond_g3()`. -/
def thinCondG3 (n : Nat) : Bool :=
  ((lutMasksOne 2 n || lutMasksOne 3 n || lutMasksZero 8 n) && lutMasksOne 1 n) == false

/-- thin.py:205-213  `_thin_cond_g3_prime()`. -/
def thinCondG3' (n : Nat) : Bool :=
  ((lutMasksOne 6 n || lutMasksOne 7 n || lutMasksZero 4 n) && lutMasksOne 5 n) == false

/-- thin.py:216-226  `_thin_iter_1_lut()`. -/
def thin1Lut (n : Nat) : Bool :=
  if thinCondG1 n && thinCondG2 n && thinCondG3 n then false else identityLut n

/-- thin.py:229-239  `_thin_iter_2_lut()`. -/
def thin2Lut (n : Nat) : Bool :=
  if thinCondG1 n && thinCondG2 n && thinCondG3' n then false else identityLut n

/-- thin.py:118-128  `_lut_mutate_mask(lut)`. -/
def lutMutate (lut : Nat → Bool) (n : Nat) : Bool := lut n != identityLut n

/-- thin.py:266, 274  `x_mut.sum() == 0`, negated: some pixel changes. -/
def anyMutates (lut : Nat → Bool) (x : Img ℚ) : Bool :=
  (List.range x.rows).any fun (i : Nat) => (List.range x.cols).any fun (j : Nat) =>
    lutMutate lut (lutIndex x i j)

/-- thin.py:86-105, 269, 277  `lut[lut_indices]`, a bool image (entries 0 and 1). -/
def applyLut (lut : Nat → Bool) (x : Img ℚ) : Img ℚ :=
  ⟨x.rows, x.cols, fun i j => if lut (lutIndex x i j) then 1 else 0⟩

/-- thin.py:261  `max_iter is None or iter_count < max_iter`. -/
def thinGoOn (maxIter : Option Nat) (it : Nat) : Bool :=
  match maxIter with
  | none => true
  | some m => decide (it < m)

/-- thin.py:260-281  the loop of `binary_thin`; `it` is `iter_count`. -/
def binaryThinLoop (maxIter : Option Nat) : (fuel : Nat) → (it : Nat) → Img ℚ → Option (Img ℚ)
  | 0, _, _ => none
  | fuel + 1, it, x =>
    if thinGoOn maxIter it then
      if anyMutates thin1Lut x then
        let x := applyLut thin1Lut x
        if anyMutates thin2Lut x then
          binaryThinLoop maxIter fuel (it + 1) (applyLut thin2Lut x)
        else some x
      else some x
    else some x

/-- thin.py:242-281  `binary_thin(x, max_iter)` (a negative limit behaves as 0). -/
def binaryThin (fuel : Nat) (x : Img ℚ) (maxIter : Option Nat) : Option (Img ℚ) :=
  binaryThinLoop maxIter fuel 0 x

/-! ## bwmorph_thin.py -/

/-- bwmorph_thin.py:16-27  `G123_LUT`. -/
def g123Lut : List Nat := [
    0, 0, 0, 0, 0, 0, 0, 0, 0, 0, 0, 0, 0, 0, 1, 0, 0, 0, 0, 0, 1, 0, 1,
    0, 0, 0, 0, 0, 1, 0, 1, 0, 0, 0, 0, 0, 0, 0, 0, 0, 0, 0, 0, 0, 0, 0,
    0, 0, 0, 0, 0, 0, 1, 0, 1, 0, 1, 0, 0, 0, 1, 0, 1, 0, 0, 0, 0, 0, 0,
    0, 0, 0, 0, 0, 0, 0, 0, 0, 0, 0, 1, 0, 0, 0, 1, 0, 1, 0, 1, 0, 0, 0,
    1, 0, 1, 0, 0, 0, 0, 0, 0, 0, 0, 0, 0, 0, 0, 0, 0, 0, 0, 0, 1, 0, 0,
    0, 1, 0, 1, 0, 1, 0, 0, 0, 1, 0, 1, 0, 0, 0, 0, 0, 0, 0, 0, 0, 0, 0,
    0, 0, 0, 0, 0, 0, 0, 0, 0, 0, 0, 0, 0, 0, 0, 0, 0, 0, 0, 0, 0, 0, 0,
    0, 0, 0, 0, 0, 0, 0, 0, 0, 0, 0, 0, 0, 0, 0, 0, 0, 0, 0, 0, 0, 0, 0,
    0, 0, 0, 0, 0, 0, 0, 0, 0, 1, 0, 0, 0, 0, 0, 0, 0, 0, 0, 0, 0, 0, 0,
    0, 1, 1, 0, 0, 1, 0, 0, 0, 1, 1, 0, 0, 1, 0, 0, 0, 1, 1, 0, 0, 0, 0,
    0, 0, 0, 0, 0, 0, 0, 0, 0, 0, 1, 1, 0, 0, 1, 0, 0, 0, 1, 1, 0, 0, 1,
    0, 0, 0]

/-- bwmorph_thin.py:29-40  `G123P_LUT`. -/
def g123pLut : List Nat := [
    0, 0, 0, 0, 0, 1, 0, 1, 0, 0, 0, 0, 0, 1, 1, 1, 0, 0, 0, 0, 0, 0, 0,
    0, 0, 0, 0, 0, 1, 1, 1, 1, 0, 0, 0, 0, 0, 0, 0, 0, 0, 0, 0, 0, 0, 0,
    0, 0, 0, 0, 0, 0, 0, 0, 0, 0, 0, 0, 0, 0, 0, 0, 0, 0, 0, 1, 0, 1, 0,
    1, 0, 1, 0, 0, 0, 0, 0, 1, 0, 1, 0, 0, 0, 0, 0, 0, 0, 0, 0, 0, 0, 0,
    0, 0, 0, 0, 0, 1, 0, 1, 0, 1, 0, 1, 0, 0, 0, 0, 0, 0, 0, 0, 0, 0, 0,
    0, 0, 0, 0, 0, 0, 0, 0, 0, 0, 0, 0, 0, 0, 0, 0, 1, 0, 1, 0, 1, 0, 0,
    0, 0, 0, 1, 0, 1, 0, 0, 0, 0, 0, 0, 0, 0, 0, 0, 0, 0, 0, 1, 0, 1, 0,
    0, 0, 0, 0, 0, 0, 0, 0, 0, 0, 0, 0, 0, 0, 0, 0, 0, 0, 0, 0, 0, 0, 0,
    0, 0, 0, 0, 0, 0, 0, 0, 0, 1, 0, 1, 0, 1, 0, 1, 0, 0, 0, 0, 0, 1, 0,
    1, 0, 0, 0, 0, 0, 0, 0, 0, 0, 0, 0, 0, 0, 0, 0, 0, 1, 1, 0, 1, 0, 1,
    0, 1, 0, 0, 0, 0, 0, 0, 0, 0, 0, 0, 0, 0, 0, 0, 0, 0, 0, 0, 0, 0, 0,
    0, 0, 0]

/-- `skel[i, j]` with `mode="constant"` (zero) outside the image; the arguments are shifted by one. -/
def constAt (x : Img ℚ) (i j : Nat) : Nat :=
  if 1 ≤ i ∧ i ≤ x.rows ∧ 1 ≤ j ∧ j ≤ x.cols then (if x.at_ (i - 1) (j - 1) ≠ 0 then 1 else 0) else 0

/-- bwmorph_thin.py:121, 130  entry `[i, j]` of `ndi.correlate(skel, mask, mode="constant")` for a 0/1
image (uint8 arithmetic; the value is at most 255, see `C18_indices_in_range`). -/
def correlateAt (x : Img ℚ) (i j : Nat) : Nat :=
  constAt x i j * 8 + constAt x i (j + 1) * 4 + constAt x i (j + 2) * 2 +
    constAt x (i + 1) j * 16 + constAt x (i + 1) (j + 1) * 0 + constAt x (i + 1) (j + 2) * 1 +
    constAt x (i + 2) j * 32 + constAt x (i + 2) (j + 1) * 64 + constAt x (i + 2) (j + 2) * 128

/-- bwmorph_thin.py:130-134  one sub-iteration: `skel[np.take(lut, N)] = 0`. -/
def bwSub (lut : List Nat) (x : Img ℚ) : Img ℚ :=
  ⟨x.rows, x.cols, fun i j => if lut.getD (correlateAt x i j) 0 ≠ 0 then 0 else x.at_ i j⟩

/-- bwmorph_thin.py:125, 136  `np.sum(skel)`. -/
def imgSum (x : Img ℚ) : ℚ :=
  ((List.range x.rows).map fun (i : Nat) => ((List.range x.cols).map fun (j : Nat) => x.at_ i j).sum).sum

/-- bwmorph_thin.py:124-145  the `while` loop. -/
def bwLoop : (fuel : Nat) → (n : Int) → Img ℚ → Option (Img ℚ)
  | 0, _, _ => none
  | fuel + 1, n, x =>
    if n ≠ 0 then
      let y := bwSub g123pLut (bwSub g123Lut x)
      if imgSum x = imgSum y then some y else bwLoop fuel (n - 1) y
    else some x

/-- bwmorph_thin.py:45-145  `bwmorph_thin(image, n_iter)`. (`np.bool` in the last line exists only in
numpy < 1.24; the conversion does not change the 0/1 values.) -/
def bwmorphThin (fuel : Nat) (image : Img ℚ) (nIter : Option Int) : Except PyErr (Option (Img ℚ)) :=
  match nIter with
  | some k =>
    if k ≤ 0 then .error .valueError
    else if binary01 image then .ok (bwLoop fuel k image) else .error .valueError
  | none => if binary01 image then .ok (bwLoop fuel (-1) image) else .error .valueError
where
  /-- bwmorph_thin.py:117  `np.all(np.in1d(image.flat, (0, 1)))`. -/
  binary01 (x : Img ℚ) : Bool :=
    (List.range x.rows).all fun (i : Nat) => (List.range x.cols).all fun (j : Nat) =>
      decide (x.at_ i j = 0 ∨ x.at_ i j = 1)

end EdgeEval
