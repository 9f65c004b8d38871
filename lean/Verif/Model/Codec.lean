import Verif.Model.Py
import Verif.Model.Img
import Mathlib.Data.Nat.Digits.Defs

/-!
# Model of `pyEdgeEval/common/multi_label/edge_encoding.py`, `edge_decoding.py`,
# `common/multi_label/utils.py` and `utils/convert_formats.py`

Multi-label edges are 0/1 arrays, so their entries are `Bool`; other uint8 values are not modelled.
Integer arithmetic follows numpy 1.x, where `2**k * edge_map` is computed in a type that holds `2**k`
(numpy 2 raises for `k ≥ 8` in the uint32 encoder); sums of distinct powers of two never wrap.
-/

namespace EdgeEval

/-- A multi-label edge array of shape `(n, h, w)`. -/
structure MLEdges where
  n : Nat
  h : Nat
  w : Nat
  at_ : Nat → Nat → Nat → Bool

/-- edge_encoding.py:12-27  `default_multilabel_encoding`: the `(h, w)` result after the loop over the
classes. (For more than 32 classes numpy widens the sum to 64 bits, which is modelled as unbounded.) -/
def defaultEncode (e : MLEdges) : Img Nat :=
  (List.range e.n).foldl
    (fun acc t => ⟨e.h, e.w, fun i j => acc.at_ i j + 2 ^ t * (e.at_ t i j).toNat⟩)
    ⟨e.h, e.w, fun _ _ => 0⟩

/-- utils/convert_formats.py:29-41  `edge_onehot2multilabel` (the same loop). -/
def onehot2multilabel (e : MLEdges) : Img Nat :=
  (List.range e.n).foldl
    (fun acc l => ⟨e.h, e.w, fun i j => acc.at_ i j + 2 ^ l * (e.at_ l i j).toNat⟩)
    ⟨e.h, e.w, fun _ _ => 0⟩

/-- An RGB image of shape `(h, w, 3)`. -/
structure Rgb where
  h : Nat
  w : Nat
  r : Nat → Nat → Nat
  g : Nat → Nat → Nat
  b : Nat → Nat → Nat

/-- `acc + (2**k) * edge_map` on uint8 images (numpy wraps modulo 256). -/
def addBit (acc : Nat → Nat → Nat) (k : Nat) (m : Nat → Nat → Bool) : Nat → Nat → Nat :=
  fun i j => (acc i j + 2 ^ k * (m i j).toNat) % 256

/-- edge_encoding.py:48-56  one iteration of the loop of `rgb_multilabel_encoding`. -/
def rgbStep (e : MLEdges) (acc : Rgb) (t : Nat) : Except PyErr Rgb :=
  if t < 8 then .ok { acc with b := addBit acc.b t (e.at_ t) }
  else if 8 ≤ t ∧ t < 16 then .ok { acc with g := addBit acc.g (t - 8) (e.at_ t) }
  else if 16 ≤ t ∧ t < 24 then .ok { acc with r := addBit acc.r (t - 16) (e.at_ t) }
  else .error .valueError

/-- edge_encoding.py:30-62  `rgb_multilabel_encoding`. -/
def rgbEncode (e : MLEdges) : Except PyErr Rgb :=
  (List.range e.n).foldlM (rgbStep e) ⟨e.h, e.w, fun _ _ => 0, fun _ _ => 0, fun _ _ => 0⟩

/-- `np.unpackbits` of one byte, most significant bit first. -/
def unpackBig (v : Nat) : List Bool := [7, 6, 5, 4, 3, 2, 1, 0].map fun (k : Nat) => v.testBit k

/-- edge_decoding.py:66-69  the bits of one pixel: `np.unpackbits(edge, axis=2)[..., -1:-(n+1):-1]`. -/
def pngBits (n : Nat) (r g b : Nat) : List Bool :=
  ((unpackBig r ++ unpackBig g ++ unpackBig b).reverse).take n

/-- edge_decoding.py:63-71  `decode_png`. -/
def decodePng (im : Rgb) (n : Nat) : MLEdges :=
  ⟨min n 24, im.h, im.w, fun k i j => (pngBits n (im.r i j) (im.g i j) (im.b i j)).getD k false⟩

/-- edge_decoding.py:79-83  `np.unpackbits(word.view(uint8), count=n, bitorder="little")` of one 32-bit word
on a little-endian machine: bit `k` of the word, zero padded beyond 32. -/
def unpackLittle (n v : Nat) : List Bool :=
  (List.range n).map fun (k : Nat) => if k < 32 then v.testBit k else false

/-- edge_decoding.py:74-85  `decode_tif`: `astype(uint32)` keeps the low 32 bits. -/
def decodeTif (im : Img Nat) (n : Nat) : MLEdges :=
  ⟨n, im.rows, im.cols, fun k i j => (unpackLittle n (im.at_ i j % 2 ^ 32)).getD k false⟩

/-- edge_decoding.py:11-44  `binary_multilabel_decoding`: the file holds 32-bit words in row-major order
(little-endian machine); `reshape(h, w)` raises when their number is wrong. -/
def binaryDecode (words : List Nat) (h w n : Nat) : Except PyErr MLEdges :=
  if words.length = h * w then
    .ok ⟨n, h, w, fun k i j => (unpackLittle n (words.getD (i * w + j) 0 % 2 ^ 32)).getD k false⟩
  else .error .valueError

/-- numpy `tofile`: the words of an `(h, w)` array, row-major. -/
def toFile (im : Img Nat) : List Nat :=
  (List.range (im.rows * im.cols)).map fun (k : Nat) => im.at_ (k / im.cols) (k % im.cols)

/-! ## convert_formats.py -/

/-- utils/convert_formats.py:6-19  `mask2onehot` (`c = mask.shape[0]` is the height of the mask). -/
def mask2onehot (mask : Img Int) (labels : List Int) : Except PyErr MLEdges :=
  if ¬ 0 < labels.length then .error .assertionError
  else if ¬ mask.rows ≥ labels.length then .error .assertionError
  else .ok ⟨labels.length, mask.rows, mask.cols, fun k i j => decide (labels[k]? = some (mask.at_ i j))⟩

/-- utils/convert_formats.py:22-26  `edge_multilabel2binary`: `np.sum(edges, axis=0) > 0`. -/
def multilabel2binary (e : MLEdges) : Img Bool :=
  ⟨e.h, e.w, fun i j => decide (((List.range e.n).map fun (k : Nat) => (e.at_ k i j).toNat).sum > 0)⟩

/-- utils/convert_formats.py:44-69  `mask_label2trainId` on a 2-D mask: entry `[i, j]`; the dict is the list of
its items; assigning to a uint8 array keeps the value modulo 256. -/
def maskToTrainId (mask : Img Int) (d : List (Int × Int)) : Img Int :=
  ⟨mask.rows, mask.cols, fun i j =>
    d.foldl (fun v kv => if mask.at_ i j = kv.1 then kv.2 % 256 else v) 255⟩

/-- Python sequence indexing with a possibly negative index. -/
def pyIndex (n : Nat) (i : Int) : Except PyErr Nat :=
  if 0 ≤ i ∧ i < n then .ok i.toNat
  else if i < 0 ∧ -(n : Int) ≤ i then .ok (i + n).toNat
  else .error .indexError

/-- utils/convert_formats.py:78-79  one iteration `edges_trainIds[trainId] = edge[labelId, ...]`. -/
def setChannel (edge : MLEdges) (out : MLEdges) (kv : Int × Int) : Except PyErr MLEdges :=
  match pyIndex edge.n kv.1 with
  | .error e => .error e
  | .ok l =>
    match pyIndex out.n kv.2 with
    | .error e => .error e
    | .ok t => .ok { out with at_ := fun k i j => if k = t then edge.at_ l i j else out.at_ k i j }

/-- utils/convert_formats.py:72-80  `edge_label2trainId`. -/
def edgeToTrainId (edge : MLEdges) (d : List (Int × Int)) : Except PyErr MLEdges :=
  d.foldlM (setChannel edge) ⟨d.length, edge.h, edge.w, fun _ _ _ => false⟩

/-! ## multi_label/utils.py -/

/-- The index range selected by the Python slice `a:b` of a sequence of length `n`. -/
def inSlice (n : Nat) (a b : Int) (i : Nat) : Bool :=
  let clip : Int → Int := fun x => if x < 0 then max 0 (x + n) else min x n
  decide (clip a ≤ i ∧ (i : Int) < clip b)

/-- multi_label/utils.py:6-21  `add_ignore_pixel`: the array after the four assignments (the same array is
modified in place and returned). -/
def addIgnorePixel {α : Type} (seg : Img α) (border : Int) (ignoreId : α) : Img α :=
  let h : Int := seg.rows
  let w : Int := seg.cols
  let s1 := fun i j => if inSlice seg.rows 0 border i then ignoreId else seg.at_ i j
  let s2 := fun i j => if inSlice seg.rows (h - border) h i then ignoreId else s1 i j
  let s3 := fun i j => if inSlice seg.cols 0 border j then ignoreId else s2 i j
  let s4 := fun i j => if inSlice seg.cols (w - border) w j then ignoreId else s3 i j
  ⟨seg.rows, seg.cols, s4⟩

/-! ## Decimal strings -/

/-- `str(n)` for a non-negative integer, as the list of its decimal digits, most significant first. -/
def pyStr (n : Nat) : List Nat := if n = 0 then [0] else (Nat.digits 10 n).reverse

/-- `s.zfill(k)`. -/
def zfill (k : Nat) (s : List Nat) : List Nat := List.replicate (k - s.length) 0 ++ s

/-- The value of a digit string. -/
def digitsVal (s : List Nat) : Nat := s.foldl (fun a d => 10 * a + d) 0

/-- `int(s)`: the empty string raises. -/
def pyInt (s : List Nat) : Except PyErr Nat := if s = [] then .error .valueError else .ok (digitsVal s)

/-- multi_label/utils.py:36-41  `int(str(cat).zfill(2) + str(num_inst).zfill(3))` (never empty). -/
def instId (cat num : Nat) : Nat := digitsVal (zfill 2 (pyStr cat) ++ zfill 3 (pyStr num))

/-- multi_label/utils.py:38-44  the inner loop over `enumerate(inst_cats)` for one category, at one pixel with
value `v`: `(i, num_inst, out)` evolve. -/
def instLoop (cat v : Nat) : (cats : List Nat) → (i num : Nat) → (out : Nat) → Nat
  | [], _, _, out => out
  | c :: cs, i, num, out =>
    if cat = c then instLoop cat v cs (i + 1) (num + 1) (if v = i + 1 then instId cat num else out)
    else instLoop cat v cs (i + 1) num out

/-- multi_label/utils.py:24-45  `convert_inst_seg` (`out[inst_seg == i + 1] = …` acts pixel by pixel, so the
loops are run per pixel). -/
def convertInst (seg : Img Nat) (instCats presentCats : List Nat) : Img Nat :=
  ⟨seg.rows, seg.cols, fun i j =>
    presentCats.foldl (fun out cat => instLoop cat (seg.at_ i j) instCats 0 0 out) 0⟩

/-! ## Tables -/

/-- datasets/cityscapes_attributes.py:7-27  `CITYSCAPES_label2trainId`. -/
def cityscapesLabel2TrainId : List (Int × Int) :=
  [(7, 0), (8, 1), (11, 2), (12, 3), (13, 4), (17, 5), (19, 6), (20, 7), (21, 8), (22, 9), (23, 10), (24, 11),
   (25, 12), (26, 13), (27, 14), (28, 15), (31, 16), (32, 17), (33, 18)]

/-- datasets/sbd_attributes.py  `SBD_label2trainId`. -/
def sbdLabel2TrainId : List (Int × Int) := (List.range 20).map fun (k : Nat) => ((k : Int) + 1, (k : Int))

/-- datasets/cityscapes_attributes.py:4  `CITYSCAPES_labelIds`. -/
def cityscapesLabelIds : List Int := (List.range 34).map fun (k : Nat) => (k : Int)

end EdgeEval
