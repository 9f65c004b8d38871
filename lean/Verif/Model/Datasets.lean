import Verif.Model.Samples
import Verif.Model.Mask2Edge
import Verif.Model.Progress
import Mathlib.Algebra.Order.Floor.Defs
import Mathlib.Data.Rat.Floor

/-!
# Reading one sample: `datasets/cityscapes.py`, `datasets/sbd.py`, `datasets/otf_cityscapes.py`,
# `datasets/bsds.py`, `common/multi_label/edge_decoding.py:47-60`

Picture files have the type the readers expect (encoded edges are RGB, predictions, label maps and instance
maps have one channel); a file of another type is not modelled, a missing file is.  PIL's nearest-neighbour
resize is exact arithmetic (PIL accumulates the source position in a C double).  `fast_nms` is an arbitrary
function here (its own model is `Model/Nms.lean`).
-/

namespace EdgeEval.Datasets

open Text Evaluators Samples

/-- The contents of the picture files (`none`: no such file) and what reading `.mat` files gives. -/
structure Pictures where
  /-- encoded edge maps -/
  rgb : Str → Option Rgb
  /-- predictions, label maps, instance maps -/
  gray : Str → Option (Img Nat)
  /-- the `Boundaries` arrays of a `.mat` file, or what reading it raises (see `MatFile.picturesOf`) -/
  mat : Str → Except PyErr (List (Img Nat))

/-- `Image.open`, `imread` of a path. -/
def load {α : Type} : Option α → Except PyErr α
  | some x => .ok x
  | none => .error .fileNotFoundError

/-- A required keyword argument. -/
def kw {α : Type} : Option α → Except PyErr α
  | some x => .ok x
  | none => .error .typeError

/-- Python's `int(x)` of a float: truncation toward zero. -/
def pyTrunc (x : ℚ) : Int := if 0 ≤ x then ⌊x⌋ else ⌈x⌉

/-- edge_decoding.py:58, otf_cityscapes.py:156  `int(h * scale + 0.5)`. -/
def scaledSize (n : Nat) (scale : ℚ) : Int := pyTrunc (n * scale + 1 / 2)

/-- PIL (library, `ImagingScaleAffine`): the source index of output index `x` when `n` pixels are resized to `m`
with `NEAREST`: `(int)((x + 0.5) * n / m)`. -/
def srcIdx (n m x : Nat) : Nat := ⌊((x : ℚ) + 1 / 2) * ((n : ℚ) / m)⌋.toNat

/-- `Image.resize((w, h), NEAREST)` of a one-channel picture; PIL refuses sizes below 1. -/
def resize {α : Type} (im : Img α) (h w : Int) : Except PyErr (Img α) :=
  if h < 1 ∨ w < 1 then .error .valueError
  else .ok ⟨h.toNat, w.toNat, fun i j => im.at_ (srcIdx im.rows h.toNat i) (srcIdx im.cols w.toNat j)⟩

/-- The same for an RGB picture. -/
def resizeRgb (im : Rgb) (h w : Int) : Except PyErr Rgb :=
  if h < 1 ∨ w < 1 then .error .valueError
  else
    let si := srcIdx im.h h.toNat
    let sj := srcIdx im.w w.toNat
    .ok ⟨h.toNat, w.toNat, fun i j => im.r (si i) (sj j), fun i j => im.g (si i) (sj j),
      fun i j => im.b (si i) (sj j)⟩

/-- edge_decoding.py:47-60  `load_scaled_edge`: the picture and `(height, width)`. -/
def loadScaledEdge (pics : Pictures) (path : Str) (scale : ℚ) : Except PyErr (Rgb × Int × Int) := do
  let edge ← load (pics.rgb path)
  let height := scaledSize edge.h scale
  let width := scaledSize edge.w scale
  let edge ← resizeRgb edge height width
  .ok (edge, height, width)

/-- cityscapes.py:43-46  `(np.array(pred) / 255).astype(float)` after the resize. -/
def loadPred (pics : Pictures) (path : Str) (height width : Int) : Except PyErr (Img ℚ) := do
  let p ← load (pics.gray path)
  let p ← resize p height width
  .ok ⟨p.rows, p.cols, fun i j => (p.at_ i j : ℚ) / 255⟩

/-- cityscapes.py:58  `seg == cat_idx`, a bool array. -/
def eqMask (seg : Img Nat) (c : Int) : Seg :=
  ⟨⟨seg.rows, seg.cols, fun i j => if (seg.at_ i j : Int) = c then 1 else 0⟩, true⟩

/-- cityscapes.py:48-60, sbd.py:55-67  the mask of the category when internal pixels are to be killed. -/
def loadSeg (pics : Pictures) (path : Str) (kill : Bool) (edge : MLEdges) (height width catIdx : Int) :
    Except PyErr (Option Seg) :=
  if kill then do
    let seg ← load (pics.gray path)
    let seg ← resize seg height width
    assert (edge.h = seg.rows ∧ edge.w = seg.cols)
    .ok (some (eqMask seg catIdx))
  else .ok none

/-- What is handed to `evaluate_boundaries_threshold`. -/
structure Inputs where
  pred : Img ℚ
  gt : Img ℚ
  seg : Option Seg

/-- datasets/cityscapes.py:36-60 and datasets/sbd.py:39-67 (`sbd` zeroes a border of 5 pixels of the prediction,
lines 51-53).  `edge[cat_idx]` may use a negative index. -/
def precomputedInputs (pics : Pictures) (sbd : Bool) (numClasses : Nat) (s : Sample) : Except PyErr Inputs := do
  let edgePath ← kw s.edgePath
  let segPath ← kw s.segPath
  let kill ← kw s.params.killInternal
  let (rgb, height, width) ← loadScaledEdge pics edgePath s.params.scale
  let edge := decodePng rgb numClasses
  let catIdx := s.category - 1
  let k ← pyIndex edge.n catIdx
  let pred ← loadPred pics s.predPath height width
  let pred := if sbd then addIgnorePixel pred 5 0 else pred
  let seg ← loadSeg pics segPath kill edge height width catIdx
  .ok ⟨pred, toImg edge.h edge.w (edge.at_ k), seg⟩

/-- otf_cityscapes.py:23, 149  the flipped table: the last label with that trainId. -/
def trainId2label (t : Int) : Except PyErr Int :=
  match cityscapesLabel2TrainId.reverse.find? fun kv => kv.2 = t with
  | some kv => .ok kv.1
  | none => .error .keyError

/-- datasets/cityscapes_attributes.py  `CITYSCAPES_inst_labelIds`. -/
def cityscapesInstLabelIds : List Nat := [24, 25, 26, 27, 28, 31, 32, 33]

/-- otf_cityscapes.py:163-187  the edge channel of one label: with the instance map when one is given. -/
noncomputable def otfEdge (lib : DTLib) (pics : Pictures) (s : Sample) (radius : Nat) (height width : Int)
    (label : Nat) (onehot : MLEdges) : Except PyErr (Img Bool) :=
  match s.instPath.filter (· ≠ []) with
  | some p => do
    let inst ← load (pics.gray p)
    let inst ← resize inst height width
    oneLabelInstMask2Edge lib radius 0 true label onehot inst cityscapesInstLabelIds [2, 3]
  | none => oneLabelMask2Edge lib radius 0 true label onehot [2, 3]

/-- otf_cityscapes.py:146-206.  The ignore indices are the default `[2, 3]` (the evaluator passes the unused keyword
`ignore_labels`); `mask2bdry` is called with its defaults `use_cv2=True, quality=0`. -/
noncomputable def otfInputs (lib : DTLib) (pics : Pictures) (s : Sample) : Except PyErr Inputs := do
  let segPath ← kw s.segPath
  let kill ← kw s.params.killInternal
  let radius ← kw s.params.radius
  let catIdx := s.category - 1
  let label ← trainId2label catIdx
  let seg0 ← load (pics.gray segPath)
  let height := scaledSize seg0.rows s.params.scale
  let width := scaledSize seg0.cols s.params.scale
  let pred0 ← load (pics.gray s.predPath)
  let seg ← resize seg0 height width
  let predR ← resize pred0 height width
  let pred : Img ℚ := ⟨predR.rows, predR.cols, fun i j => (predR.at_ i j : ℚ) / 255⟩
  let mask : Img Int := ⟨seg.rows, seg.cols, fun i j => (seg.at_ i j : Int)⟩
  let onehot ← mask2onehot mask cityscapesLabelIds
  let edge ← otfEdge lib pics s radius height width label.toNat onehot
  let train := maskToTrainId mask cityscapesLabel2TrainId
  if kill then
    assert (edge.rows = train.rows ∧ edge.cols = train.cols)
    .ok ⟨pred, toImg edge.rows edge.cols edge.at_, some
      ⟨⟨train.rows, train.cols, fun i j => if train.at_ i j = catIdx then 1 else 0⟩, true⟩⟩
  else .ok ⟨pred, toImg edge.rows edge.cols edge.at_, none⟩

/-- The environment of an evaluation that is not part of the code: the files, the two libraries, the fuel of the
model's loops and scipy's unspecified distance. -/
structure Env where
  pics : Pictures
  lib : DTLib
  nms : Img ℚ → Img ℚ
  junk : Nat → Nat → ℚ
  fuel : Nat

/-- cityscapes.py:63-79, sbd.py:70-86, otf_cityscapes.py:209-225  the options handed on. -/
def options (env : Env) (p : Params) (kill skip : Bool) : MLOpts :=
  { maxDist := p.maxDist, thin := p.thinning, kill := kill, skip := skip
    nms := if p.nms then some env.nms else none, junk := env.junk }

/-- `cityscapes_eval_single`, `sbd_eval_single`, `otf_cityscapes_eval_single`: the whole sub-routine
(the same random streams serve any order of work). -/
noncomputable def multiLabelSingle (env : Env) (k : Kind) (arg : ThresholdArg) (s : Sample)
    (rnd : Nat → Nat → Nat → ℚ) : Except PyErr (Option (List Row)) := do
  let kill ← kw s.params.killInternal
  let skip ← kw s.params.skipIfNonexistent
  let ths ← checkThresholds arg
  let x ← if k = .otf then otfInputs env.lib env.pics s
    else precomputedInputs env.pics (decide (k = .sbd ∨ k = .reanno)) (numClasses k) s
  evalMultiLabel env.fuel ths x.pred x.gt x.seg (options env s.params kill skip) rnd

/-- datasets/bsds.py:33-38  `load_predictions` (uint8; `img_as_float` divides by 255). -/
def bsdsPred (pics : Pictures) (path : Str) : Except PyErr (Img ℚ) := do
  let p ← load (pics.gray path)
  .ok ⟨p.rows, p.cols, fun i j => (p.at_ i j : ℚ) / 255⟩

/-- datasets/bsds.py:14-30  `load_bsds_gt_boundaries`. -/
def bsdsGts (pics : Pictures) (path : Str) : Except PyErr (List (Img ℚ)) := do
  let gts ← pics.mat path
  .ok (gts.map fun g => ⟨g.rows, g.cols, fun i j => (g.at_ i j : ℚ)⟩)

/-- datasets/bsds.py:41-84  `bsds_eval_single` (`scale` is not used). -/
noncomputable def bsdsSingle (env : Env) (arg : ThresholdArg) (s : Sample) (rnd : Nat → Nat → Nat → ℚ) :
    Except PyErr (Option (List Row)) := do
  let gtPath ← kw s.edgePath
  let ths ← checkThresholds arg
  let pred ← bsdsPred env.pics s.predPath
  let gts ← bsdsGts env.pics gtPath
  evalMultiGt env.fuel ths pred gts s.params.maxDist s.params.thinning
    (if s.params.nms then some env.nms else none) rnd

/-- datasets/generic_binary.py:40-84  `_evaluate_single` of the generic binary dataset: the same loaders (lines 14-37), but the list
of annotations is handed to the single-annotation routine (line 67), whose `gt.any()`
(common/binary_label/evaluate_boundaries.py:71) a list does not have. -/
noncomputable def genericSingle (env : Env) (arg : ThresholdArg) (s : Sample) : Except PyErr (Option (List Row)) := do
  let gtPath ← kw s.edgePath
  let ths ← checkThresholds arg
  let pred ← bsdsPred env.pics s.predPath
  let _gts ← bsdsGts env.pics gtPath
  overThresholds (fun _ t => (processPred env.fuel s.params.thinning (preNms (if s.params.nms then some env.nms else none) pred) t).bind
    fun _ => .error .attributeError) 0 ths

end EdgeEval.Datasets
