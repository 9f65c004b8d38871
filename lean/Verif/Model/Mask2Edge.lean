import Verif.Model.Codec
import Verif.Model.Thin
import Verif.Model.Evaluate
import Mathlib.Data.Real.Basic
import Mathlib.Data.Finset.Sort

/-!
# Model of `utils/distance_transforms.py`, `edge_tools/*.py` and the single-label versions of
# `datasets/otf_cityscapes.py`

The distance transforms of OpenCV and SciPy and the (rounded) addition of their results are parameters of the model
(`DTLib`).  Masks are 0/1 arrays.  `warn(...)` calls are not modelled.
-/

namespace EdgeEval

/-- A distance transform: shape, binary image, pixel ↦ distance. -/
abbrev DT := (rows cols : Nat) → (Nat → Nat → Bool) → Nat → Nat → ℝ

/-- The two libraries: `cv2.distanceTransform(·, DIST_L2, quality)` and
`scipy.ndimage.distance_transform_edt`, and NumPy's addition of two entries of their results (float32 and float64). -/
structure DTLib where
  cv2 : (quality : Int) → DT
  scipy : DT
  add32 : ℝ → ℝ → ℝ
  add64 : ℝ → ℝ → ℝ

/-- The keyword arguments of `mask2bdry`. -/
structure BdryOpts where
  radius : Int
  internalOnly : Bool := false
  useCv2 : Bool := true
  quality : Int := 0

/-- `(m + ignore_mask) > 0` with uint8 wrap-around. -/
def unionMask (m : Nat → Nat → Bool) (ign : Nat → Nat → Nat) : Nat → Nat → Bool :=
  fun i j => decide (((m i j).toNat + ign i j) % 256 > 0)

/-- `(1.0 - m) > 0`. -/
def complMask (m : Nat → Nat → Bool) : Nat → Nat → Bool := fun i j => decide ((1 : Int) - (m i j).toNat > 0)

open Classical in
/-- distance_transforms.py:19-20, 29-30, 49-50  `dist[dist > radius] = 0; dist > 0`. -/
noncomputable def cutRadius (radius : Int) (d : ℝ) : Bool :=
  decide ((if d > (radius : ℝ) then 0 else d) > 0)

/-- distance_transforms.py:10-21  `cv2_mask2bdry`. -/
noncomputable def cv2Mask2Bdry (lib : DTLib) (rows cols : Nat) (m : Nat → Nat → Bool) (ign : Nat → Nat → Nat)
    (radius quality : Int) : Nat → Nat → Bool :=
  fun i j =>
    let inner := lib.cv2 quality rows cols (unionMask m ign) i j
    let outer := lib.cv2 quality rows cols (complMask m) i j
    cutRadius radius (lib.add32 outer inner)

/-- distance_transforms.py:24-31  `scipy_mask2bdry` (the transform of `1.0 - m` treats nonzero as set). -/
noncomputable def scipyMask2Bdry (lib : DTLib) (rows cols : Nat) (m : Nat → Nat → Bool) (ign : Nat → Nat → Nat)
    (radius : Int) : Nat → Nat → Bool :=
  fun i j =>
    let inner := lib.scipy rows cols (unionMask m ign) i j
    let outer := lib.scipy rows cols (complMask m) i j
    cutRadius radius (lib.add64 outer inner)

/-- distance_transforms.py:34-50  `mask2internal`. -/
noncomputable def mask2Internal (lib : DTLib) (rows cols : Nat) (m : Nat → Nat → Bool) (ign : Nat → Nat → Nat)
    (radius : Int) (useCv2 : Bool) (quality : Int) : Nat → Nat → Bool :=
  fun i j =>
    let inner := if useCv2 then lib.cv2 quality rows cols (unionMask m ign) i j
      else lib.scipy rows cols (unionMask m ign) i j
    cutRadius radius inner

/-- distance_transforms.py:53-81  `mask2bdry`. -/
noncomputable def mask2Bdry (lib : DTLib) (o : BdryOpts) (rows cols : Nat) (m : Nat → Nat → Bool)
    (ign : Nat → Nat → Nat) : Nat → Nat → Bool :=
  if o.internalOnly then mask2Internal lib rows cols m ign o.radius o.useCv2 o.quality
  else if o.useCv2 then cv2Mask2Bdry lib rows cols m ign o.radius o.quality
  else scipyMask2Bdry lib rows cols m ign o.radius

/-- mask2edge_loop.py:31-34 (also 82-85, mask2edge_mp.py:90-93, 227-230, otf_cityscapes.py:36-38, 68-70)
`ignore_mask += mask[i]` in uint8. -/
def ignoreMask (mask : MLEdges) (ignore : List Int) : Except PyErr (Nat → Nat → Nat) :=
  ignore.foldlM (fun acc i => do
    let l ← pyIndex mask.n i
    return fun r c => (acc r c + (mask.at_ l r c).toNat) % 256) (fun _ _ => 0)

/-- `np.count_nonzero(m)` is non-zero. -/
def anySet (rows cols : Nat) (m : Nat → Nat → Bool) : Bool :=
  (List.range rows).any fun (i : Nat) => (List.range cols).any fun (j : Nat) => m i j

/-- A binary image as the 0/1 array handed to `binary_thin`. -/
def toImg (rows cols : Nat) (m : Nat → Nat → Bool) : Img ℚ := ⟨rows, cols, fun i j => if m i j then 1 else 0⟩

/-- mask2edge_loop.py:56-58  `if thin: edge = binary_thin(edge).astype(np.uint8)` (`none`: fuel of the model of
`binary_thin` exhausted, see `C17_binary_thin_terminates`). -/
def optThin (fuel : Nat) (thin : Bool) (rows cols : Nat) (m : Nat → Nat → Bool) : Option (Nat → Nat → Bool) :=
  if thin then (binaryThin fuel (toImg rows cols m) none).map fun x i j => decide (x.at_ i j ≠ 0)
  else some m

/-- `edges[label] = edge`. -/
def putChannel (e : MLEdges) (k : Nat) (m : Nat → Nat → Bool) : MLEdges :=
  { e with at_ := fun k' i j => if k' = k then m i j else e.at_ k' i j }

/-- mask2edge_loop.py:37-60 with the body of the loop as a parameter: `none` means `continue`. -/
def labelLoop (body : Nat → Run (Option (Nat → Nat → Bool))) : (labels : List Nat) → MLEdges → Run MLEdges
  | [], e => .ok (some e)
  | l :: ls, e =>
    (body l).bind fun r =>
      match r with
      | none => labelLoop body ls e
      | some m => labelLoop body ls (putChannel e l m)

/-- `np.zeros_like(mask)`. -/
def zerosLike (mask : MLEdges) : MLEdges := { mask with at_ := fun _ _ _ => false }

/-- mask2edge_loop.py:38-60  one iteration. -/
noncomputable def loopBody (lib : DTLib) (o : BdryOpts) (fuel : Nat) (thin : Bool) (mask : MLEdges) (ignore : List Int)
    (ign : Nat → Nat → Nat) (label : Nat) : Run (Option (Nat → Nat → Bool)) :=
  let m := mask.at_ label
  if (label : Int) ∈ ignore then .ok (some none)
  else if !anySet mask.h mask.w m then .ok (some none)
  else
    let edge := mask2Bdry lib o mask.h mask.w m ign
    match optThin fuel thin mask.h mask.w edge with
    | none => .ok none
    | some e => .ok (some (some e))

/-- mask2edge_loop.py:18-62  `loop_mask2edge`. -/
noncomputable def loopMask2Edge (lib : DTLib) (o : BdryOpts) (fuel : Nat) (thin : Bool) (mask : MLEdges)
    (ignore : List Int) : Run MLEdges :=
  match ignoreMask mask ignore with
  | .error e => .error e
  | .ok ign => labelLoop (loopBody lib o fuel thin mask ignore ign) (List.range mask.n) (zerosLike mask)

/-! ## Instances -/

/-- `sorted(inst_labelIds)[0]`. -/
def minLabel (instLabelIds : List Nat) : Except PyErr Nat :=
  match instLabelIds.mergeSort (· ≤ ·) with
  | [] => .error .indexError
  | x :: _ => .ok x

/-- `np.unique(inst_mask)`: the distinct values in increasing order. -/
noncomputable def uniqueVals (im : Img Nat) : List Nat :=
  (((Finset.range im.rows ×ˢ Finset.range im.cols).image fun p => im.at_ p.1 p.2).sort (· ≤ ·))

/-- mask2edge_loop.py:103-107  `str(inst_label).zfill(5)`, label = first two digits, instance = the rest. -/
def parseLoop (v : Nat) : Except PyErr (Nat × Nat) := do
  let s := zfill 5 (pyStr v)
  let l ← pyInt (s.take 2)
  let k ← pyInt (s.drop 2)
  return (l, k)

/-- mask2edge_mp.py:241-242, otf_cityscapes.py:81-82  the same without `zfill`. -/
def parseMp (v : Nat) : Except PyErr (Nat × Nat) := do
  let s := pyStr v
  let l ← pyInt (s.take 2)
  let k ← pyInt (s.drop 2)
  return (l, k)

/-- mask2edge_loop.py:94-111  the lookup dictionary `{label: [instances]}`, as the list of its (label, instance)
pairs in insertion order. -/
noncomputable def labelInst (parse : Nat → Except PyErr (Nat × Nat)) (im : Img Nat) (minId : Nat) :
    Except PyErr (List (Nat × Nat)) :=
  ((uniqueVals im).filter fun (v : Nat) => !decide (v < minId)).mapM parse

/-- mask2edge_loop.py:137  `int(str(label) + str(instance).zfill(3))`. -/
def iidOf (label inst : Nat) : Nat := digitsVal (pyStr label ++ zfill 3 (pyStr inst))

/-- mask2edge_loop.py:131-143  the boundary of the class united with the boundaries of its instances. -/
noncomputable def instBdry (lib : DTLib) (o : BdryOpts) (mask : MLEdges) (im : Img Nat) (ign : Nat → Nat → Nat)
    (li : List (Nat × Nat)) (label : Nat) : Nat → Nat → Bool :=
  ((li.filter fun (p : Nat × Nat) => p.1 = label).map fun (p : Nat × Nat) => p.2).foldl
    (fun dist inst i j => dist i j ||
      mask2Bdry lib o mask.h mask.w (fun a b => im.at_ a b == iidOf label inst) ign i j)
    (mask2Bdry lib o mask.h mask.w (mask.at_ label) ign)

/-- mask2edge_loop.py:122-149  one iteration. -/
noncomputable def instLoopBody (lib : DTLib) (o : BdryOpts) (fuel : Nat) (thin : Bool) (mask : MLEdges) (im : Img Nat)
    (ignore : List Int) (ign : Nat → Nat → Nat) (li : List (Nat × Nat)) (label : Nat) :
    Run (Option (Nat → Nat → Bool)) :=
  let m := mask.at_ label
  if (label : Int) ∈ ignore then .ok (some none)
  else if !anySet mask.h mask.w m then .ok (some none)
  else
    let edge := instBdry lib o mask im ign li label
    match optThin fuel thin mask.h mask.w edge with
    | none => .ok none
    | some e => .ok (some (some e))

/-- mask2edge_loop.py:65-151  `loop_instance_mask2edge` (`_inst_len = 5`, `_inst_id_dig = 2`). -/
noncomputable def loopInstMask2Edge (lib : DTLib) (o : BdryOpts) (fuel : Nat) (thin : Bool) (mask : MLEdges)
    (im : Img Nat) (instLabelIds : List Nat) (ignore : List Int) : Run MLEdges :=
  match ignoreMask mask ignore with
  | .error e => .error e
  | .ok ign =>
    match minLabel instLabelIds with
    | .error e => .error e
    | .ok l0 =>
      match labelInst parseLoop im (l0 * 10 ^ (5 - 2)) with
      | .error e => .error e
      | .ok li => labelLoop (instLoopBody lib o fuel thin mask im ignore ign li) (List.range mask.n) (zerosLike mask)

/-! ## Multiprocessing -/

/-- One store to the shared edge array: `edge[label][i, j] = val`. -/
structure Write where
  label : Nat
  i : Nat
  j : Nat
  val : Bool

/-- The shared array after a store. -/
def Write.apply (e : MLEdges) (x : Write) : MLEdges :=
  { e with at_ := fun k i j => if k = x.label ∧ i = x.i ∧ j = x.j then x.val else e.at_ k i j }

/-- `edge[label] = arr` as individual stores. -/
def writesOf (h w label : Nat) (arr : Nat → Nat → Bool) : List Write :=
  (List.range h).flatMap fun (i : Nat) => (List.range w).map fun (j : Nat) => ⟨label, i, j, arr i j⟩

/-- mask2edge_mp.py:36-66  the stores made by `_worker_func(label)`. -/
noncomputable def mpWorker (lib : DTLib) (o : BdryOpts) (mask : MLEdges) (ignore : List Int) (ign : Nat → Nat → Nat)
    (label : Nat) : List Write :=
  let m := mask.at_ label
  if (label : Int) ∈ ignore then []
  else if !anySet mask.h mask.w m then []
  else writesOf mask.h mask.w label (mask2Bdry lib o mask.h mask.w m ign)

/-- mask2edge_mp.py:150-201  the stores made by `_instance_worker_func(label)`. -/
noncomputable def mpInstWorker (lib : DTLib) (o : BdryOpts) (mask : MLEdges) (im : Img Nat) (ignore : List Int)
    (ign : Nat → Nat → Nat) (li : List (Nat × Nat)) (label : Nat) : List Write :=
  let m := mask.at_ label
  if (label : Int) ∈ ignore then []
  else if !anySet mask.h mask.w m then []
  else writesOf mask.h mask.w label (instBdry lib o mask im ign li label)

/-- mask2edge_mp.py:136-142  the pool: the workers' stores reach the shared array in *some* order `sched` (any
permutation of all stores; this includes every interleaving of the workers, for every `nproc`). -/
def PoolRun (mask : MLEdges) (worker : Nat → List Write) (out : MLEdges) : Prop :=
  ∃ sched : List Write, sched.Perm ((List.range mask.n).flatMap worker) ∧
    out = sched.foldl Write.apply (zerosLike mask)

/-- mask2edge_mp.py:69-147  `mp_mask2edge`: `out` is a possible outcome. There is no `internal_only` parameter. -/
def MpMask2Edge (lib : DTLib) (radius quality : Int) (useCv2 thin : Bool) (mask : MLEdges) (ignore : List Int)
    (out : Except PyErr MLEdges) : Prop :=
  if thin then out = .error .notImplementedError
  else
    match ignoreMask mask ignore with
    | .error e => out = .error e
    | .ok ign => ∃ r, out = .ok r ∧
        PoolRun mask (mpWorker lib { radius, useCv2, quality } mask ignore ign) r

/-- mask2edge_mp.py:232-246, otf_cityscapes.py:72-86  the lookup dictionary without `zfill`; `inst_labels[0]` is
only evaluated inside the loop over the instance ids. -/
noncomputable def mpLabelInst (im : Img Nat) (instLabelIds : List Nat) : Except PyErr (List (Nat × Nat)) :=
  if uniqueVals im = [] then .ok [] else
    match minLabel instLabelIds with
    | .error e => .error e
    | .ok l0 => labelInst parseMp im (l0 * 1000)

/-- mask2edge_mp.py:204-311  `mp_instance_mask2edge`. -/
def MpInstMask2Edge (lib : DTLib) (radius quality : Int) (useCv2 thin : Bool) (mask : MLEdges) (im : Img Nat)
    (instLabelIds : List Nat) (ignore : List Int) (out : Except PyErr MLEdges) : Prop :=
  if thin then out = .error .notImplementedError
  else
    match ignoreMask mask ignore with
    | .error e => out = .error e
    | .ok ign =>
      match mpLabelInst im instLabelIds with
      | .error e => out = .error e
      | .ok li => ∃ r, out = .ok r ∧
          PoolRun mask (mpInstWorker lib { radius, useCv2, quality } mask im ignore ign li) r

/-! ## One label on the fly -/

/-- otf_cityscapes.py:26-53  `one_label_mask2edge` (`label ≥ 0`). -/
noncomputable def oneLabelMask2Edge (lib : DTLib) (radius quality : Int) (useCv2 : Bool) (label : Nat) (mask : MLEdges)
    (ignore : List Int) : Except PyErr (Img Bool) :=
  if ¬ label < mask.n then .error .assertionError
  else
    match ignoreMask mask ignore with
    | .error e => .error e
    | .ok ign =>
      let m := mask.at_ label
      if (label : Int) ∈ ignore then .ok ⟨mask.h, mask.w, fun _ _ => false⟩
      else if !anySet mask.h mask.w m then .ok ⟨mask.h, mask.w, fun _ _ => false⟩
      else .ok ⟨mask.h, mask.w, mask2Bdry lib { radius, useCv2, quality } mask.h mask.w m ign⟩

/-- otf_cityscapes.py:56-119  `one_label_instance_mask2edge`. -/
noncomputable def oneLabelInstMask2Edge (lib : DTLib) (radius quality : Int) (useCv2 : Bool) (label : Nat)
    (mask : MLEdges) (im : Img Nat) (instLabelIds : List Nat) (ignore : List Int) : Except PyErr (Img Bool) :=
  if ¬ label < mask.n then .error .assertionError
  else
    match ignoreMask mask ignore with
    | .error e => .error e
    | .ok ign =>
      match mpLabelInst im instLabelIds with
      | .error e => .error e
      | .ok li =>
        let m := mask.at_ label
        if (label : Int) ∈ ignore then .ok ⟨mask.h, mask.w, fun _ _ => false⟩
        else if !anySet mask.h mask.w m then .ok ⟨mask.h, mask.w, fun _ _ => false⟩
        else .ok ⟨mask.h, mask.w, instBdry lib { radius, useCv2, quality } mask im ign li label⟩

/-! ## transforms.py -/

/-- transforms.py:61-99  the attributes of `Mask2Edge`. -/
structure M2E where
  labelIds : List Int
  ignore : List Int
  label2trainId : Option (List (Int × Int))
  radius : Int
  useCv2 : Bool
  quality : Int

/-- transforms.py:73-99  `Mask2Edge.__init__` (`ignore_indices` is a list). -/
def M2E.init (labelIds ignore : List Int) (label2trainId : Option (List (Int × Int))) (radius : Int)
    (useCv2 : Bool) (quality : Int) : Except PyErr M2E :=
  if ¬ 0 < labelIds.length then .error .assertionError
  else if ¬ radius ≥ 1 then .error .assertionError
  else .ok ⟨labelIds, ignore, label2trainId, radius, useCv2, quality⟩

/-- transforms.py:112-119  conversion to trainIds; an empty dict is false. -/
def M2E.finish (t : M2E) (mask : Img Int) (edge : MLEdges) : Except PyErr (MLEdges × Img Int) :=
  match t.label2trainId with
  | none => .ok (edge, mask)
  | some [] => .ok (edge, mask)
  | some d =>
    match edgeToTrainId edge d with
    | .error e => .error e
    | .ok edge' => .ok (edge', maskToTrainId mask d)

/-- transforms.py:101-124  `Mask2Edge.__call__` on a 2-D mask (`thin` keeps its default `False`). -/
noncomputable def M2E.call (lib : DTLib) (t : M2E) (mask : Img Int) : Except PyErr (Option (MLEdges × Img Int)) :=
  match mask2onehot mask t.labelIds with
  | .error e => .error e
  | .ok onehot =>
    (loopMask2Edge lib { radius := t.radius, useCv2 := t.useCv2, quality := t.quality } 0 false onehot t.ignore).bind
      fun edge =>
        match t.finish mask edge with
        | .error e => .error e
        | .ok r => .ok (some r)

/-- transforms.py:141-168  `InstanceMask2Edge.__call__`. -/
noncomputable def M2E.callInst (lib : DTLib) (t : M2E) (instLabelIds : List Nat) (mask : Img Int) (im : Img Nat) :
    Except PyErr (Option (MLEdges × Img Int)) :=
  if ¬ (mask.rows = im.rows ∧ mask.cols = im.cols) then .error .assertionError
  else
    match mask2onehot mask t.labelIds with
    | .error e => .error e
    | .ok onehot =>
      (loopInstMask2Edge lib { radius := t.radius, useCv2 := t.useCv2, quality := t.quality } 0 false onehot im
        instLabelIds t.ignore).bind fun edge =>
          match t.finish mask edge with
          | .error e => .error e
          | .ok r => .ok (some r)

/-- transforms.py:21-58  which implementation `mask2edge` dispatches to. -/
inductive Impl where
  | loop | loopInst | mp | mpInst
  deriving DecidableEq

/-- transforms.py:47-58  the dispatcher. -/
def dispatch (runType : String) (instanceSensitive : Bool) : Except PyErr Impl :=
  if runType = "loop" then .ok (if instanceSensitive then .loopInst else .loop)
  else if runType = "mp" then .ok (if instanceSensitive then .mpInst else .mp)
  else .error .valueError

end EdgeEval
