import Verif.Model.Convert

/-!
# Ground-truth conversion: `helpers/convert_sbd.py`, `scripts/convert_datasets/sbd.py`

The unpacking of MATLAB files (convert_sbd.py:32-117) is modelled in `Model/MatFile.lean`; here a MATLAB file is the
record of the arrays it unpacks to.  Segmentations are uint8 pictures, boundary stacks are 0/1 arrays of the size of the
segmentation, categories are non-negative.  Reading a file does not depend on what the run has written; creating the
output directory is assumed to succeed.
-/

namespace EdgeEval.ConvertSbd

open Text Samples Datasets EdgeEval.Convert

/-- convert_sbd.py:32-72  what `load_sbd_gt_cls_mat` returns. -/
structure ClsMat where
  bdry : MLEdges
  seg : Img Nat
  present : List Nat

/-- convert_sbd.py:75-117  what `load_sbd_gt_inst_mat` returns. -/
structure InstMat where
  bdry : MLEdges
  seg : Img Nat
  cats : List Nat

/-- The answers of the operating system and of the MATLAB reader. -/
structure SbdFs where
  /-- `os.path.exists` -/
  ex : Str → Bool
  /-- what the loader of class files returns or raises; `true`: the new loader -/
  cls : Bool → Str → Except PyErr ClsMat
  inst : Bool → Str → Except PyErr InstMat
  /-- raw contents of a text file -/
  text : Str → Option Str
  /-- what `load_reanno_samples` (convert_sbd.py:362-383, the old loader) returns or raises -/
  names : Str → Except PyErr (List Str)

/-- datasets/sbd_attributes.py:10  `SBD_labelIds`. -/
def sbdLabelIds : List Int := (List.range 22).map fun (k : Nat) => (k : Int)

/-- datasets/sbd_attributes.py:61  `SBD_inst_labelIds`. -/
def sbdInstLabelIds : List Nat := (List.range 20).map (· + 1)

/-- convert_sbd.py:197-200  `check_path`. -/
def checkPath (fs : SbdFs) (p : Str) : Except PyErr Str := do
  assert (fs.ex p)
  .ok p

/-- Iterating over a text file (library): the lines, without their final `\n`; the last one may be unfinished.  `cur` is
the reversed current line. -/
def fileLines : Str → Str → List Str
  | [], cur => if cur = [] then [] else [cur.reverse]
  | c :: cs, cur => if c = '\n' then cur.reverse :: fileLines cs [] else fileLines cs (c :: cur)

/-- convert_sbd.py:203-206  `get_samples` (a line has one `\n` at most, at its end, so `rstrip` removes that one). -/
def getSamples (fs : SbdFs) (p : Str) : Except PyErr (List Str) :=
  match fs.text p with
  | some raw => .ok (fileLines (universalNewlines raw) [])
  | none => .error .fileNotFoundError

/-- convert_sbd.py:209-217  `convert_seg_label2train`. -/
def segToTrain (seg : Img Nat) (d : List (Int × Int)) : Img Nat :=
  ⟨seg.rows, seg.cols, fun i j =>
    d.foldl (fun v kv => if (seg.at_ i j : Int) = kv.1 then kv.2.toNat else v) 255⟩

/-- convert_sbd.py:220-287  `convert_mat2np` after the class file is read; `inst` is what reading the instance file, if one is
given, returns or raises.  The
results are the boundaries, the bordered segmentation and the new instance segmentation. -/
noncomputable def mat2np (lib : DTLib) (fuel : Nat) (c : ClsMat)
    (inst : Option (Except PyErr InstMat)) (radius : Int) (thin : Bool)
    (outer : Nat) : Run (MLEdges × Img Nat × Option (Img Nat)) :=
  let seg := addIgnorePixel c.seg 5 outer
  (now (mask2onehot ⟨seg.rows, seg.cols, fun i j => (seg.at_ i j : Int)⟩ sbdLabelIds)).bind fun m =>
  match inst with
  | some x =>
    (now x).bind fun x =>
    let im := convertInst x.seg x.cats c.present
    (loopInstMask2Edge lib { radius := radius } fuel thin m im sbdInstLabelIds [(outer : Int)]).bind fun b =>
    (now (edgeToTrainId b sbdLabel2TrainId)).bind fun e =>
    .ok (some (e, seg, some im))
  | none =>
    (loopMask2Edge lib { radius := radius } fuel thin m [(outer : Int)]).bind fun b =>
    (now (edgeToTrainId b sbdLabel2TrainId)).bind fun e =>
    .ok (some (e, seg, none))

/-- convert_sbd.py:290-302  the keyword arguments of `routine`. -/
structure RoutineOpts where
  dataDir : Str
  saveDir : Str
  radius : Int := 2
  thin : Bool := false
  edgeSuffix : Str := "_edge.png".toList
  isedgeSuffix : Str := "_isedge.png".toList
  labelSuffix : Str := "_labelIds.png".toList
  trainSuffix : Str := "_trainIds.png".toList
  instSuffix : Str := "_instanceIds.png".toList
  saveSegs : Bool := false

/-- What a written file contains. -/
inductive SbdContent where
  | edges (im : Rgb)
  | map (im : Img Nat)
  | text (s : Str)

/-- `Image.fromarray(int32 array).save("….png")` (library): Pillow writes mode `I` with 16 bits and clips. -/
def png16 (im : Img Nat) : Img Nat := ⟨im.rows, im.cols, fun i j => min (im.at_ i j) 65535⟩

/-- convert_sbd.py:290-356  `routine`: the files written, in order.  Everything that can fail comes before the first
write: both boundary stacks have the same number of channels, so the second encoding fails only if the first does. -/
noncomputable def routine (lib : DTLib) (fuel : Nat) (fs : SbdFs) (o : RoutineOpts) (name : Str) :
    Run (List (Str × SbdContent)) :=
  let radius := if o.thin then 1 else o.radius
  (now (checkPath fs o.saveDir)).bind fun saveDir =>
  (now (checkPath fs (pjoin o.dataDir "cls_orig".toList))).bind fun clsDir =>
  (now (checkPath fs (pjoin o.dataDir "inst_orig".toList))).bind fun instDir =>
  (now (checkPath fs (pjoin clsDir (name ++ ".mat".toList)))).bind fun clsFp =>
  (now (checkPath fs (pjoin instDir (name ++ ".mat".toList)))).bind fun instFp =>
  (now (fs.cls false clsFp)).bind fun c =>
  (mat2np lib fuel c (some (fs.inst false instFp)) radius o.thin 21).bind fun r1 =>
  (mat2np lib fuel c none radius o.thin 21).bind fun r2 =>
  (now (rgbEncode r2.1)).bind fun e2 =>
  (now (rgbEncode r1.1)).bind fun e1 =>
  .ok (some ([(pjoin saveDir (name ++ o.edgeSuffix), .edges e2),
      (pjoin saveDir (name ++ o.isedgeSuffix), .edges e1)] ++
    (if o.saveSegs then
      [(pjoin saveDir (name ++ o.labelSuffix), .map r1.2.1),
       (pjoin saveDir (name ++ o.trainSuffix), .map (segToTrain r1.2.1 sbdLabel2TrainId)),
       (pjoin saveDir (name ++ o.instSuffix), .map (png16 (r1.2.2.getD ⟨0, 0, fun _ _ => 0⟩)))]
     else [])))

/-! ## Re-annotated ground truth -/

/-- convert_sbd.py:184-188  one step of the loop over the present categories: the boundary of the category is
united with the instance boundary of the category. -/
def uniteCat (inst : MLEdges) (acc : MLEdges) (cat : Nat) : Except PyErr MLEdges :=
  match pyIndex inst.n ((cat : Int) - 1) with
  | .error e => .error e
  | .ok l =>
    match pyIndex acc.n ((cat : Int) - 1) with
    | .error e => .error e
    | .ok t => .ok { acc with at_ := fun k i j => if k = t then acc.at_ t i j || inst.at_ l i j else acc.at_ k i j }

/-- convert_sbd.py:161-194  `load_reanno_instance_sensitive_gt`: the boundaries. -/
def reannoIS (c : ClsMat) (x : InstMat) : Except PyErr MLEdges := do
  assert (x.cats.all fun k => c.present.contains k)
  assert (decide (c.bdry.n = x.bdry.n ∧ c.bdry.h = x.bdry.h ∧ c.bdry.w = x.bdry.w))
  c.present.foldlM (uniteCat x.bdry) c.bdry

/-- convert_sbd.py:386-412  `reanno_routine`. -/
def reannoRoutine (fs : SbdFs) (dataDir saveDir edgeSfx isedgeSfx : Str) (name : Str) :
    Run (List (Str × SbdContent)) :=
  now do
    let saveDir ← checkPath fs saveDir
    let clsDir ← checkPath fs (pjoin dataDir "cls".toList)
    let instDir ← checkPath fs (pjoin dataDir "inst".toList)
    let clsFp ← checkPath fs (pjoin clsDir (name ++ ".mat".toList))
    let instFp ← checkPath fs (pjoin instDir (name ++ ".mat".toList))
    let c ← fs.cls true clsFp
    let x ← fs.inst true instFp
    let is ← reannoIS c x
    let e2 ← rgbEncode c.bdry
    let e1 ← rgbEncode is
    .ok [(pjoin saveDir (name ++ edgeSfx), .edges e2), (pjoin saveDir (name ++ isedgeSfx), .edges e1)]

/-! ## The script -/

/-- The files written, in order, and the exception that ended the run, if any. -/
structure Trace where
  written : List (Str × SbdContent)
  err : Option PyErr

/-- scripts/convert_datasets/sbd.py:116-125, 155-164  the jobs of a list of samples one after the other (`nproc ≤ 1`).  `none`: fuel
exhausted. -/
noncomputable def runJobs (job : Str → Run (List (Str × SbdContent))) : List Str → Option Trace
  | [] => some ⟨[], none⟩
  | n :: ns =>
    match job n with
    | .error e => some ⟨[], some e⟩
    | .ok none => none
    | .ok (some r) => (runJobs job ns).map fun t => ⟨r ++ t.written, t.err⟩

/-- The second part of a run, after the first: not started when the first raised. -/
def andThen (a : Option Trace) (b : Option Trace) : Option Trace :=
  match a with
  | none => none
  | some t =>
    match t.err with
    | some _ => some t
    | none => b.map fun t' => ⟨t.written ++ t'.written, t'.err⟩

/-- A part of a run that first reads something. -/
def reading {α : Type} (x : Except PyErr α) (f : α → Option Trace) : Option Trace :=
  match x with
  | .error e => some ⟨[], some e⟩
  | .ok a => f a

/-- scripts/convert_datasets/sbd.py:25-54  the command line arguments (without `--nproc`). -/
structure SbdArgs where
  root : Str := "data/sbd".toList
  outDir : Str := "gtEval".toList
  reanno : Bool := false

/-- scripts/convert_datasets/sbd.py:63  `save_dir`. -/
def saveDirOf (a : SbdArgs) : Str := pjoin a.root a.outDir

/-- scripts/convert_datasets/sbd.py:67-109  the keyword arguments of the raw and the thin routine. -/
def scriptOpts (a : SbdArgs) (thin : Bool) : RoutineOpts where
  dataDir := a.root
  saveDir := saveDirOf a
  radius := 2
  thin := thin
  edgeSuffix := if thin then "_thin_edge.png".toList else "_raw_edge.png".toList
  isedgeSuffix := if thin then "_thin_isedge.png".toList else "_raw_isedge.png".toList
  saveSegs := !thin

/-- scripts/convert_datasets/sbd.py:112-125  one split. -/
noncomputable def runSplit (lib : DTLib) (fuel : Nat) (fs : SbdFs) (a : SbdArgs) (split : Str) : Option Trace :=
  reading (do
      let l ← getSamples fs (pjoin a.root (split ++ ".txt".toList))
      assert (decide (0 < l.length))
      .ok l) fun l =>
    andThen (runJobs (routine lib fuel fs (scriptOpts a false)) l) (runJobs (routine lib fuel fs (scriptOpts a true)) l)

/-- convert_sbd.py:362-383  `load_reanno_samples`: see `MatFile.reannoNames`. -/
def reannoSamples (fs : SbdFs) (p : Str) : Except PyErr (List Str) :=
  fs.names p

/-- scripts/convert_datasets/sbd.py:128-168  the re-annotated part. -/
noncomputable def runReanno (fs : SbdFs) (a : SbdArgs) : Option Trace :=
  reading (do
      let rawDir ← checkPath fs (pjoin a.root "gt_reanno_raw".toList)
      let thinDir ← checkPath fs (pjoin a.root "gt_reanno_thin".toList)
      let rawList ← reannoSamples fs (pjoin rawDir "test.mat".toList)
      let thinList ← reannoSamples fs (pjoin thinDir "test.mat".toList)
      .ok (rawDir, thinDir, rawList, thinList)) fun r =>
    andThen
      (runJobs (reannoRoutine fs r.1 (saveDirOf a) "_reanno_raw_edge.png".toList "_reanno_raw_isedge.png".toList) r.2.2.1)
      (andThen
        (runJobs (reannoRoutine fs r.2.1 (saveDirOf a) "_reanno_thin_edge.png".toList "_reanno_thin_isedge.png".toList)
          r.2.2.2)
        (some ⟨[(pjoin a.root "reanno_val.txt".toList, .text ((r.2.2.1.map fun s => s ++ ['\n']).flatten))], none⟩))

/-- The output directory exists once it has been made (scripts/convert_datasets/sbd.py:64). -/
def withDir (fs : SbdFs) (d : Str) : SbdFs := { fs with ex := fun p => decide (p = d) || fs.ex p }

/-- scripts/convert_datasets/sbd.py:57-168  the whole script. -/
noncomputable def convertSbd (lib : DTLib) (fuel : Nat) (fs0 : SbdFs) (a : SbdArgs) : Option Trace :=
  let fs := withDir fs0 (saveDirOf a)
  andThen (runSplit lib fuel fs a "train".toList)
    (andThen (runSplit lib fuel fs a "val".toList)
      (if a.reanno then runReanno fs a else some ⟨[], none⟩))

/-! ## The deprecated loader -/

/-- convert_sbd.py:142-147  one step of the loop over the instances: instance `i` of category `cat`. -/
def uniteInst (inst : MLEdges) (acc : MLEdges) (x : Nat × Nat) : Except PyErr MLEdges :=
  match pyIndex inst.n (x.1 : Int) with
  | .error e => .error e
  | .ok l =>
    match pyIndex acc.n ((x.2 : Int) - 1) with
    | .error e => .error e
    | .ok t => .ok { acc with at_ := fun k i j => if k = t then acc.at_ t i j || inst.at_ l i j else acc.at_ k i j }

/-- convert_sbd.py:125-149  `load_instance_sensitive_gt`: the boundaries (both stacks have the same height and width). -/
def loadIS (c : ClsMat) (x : InstMat) : Except PyErr MLEdges := do
  assert (x.cats.all fun k => c.present.contains k)
  (x.cats.zipIdx.map fun p => (p.2, p.1)).foldlM (uniteInst x.bdry) c.bdry

end EdgeEval.ConvertSbd
