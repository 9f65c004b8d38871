import Verif.Model.Datasets
import Verif.Model.Path

/-!
# Ground-truth conversion: `helpers/convert_cityscapes.py`

Paths are POSIX strings.  Creating directories (`mkdir_or_exist`) is assumed to succeed; `json2labelImg` is an external
tool whose output is a parameter.  A label or instance file that exists is a one-channel picture.
-/

namespace EdgeEval.Convert

open Text Samples Datasets PathU

/-! ## Strings and paths (library) -/

/-- The scan of `str.replace`: `skip` characters still belong to the occurrence just replaced. -/
def replaceFrom (pat new : Str) : Nat → Str → Str
  | _, [] => []
  | skip + 1, _ :: cs => replaceFrom pat new skip cs
  | 0, c :: cs =>
    if pat.isPrefixOf (c :: cs) then new ++ replaceFrom pat new (pat.length - 1) cs
    else c :: replaceFrom pat new 0 cs

/-- `s.replace(pat, new)` for a non-empty pattern: leftmost non-overlapping occurrences.  (With an empty pattern Python
inserts `new` everywhere; the model leaves the string unchanged.  All patterns used by the project are non-empty.) -/
def replaceAll (pat new s : Str) : Str := if pat = [] then s else replaceFrom pat new 0 s

/-- The part of a path up to and including the last slash. -/
def pathHead (p : Str) : Str := (p.reverse.dropWhile (· ≠ '/')).reverse

/-- `os.path.basename` (posixpath). -/
def basename (p : Str) : Str := (p.reverse.takeWhile (· ≠ '/')).reverse

/-- `os.path.dirname` (posixpath): trailing slashes of the head are dropped unless it consists of slashes. -/
def dirname (p : Str) : Str :=
  let h := pathHead p
  if h.all (· = '/') then h else (h.reverse.dropWhile (· = '/')).reverse

/-- `os.path.splitext(p)[1]`. -/
def pathExt (p : Str) : Str := (splitext (basename p)).2

/-! ## One label file -/

/-- convert_cityscapes.py:66-77  the keyword arguments of `convert_label_to_semantic_edges`. -/
structure ConvOpts where
  inst : Bool := true
  procDir : Str := "gtEval".toList
  labelSuffix : Str := "_gtFine_labelIds.png".toList
  instSuffix : Str := "_gtFine_instanceIds.png".toList
  edgeSuffix : Str := "_gtProc_edge.png".toList
  radius : Int := 2
  thin : Bool := false
  scale : ℚ := 1
  sealed : Bool := true

/-- An encoded edge picture: PNG or 32-bit TIFF. -/
inductive Encoded where
  | png (im : Rgb)
  | tif (im : Img Nat)

/-- convert_cityscapes.py:98-104  the file written. -/
def procFile (o : ConvOpts) (labelFile : Str) : Str :=
  pjoin (replaceAll "gtFine".toList o.procDir (dirname labelFile))
    (replaceAll o.labelSuffix o.edgeSuffix (basename labelFile))

/-- convert_cityscapes.py:129-131  the instance file read. -/
def instFile (o : ConvOpts) (labelFile : Str) : Str :=
  pjoin (dirname labelFile) (replaceAll o.labelSuffix o.instSuffix (basename labelFile))

/-- convert_cityscapes.py:116-118, 136-139  resampling before the edges are computed; `h × w` is the size of the label
picture (also for the instance picture). -/
def preScaled (o : ConvOpts) (h w : Nat) (im : Img Nat) : Except PyErr (Img Nat) :=
  if o.scale < 1 ∧ (o.sealed = false ∨ o.thin = true) then resize im (scaledSize h o.scale) (scaledSize w o.scale)
  else .ok im

/-- OpenCV (library) `INTER_NEAREST`: the source index of output index `x` when `n` pixels are resized to `m`:
`min(floor(x * n / m), n - 1)`. -/
def cvIdx (n m x : Nat) : Nat := min ⌊(x : ℚ) * ((n : ℚ) / m)⌋.toNat (n - 1)

/-- convert_cityscapes.py:58-63, 162-172  resampling of the finished edges with OpenCV; `np.zeros` refuses negative
sizes, `cv2.resize` refuses empty ones. -/
def postScaled (o : ConvOpts) (h w : Nat) (e : MLEdges) : Except PyErr MLEdges :=
  if o.scale < 1 ∧ o.sealed = true ∧ o.thin = false then
    let height := scaledSize h o.scale
    let width := scaledSize w o.scale
    if height < 0 ∨ width < 0 then .error .valueError
    else if height = 0 ∨ width = 0 then .error (.user 0)
    else .ok ⟨e.n, height.toNat, width.toNat, fun k i j => e.at_ k (cvIdx e.h height.toNat i) (cvIdx e.w width.toNat j)⟩
  else .ok e

/-- convert_cityscapes.py:174-188  encoding by extension; `ndarray.tofile` has no keyword `dtype`, so `.bin` raises
`TypeError`. -/
def encode (ext : Str) (e : MLEdges) : Except PyErr Encoded :=
  if ext = ".png".toList then
    match rgbEncode e with
    | .ok im => .ok (.png im)
    | .error er => .error er
  else if ext = ".tif".toList then .ok (.tif (defaultEncode e))
  else if ext = ".bin".toList then .error .typeError
  else .error .valueError

/-- A computation that always returns. -/
def now {α : Type} (x : Except PyErr α) : Run α :=
  match x with
  | .ok a => .ok (some a)
  | .error e => .error e

/-- convert_cityscapes.py:128-155  the label edges, with the instance picture when instances are distinguished. -/
noncomputable def labelEdges (lib : DTLib) (fuel : Nat) (pics : Pictures) (o : ConvOpts) (labelFile : Str) (h w : Nat)
    (m : MLEdges) : Run MLEdges :=
  if o.inst then
    (now (assert (pics.gray (instFile o labelFile)).isSome)).bind fun _ =>
    (now (load (pics.gray (instFile o labelFile)))).bind fun inst0 =>
    (now (preScaled o h w inst0)).bind fun inst =>
    loopInstMask2Edge lib { radius := o.radius } fuel o.thin m inst cityscapesInstLabelIds [2, 3]
  else loopMask2Edge lib { radius := o.radius } fuel o.thin m [2, 3]

/-- convert_cityscapes.py:66-188  `convert_label_to_semantic_edges`: the file written and its contents. -/
noncomputable def convertLabel (lib : DTLib) (fuel : Nat) (pics : Pictures) (o : ConvOpts) (labelFile : Str) :
    Run (Str × Encoded) :=
  (now (assert (!o.thin || decide (o.radius = 1)))).bind fun _ =>
  let out := procFile o labelFile
  (now (assert (pics.gray labelFile).isSome)).bind fun _ =>
  let ext := pathExt out
  (now (assert (ext = ".png".toList ∨ ext = ".tif".toList ∨ ext = ".bin".toList))).bind fun _ =>
  (now (load (pics.gray labelFile))).bind fun label0 =>
  (now (preScaled o label0.rows label0.cols label0)).bind fun label =>
  (now (mask2onehot ⟨label.rows, label.cols, fun i j => (label.at_ i j : Int)⟩ cityscapesLabelIds)).bind fun m =>
  (labelEdges lib fuel pics o labelFile label0.rows label0.cols m).bind fun ids =>
  (now (edgeToTrainId ids cityscapesLabel2TrainId)).bind fun e =>
  (now (postScaled o label0.rows label0.cols e)).bind fun e' =>
  (now (encode ext e')).bind fun enc =>
  .ok (some (out, enc))

/-! ## The whole dataset -/

/-- convert_cityscapes.py:249-259  the arguments of `convert_cityscapes`. -/
structure CityArgs where
  procDirname : Str
  root : Str := "data/cityscapes".toList
  inst : Bool := true
  ext : Str := "png".toList
  saveHalfVal : Bool := true
  trainRadius : Int := 2
  rawValRadius : Int := 2
  thinValRadius : Int := 1

/-- One thing done by `convert_cityscapes`. -/
inductive Action where
  /-- `json2labelImg(json, out, "trainIds")` -/
  | trainIds (json out : Str)
  /-- `convert_label_to_semantic_edges(label, **o)` -/
  | edges (label : Str) (o : ConvOpts)
  /-- a text file is written -/
  | text (file contents : Str)

/-- convert_cityscapes.py:43-55  `convert_json_to_label`: the file written. -/
def trainIdFile (procDir json : Str) : Str :=
  pjoin (replaceAll "gtFine".toList procDir (dirname json))
    (replaceAll "_gtFine_polygons.json".toList "_gtFine_labelTrainIds.png".toList (basename json))

/-- convert_cityscapes.py:264  `osp.join(cityscapes_root, "gtFine")`. -/
def gtDir (a : CityArgs) : Str := pjoin a.root "gtFine".toList

/-- The visible files below a directory that end with a suffix (utils/path.py:34-77), relative to it. -/
def scan (tree : Str → Option Entries) (dir sfx : Str) : Except PyErr (List Str) :=
  scandir tree (.path dir) (.str sfx) true true

/-- convert_cityscapes.py:278-297  the edge file suffix of a job. -/
def citySuffix (a : CityArgs) (kind : Str) : Str :=
  "_gtProc_".toList ++ kind ++ (if a.inst then "isedge.".toList else "edge.".toList) ++ a.ext

/-- convert_cityscapes.py:336-384  the options common to all edge jobs. -/
def cityOpts (a : CityArgs) (kind : Str) (radius : Int) : ConvOpts :=
  { inst := a.inst, procDir := a.procDirname, edgeSuffix := citySuffix a kind, radius := radius }

/-- convert_cityscapes.py:346-384  the jobs of a split, in order. -/
def splitJobs (a : CityArgs) (split : Str) : List ConvOpts :=
  if split = "train".toList then [cityOpts a [] a.trainRadius]
  else if split = "val".toList then
    [cityOpts a "raw_".toList a.rawValRadius,
     { cityOpts a "thin_".toList a.thinValRadius with thin := true }] ++
    (if a.saveHalfVal then
      [{ cityOpts a "half_raw_".toList a.rawValRadius with scale := 1 / 2 },
       { cityOpts a "half_thin_".toList a.thinValRadius with scale := 1 / 2, thin := true }]
     else [])
  else []

/-- convert_cityscapes.py:304-310  the polygon files of the two annotated splits. -/
def polyActions (tree : Str → Option Entries) (a : CityArgs) (split : Str) : Except PyErr (List Action) := do
  let d := pjoin (gtDir a) split
  let l ← scan tree d "_gtFine_polygons.json".toList
  .ok (l.map fun rel => .trainIds (pjoin d rel) (trainIdFile a.procDirname (pjoin d rel)))

/-- convert_cityscapes.py:325-384  the edge jobs of one split: for every option set, all label files. -/
def edgeActions (tree : Str → Option Entries) (a : CityArgs) (split : Str) : Except PyErr (List Action) := do
  let d := pjoin (gtDir a) split
  let l ← scan tree d "_gtFine_labelIds.png".toList
  .ok ((splitJobs a split).flatMap fun o => l.map fun rel => .edges (pjoin d rel) o)

/-- convert_cityscapes.py:390-397  the list of sample names of one split. -/
def splitAction (tree : Str → Option Entries) (a : CityArgs) (split : Str) : Except PyErr Action := do
  let l ← scan tree (pjoin (gtDir a) split) "_polygons.json".toList
  .ok (.text (pjoin (pjoin a.root "splits".toList) (split ++ ".txt".toList))
    ((l.map fun rel => replaceAll "_gtFine_polygons.json".toList [] rel ++ ['\n']).flatten))

/-- convert_cityscapes.py:304-397  the phases: every phase first lists directories, then does its work.  The work of
earlier phases does not change the listings (it writes no file with one of the listed suffixes). -/
def cityPhases (tree : Str → Option Entries) (a : CityArgs) : List (Except PyErr (List Action)) :=
  [do let p1 ← polyActions tree a "train".toList
      let p2 ← polyActions tree a "val".toList
      .ok (p1 ++ p2),
   edgeActions tree a "train".toList,
   edgeActions tree a "val".toList,
   do let t ← splitAction tree a "train".toList; .ok [t],
   do let t ← splitAction tree a "val".toList; .ok [t],
   do let t ← splitAction tree a "test".toList; .ok [t]]

/-- What a written file contains. -/
inductive Content where
  /-- the picture `json2labelImg` makes of a polygon file -/
  | train (json : Str)
  | edges (e : Encoded)
  | text (s : Str)

/-- The files written, in order, and the exception that ended the run, if any. -/
structure Trace where
  written : List (Str × Content)
  err : Option PyErr

/-- One action: the file written. -/
noncomputable def runAction (lib : DTLib) (fuel : Nat) (pics : Pictures) : Action → Run (Str × Content)
  | .trainIds json out => .ok (some (out, .train json))
  | .edges label o => (convertLabel lib fuel pics o label).bind fun r => .ok (some (r.1, .edges r.2))
  | .text file s => .ok (some (file, .text s))

/-- convert_cityscapes.py:191-205, 317-320  the actions of a phase, one after the other (`nproc ≤ 1`; with more
processes the order is arbitrary, see `C53_order_irrelevant`).  `none`: fuel exhausted. -/
noncomputable def runActions (lib : DTLib) (fuel : Nat) (pics : Pictures) : List Action → Option Trace
  | [] => some ⟨[], none⟩
  | x :: xs =>
    match runAction lib fuel pics x with
    | .error e => some ⟨[], some e⟩
    | .ok none => none
    | .ok (some r) => (runActions lib fuel pics xs).map fun t => ⟨r :: t.written, t.err⟩

/-- The phases, one after the other. -/
noncomputable def runPhases (lib : DTLib) (fuel : Nat) (pics : Pictures) :
    List (Except PyErr (List Action)) → Option Trace
  | [] => some ⟨[], none⟩
  | .error e :: _ => some ⟨[], some e⟩
  | .ok acts :: ps =>
    match runActions lib fuel pics acts with
    | none => none
    | some t =>
      match t.err with
      | some _ => some t
      | none => (runPhases lib fuel pics ps).map fun t' => ⟨t.written ++ t'.written, t'.err⟩

/-- convert_cityscapes.py:249-397  `convert_cityscapes`; `exGt` tells whether the `gtFine` directory exists. -/
noncomputable def convertCity (lib : DTLib) (fuel : Nat) (pics : Pictures) (tree : Str → Option Entries) (exGt : Bool)
    (a : CityArgs) : Option Trace :=
  if a.procDirname = [] ∨ exGt = false ∨
      ¬ (a.ext = "png".toList ∨ a.ext = "bin".toList ∨ a.ext = "tif".toList) then some ⟨[], some .assertionError⟩
  else runPhases lib fuel pics (cityPhases tree a)

end EdgeEval.Convert
