import Verif.Model.Io
import Verif.Model.Evaluators

/-!
# Sample names and sample dictionaries: `evaluators/*.py`

The file system is an arbitrary record of answers to `os.path.exists`, `open(...).read()` and `os.listdir`;
it does not change during a call.  Paths and names are strings (lists of characters), paths are POSIX.
-/

namespace EdgeEval.Samples

open Text Evaluators

/-- The answers of the operating system. -/
structure Fs where
  /-- `os.path.exists` -/
  ex : Str → Bool
  /-- raw contents of a readable text file; `none` if opening fails (`OSError`) -/
  read : Str → Option Str
  /-- `os.listdir`; `none` if it fails (`FileNotFoundError`, an `OSError`) -/
  list : Str → Option (List Str)

/-- `os.path.join(a, b)` (library, posixpath). -/
def pjoin (a b : Str) : Str :=
  if b.head? = some '/' then b
  else if a = [] ∨ a.getLast? = some '/' then a ++ b
  else a ++ '/' :: b

/-- Reading a text file in mode `"r"` (library): `\r\n` and `\r` become `\n`. -/
def universalNewlines : Str → Str
  | [] => []
  | '\r' :: '\n' :: cs => '\n' :: universalNewlines cs
  | c :: cs => (if c = '\r' then '\n' else c) :: universalNewlines cs

/-- The characters at which `str.splitlines` splits (library). -/
def isBreak (c : Char) : Bool :=
  [10, 11, 12, 13, 28, 29, 30, 0x85, 0x2028, 0x2029].contains c.toNat

/-- `str.splitlines` (library) on a text without `\r\n` pairs; `cur` is the reversed current line. -/
def splitlinesAux : Str → Str → List Str
  | [], cur => if cur = [] then [] else [cur.reverse]
  | c :: cs, cur => if isBreak c then cur.reverse :: splitlinesAux cs [] else splitlinesAux cs (c :: cur)

/-- `f.read().splitlines()`. -/
def readLines (raw : Str) : List Str := splitlinesAux (universalNewlines raw) []

/-- `os.path.splitext(filename)` (library) of a name without `/`: the extension starts at the last dot,
provided that some character before it is not a dot. -/
def splitext (s : Str) : Str × Str :=
  let ext := (s.reverse.takeWhile (· ≠ '.')).reverse
  let root := (s.reverse.dropWhile (· ≠ '.')).drop 1 |>.reverse
  if s.contains '.' && root.any (· ≠ '.') then (root, '.' :: ext) else (s, [])

/-- `str.lower` on ASCII. -/
def lower (s : Str) : Str :=
  s.map fun c => if 65 ≤ c.toNat ∧ c.toNat ≤ 90 then Char.ofNat (c.toNat + 32) else c

/-- The constructor arguments of an evaluator (an absent `gt_dir` or `pred_suffix` is `none`). -/
structure Ctor where
  datasetRoot : Str
  predRoot : Str
  split : Str
  thin : Bool := false
  gtDir : Option Str := none
  predSuffix : Option Str := none

/-- cityscapes.py:117-121, sbd.py:114-117  the default split file. -/
def defaultSplitFile (k : Kind) (c : Ctor) : Str :=
  match k with
  | .cityscapes | .half | .otf => pjoin c.datasetRoot ("splits/".toList ++ c.split ++ ".txt".toList)
  | _ => pjoin c.datasetRoot (c.split ++ ".txt".toList)

/-- bsds.py:33-36  `GT_root`. -/
def bsdsGtRoot (c : Ctor) : Str := pjoin c.datasetRoot "groundTruth".toList

/-- bsds.py:59-64  the loop over the directory entries (an entry of `os.listdir` has no `/`, so `osp.split`
returns it unchanged). -/
def matNames (split : Str) (files : List Str) : List Str :=
  (files.filter fun fn => lower (splitext fn).2 = ".mat".toList).map fun fn => pjoin split (splitext fn).1

/-- The `sample_names` argument. -/
inductive NamesArg where
  | none
  | list (l : List Str)
  | other

/-- cityscapes.py:114-135, sbd.py:112-129, bsds.py:48-73  the list to be stored, or the exception.
`splitFile` is the second argument (absent for BSDS). -/
def chooseNames (fs : Fs) (k : Kind) (c : Ctor) (names : NamesArg) (splitFile : Option Str) :
    Except PyErr (List Str) :=
  let chosen : Except PyErr (List Str) :=
    match names with
    | .list l => .ok l
    | .other => .error .assertionError
    | .none =>
      if k = .bsds then
        match fs.list (pjoin (bsdsGtRoot c) c.split) with
        | some files => .ok (matNames c.split files)
        | none => .error .fileNotFoundError
      else
        let f := splitFile.getD (defaultSplitFile k c)
        if fs.ex f then
          match fs.read f with
          | some raw => .ok (readLines raw)
          | none => .error .oserror
        else .error .assertionError
  match chosen with
  | .error e => .error e
  | .ok l => if l = [] then .error .assertionError else .ok l

/-- `set_sample_names` as a state change of `_sample_names`. -/
def setSampleNames (fs : Fs) (k : Kind) (c : Ctor) (names : NamesArg) (splitFile : Option Str)
    (old : Option (List Str)) : Option (List Str) × Option PyErr :=
  match chooseNames fs k c names splitFile with
  | .error e => (old, some e)
  | .ok l => (some l, none)

/-- cityscapes.py:58-112, sbd.py:55-110, 297-352, bsds.py:23-46  the constructor: the assertion on `split`, then
an attempt to load the sample names whose failure is swallowed.  The result is `_sample_names`. -/
def construct (fs : Fs) (k : Kind) (c : Ctor) : Except PyErr (Option (List Str)) :=
  if c.split = "val".toList ∨ c.split = "test".toList then
    .ok (setSampleNames fs k c .none none none).1
  else .error .assertionError

/-! ## The list object behind `_sample_names`

Python lists are shared references: `set_sample_names` stores the caller's list (cityscapes.py:133-135), the
property `sample_names` returns a deep copy (base.py:28-35). -/

/-- Objects, the next free reference, and the reference stored in `_sample_names`. -/
structure Heap where
  obj : Nat → List Str
  next : Nat
  stored : Option Nat

/-- What a client can do. -/
inductive Op where
  /-- create a list -/
  | new (l : List Str)
  /-- overwrite the contents of a list object -/
  | write (ref : Nat) (l : List Str)
  /-- `ev.set_sample_names(ref)` -/
  | set (ref : Nat)
  /-- `ev.sample_names` -/
  | get

/-- One operation; the result is the reference obtained, if any. -/
def step (h : Heap) : Op → Heap × Option Nat
  | .new l => ({ h with obj := fun r => if r = h.next then l else h.obj r, next := h.next + 1 }, some h.next)
  | .write ref l => ({ h with obj := fun r => if r = ref then l else h.obj r }, none)
  | .set ref => if h.obj ref = [] then (h, none) else ({ h with stored := some ref }, none)
  | .get =>
    match h.stored with
    | none => (h, none)
    | some s =>
      ({ h with obj := fun r => if r = h.next then h.obj s else h.obj r, next := h.next + 1 }, some h.next)

/-- A sequence of operations. -/
def runOps (h : Heap) (ops : List Op) : Heap := ops.foldl (fun h o => (step h o).1) h

/-- The contents `ev.sample_names` shows. -/
def shown (h : Heap) : Option (List Str) := h.stored.map h.obj

/-! ## evaluate_category and evaluate -/

/-- The suffix attributes: cityscapes.py:50-53, half_cityscapes.py:25-28, sbd.py:47-50, 292-295, selected by
`thin` in the constructors (cityscapes.py:74-87, sbd.py:71-84) and by `instance_sensitive`. -/
def edgeSuffix (k : Kind) (thin inst : Bool) : Str :=
  match k, thin, inst with
  | .half, false, false => "_gtProc_half_raw_edge.png".toList
  | .half, true, false => "_gtProc_half_thin_edge.png".toList
  | .half, false, true => "_gtProc_half_raw_isedge.png".toList
  | .half, true, true => "_gtProc_half_thin_isedge.png".toList
  | .sbd, false, false => "_raw_edge.png".toList
  | .sbd, true, false => "_thin_edge.png".toList
  | .sbd, false, true => "_raw_isedge.png".toList
  | .sbd, true, true => "_thin_isedge.png".toList
  | .reanno, false, false => "_reanno_raw_edge.png".toList
  | .reanno, true, false => "_reanno_thin_edge.png".toList
  | .reanno, false, true => "_reanno_raw_isedge.png".toList
  | .reanno, true, true => "_reanno_thin_isedge.png".toList
  | _, false, false => "_gtProc_raw_edge.png".toList
  | _, true, false => "_gtProc_thin_edge.png".toList
  | _, false, true => "_gtProc_raw_isedge.png".toList
  | _, true, true => "_gtProc_thin_isedge.png".toList

/-- `SEG_SUFFIX`: cityscapes.py:55, otf_cityscapes.py:31, sbd.py:52. -/
def segSuffix : Kind → Str
  | .otf => "_gtFine_labelIds.png".toList
  | .sbd | .reanno => "_labelIds.png".toList
  | _ => "_gtFine_labelTrainIds.png".toList

/-- `INST_SUFFIX`: otf_cityscapes.py:32. -/
def instSuffix : Str := "_gtFine_instanceIds.png".toList

/-- `if x: self.ATTR = x`: an absent or empty argument keeps the default. -/
def override (dflt : Str) : Option Str → Str
  | some s => if s = [] then dflt else s
  | none => dflt

/-- `PRED_SUFFIX` after the constructor: cityscapes.py:56, 93-97, bsds.py:21, sbd.py:53, 90-101 (the second
assignment, under `is not None`, also takes an empty suffix). -/
def predSuffix (k : Kind) (c : Ctor) : Str :=
  match k with
  | .bsds => ".png".toList
  | .sbd | .reanno => c.predSuffix.getD ".png".toList
  | _ => override "_leftImg8bit.png".toList c.predSuffix

/-- `gtEval_root`: cityscapes.py:90-92, 100, sbd.py:87-89, 97. -/
def gtEvalRoot (k : Kind) (c : Ctor) : Str :=
  let d := pjoin c.datasetRoot (override "gtEval".toList c.gtDir)
  match k with
  | .sbd | .reanno => d
  | _ => pjoin d c.split

/-- `gtFine_root`: cityscapes.py:101-103. -/
def gtFineRoot (c : Ctor) : Str := pjoin (pjoin c.datasetRoot "gtFine".toList) c.split

/-- `len(self.CLASSES)`. -/
def numClasses : Kind → Nat
  | .sbd | .reanno => 20
  | _ => 19

/-- One entry of `data`. -/
structure Sample where
  name : Str
  category : Int
  edgePath : Option Str
  segPath : Option Str
  instPath : Option Str
  predPath : Str
  params : Params
  deriving DecidableEq

/-- An evaluator object. -/
structure Ev where
  kind : Kind
  ctor : Ctor
  names : Option (List Str)
  attrs : Attrs

/-- `assert`. -/
def assert (b : Bool) : Except PyErr Unit := if b then .ok () else .error .assertionError

/-- `_before_evaluation`: cityscapes.py:213-228, sbd.py:194-206, bsds.py:99-106. -/
def beforeEvaluation (fs : Fs) (e : Ev) : Except PyErr Unit := do
  if e.kind ≠ .bsds then assert e.names.isSome
  assert (fs.ex e.ctor.datasetRoot)
  if e.kind = .bsds then assert (fs.ex (bsdsGtRoot e.ctor))
  else
    assert (fs.ex (gtEvalRoot e.kind e.ctor))
    if e.kind = .cityscapes ∨ e.kind = .half ∨ e.kind = .otf then assert (fs.ex (gtFineRoot e.ctor))
  assert (fs.ex e.ctor.predRoot)

/-- cityscapes.py:270-274, sbd.py:247-251  the prediction path of a multi-label sample.  `str(category).zfill(3)`
is modelled for the positive categories admitted by the assertion. -/
def predPath (e : Ev) (category : Int) (name : Str) : Str :=
  pjoin (pjoin e.ctor.predRoot (Io.classDir category.toNat)) (name ++ predSuffix e.kind e.ctor)

/-- cityscapes.py:244-287, sbd.py:222-264  one iteration of the loop (pre-computed ground truth). -/
def sampleOf (fs : Fs) (e : Ev) (category : Int) (name : Str) : Except PyErr Sample := do
  let inst ← attr e.attrs.instanceSensitive
  let root := gtEvalRoot e.kind e.ctor
  let edge := pjoin root (name ++ edgeSuffix e.kind e.ctor.thin inst)
  let seg := pjoin root (name ++ segSuffix e.kind)
  assert (fs.ex edge)
  assert (fs.ex seg)
  let ps ← evalParams e.kind e.ctor.thin e.attrs
  .ok ⟨name, category, some edge, some seg, none, predPath e category name, ps⟩

/-- otf_cityscapes.py:70-110  one iteration of the loop (ground truth made on the fly). -/
def sampleOfOtf (fs : Fs) (e : Ev) (category : Int) (name : Str) : Except PyErr Sample := do
  let seg := pjoin (gtFineRoot e.ctor) (name ++ segSuffix e.kind)
  assert (fs.ex seg)
  let inst ← attr e.attrs.instanceSensitive
  let ip := pjoin (gtFineRoot e.ctor) (name ++ instSuffix)
  if inst then assert (fs.ex ip)
  let ps ← evalParams e.kind e.ctor.thin e.attrs
  .ok ⟨name, category, none, some seg, if inst then some ip else none, predPath e category name, ps⟩

/-- `evaluate_category` up to the call of `calculate_metrics`: cityscapes.py:237-289, otf_cityscapes.py:63-112,
sbd.py:215-266. -/
def categoryData (fs : Fs) (e : Ev) (category : Int) : Except PyErr (List Sample) := do
  beforeEvaluation fs e
  assert (0 < category ∧ category < numClasses e.kind + 1)
  let names := e.names.getD []
  let data ← mapM' (if e.kind = .otf then sampleOfOtf fs e category else sampleOf fs e category) names
  assert (data ≠ [])
  .ok data

/-- `str.replace(pat, "")` (library): leftmost non-overlapping occurrences removed; an empty pattern leaves the
string unchanged. -/
def removeAll (pat : Str) : Str → Str
  | [] => []
  | c :: cs =>
    if pat ≠ [] ∧ pat.isPrefixOf (c :: cs) then removeAll pat (cs.drop (pat.length - 1))
    else c :: removeAll pat cs
termination_by s => s.length
decreasing_by
  all_goals simp only [List.length_drop, List.length_cons]; omega

/-- bsds.py:118-144  one iteration of the loop. -/
def sampleOfBsds (fs : Fs) (e : Ev) (noSplitDir : Bool) (name : Str) : Except PyErr Sample := do
  let gt := pjoin (bsdsGtRoot e.ctor) (name ++ ".mat".toList)
  let name' := if noSplitDir then removeAll (e.ctor.split ++ ['/']) name else name
  let pred := pjoin e.ctor.predRoot (name' ++ predSuffix e.kind e.ctor)
  assert (fs.ex gt)
  assert (fs.ex pred)
  let ps ← evalParams e.kind e.ctor.thin e.attrs
  .ok ⟨name, 0, some gt, none, none, pred, ps⟩

/-- bsds.py:108-146  `evaluate` up to the call of `calculate_metrics`; iterating over `None` is a `TypeError`. -/
def bsdsData (fs : Fs) (e : Ev) (noSplitDir : Bool) : Except PyErr (List Sample) := do
  beforeEvaluation fs e
  match e.names with
  | none => .error .typeError
  | some names =>
    let data ← mapM' (sampleOfBsds fs e noSplitDir) names
    assert (data ≠ [])
    .ok data

end EdgeEval.Samples
