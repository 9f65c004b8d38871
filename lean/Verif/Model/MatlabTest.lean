import Verif.Model.Convert
import Verif.Model.Progress

/-!
# Comparing converted Cityscapes edges with those of the MATLAB code: `helpers/convert_cityscapes.py`

`Image.open` is a parameter; a picture is the numpy array it converts to.  Paths are POSIX strings, the directory name of
the MATLAB results is not empty.
-/

namespace EdgeEval.MatlabTest

open Text Samples PathU EdgeEval.Convert

/-- A numpy array of integers: entries at index tuples. -/
structure NpArr where
  shape : List Nat
  at_ : List Nat → Int

/-- The index tuples of a shape, in C order. -/
def indices : List Nat → List (List Nat)
  | [] => [[]]
  | n :: s => (List.range n).flatMap fun i => (indices s).map (i :: ·)

/-- `np.array(img, dtype=np.uint8)` (`m = 256`), `.astype(np.uint32)` (`m = 2^32`): C casts wrap around. -/
def castTo (m : Nat) (a : NpArr) : NpArr := ⟨a.shape, fun i => a.at_ i % m⟩

/-- numpy (library): one axis of two broadcast shapes. -/
def bcDim (x y : Nat) : Option Nat := if x = y then some x else if x = 1 then some y else if y = 1 then some x else none

/-- numpy (library): broadcasting of reversed shapes. -/
def bcRev : List Nat → List Nat → Option (List Nat)
  | [], t => some t
  | s, [] => some s
  | x :: s, y :: t =>
    match bcDim x y, bcRev s t with
    | some d, some r => some (d :: r)
    | _, _ => none

/-- numpy (library): the broadcast shape. -/
def bcShape (s t : List Nat) : Option (List Nat) := (bcRev s.reverse t.reverse).map List.reverse

/-- numpy (library): the entry of an array of shape `s` at an index of the broadcast result: leading axes are dropped,
axes of length one are repeated. -/
def bcAt (a : NpArr) (i : List Nat) : Int :=
  a.at_ ((i.drop (i.length - a.shape.length)).zipWith (fun k n => if n = 1 then 0 else k) a.shape)

/-- `np.count_nonzero(edge != test)`.  Shapes that do not broadcast: `ValueError` (numpy ≥ 1.25), or the comparison is
the scalar `True` (older versions, `legacy`). -/
def countDiff (legacy : Bool) (a b : NpArr) : Except PyErr Nat :=
  match bcShape a.shape b.shape with
  | some s => .ok ((indices s).countP fun i => decide (bcAt a i ≠ bcAt b i))
  | none => if legacy then .ok 1 else .error .valueError

/-- `np.array_equal(edge, test)` (library). -/
def arrayEqual (a b : NpArr) : Bool :=
  decide (a.shape = b.shape) && (indices a.shape).all fun i => decide (a.at_ i = b.at_ i)

/-- convert_cityscapes.py:210-218  the file compared with `edge_file`. -/
def testFile (origDir testDir origSuffix testSuffix edgeFile : Str) : Str :=
  replaceAll origSuffix testSuffix (pjoin (replaceAll origDir testDir (dirname edgeFile)) (basename edgeFile))

/-- `Image.open(file)` followed by the conversion to an array. -/
def openArr (pics : Str → Option NpArr) (f : Str) : Except PyErr NpArr :=
  match pics f with
  | some a => .ok a
  | none => .error .fileNotFoundError

/-- convert_cityscapes.py:208-246  `test_edges`: file, number of different entries, equality. -/
def testEdges (legacy : Bool) (pics : Str → Option NpArr) (origDir testDir origSuffix testSuffix edgeFile : Str) :
    Except PyErr (Str × Nat × Bool) := do
  let tf := testFile origDir testDir origSuffix testSuffix edgeFile
  let ext := pathExt edgeFile
  let m ← (if ext = ".png".toList then .ok 256 else if ext = ".tif".toList then .ok (2 ^ 32) else .error .valueError : Except PyErr Nat)
  let edge ← openArr pics edgeFile
  let test ← openArr pics tf
  let edge := castTo m edge
  let test := castTo m test
  let diff ← countDiff legacy edge test
  .ok (edgeFile, diff, arrayEqual edge test)

/-- What is printed about a split (convert_cityscapes.py:441-449, 468-476): the files with more than three different
entries, and the number of files that are not equal. -/
structure Report where
  shown : List (Str × Nat)
  misses : Nat
  deriving DecidableEq

/-- convert_cityscapes.py:441-447, 468-474  the loop over the results. -/
def tally (results : List (Str × Nat × Bool)) : Report :=
  results.foldl (fun r x =>
    let r := if x.2.2 then r else { r with misses := r.misses + 1 }
    if x.2.1 > 3 then { r with shown := r.shown ++ [(x.1, x.2.1)] } else r) ⟨[], 0⟩

/-- convert_cityscapes.py:436-439, 463-466  all tests of a split, in this process or in a pool; `none`: the caller is still
waiting. -/
def tracked {α β : Type} (func : α → Except PyErr β) (l : List α) (nproc : Nat) (sched : List PoolEvent) :
    Option (Except PyErr (List β)) :=
  if nproc > 1 then
    match trackParallel func ⟨nproc, 1, false, true, false⟩ (.list l) sched with
    | .error e => some (.error e)
    | .ok s =>
      match s.status with
      | .running => none
      | .finished => some (.ok s.results)
      | .raised e => some (.error e)
  else some ((trackProgress func (.list l) false).map Prod.fst)

/-- convert_cityscapes.py:400-407  the arguments of `test_against_matlab` (without `nproc`). -/
structure TestArgs where
  procDirname : Str
  matlabDirname : Str := "gtProc".toList
  root : Str := "data/cityscapes".toList
  inst : Bool := true
  ext : Str := "png".toList

/-- convert_cityscapes.py:421-439, 451-466  one split. -/
def testSplit (legacy : Bool) (pics : Str → Option NpArr) (tree : Str → Option Entries) (a : TestArgs) (nproc : Nat)
    (sched : List PoolEvent) (split testSuffix : Str) : Option (Except PyErr Report) :=
  let d := pjoin (pjoin a.root a.matlabDirname) split
  match scandir tree (.path d) (.str "_gtProc_edge.png".toList) true true with
  | .error e => some (.error e)
  | .ok l =>
    (tracked (testEdges legacy pics a.matlabDirname a.procDirname "_gtProc_edge.png".toList testSuffix)
      (l.map fun rel => pjoin d rel) nproc sched).map fun r => r.map tally

/-- convert_cityscapes.py:400-476  `test_against_matlab`: the reports printed for the two splits; the schedules are those
of the two pools. -/
def testAgainstMatlab (legacy : Bool) (pics : Str → Option NpArr) (tree : Str → Option Entries) (a : TestArgs) (nproc : Nat)
    (sched1 sched2 : List PoolEvent) : Option (Except PyErr (Report × Report)) :=
  if a.inst then some (.error .assertionError)
  else
    match testSplit legacy pics tree a nproc sched1 "train".toList ("_gtProc_edge.".toList ++ a.ext) with
    | none => none
    | some (.error e) => some (.error e)
    | some (.ok r1) =>
      match testSplit legacy pics tree a nproc sched2 "val".toList "_gtProc_raw_edge.png".toList with
      | none => none
      | some (.error e) => some (.error e)
      | some (.ok r2) => some (.ok (r1, r2))

end EdgeEval.MatlabTest
