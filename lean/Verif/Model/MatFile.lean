import Verif.Model.ConvertSbd

/-!
# Reading MATLAB files: `utils/mat_utils.py`, the loaders of `helpers/convert_sbd.py` and `datasets/bsds.py`

A MAT-file (level 5) holds named MATLAB values.  How `scipy.io.loadmat` and `pymatreader.read_mat` present a MATLAB value in
Python is library behaviour, written down in `scipyOf` and `pymatOf`.  Numbers are integers (both readers return stored
integers as integers), MATLAB structures are 1×1.  HDF5 files (version 7.3) and `mat73` are not modelled.
-/

namespace EdgeEval.MatFile

open Text
open Samples (assert)

/-- scipy.sparse (library): a `csc_matrix`. -/
structure Csc where
  rows : Nat
  cols : Nat
  data : List Int
  indices : List Nat
  indptr : List Nat

/-- A MATLAB value. -/
inductive MVal where
  /-- numeric or logical matrix -/
  | num (r c : Nat) (at_ : Nat → Nat → Int)
  | sparse (m : Csc)
  /-- character matrix: its rows -/
  | char (rows : List Str)
  | cell (r c : Nat) (at_ : Nat → Nat → MVal)
  /-- 1×1 structure -/
  | struct (names : List Str) (vals : Nat → MVal)

/-- What the readers return: numpy arrays of numbers (shape `[]`: also numpy scalars), Python integers, sparse matrices,
object arrays, one-element structured arrays, records of them, lists, dictionaries, arrays of strings, strings. -/
inductive PyVal where
  | num (shape : List Nat) (at_ : List Nat → Int)
  | int (v : Int)
  | csc (m : Csc)
  | obj (shape : List Nat) (at_ : List Nat → PyVal)
  | recs (shape : List Nat) (names : List Str) (vals : Nat → PyVal)
  | void (names : List Str) (vals : Nat → PyVal)
  | list (n : Nat) (at_ : Nat → PyVal)
  | dict (names : List Str) (vals : Nat → PyVal)
  | strs (shape : List Nat) (at_ : List Nat → Str)
  | str (s : Str)

/-- A MAT-file: names and values. -/
structure MFile where
  names : List Str
  vals : Nat → MVal

/-- scipy.io.loadmat (library) with its default arguments: two-dimensional arrays, rows of characters joined to strings. -/
def scipyOf : MVal → PyVal
  | .num r c f => .num [r, c] fun ix => f (ix.getD 0 0) (ix.getD 1 0)
  | .sparse m => .csc m
  | .char rows => .strs [rows.length] fun ix => rows.getD (ix.getD 0 0) []
  | .cell r c f => .obj [r, c] fun ix => scipyOf (f (ix.getD 0 0) (ix.getD 1 0))
  | .struct names vals => .recs [1, 1] names fun k => scipyOf (vals k)

/-- pymatreader.read_mat (library): `squeeze_me=True` (axes of length one removed, no entries: one-dimensional, one entry:
the entry itself; sparse matrices untouched), cells to lists, structures to dictionaries. -/
def pymatOf : MVal → PyVal
  | .num r c f =>
    if r * c = 0 then .num [0] fun _ => 0
    else if r = 1 ∧ c = 1 then .int (f 0 0)
    else if r = 1 then .num [c] fun ix => f 0 (ix.getD 0 0)
    else if c = 1 then .num [r] fun ix => f (ix.getD 0 0) 0
    else .num [r, c] fun ix => f (ix.getD 0 0) (ix.getD 1 0)
  | .sparse m => .csc m
  | .char rows => if rows.length = 1 then .str (rows.getD 0 []) else .strs [rows.length] fun ix => rows.getD (ix.getD 0 0) []
  | .cell r c f =>
    if r * c = 0 then .list 0 fun _ => .int 0
    else if r = 1 ∧ c = 1 then pymatOf (f 0 0)
    else if r = 1 then .list c fun j => pymatOf (f 0 j)
    else if c = 1 then .list r fun i => pymatOf (f i 0)
    else .list r fun i => .list c fun j => pymatOf (f i j)
  | .struct names vals => .dict names fun k => pymatOf (vals k)

/-! ## Python operations -/

/-- scipy.sparse (library, `csr_todense` on the transpose): the entries of column `j` are `indptr[j]` to `indptr[j+1]`;
each is added to its place. -/
def scatterCol (m : Csc) (b : Nat → Nat → Int) (j : Nat) : Nat → Nat → Int :=
  (List.range' (m.indptr.getD j 0) (m.indptr.getD (j + 1) 0 - m.indptr.getD j 0)).foldl
    (fun b k => fun i' j' => if i' = m.indices.getD k 0 ∧ j' = j then b i' j' + m.data.getD k 0 else b i' j') b

/-- scipy.sparse (library): `toarray`. -/
def toDense (m : Csc) : Img Int := ⟨m.rows, m.cols, (List.range m.cols).foldl (scatterCol m) fun _ _ => 0⟩

/-- mat_utils.py:36-41  `sparse2numpy`. -/
def sparse2numpy : PyVal → Except PyErr (Img Int)
  | .csc m => .ok (toDense m)
  | _ => .error .assertionError

/-- `d[key]` for a string key. -/
def keyOf (d : PyVal) (key : Str) : Except PyErr PyVal :=
  match d with
  | .dict names vals => if names.idxOf key < names.length then .ok (vals (names.idxOf key)) else .error .keyError
  | .recs shape names vals =>
    if names.idxOf key < names.length then .ok (.obj shape fun _ => vals (names.idxOf key)) else .error .valueError
  | .void names vals => if names.idxOf key < names.length then .ok (vals (names.idxOf key)) else .error .valueError
  | .num _ _ | .obj _ _ | .strs _ _ | .csc _ => .error .indexError
  | .int _ | .list _ _ | .str _ => .error .typeError

/-- `a[0, j]` (also `a[0, 0]`). -/
def atPair (a : PyVal) (j : Nat) : Except PyErr PyVal :=
  match a with
  | .num [r, c] f => if 0 < r ∧ j < c then .ok (.num [] fun _ => f [0, j]) else .error .indexError
  | .obj [r, c] f => if 0 < r ∧ j < c then .ok (f [0, j]) else .error .indexError
  | .recs [r, c] names vals => if 0 < r ∧ j < c then .ok (.void names vals) else .error .indexError
  | .csc m => if 0 < m.rows ∧ j < m.cols then .ok (.num [] fun _ => (toDense m).at_ 0 j) else .error .indexError
  | .dict _ _ => .error .keyError
  | .int _ | .list _ _ | .str _ => .error .typeError
  | _ => .error .indexError

/-- A `csc_matrix` with the entries of one row of `m` (`m[i]`, library; zeros are stored here). -/
def rowCsc (m : Csc) (i : Nat) : Csc :=
  ⟨1, m.cols, (List.range m.cols).map fun j => (toDense m).at_ i j, List.replicate m.cols 0, List.range (m.cols + 1)⟩

/-- `a[k]` for a non-negative index. -/
def atOne (a : PyVal) (k : Nat) : Except PyErr PyVal :=
  match a with
  | .num (n :: s) f => if k < n then .ok (.num s fun ix => f (k :: ix)) else .error .indexError
  | .obj [n] f => if k < n then .ok (f [k]) else .error .indexError
  | .obj (n :: s) f => if k < n then .ok (.obj s fun ix => f (k :: ix)) else .error .indexError
  | .recs (n :: s) names vals => if k < n then .ok (if s = [] then .void names vals else .recs s names vals) else .error .indexError
  | .strs (n :: s) f => if k < n then .ok (if s = [] then .str (f [k]) else .strs s fun ix => f (k :: ix)) else .error .indexError
  | .void names vals => if k < names.length then .ok (vals k) else .error .indexError
  | .list n f => if k < n then .ok (f k) else .error .indexError
  | .str s => if k < s.length then .ok (.str [s.getD k ' ']) else .error .indexError
  | .csc m => if k < m.rows then .ok (.csc (rowCsc m k)) else .error .indexError
  | .dict _ _ => .error .keyError
  | .int _ => .error .typeError
  | _ => .error .indexError

/-- `len(a)`. -/
def lenOf : PyVal → Except PyErr Nat
  | .num (n :: _) _ | .obj (n :: _) _ | .recs (n :: _) _ _ | .strs (n :: _) _ => .ok n
  | .void names _ | .dict names _ => .ok names.length
  | .list n _ => .ok n
  | .str s => .ok s.length
  | _ => .error .typeError

/-- `a.shape`. -/
def shapeOf : PyVal → Except PyErr (List Nat)
  | .num s _ | .obj s _ | .recs s _ _ | .strs s _ => .ok s
  | .csc m => .ok [m.rows, m.cols]
  | .void _ _ => .ok []
  | .int _ | .list _ _ | .dict _ _ | .str _ => .error .attributeError

/-- numpy (library): the index into an array of shape `s` for an index into its squeezed version. -/
def unsqueeze : List Nat → List Nat → List Nat
  | [], _ => []
  | n :: s, ix => if n = 1 then 0 :: unsqueeze s ix else ix.headD 0 :: unsqueeze s ix.tail

/-- `a.squeeze()`; `csc_matrix` has no such method. -/
def squeezeOf : PyVal → Except PyErr PyVal
  | .num s f => .ok (.num (s.filter (· ≠ 1)) fun ix => f (unsqueeze s ix))
  | .obj s f => .ok (.obj (s.filter (· ≠ 1)) fun ix => f (unsqueeze s ix))
  | .recs s names vals => .ok (.recs (s.filter (· ≠ 1)) names vals)
  | .strs s f => .ok (.strs (s.filter (· ≠ 1)) fun ix => f (unsqueeze s ix))
  | .void names vals => .ok (.void names vals)
  | .csc _ | .int _ | .list _ _ | .dict _ _ | .str _ => .error .attributeError

/-- `a[None]`. -/
def newAxis : PyVal → Except PyErr PyVal
  | .num s f => .ok (.num (1 :: s) fun ix => f ix.tail)
  | .obj s f => .ok (.obj (1 :: s) fun ix => f ix.tail)
  | .recs s names vals => .ok (.recs (1 :: s) names vals)
  | .strs s f => .ok (.strs (1 :: s) fun ix => f ix.tail)
  | _ => .error .indexError

/-! ## The functions of the project -/

/-- The files, and whether a reader of newer files is installed (mat_utils.py:9-17). -/
structure MatEnv where
  files : Str → Option MFile
  newReader : Bool

/-- mat_utils.py:20-33  `loadmat(path, use_mat73)[name]`. -/
def loadVar (env : MatEnv) (path : Str) (useNew : Bool) (name : Str) : Except PyErr PyVal :=
  match env.files path with
  | none => .error .assertionError
  | some f =>
    if useNew && !env.newReader then .error .assertionError
    else if f.names.idxOf name < f.names.length then
      .ok (if useNew then pymatOf (f.vals (f.names.idxOf name)) else scipyOf (f.vals (f.names.idxOf name)))
    else .error .keyError

/-- convert_sbd.py:39-43, 85-89  the categories from the new loader. -/
def catsNew (x : PyVal) : Except PyErr PyVal := do
  let x := match x with
    | .int v => PyVal.num [1] fun _ => v
    | y => y
  let s ← shapeOf x
  let x ← if s.length = 0 then newAxis x else .ok x
  let s ← shapeOf x
  assert (decide (s.length = 1))
  .ok x

/-- convert_sbd.py:58-62, 104-108  the categories from the old loader. -/
def catsOld (x : PyVal) : Except PyErr PyVal := do
  let s ← shapeOf x
  let x ← if s.length > 1 then squeezeOf x else .ok x
  let s ← shapeOf x
  if s.length = 0 then newAxis x else .ok x

/-- convert_sbd.py:46-47, 64-65, 92-93, 110-111  the height and width of the segmentation. -/
def segSize (seg : PyVal) : Except PyErr (Nat × Nat) := do
  let s ← shapeOf seg
  assert (decide (s.length = 2))
  .ok (s.getD 0 0, s.getD 1 0)

/-- convert_sbd.py:51, 69, 97, 115  `np_boundaries[cat] = …`: numpy broadcasts to `h × w` and casts to uint8 (wrapping). -/
def assignPlane (h w : Nat) (d : Img Int) : Except PyErr (Nat → Nat → Nat) :=
  if (d.rows = h ∨ d.rows = 1) ∧ (d.cols = w ∨ d.cols = 1) then
    .ok fun i j => (d.at_ (if d.rows = 1 then 0 else i) (if d.cols = 1 then 0 else j) % 256).toNat
  else .error .valueError

/-- What the SBD loaders return. -/
structure Loaded where
  n : Nat
  h : Nat
  w : Nat
  bdry : Nat → Nat → Nat → Nat
  seg : PyVal
  cats : PyVal

/-- convert_sbd.py:46-51, 64-69 (and 92-97, 110-115)  the boundaries; `entry` is the matrix of a class. -/
def stackOf (seg cats b : PyVal) (entry : PyVal → Except PyErr PyVal) : Except PyErr Loaded := do
  let hw ← segSize seg
  let n ← lenOf b
  let planes ← (List.range n).mapM fun cat => do
    let x ← atOne b cat
    let y ← entry x
    let d ← sparse2numpy y
    assignPlane hw.1 hw.2 d
  .ok ⟨n, hw.1, hw.2, fun k i j => (planes.getD k fun _ _ => 0) i j, seg, cats⟩

/-- convert_sbd.py:34-51  `load_sbd_gt_cls_mat` with the new loader. -/
def clsNew (env : MatEnv) (path : Str) : Except PyErr Loaded := do
  let gt ← loadVar env path true "GTcls".toList
  let b ← keyOf gt "Boundaries".toList
  let seg ← keyOf gt "Segmentation".toList
  let cats ← keyOf gt "CategoriesPresent".toList
  let cats ← catsNew cats
  stackOf seg cats b fun x => .ok x

/-- convert_sbd.py:53-69  `load_sbd_gt_cls_mat` with the old loader. -/
def clsOld (env : MatEnv) (path : Str) : Except PyErr Loaded := do
  let v ← loadVar env path false "GTcls".toList
  let gt ← atPair v 0
  let b ← atOne gt 0
  let seg ← atOne gt 1
  let cats ← atOne gt 2
  let cats ← catsOld cats
  stackOf seg cats b fun x => atOne x 0

/-- convert_sbd.py:32-72  `load_sbd_gt_cls_mat`; convert_sbd.py:120-122 and 152-158 are wrappers of it (the second one
with the new loader). -/
def loadCls (env : MatEnv) (path : Str) (newLoader : Bool) : Except PyErr Loaded :=
  if newLoader then clsNew env path else clsOld env path

/-- convert_sbd.py:80-97  `load_sbd_gt_inst_mat` with the new loader. -/
def instNew (env : MatEnv) (path : Str) : Except PyErr Loaded := do
  let gt ← loadVar env path true "GTinst".toList
  let seg ← keyOf gt "Segmentation".toList
  let b ← keyOf gt "Boundaries".toList
  let cats ← keyOf gt "Categories".toList
  let cats ← catsNew cats
  stackOf seg cats b fun x => .ok x

/-- convert_sbd.py:99-115  `load_sbd_gt_inst_mat` with the old loader. -/
def instOld (env : MatEnv) (path : Str) : Except PyErr Loaded := do
  let v ← loadVar env path false "GTinst".toList
  let gt ← atPair v 0
  let seg ← atOne gt 0
  let b ← atOne gt 1
  let cats ← atOne gt 2
  let cats ← catsOld cats
  stackOf seg cats b fun x => atOne x 0

/-- convert_sbd.py:75-117  `load_sbd_gt_inst_mat`. -/
def loadInst (env : MatEnv) (path : Str) (newLoader : Bool) : Except PyErr Loaded :=
  if newLoader then instNew env path else instOld env path

/-- convert_sbd.py:381  iterating over the squeezed array. -/
def iterOf : PyVal → Except PyErr (List PyVal)
  | .obj [] _ => .error .typeError
  | .obj [n] f => .ok ((List.range n).map fun i => f [i])
  | .obj (n :: s) f => .ok ((List.range n).map fun i => .obj s fun ix => f (i :: ix))
  | .num [] _ => .error .typeError
  | .num (n :: s) f => .ok ((List.range n).map fun i => .num s fun ix => f (i :: ix))
  | .strs (n :: s) f => .ok ((List.range n).map fun i => .strs s fun ix => f (i :: ix))
  | _ => .error .typeError

/-- convert_sbd.py:381  `t.tolist()[0]`: for an array of strings the first string (numpy strings have `tolist` too, its
result is the string itself, whose first character is taken); other elements of a cell are not names: the type error
stands for whatever happens later. -/
def firstName : PyVal → Except PyErr Str
  | .strs [n] f => if 0 < n then .ok (f [0]) else .error .indexError
  | .strs [] f => if 0 < (f []).length then .ok [(f []).getD 0 ' '] else .error .indexError
  | _ => .error .typeError

/-- convert_sbd.py:362-383  `load_reanno_samples`; the new loader returns the list as it is. -/
def reannoNames (env : MatEnv) (path : Str) (newLoader : Bool) : Except PyErr (List PyVal) :=
  if newLoader then do
    let test ← loadVar env path true "listTest".toList
    match test with
    | .list n f => .ok ((List.range n).map f)
    | _ => .error .assertionError
  else do
    let test ← loadVar env path false "listTest".toList
    let t ← squeezeOf test
    let l ← iterOf t
    let names ← l.mapM firstName
    .ok (names.map .str)

/-- bsds.py:14-30 (and generic_binary.py:14-30)  `load_bsds_gt_boundaries`.  With the new loader the file is read by
`read_mat` itself, which raises `FileNotFoundError`; without the package the import fails. -/
def bsdsBoundaries (env : MatEnv) (path : Str) (newLoader : Bool) : Except PyErr (List PyVal) :=
  if newLoader then
    match env.files path with
    | none => .error .fileNotFoundError
    | some _ => do
      let gt ← loadVar env path true "groundTruth".toList
      let n ← lenOf gt
      (List.range n).mapM fun i => do
        let x ← atOne gt i
        keyOf x "Boundaries".toList
  else do
    let gt ← loadVar env path false "groundTruth".toList
    let s ← shapeOf gt
    let n ← getItem s 1
    (List.range n).mapM fun i => do
      let x ← atPair gt i
      let y ← keyOf x "Boundaries".toList
      atPair y 0

end EdgeEval.MatFile
