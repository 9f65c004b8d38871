import Verif.Model.MatFile

/-!
# The conversion of SBD from its files: the loaders put under `helpers/convert_sbd.py`
-/

namespace EdgeEval.MatFile

open Text ConvertSbd

/-- convert_sbd.py:45-51, 60-69 (and 91-97, 106-115)  the returned uint8 stack, as boundaries.  Simplification: a value
other than 0 and 1, which the files of SBD do not have, counts as boundary. -/
def asBdry (r : Loaded) : MLEdges := ⟨r.n, r.h, r.w, fun k i j => r.bdry k i j != 0⟩

/-- convert_sbd.py:37, 56 (and 82, 102)  the returned label map, a two-dimensional array (`segSize` asserts it).
Simplification: negative labels are 0. -/
def asSeg (r : Loaded) : Img Nat :=
  match r.seg with
  | .num [h, w] g => ⟨h, w, fun i j => (g [i, j]).toNat⟩
  | _ => ⟨0, 0, fun _ _ => 0⟩

/-- convert_sbd.py:38-44, 57-62 (and 84-90, 104-109)  the returned categories, a one-dimensional array.  Simplification:
arrays of another shape, which the files of SBD do not have, count as empty. -/
def asCats (r : Loaded) : List Nat :=
  match r.cats with
  | .num [n] g => (List.range n).map fun k => (g [k]).toNat
  | _ => []

/-- convert_sbd.py:240, 161-168  the class annotation, from what `load_sbd_gt_cls_mat` returned. -/
def clsOf (r : Loaded) : ClsMat := ⟨asBdry r, asSeg r, asCats r⟩

/-- convert_sbd.py:247, 169  the instance annotation, from what `load_sbd_gt_inst_mat` returned. -/
def instOf (r : Loaded) : InstMat := ⟨asBdry r, asSeg r, asCats r⟩

/-- scripts/convert_datasets/sbd.py:155-164  a sample name as it is used in the jobs, inside an f-string.  The old loader
returns strings only. -/
def nameOf : PyVal → Except PyErr Str
  | .str s => .ok s
  | _ => .error .typeError

/-- What `helpers/convert_sbd.py` finds when the MATLAB files are those of `env`: `ex` answers `os.path.exists`, `text` holds
the text files. -/
def filesOf (env : MatEnv) (ex : Str → Bool) (text : Str → Option Str) : SbdFs where
  ex := ex
  cls new p := (loadCls env p new).map clsOf
  inst new p := (loadInst env p new).map instOf
  text := text
  names p := do
    let l ← reannoNames env p false
    l.mapM nameOf

end EdgeEval.MatFile
