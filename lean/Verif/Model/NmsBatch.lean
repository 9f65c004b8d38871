import Verif.Model.Samples

/-!
# Model of the batch helpers of `pyEdgeEval/preprocess/nms/fast_nms.py`

`α` is the type of loaded images and `β` that of thinned ones; `nms` is `fast_nms(·, r=1, s=5, m=1.01,
return_as_uint8=True)`.  The picture files under the output directories are a partial map from paths to pictures;
`cv2.imwrite` (library) stores its argument.  The creation of the output directories (fast_nms.py:112-113, 137-139) is not
modelled, and `os.listdir(result_dir)` is taken to answer the same for every model of one call.
-/

namespace EdgeEval.NmsBatch

open EdgeEval Text Samples

/-- The picture files. -/
abbrev Disk (β : Type) := Str → Option β

/-- `cv2.imwrite(path, out)` (library). -/
def Disk.write {β : Type} (d : Disk β) (path : Str) (out : β) : Disk β := fun p => if p = path then some out else d p

/-- A `for` loop whose body may raise: the state reached and the exception, if any. -/
def loop {σ ι : Type} (body : σ → ι → Except PyErr σ) : σ → List ι → σ × Option PyErr
  | s, [] => (s, none)
  | s, x :: xs =>
    match body s x with
    | .ok s' => loop body s' xs
    | .error e => (s, some e)

/-- `repr` of a one-character string (library), for a printable character. -/
def charRepr (c : Char) : Str :=
  if c = '\'' then ['"', '\'', '"'] else if c = '\\' then ['\'', '\\', '\\', '\''] else ['\'', c, '\'']

/-- fast_nms.py:116  `f"{os.path.splitext(file[0])}.png"`: `file[0]` is the first character of the name, `splitext` returns
the pair of it and the empty string, and the pair is formatted as a Python tuple. -/
def tupleName (file : Str) : Str :=
  match file with
  | [] => []
  | c :: _ => ['('] ++ charRepr c ++ [',', ' ', '\'', '\'', ')', '.', 'p', 'n', 'g']

/-- fast_nms.py:115-125  the body of the loop of `nms_results`. (`file[0]` raises on an empty name, which `os.listdir` never
returns.) The test `os.path.isfile(save_name)` only prints a message. -/
def resultsBody {α β : Type} (loader : Str → Except PyErr α) (nms : α → Except PyErr β) (resultDir saveDir : Str)
    (d : Disk β) (file : Str) : Except PyErr (Disk β) := do
  let img ← loader (pjoin resultDir file)
  let out ← nms img
  pure (d.write (pjoin saveDir (tupleName file)) out)

/-- fast_nms.py:110-125  `nms_results(result_dir, save_dir, loader)`; `listing` is `os.listdir(result_dir)`, `none` if the
directory does not exist. -/
def nmsResults {α β : Type} (loader : Str → Except PyErr α) (nms : α → Except PyErr β) (resultDir saveDir : Str)
    (listing : Option (List Str)) (d : Disk β) : Disk β × Option PyErr :=
  match listing with
  | none => (d, some .assertionError)
  | some files => loop (resultsBody loader nms resultDir saveDir) d files

/-- fast_nms.py:133  the accepted formats. -/
inductive Format where
  | mat
  | npy
  | other
  deriving DecidableEq

/-- The extension of a format. -/
def Format.ext : Format → Str
  | .mat => ".mat".toList
  | .npy => ".npy".toList
  | .other => []

/-- fast_nms.py:142-144  `os.path.join(model_save_dir, "{}.png".format(os.path.splitext(file)[0]))`. -/
def pngPath (saveDir model file : Str) : Str := pjoin (pjoin saveDir model) ((splitext file).1 ++ ".png".toList)

/-- fast_nms.py:141-160  the body of the inner loop of `nms_all_results`; `loadMat`, `loadNpy` are `loadmat(path)[key]` and
`np.load(path)`. -/
def allBody {α β : Type} (loadMat loadNpy : Str → Except PyErr α) (nms : α → Except PyErr β) (resultDir saveDir : Str)
    (keyGiven : Bool) (fmt : Format) (model : Str) (d : Disk β) (file : Str) : Except PyErr (Disk β) :=
  if (d (pngPath saveDir model file)).isSome then .ok d
  else if (splitext file).2 ≠ fmt.ext then .ok d
  else do
    let image ← match fmt with
      | .mat => if keyGiven then loadMat (pjoin resultDir file) else .error .assertionError
      | .npy => loadNpy (pjoin resultDir file)
      | .other => .error .notImplementedError
    let out ← nms image
    pure (d.write (pngPath saveDir model file) out)

/-- fast_nms.py:136-160  both loops: the files of `result_dir` for every model. -/
def allJobs (models files : List Str) : List (Str × Str) := models.flatMap fun m => files.map fun f => (m, f)

/-- fast_nms.py:128-160  `nms_all_results(model_name_list, result_dir, save_dir, key, file_format)`; `listing` is the answer
of `os.listdir(result_dir)`, `none` if it is no directory. (A single model name is wrapped into a list.) -/
def nmsAllResults {α β : Type} (loadMat loadNpy : Str → Except PyErr α) (nms : α → Except PyErr β)
    (models : List Str) (resultDir saveDir : Str) (keyGiven : Bool) (fmt : Format) (listing : Option (List Str))
    (d : Disk β) : Disk β × Option PyErr :=
  if fmt = .other then (d, some .assertionError)
  else
    match listing with
    | none => (d, some .assertionError)
    | some files =>
      loop (fun d (j : Str × Str) => allBody loadMat loadNpy nms resultDir saveDir keyGiven fmt j.1 d j.2) d (allJobs models files)

/-- fast_nms.py:87-107  `nms_process_one_image(img, save_path, save)`: the returned picture and the files. `cv2.imwrite(None,
…)` raises `cv2.error`, here `typeError`. -/
def processOne {α β : Type} (nms : α → Except PyErr β) (img : α) (savePath : Option Str) (save : Bool) (d : Disk β) :
    Except PyErr (β × Disk β) := do
  if save then
    match savePath with
    | some p => if (splitext ((p.reverse.takeWhile (· ≠ '/')).reverse)).2 ≠ ".png".toList then throw .assertionError
    | none => pure ()
  let out ← nms img
  if save then
    match savePath with
    | some p => pure (out, d.write p out)
    | none => throw .typeError
  else pure (out, d)

end EdgeEval.NmsBatch
