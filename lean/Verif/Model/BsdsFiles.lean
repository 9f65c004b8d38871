import Verif.Model.MatFile
import Verif.Model.EndToEnd

/-!
# The BSDS evaluation from its files: the loader put under `datasets/bsds.py`
-/

namespace EdgeEval.MatFile

open Text Datasets

/-- datasets/bsds.py:30  one returned annotation, a two-dimensional array.  Simplification: negative values are 0, and
what is not a two-dimensional array of integers (not found in the files of BSDS) is refused here with `TypeError`
instead of by the first routine that uses it. -/
def asAnnotation : PyVal → Except PyErr (Img Nat)
  | .num [h, w] g => .ok ⟨h, w, fun i j => (g [i, j]).toNat⟩
  | _ => .error .typeError

/-- What `datasets/bsds.py` finds (line 60, the old loader) when the MATLAB files are those of `env`; `rgb` and `gray`
are the pictures. -/
def picturesOf (env : MatEnv) (rgb : Str → Option Rgb) (gray : Str → Option (Img Nat)) : Pictures where
  rgb := rgb
  gray := gray
  mat p := do
    let l ← bsdsBoundaries env p false
    l.mapM asAnnotation

end EdgeEval.MatFile
