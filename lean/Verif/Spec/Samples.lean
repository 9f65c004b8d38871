import Verif.Model.Evaluators
import Verif.Model.Text

/-!
# Specification vocabulary for sample lists

The layout of the dataset and prediction directories, as documented: path components joined by `/`, and file
names composed of the sample name and descriptive words.
-/

namespace EdgeEval.Spec

open Text Evaluators

/-- Path components joined by single slashes. -/
def slashed : List Str → Str
  | [] => []
  | [a] => a
  | a :: b :: rest => a ++ '/' :: slashed (b :: rest)

/-- A usable directory argument: not empty, no trailing slash. -/
def DirArg (s : Str) : Prop := s ≠ [] ∧ s.getLast? ≠ some '/'

/-- A relative path component: does not start with a slash. -/
def Relative (s : Str) : Prop := s.head? ≠ some '/'

/-- The text of a file with one item per line, each ended by `eol`. -/
def linesText (eol : Str) (items : List Str) : Str := (items.map fun s => s ++ eol).flatten

/-- No character of the item is a line boundary. -/
def OneLine (s : Str) : Prop :=
  ∀ c ∈ s, c.toNat ∉ [10, 11, 12, 13, 28, 29, 30, 0x85, 0x2028, 0x2029]

/-- The name of the ground-truth file of a multi-label sample. -/
def gtFile (k : Kind) (thin inst : Bool) (name : Str) : Str :=
  name ++
    (match k with
      | .half => "_gtProc_half_".toList
      | .sbd => "_".toList
      | .reanno => "_reanno_".toList
      | _ => "_gtProc_".toList) ++
    (if thin then "thin_".toList else "raw_".toList) ++
    (if inst then "isedge".toList else "edge".toList) ++ ".png".toList

/-- The name of the segmentation file of a multi-label sample. -/
def segFile (k : Kind) (name : Str) : Str :=
  match k with
  | .otf => name ++ "_gtFine_labelIds.png".toList
  | .sbd => name ++ "_labelIds.png".toList
  | .reanno => name ++ "_labelIds.png".toList
  | _ => name ++ "_gtFine_labelTrainIds.png".toList

/-- Three decimal digits. -/
def threeDigits (n : Nat) : Str := [digitCh (n / 100 % 10), digitCh (n / 10 % 10), digitCh (n % 10)]

end EdgeEval.Spec
