import Verif.Model.Path
import Verif.Spec.Samples

/-! # Specification vocabulary for directory trees -/

namespace EdgeEval.Spec

open Text PathU

/-- There is a regular file at the path (list of names) below the directory. -/
inductive FileAt : Entries → List Str → Prop
  | here (name : Str) (rest : Entries) : FileAt (.cons name .file rest) [name]
  | inside (name : Str) (es rest : Entries) (p : List Str) (h : FileAt es p) :
      FileAt (.cons name (.dir es) rest) (name :: p)
  | later (name : Str) (n : Node) (rest : Entries) (p : List Str) (h : FileAt rest p) : FileAt (.cons name n rest) p

/-- The names of a directory. -/
def names : Entries → List Str
  | .nil => []
  | .cons name _ rest => name :: names rest

mutual
/-- As on a real disk: the names in a directory are distinct and contain no slash, and so on below. -/
def WellNamed : Entries → Prop
  | .nil => True
  | .cons name n rest => '/' ∉ name ∧ name ∉ names rest ∧ WellNamedNode n ∧ WellNamed rest
/-- The same below an entry. -/
def WellNamedNode : Node → Prop
  | .file => True
  | .other => True
  | .dir es => WellNamed es
end

/-- The file name of a path does not start with a dot. -/
def Visible (p : List Str) : Prop := ∃ name ∈ p.getLast?, name.head? ≠ some '.'

/-- Equal up to the case of ASCII letters. -/
def lowerEq (a b : Str) : Prop :=
  a.map Char.toLower = b.map Char.toLower

/-- The string ends with the suffix, up to case if `fold`. -/
def EndsWith (fold : Bool) (s sfx : Str) : Prop :=
  ∃ a b, s = a ++ b ∧ if fold then lowerEq b sfx else b = sfx

end EdgeEval.Spec
