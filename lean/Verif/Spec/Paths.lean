import Verif.Model.Text

/-!
# Where a path leads

On a file system without symbolic links.  A directory is the list of the names that lead to it from the root.
-/

namespace EdgeEval.Spec

open Text

/-- One component of a path: nothing and `.` stay, `..` goes up (the root is its own parent), a name goes down. -/
def walkStep (dir : List Str) (c : Str) : List Str :=
  if c = [] ∨ c = ['.'] then dir else if c = ['.', '.'] then dir.dropLast else dir ++ [c]

/-- Where the path `p` leads from the working directory `cwd`. -/
def leadsTo (cwd : List Str) (p : Str) : List Str :=
  (splitOnChar '/' p).foldl walkStep (if p.head? = some '/' then [] else cwd)

/-- An ordinary component: not empty, not `.`, not `..`, without a slash. -/
def PathName (c : Str) : Prop := c ≠ [] ∧ c ≠ ['.'] ∧ c ≠ ['.', '.'] ∧ '/' ∉ c

end EdgeEval.Spec
