import Verif.Model.Samples

/-!
# `utils/path.py`

Directory trees.  A symbolic link is represented by what it points to (a tree has no cycles); `other` stands for
everything that is neither a regular file nor a directory (dangling links, sockets).  Paths are POSIX.
-/

namespace EdgeEval.PathU

open Text Samples

mutual
/-- A directory entry. -/
inductive Node where
  | file
  | dir (es : Entries)
  | other
/-- The entries of a directory in the order `os.scandir` yields them (the order is up to the system). -/
inductive Entries where
  | nil
  | cons (name : Str) (n : Node) (rest : Entries)
end

/-- The `suffix` argument. -/
inductive SuffixArg where
  | none
  | str (s : Str)
  | tuple (l : List Str)
  | other

/-- The `dir_path` argument: a string or `Path`, or something else. -/
inductive DirPath where
  | path (s : Str)
  | other

/-- path.py:56-61  the suffixes to compare with (`none`: every file). -/
def suffixes (case_ : Bool) : SuffixArg → Except PyErr (Option (List Str))
  | .none => .ok none
  | .str s => .ok (some [if case_ then s else lower s])
  | .tuple l => .ok (some (if case_ then l else l.map lower))
  | .other => .error .typeError

/-- path.py:70-71  `_rel_path.endswith(suffix)`, with a tuple: with one of them. -/
def wanted (case_ : Bool) (sfx : Option (List Str)) (rel : Str) : Bool :=
  match sfx with
  | none => true
  | some l => l.any fun s => s.isSuffixOf (if case_ then rel else lower rel)

/-- path.py:67  `entry.name.startswith(".")`. -/
def hidden (name : Str) : Bool := name.head? = some '.'

mutual
/-- path.py:65-77  `_scandir` of a directory whose path relative to the root is `pre` (with a final slash unless it
is the root itself): the items yielded. -/
def scanEntries (keep : Str → Bool) (recursive : Bool) (pre : Str) : Entries → List Str
  | .nil => []
  | .cons name n rest => scanNode keep recursive pre name n ++ scanEntries keep recursive pre rest
/-- path.py:67-77  one entry. -/
def scanNode (keep : Str → Bool) (recursive : Bool) (pre name : Str) : Node → List Str
  | .file => if hidden name then [] else if keep (pre ++ name) then [pre ++ name] else []
  | .dir es => if recursive then scanEntries keep recursive (pre ++ name ++ ['/']) es else []
  | .other => []
end

/-- path.py:34-77  `list(scandir(dir_path, suffix, recursive, case_sensitive))`; `tree` is the directory at a path
(`none`: `os.scandir` fails).  The type checks happen at the call, the listing during iteration. -/
def scandir (tree : Str → Option Entries) (dirPath : DirPath) (sfx : SuffixArg) (recursive case_ : Bool) :
    Except PyErr (List Str) :=
  match dirPath with
  | .other => .error .typeError
  | .path p =>
    match suffixes case_ sfx with
    | .error e => .error e
    | .ok s =>
      match tree p with
      | none => .error .fileNotFoundError
      | some es => .ok (scanEntries (wanted case_ s) recursive [] es)

/-! ## mkdir_or_exist, symlink, check_file_exist -/

/-- What a path is. -/
inductive Kind where
  | file | dir | link
  deriving DecidableEq

/-- A file system as a map from component lists (absolute, without `.`/`..`); links are not followed. -/
abbrev Disk := List Str → Option Kind

/-- One `os.mkdir`. -/
def put (d : Disk) (p : List Str) (k : Option Kind) : Disk := fun q => if q = p then k else d q

/-- `os.makedirs(p, exist_ok=True)` (library): create the missing ancestors from the top; `done` is the part already
walked.  A component that exists and is not a directory is an error (`FileExistsError`, or `NotADirectoryError` for
an ancestor; both `OSError`). -/
def makedirs (d : Disk) (done : List Str) : List Str → Except PyErr Disk
  | [] => .ok d
  | c :: cs =>
    let p := done ++ [c]
    match d p with
    | some .dir => makedirs d p cs
    | none => makedirs (put d p (some .dir)) p cs
    | some _ => .error .oserror

/-- path.py:18-22  `mkdir_or_exist` of the absolute path with components `p`; `""` is `none`.  `expanduser` has been
applied. -/
def mkdirOrExist (d : Disk) : Option (List Str) → Except PyErr Disk
  | none => .ok d
  | some p => makedirs d [] p

/-- path.py:25-28  `symlink` (the target is not looked at); the parent directory must exist. -/
def symlink (d : Disk) (dst : List Str) (overwrite : Bool) : Except PyErr Disk :=
  let r : Except PyErr Disk :=
    if (d dst).isSome && overwrite then
      if d dst = some .dir then .error .oserror else .ok (put d dst none)
    else .ok d
  match r with
  | .error e => .error e
  | .ok d' =>
    match d' dst with
    | some _ => .error .fileExistsError
    | none => if dst = [] ∨ (dst.dropLast ≠ [] ∧ d' dst.dropLast ≠ some .dir) then .error .fileNotFoundError
      else .ok (put d' dst (some .link))

/-- path.py:13-15  `check_file_exist` (links are not followed here). -/
def checkFileExist (d : Disk) (p : List Str) : Except PyErr Unit :=
  if d p = some .file then .ok () else .error .fileNotFoundError

end EdgeEval.PathU
