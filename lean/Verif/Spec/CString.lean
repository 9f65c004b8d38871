import Verif.Model.CString

/-!
# Strings as values (specification)

What a program with strings means when strings are plain sequences of characters, and which uses are safe.  Only the syntax of programs (`Op`, `Arg`,
`APiece`) is taken from the model.
-/

namespace EdgeEval.CString.Spec

open EdgeEval.CString Text

/-- The part of a text before its first NUL: what a `const char*` to it shows. -/
def cpart (s : Str) : Str := s.takeWhile (· ≠ nul)

abbrev Env := Nat → Option Str

/-- No string. -/
def Env.empty : Env := fun _ => none

/-- The value of a string variable is replaced. -/
def Env.set (e : Env) (x : Nat) (v : Option Str) : Env := fun y => if y = x then v else e y

/-- The C string an argument shows. -/
def arg (e : Env) : Arg → Option Str
  | .lit s => some (cpart s)
  | .text y off => (e y).bind fun v => if off ≤ v.length then some (cpart (v.drop off)) else none

/-- What a format prints. -/
def printed (e : Env) : List APiece → Option Str
  | [] => some []
  | .text s :: fs => (printed e fs).map (s ++ ·)
  | .dec z :: fs => (printed e fs).map (intStr z ++ ·)
  | .chars a :: fs => (arg e a).bind fun s => (printed e fs).map (s ++ ·)

/-- Does the format have arguments? -/
def hasArgs (fs : List APiece) : Prop := ∃ f ∈ fs, ∀ s, f ≠ .text s

/-- The number of characters of the format string. -/
def fmtLen : List APiece → Nat
  | [] => 0
  | .text s :: fs => s.length + fmtLen fs
  | _ :: fs => 2 + fmtLen fs

/-- The longest text considered. -/
def limit : Nat := 2 ^ 28

/-- A format may be printed: with arguments it must print fewer than 127 characters. -/
def Printable (fs : List APiece) (s : Str) : Prop := s.length < 127 ∨ (¬ hasArgs fs ∧ s.length ≤ limit)

/-- Meaning of one statement, as a relation between the values before and after.  Uses that are not listed are not safe. -/
inductive Step : Env → Op → Env → Prop
  | new {e x} : e x = none → Step e (.new x) (e.set x (some []))
  | copy {e x y v} : e x = none → e y = some v → Step e (.copy x y) (e.set x (some v))
  | fmt {e x fs s} : e x = none → printed e fs = some s → Printable fs s → fmtLen fs ≤ limit → Step e (.fmt x fs) (e.set x (some (cpart s)))
  | del {e x v} : e x = some v → Step e (.del x) (e.set x none)
  | assignSelf {e x v} : e x = some v → Step e (.assign x x) e
  | assign {e x y v w} : e x = some v → e y = some w → x ≠ y → (cpart w).length < 127 → Step e (.assign x y) (e.set x (some (cpart w)))
  | assignNull {e x v} : e x = some v → Step e (.assignC x none) (e.set x (some []))
  | assignC {e x v a s} : e x = some v → (∀ off, a ≠ .text x off) → arg e a = some s → s.length < 127 →
      Step e (.assignC x (some a)) (e.set x (some s))
  | clear {e x v} : e x = some v → Step e (.clear x) (e.set x (some []))
  | appChar {e x v c} : e x = some v → v.length + 1 ≤ limit → Step e (.appChar x c) (e.set x (some (v ++ [c])))
  | appLit {e x v n s} : e x = some v → n ≤ s.length → v.length + n ≤ limit → Step e (.appN x n (.lit s)) (e.set x (some (v ++ s.take n)))
  | appText {e x v n y off w} : e x = some v → e y = some w → x ≠ y → off + n ≤ w.length → v.length + n ≤ limit →
      Step e (.appN x n (.text y off)) (e.set x (some (v ++ (w.drop off).take n)))
  | appF {e x v fs s} : e x = some v → printed e fs = some s → Printable fs s → v.length + s.length ≤ limit →
      Step e (.appF x fs) (e.set x (some (v ++ cpart s)))
  | nextLine {e x v file} : e x = some v → nul ∉ file → file.length ≤ limit →
      Step e (.nextLine x file) (e.set x (some (file.takeWhile (· ≠ '\n'))))

/-- Meaning of a program. -/
inductive Runs : Env → List Op → Env → Prop
  | nil (e : Env) : Runs e [] e
  | cons {e e' e'' op ops} : Step e op e' → Runs e' ops e'' → Runs e (op :: ops) e''

/-- What a format shows whose arguments are numbers and literals. -/
def shown : List Piece → Str
  | [] => []
  | .text s :: fs => s ++ shown fs
  | .dec z :: fs => intStr z ++ shown fs
  | .chars (.lit s) :: fs => cpart s ++ shown fs
  | .chars (.at _ _) :: fs => shown fs

/-- No argument is a pointer into a string. -/
def NoPointers (fs : List Piece) : Prop := ∀ p off, Piece.chars (.at p off) ∉ fs

end EdgeEval.CString.Spec
