import Mathlib.Data.Rat.Floor
import Mathlib.Algebra.Order.Floor.Ring
import Verif.Model.Codec

/-!
# Python text primitives

Strings are lists of characters.  Only ASCII digits and ASCII white space are recognised; `float` accepts
finite decimal notation (not `inf` or `nan`).  Nothing here is project code.
-/

namespace EdgeEval.Text

abbrev Str := List Char

/-- White space for `str.strip` and `str.split`. -/
def isSpace (c : Char) : Bool := c = ' ' || c = '\t' || c = '\n' || c = '\r' || c.toNat = 11 || c.toNat = 12

/-- `s.strip()`. -/
def strip (s : Str) : Str := ((s.dropWhile isSpace).reverse.dropWhile isSpace).reverse

/-- `s.split(sep)` for a one-character separator: never empty. -/
def splitOnChar (sep : Char) : Str → List Str
  | [] => [[]]
  | c :: cs =>
    if c = sep then [] :: splitOnChar sep cs
    else match splitOnChar sep cs with
      | [] => [[c]]
      | w :: ws => (c :: w) :: ws

/-- `s.split()`: maximal runs of non-space characters. -/
def words (s : Str) : List Str :=
  match s with
  | [] => []
  | c :: cs =>
    if isSpace c then words cs
    else (c :: cs.takeWhile (fun d => !isSpace d)) :: words (cs.dropWhile (fun d => !isSpace d))
termination_by s.length
decreasing_by
  · simp
  · simp only [List.length_cons]
    have := (List.dropWhile_sublist (fun d => !isSpace d) (l := cs)).length_le
    omega

/-- The digit of a character. -/
def charDigit (c : Char) : Option Nat := if 48 ≤ c.toNat ∧ c.toNat ≤ 57 then some (c.toNat - 48) else none

/-- The character of a digit. -/
def digitCh (d : Nat) : Char := Char.ofNat (48 + d)

/-- The digits of a Python number part: digits with single underscores between them; `prev` says that the
previous character was a digit. -/
def digitsU : Bool → Str → Option (List Nat)
  | prev, [] => if prev then some [] else none
  | prev, c :: cs =>
    match charDigit c with
    | some d => (digitsU true cs).map (d :: ·)
    | none => if c = '_' ∧ prev = true then digitsU false cs else none

/-- `str(n)` of a non-negative int. -/
def natStr (n : Nat) : Str := (pyStr n).map digitCh

/-- `str(z)` of an int. -/
def intStr (z : Int) : Str := if z < 0 then '-' :: natStr z.natAbs else natStr z.natAbs

/-- The value of an unsigned digit string. -/
def natLit (s : Str) : Except PyErr Nat :=
  match digitsU false s with
  | some ds => .ok (digitsVal ds)
  | none => .error .valueError

/-- `int(s)`. -/
def intLit (s : Str) : Except PyErr Int :=
  match strip s with
  | '-' :: r => (natLit r).map fun (n : Nat) => -(n : Int)
  | '+' :: r => (natLit r).map fun (n : Nat) => (n : Int)
  | r => (natLit r).map fun (n : Nat) => (n : Int)

/-- Split at the first character satisfying `p`. -/
def splitFirst (p : Char → Bool) (s : Str) : Str × Option Str :=
  match s.dropWhile (fun c => !p c) with
  | [] => (s, none)
  | _ :: r => (s.takeWhile (fun c => !p c), some r)

/-- A digit part of a float literal: may be empty. -/
def optDigits (s : Str) : Option (List Nat) := if s = [] then some [] else digitsU false s

/-- The mantissa `ddd.ddd` of a float literal. -/
def mantissa (s : Str) : Option ℚ :=
  match splitFirst (· = '.') s with
  | (a, none) => (digitsU false a).map fun ds => (digitsVal ds : ℚ)
  | (a, some b) =>
    match optDigits a, optDigits b with
    | some da, some db =>
      if da = [] ∧ db = [] then none
      else some ((digitsVal (da ++ db) : ℚ) / 10 ^ db.length)
    | _, _ => none

/-- An unsigned float literal. -/
def ufloat (s : Str) : Option ℚ :=
  match splitFirst (fun c => c = 'e' || c = 'E') s with
  | (m, none) => mantissa m
  | (m, some e) =>
    match mantissa m, e with
    | some x, '-' :: r => (digitsU false r).map fun ds => x / 10 ^ digitsVal ds
    | some x, '+' :: r => (digitsU false r).map fun ds => x * 10 ^ digitsVal ds
    | some x, r => (digitsU false r).map fun ds => x * 10 ^ digitsVal ds
    | none, _ => none

/-- `float(s)`. -/
def floatLit (s : Str) : Except PyErr ℚ :=
  let v := match strip s with
    | '-' :: r => (ufloat r).map fun x => -x
    | '+' :: r => ufloat r
    | r => ufloat r
  match v with
  | some x => .ok x
  | none => .error .valueError

/-- Round half to even. -/
def roundEven (y : ℚ) : ℤ :=
  let f := ⌊y⌋
  if y - f < 1 / 2 then f else if 1 / 2 < y - f then f + 1 else if f % 2 = 0 then f else f + 1

/-- `format(x, ".6f")`. -/
def fixed6 (x : ℚ) : Str :=
  let n := (roundEven (|x| * 10 ^ 6)).toNat
  (if x < 0 then ['-'] else []) ++ natStr (n / 10 ^ 6) ++ '.' :: (zfill 6 (pyStr (n % 10 ^ 6))).map digitCh

/-- `format(x, "<10.6f")`. -/
def fmt (x : ℚ) : Str := fixed6 x ++ List.replicate (10 - (fixed6 x).length) ' '

/-- `sep.join(items)`. -/
def join (sep : Str) : List Str → Str
  | [] => []
  | [s] => s
  | s :: t :: rest => s ++ sep ++ join sep (t :: rest)

/-- `str([a, b, ...])` of a list of ints. -/
def listStr (l : List Int) : Str := '[' :: (join [',', ' '] (l.map intStr) ++ [']'])

/-- `[f x for x in l]`, stopping at the first exception. -/
def mapM' {α β : Type} (f : α → Except PyErr β) : List α → Except PyErr (List β)
  | [] => .ok []
  | x :: xs =>
    match f x with
    | .error e => .error e
    | .ok y => match mapM' f xs with
      | .error e => .error e
      | .ok ys => .ok (y :: ys)

end EdgeEval.Text
