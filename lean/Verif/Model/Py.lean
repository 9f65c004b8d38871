import Mathlib.Algebra.Order.Field.Rat
import Mathlib.Tactic.Linarith
import Mathlib.Tactic.FieldSimp
import Mathlib.Tactic.Ring
import Mathlib.Tactic.Positivity
import Mathlib.Tactic.NormNum

/-!
# Python / numpy vocabulary used by the model

Nothing in this file models project code; it fixes how Python values, exceptions and the few numpy
primitives the project uses are represented.  Floats are exact rationals.
-/

namespace EdgeEval

/-- Python exceptions, as values. -/
inductive PyErr where
  | valueError
  | indexError
  | zeroDivisionError
  | assertionError
  | typeError
  | keyError
  | notImplementedError
  | timerError
  | fileExistsError
  | fileNotFoundError
  | attributeError
  | oserror
  /-- not a Python exception: the process ends (`std::terminate`), because a C++ exception leaves a function that the Cython module declares without
  `except +`; no handler sees it. -/
  | terminated
  /-- an exception raised by user supplied code (`eval_single`, task functions, …). -/
  | user (code : Nat)
  deriving DecidableEq, Repr

/-- `seq[i]` for a non-negative index `i`. -/
def getItem {α : Type} (l : List α) (i : Nat) : Except PyErr α :=
  match l[i]? with
  | some x => .ok x
  | none => .error .indexError

/-- `a += b` on 1-D float arrays: shapes must agree (numpy broadcasting of length-1 arrays is not
modelled: the shipped `eval_single` functions always return arrays of length `n_thresh`). -/
def addArr (a b : List ℚ) : Except PyErr (List ℚ) :=
  if a.length = b.length then .ok (List.zipWith (· + ·) a b) else .error .valueError

/-- `np.linspace(a, b, n)` for `n ≥ 0` (end point included). -/
def linspace (a b : ℚ) (n : Nat) : List ℚ :=
  (List.range n).map fun (k : Nat) => if n = 1 then a else a + (k : ℚ) * ((b - a) / ((n : ℚ) - 1))

/-- `np.arange(0, 1, 0.01)`: the hundred points `0, 0.01, …, 0.99`. -/
def arange01 : List ℚ := (List.range 100).map fun (k : Nat) => (k : ℚ) / 100

/-- `np.argmax` of a non-empty array: index of the first maximum; numpy raises `ValueError` on an
empty array. -/
def argmaxAux : List ℚ → Nat → Nat → ℚ → Nat
  | [], _, bi, _ => bi
  | x :: xs, i, bi, bv => if bv < x then argmaxAux xs (i + 1) i x else argmaxAux xs (i + 1) bi bv

def argmax : List ℚ → Except PyErr Nat
  | [] => .error .valueError
  | x :: xs => .ok (argmaxAux xs 1 0 x)

/-- Insert a (key, value) pair into a list sorted by strictly increasing key; an existing key keeps
its value. -/
def insertUniq (k v : ℚ) : List (ℚ × ℚ) → List (ℚ × ℚ)
  | [] => [(k, v)]
  | (k', v') :: rest =>
    if k < k' then (k, v) :: (k', v') :: rest
    else if k = k' then (k', v') :: rest
    else (k', v') :: insertUniq k v rest

/-- `u, ix = np.unique(keys, return_index=True)` followed by `vals[ix]`: sorted distinct keys, each
with the value at the *first* index where the key occurs. -/
def uniqueFirst (keys vals : List ℚ) : List (ℚ × ℚ) :=
  (List.zip keys vals).foldl (fun acc kv => insertUniq kv.1 kv.2 acc) []

/-- The interior part of `np.interp` on sorted points: linear interpolation on the segment containing
`x`, `right` beyond the last point. -/
def interpSeg (x right : ℚ) : List (ℚ × ℚ) → ℚ
  | [] => right
  | [(k, v)] => if x = k then v else right
  | (k, v) :: (k', v') :: rest =>
    if x < k' then v + (v' - v) / (k' - k) * (x - k)
    else interpSeg x right ((k', v') :: rest)

/-- `np.interp(x, xp, fp, left, right)` at one query point (points sorted by strictly increasing
`xp`). -/
def npInterp (x left right : ℚ) (pts : List (ℚ × ℚ)) : ℚ :=
  match pts with
  | [] => right
  | (k, v) :: rest => if x < k then left else interpSeg x right ((k, v) :: rest)

/-- `np.max(arr, initial=0)`. -/
def maxInit0 (l : List ℚ) : ℚ := l.foldl max 0

end EdgeEval
