import Verif.Model.CString

/-!
# Model of the errors `Matrix.cc` throws: the formats and arguments of its `throw Exception (String (...))`

The operators that come from `DEFOP` print their name through `__STRING (OP)`.
-/

namespace EdgeEval.CString

open Text

/-- The statements that throw with a formatted message; the numbers are `int`s. -/
inductive MatErr where
  | reshape (rows cols rows' cols' : ℤ)
  | index1 (i n : ℤ)
  | index1c (i n : ℤ)
  | index2 (row col rows cols : ℤ)
  | gather (i n : ℤ)
  | scatterLen (n n' : ℤ)
  | scatter (i n : ℤ)
  | extract (r1 r2 c1 c2 rows cols : ℤ)
  | insert (r1 r2 c1 c2 rows cols : ℤ)
  | diag (k len n : ℤ)
  | min2 (r c r' c' : ℤ)
  | max2 (r c r' c' : ℤ)
  | opAssign (op : Str) (r c r' c' : ℤ)
  | powAssign (r c r' c' : ℤ)
  | binary (op : Str) (r c r' c' : ℤ)
  | pow (r c r' c' : ℤ)
  | fun2 (op : Str) (r c r' c' : ℤ)
  | mtimes (r c r' c' : ℤ)

/-- `(%d,%d) vs. (%d,%d).` -/
def vs (r c r' c' : ℤ) : List Piece :=
  [.dec r, .text ",".toList, .dec c, .text ") vs. (".toList, .dec r', .text ",".toList, .dec c', .text ").".toList]

/-- `(%d:%d,%d:%d) exceeds matrix dimensions (%d,%d).` -/
def rangePieces (r1 r2 c1 c2 rows cols : ℤ) : List Piece :=
  [.dec r1, .text ":".toList, .dec r2, .text ",".toList, .dec c1, .text ":".toList, .dec c2, .text ") exceeds matrix dimensions (".toList,
    .dec rows, .text ",".toList, .dec cols, .text ").".toList]

/-- Matrix.cc:200-202, 442-444, 453-455, 465-467 and 478-480, 748-750, 761-763, 768-770 and 782-784, 811-813, 832-834, 918-921, 1293-1296, 1321-1324,
2060-2063, 2084-2087, 2099-2102, 2140-2143, 2182-2184, 2216-2218. -/
def MatErr.pieces : MatErr → List Piece
  | .reshape r c r' c' => .text "Reshape cannot change number of elements: (".toList :: vs r c r' c'
  | .index1 i n => [.text "Index (".toList, .dec i, .text ") exceeds matrix length (".toList, .dec n, .text ").".toList]
  | .index1c i n => [.text "Index (".toList, .dec i, .text ") exceeds matrix dimension (".toList, .dec n, .text ").".toList]
  | .index2 row col rows cols =>
    [.text "Index (".toList, .dec row, .text ",".toList, .dec col, .text ") exceeds matrix dimensions (".toList, .dec rows, .text ",".toList, .dec cols,
      .text ").".toList]
  | .gather i n => [.text "Matrix::gather: index ".toList, .dec i, .text " exceeds matrix dimension (".toList, .dec n, .text ").".toList]
  | .scatterLen n n' =>
    [.text "Matrix::scatter: indices and values not the same length (".toList, .dec n, .text " and ".toList, .dec n', .text ").".toList]
  | .scatter i n => [.text "Matrix::scatter: index ".toList, .dec i, .text " exceeds matrix dimension (".toList, .dec n, .text ").".toList]
  | .extract r1 r2 c1 c2 rows cols => .text "Matrix extract (".toList :: rangePieces r1 r2 c1 c2 rows cols
  | .insert r1 r2 c1 c2 rows cols => .text "Matrix insert (".toList :: rangePieces r1 r2 c1 c2 rows cols
  | .diag k len n =>
    [.text "Matrix::diag(): diagonal ".toList, .dec k, .text " of matrix is length ".toList, .dec len,
      .text ", but the diagonal vector is length ".toList, .dec n, .text ".".toList]
  | .min2 r c r' c' => .text "Matrix size mismatch in binary operation 'min': (".toList :: vs r c r' c'
  | .max2 r c r' c' => .text "Matrix size mismatch in binary operation 'max': (".toList :: vs r c r' c'
  | .opAssign op r c r' c' => .text "Matrix size mismatch in operation '".toList :: .chars (.lit op) :: .text "': (".toList :: vs r c r' c'
  | .powAssign r c r' c' => .text "Matrix size mismatch in operation '^=': (".toList :: vs r c r' c'
  | .binary op r c r' c' => .text "Matrix size mismatch in binary operation '".toList :: .chars (.lit op) :: .text "': (".toList :: vs r c r' c'
  | .pow r c r' c' => .text "Matrix size mismatch in binary operation '^': (".toList :: vs r c r' c'
  | .fun2 op r c r' c' => .text "Matrix size mismatch in ".toList :: .chars (.lit op) :: .text ": (".toList :: vs r c r' c'
  | .mtimes r c r' c' =>
    [.text "Matrix::mtimes: inner dimensions (".toList, .dec r, .text ",".toList, .dec c, .text ")x(".toList, .dec r', .text ",".toList, .dec c',
      .text ") don't match.".toList]

/-- Matrix.cc:2070-2074, 2123-2135, 2205-2207  the operators with generated code. -/
def MatErr.named : MatErr → Bool
  | .opAssign op _ _ _ _ => ["+=", "-=", "*=", "/="].any fun s => s.toList = op
  | .binary op _ _ _ _ => ["+", "-", "*", "/", "<", ">", "==", "!=", "<=", ">=", "&&", "||"].any fun s => s.toList = op
  | .fun2 op _ _ _ _ => ["rem", "mod", "atan2"].any fun s => s.toList = op
  | _ => true

/-- The compiler's `operator=` of `Exception` (none is declared, Exception.hh:26-47): the pointer is copied. The result is the new pointer. -/
def excAssign (_old that : Nat) : Nat := that

/-- An exception on its way up: the first object is copied `n` times, every copy from the previous one, and each one is destroyed after it was copied. -/
def rethrow : (n : Nat) → (e : Nat) → Mem → Except Fault (Nat × Mem)
  | 0, e, m => .ok (e, m)
  | n + 1, e, m => do
    let r ← excCopy e m
    let m ← excDestroy e r.2
    rethrow n r.1 m

end EdgeEval.CString
