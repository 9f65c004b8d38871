import Verif.Model.Sort
import Mathlib.Data.Rat.Floor

/-!
# `Matrix.cc`: the operations on matrices

C64 (`Model/MatrixMem.lean`) treats the memory of matrices: each living object has a block of its own, copies are deep.  Here the
operations on their contents are modelled on such blocks: a matrix is its two dimensions and a block of numbers in column order, every
access to a block is checked (`oob`), a thrown `Exception` is `thrown`.  Fresh memory of `undef` matrices holds arbitrary garbage `g`, over which the
theorems quantify.  `int` is unbounded (the products `rows*cols` are assumed to fit); numbers are of an arbitrary type with arbitrary
operations where only data is moved or folded (so the theorems apply to rounded arithmetic), rationals where they are converted to and from `int`.
Arguments are different objects from the receiver (no aliasing).
-/

namespace EdgeEval.MatrixOps

open EdgeEval.Sort (Arr)

/-- What can go wrong. -/
inductive Fault
  | oob | thrown | divZero | assertion
  deriving DecidableEq, Repr

variable {α : Type}

/-- Matrix.hh:388-391 `_rows`, `_cols`, `_data` with `_n` elements. -/
structure Mx (α : Type) where
  rows : ℤ
  cols : ℤ
  data : Arr α

/-- `_n`. -/
def Mx.n (m : Mx α) : ℤ := m.data.size

/-- `_data[i]`, as an rvalue. -/
def rd (a : Arr α) (i : ℤ) : Except Fault α := if 0 ≤ i ∧ i < a.size then .ok (a.at_ i) else .error .oob

/-- `_data[i] = x`. -/
def wr (a : Arr α) (i : ℤ) (x : α) : Except Fault (Arr α) :=
  if 0 ≤ i ∧ i < a.size then .ok { a with at_ := fun k => if k = i then x else a.at_ k } else .error .oob

/-- `memcpy (to + p, from + q, len)` in elements; nothing is touched if `len = 0`. -/
def memcpy (dst : Arr α) (p : ℤ) (src : Arr α) (q len : ℤ) : Except Fault (Arr α) :=
  if len ≤ 0 then .ok dst
  else if 0 ≤ p ∧ p + len ≤ dst.size ∧ 0 ≤ q ∧ q + len ≤ src.size then
    .ok { dst with at_ := fun k => if p ≤ k ∧ k < p + len then src.at_ (q + (k - p)) else dst.at_ k }
  else .error .oob

/-- `for (int i = i0; i < i0 + count; i++) body(i)`. -/
def forUp {σ : Type} (body : ℤ → σ → Except Fault σ) : Nat → ℤ → σ → Except Fault σ
  | 0, _, s => .ok s
  | k + 1, i, s => do
    let s' ← body i s
    forUp body k (i + 1) s'

/-- `for (int col=0, index=0; col < cols; col++) for (int row=0; row < rows; row++, index++) body`. -/
def colLoop {σ : Type} (rows cols : ℤ) (body : ℤ → ℤ → ℤ → σ → Except Fault σ) (s : σ) : Except Fault σ := do
  let r ← forUp (fun col (st : ℤ × σ) =>
    forUp (fun row (st : ℤ × σ) => do
      let s' ← body row col st.1 st.2
      pure (st.1 + 1, s')) rows.toNat 0 st) cols.toNat 0 (0, s)
  pure r.2

/-- Matrix.cc:161-173 and 2248-2297: a new matrix; `fill` is the contents of the block (garbage for `undef`, `0` for `zeros`, `1` for `ones`). -/
def newMx (rows cols : ℤ) (fill : ℤ → α) : Mx α := ⟨max 0 rows, max 0 cols, ⟨max 0 rows * max 0 cols, fill⟩⟩

/-- Matrix.cc:2268-2276, `eye`. -/
def eye (zero one : α) (rows cols : ℤ) : Except Fault (Mx α) := do
  let m := newMx rows cols fun _ => zero
  let d ← forUp (fun i d => wr d (i * m.rows + i) one) (min m.rows m.cols).toNat 0 m.data
  pure { m with data := d }

/-- Matrix.cc:438-447 and 449-458 `operator() (int index)`. -/
def get1 (m : Mx α) (i : ℤ) : Except Fault α := if 0 ≤ i ∧ i < m.n then rd m.data i else .error .thrown

/-- Matrix.cc:460-471 and 473-484 `operator() (int row, int col)`: the offset of the element. -/
def at2 (m : Mx α) (row col : ℤ) : Except Fault ℤ :=
  if 0 ≤ row ∧ row < m.rows ∧ 0 ≤ col ∧ col < m.cols then .ok (col * m.rows + row) else .error .thrown

/-- `(*this)(row,col)` as an rvalue. -/
def get2 (m : Mx α) (row col : ℤ) : Except Fault α := do
  let i ← at2 m row col
  rd m.data i

/-- `(*this)(row,col) = x`. -/
def set2 (m : Mx α) (row col : ℤ) (x : α) : Except Fault (Mx α) := do
  let i ← at2 m row col
  let d ← wr m.data i x
  pure { m with data := d }

/-- `std::swap((*this)(r,c),(*this)(r',c'))`. -/
def swap2 (m : Mx α) (r c r' c' : ℤ) : Except Fault (Mx α) := do
  let x ← get2 m r c
  let y ← get2 m r' c'
  let m' ← set2 m r c y
  set2 m' r' c' x

/-- Matrix.cc:194-206 `reshape`. -/
def reshape (m : Mx α) (rows cols : ℤ) : Except Fault (Mx α) :=
  if max 0 rows * max 0 cols ≠ m.n then .error .thrown else .ok ⟨max 0 rows, max 0 cols, m.data⟩

/-- Matrix.cc:226-230 `isvec`. -/
def isvec (m : Mx α) : Bool := decide (m.rows = 1 ∨ m.cols = 1)

/-- Matrix.cc:274-278 `length`. -/
def length (m : Mx α) : ℤ := if m.n = 0 then 0 else max m.rows m.cols

/-- Matrix.cc:486-496 `operator= (double)` (`memset` to 0 sets the same zeros). -/
def fillWith (m : Mx α) (x : α) : Except Fault (Mx α) := do
  let d ← forUp (fun i d => wr d i x) m.n.toNat 0 m.data
  pure { m with data := d }

/-- Matrix.cc:512-521 `isequal`; `eq` is `==` of the numbers. -/
def isequal (eq : α → α → Bool) (a b : Mx α) : Except Fault Bool :=
  if a.rows ≠ b.rows then .ok false
  else if a.cols ≠ b.cols then .ok false
  else forUp (fun i same => do
    let x ← rd a.data i
    let y ← rd b.data i
    pure (same && eq x y)) a.n.toNat 0 true

/-- Matrix.cc:529-541 `linspace`, exact numbers. -/
def linspaceIn (m : Mx ℚ) (a b : ℚ) : Except Fault (Mx ℚ) :=
  if m.n = 0 then .ok m
  else if m.n = 1 then do
    let d ← wr m.data 0 b
    pure { m with data := d }
  else do
    let skip := (b - a) / ((m.n : ℚ) - 1)
    let d ← forUp (fun i d => wr d i (a + (i : ℚ) * skip)) m.n.toNat 0 m.data
    pure { m with data := d }

/-- Matrix.cc:558-565 `linspace (a, b, n)`. -/
def linspace (g : ℤ → ℚ) (a b : ℚ) (n : ℤ) : Except Fault (Mx ℚ) := linspaceIn (newMx (max 1 n) 1 g) a b

/-- Matrix.cc:575-600 `transpose`; `g` is the garbage in the temporary matrix. -/
def transpose (g : ℤ → α) (m : Mx α) : Except Fault (Mx α) :=
  if isvec m then reshape m m.cols m.rows
  else if m.rows = m.cols then
    forUp (fun row m =>
      forUp (fun col m => do
        let x ← rd m.data (col * m.rows + row)
        let y ← rd m.data (row * m.rows + col)
        let d ← wr m.data (col * m.rows + row) y
        let d ← wr d (row * m.rows + col) x
        pure { m with data := d }) (m.cols - (row + 1)).toNat (row + 1) m) m.rows.toNat 0 m
  else do
    let t ← colLoop m.rows m.cols (fun row col index (t : Mx α) => do
      let x ← rd m.data index
      set2 t col row x) (newMx m.cols m.rows g)
    let m' ← reshape m m.cols m.rows
    let d ← memcpy m'.data 0 t.data 0 m'.n
    pure ⟨t.rows, t.cols, d⟩

/-- Matrix.cc:602-612 `fliplr`. -/
def fliplr (m : Mx α) : Except Fault (Mx α) :=
  forUp (fun col m =>
    forUp (fun row m => swap2 m row col row (m.cols - 1 - col)) m.rows.toNat 0 m) (m.cols / 2).toNat 0 m

/-- Matrix.cc:614-624 `flipud`. -/
def flipud (m : Mx α) : Except Fault (Mx α) :=
  forUp (fun row m =>
    forUp (fun col m => swap2 m row col (m.rows - 1 - row) col) m.cols.toNat 0 m) (m.rows / 2).toNat 0 m

/-- C's `%` of an `int` by 4 (Matrix.cc:630-631): the sign is that of the dividend. -/
def rotCount (k : ℤ) : ℤ := if k.tmod 4 < 0 then k.tmod 4 + 4 else k.tmod 4

/-- Matrix.cc:626-639 `rot90`. -/
def rot90 (g : ℤ → α) (k : ℤ) (m : Mx α) : Except Fault (Mx α) :=
  if rotCount k = 0 then .ok m
  else if rotCount k = 1 then do
    let t ← transpose g m
    flipud t
  else if rotCount k = 2 then do
    let t ← flipud m
    fliplr t
  else if rotCount k = 3 then do
    let t ← flipud m
    transpose g t
  else .error .assertion

/-- Matrix.cc:676-698 `repmat`; `g` is the garbage in the result. -/
def repmat (g : ℤ → α) (m n : ℤ) (a : Mx α) : Except Fault (Mx α) := do
  let m := max 0 m
  let n := max 0 n
  let z := newMx (a.rows * m) (a.cols * n) g
  let (p, d) ← forUp (fun col (st : ℤ × Arr α) =>
    forUp (fun _ (st : ℤ × Arr α) => do
      let q ← at2 a 0 col
      let d ← memcpy st.2 st.1 a.data q a.rows
      pure (st.1 + a.rows, d)) m.toNat 0 st) a.cols.toNat 0 (0, z.data)
  let count := a.cols * a.rows * m
  let (_, d) ← forUp (fun _ (st : ℤ × Arr α) => do
    let d ← memcpy st.2 st.1 st.2 0 count
    pure (st.1 + count, d)) (n - 1).toNat 1 (p, d)
  pure { z with data := d }

/-- Matrix.cc:706-727 `find`; `g` is the garbage in the result. -/
def find (g : ℤ → ℚ) (a : Mx ℚ) : Except Fault (Mx ℚ) := do
  let count ← forUp (fun i c => do
    let x ← rd a.data i
    pure (if x ≠ 0 then c + 1 else c)) a.n.toNat 0 (0 : ℤ)
  let m := newMx count 1 g
  let (_, d) ← forUp (fun i (st : ℤ × Arr ℚ) => do
    let x ← rd a.data i
    if x ≠ 0 then
      if st.1 < count then do
        let d ← wr st.2 st.1 (i : ℚ)
        pure (st.1 + 1, d)
      else .error .assertion
    else pure st) a.n.toNat 0 (0, m.data)
  pure { m with data := d }

/-- `(int) x` of a double: truncation. -/
def toInt (x : ℚ) : ℤ := if 0 ≤ x then ⌊x⌋ else ⌈x⌉

/-- Matrix.cc:741-755 `gather`. -/
def gather (g : ℤ → α) (a : Mx α) (ind : Mx ℚ) : Except Fault (Mx α) := do
  let m := newMx ind.rows ind.cols g
  let d ← forUp (fun i d => do
    let x ← rd ind.data i
    let index := toInt x
    if 0 ≤ index ∧ index < a.n then do
      let y ← rd a.data index
      wr d i y
    else .error .thrown) ind.n.toNat 0 m.data
  pure { m with data := d }

/-- Matrix.cc:757-774 `scatter (indices, values)`. -/
def scatter (a : Mx α) (ind : Mx ℚ) (val : Mx α) : Except Fault (Mx α) :=
  if ind.n ≠ val.n then .error .thrown
  else do
    let d ← forUp (fun i d => do
      let x ← rd ind.data i
      let index := toInt x
      if 0 ≤ index ∧ index < a.n then do
        let y ← rd val.data i
        wr d index y
      else .error .thrown) ind.n.toNat 0 a.data
    pure { a with data := d }

/-- Matrix.cc:373-387 `ind2sub`: the two results. -/
def ind2sub (siz ind : Mx ℚ) : Except Fault (Mx ℚ × Mx ℚ) :=
  if siz.n ≠ 2 then .error .thrown
  else do
    let s ← get1 siz 0
    let rows := toInt s
    let i := newMx ind.rows ind.cols fun _ => (0 : ℚ)
    let j := newMx ind.rows ind.cols fun _ => (0 : ℚ)
    let (di, dj) ← forUp (fun index (st : Arr ℚ × Arr ℚ) => do
      let x ← rd ind.data index
      if rows = 0 then .error .divZero
      else do
        let di ← wr st.1 index ((toInt x).tmod rows : ℤ)
        let dj ← wr st.2 index ((toInt x).tdiv rows : ℤ)
        pure (di, dj)) ind.n.toNat 0 (i.data, j.data)
    pure ({ i with data := di }, { j with data := dj })

/-- Matrix.cc:389-406 `sub2ind`: both subscripts are read from `i` (line 402). -/
def sub2ind (siz i j : Mx ℚ) : Except Fault (Mx ℚ) :=
  if siz.n ≠ 2 then .error .thrown
  else if ¬ (j.rows = i.rows ∧ j.cols = i.cols) then .error .thrown
  else do
    let s ← get1 siz 0
    let rows := toInt s
    let ind := newMx i.rows i.cols fun _ => (0 : ℚ)
    let d ← forUp (fun index d => do
      let x ← rd i.data index
      let y ← rd i.data index
      wr d index ((toInt y * rows + toInt x : ℤ) : ℚ)) ind.n.toNat 0 ind.data
    pure { ind with data := d }

/-- Matrix.cc:809-814 and 830-835: the range check of `operator() (r1, r2, c1, c2)` and `insert`. -/
def badRange (m : Mx α) (r1 r2 c1 c2 : ℤ) : Prop :=
  r1 < 0 ∨ r1 ≥ m.rows ∨ r2 < 0 ∨ r2 ≥ m.rows ∨ c1 < 0 ∨ c1 ≥ m.cols ∨ c2 < 0 ∨ c2 ≥ m.cols

instance (m : Mx α) (r1 r2 c1 c2 : ℤ) : Decidable (badRange m r1 r2 c1 c2) := by unfold badRange; infer_instance

/-- Matrix.cc:806-825 `operator() (r1, r2, c1, c2)`. -/
def extract (zero : α) (a : Mx α) (r1 r2 c1 c2 : ℤ) : Except Fault (Mx α) :=
  if badRange a r1 r2 c1 c2 then .error .thrown
  else do
    let rows := if r1 ≤ r2 then r2 - r1 + 1 else 0
    let cols := if c1 ≤ c2 then c2 - c1 + 1 else 0
    let m := newMx rows cols fun _ => zero
    let d ← forUp (fun col d => do
      let p ← at2 m 0 col
      let q ← at2 a r1 (c1 + col)
      memcpy d p a.data q rows) cols.toNat 0 m.data
    pure { m with data := d }

/-- Matrix.cc:827-844 `insert`. -/
def insert (a m : Mx α) (r1 r2 c1 c2 : ℤ) : Except Fault (Mx α) :=
  if badRange a r1 r2 c1 c2 then .error .thrown
  else do
    let rows := if r1 ≤ r2 then r2 - r1 + 1 else 0
    let cols := if c1 ≤ c2 then c2 - c1 + 1 else 0
    let d ← forUp (fun col d => do
      let p ← at2 a r1 (c1 + col)
      let q ← at2 m 0 col
      memcpy d p m.data q rows) cols.toNat 0 a.data
    pure { a with data := d }

/-- Matrix.cc:857-867 `tril`. -/
def tril (zero : α) (k : ℤ) (m : Mx α) : Except Fault (Mx α) := do
  let d ← colLoop m.rows m.cols (fun row col index d => if col - row > k then wr d index zero else .ok d) m.data
  pure { m with data := d }

/-- Matrix.cc:870-880 `triu`. -/
def triu (zero : α) (k : ℤ) (m : Mx α) : Except Fault (Mx α) := do
  let d ← colLoop m.rows m.cols (fun row col index d => if col - row < k then wr d index zero else .ok d) m.data
  pure { m with data := d }

/-- `(k<0)*::abs(k)`: the first row of diagonal `k` (Matrix.cc:902, 914, 932). -/
def diagRow (k : ℤ) : ℤ := if k < 0 then |k| else 0
/-- `(k>0)*::abs(k)`: the first column of diagonal `k` (Matrix.cc:903, 915, 933). -/
def diagCol (k : ℤ) : ℤ := if k > 0 then |k| else 0

/-- Matrix.cc:899-908 `setdiag (val, k)`. -/
def setdiag1 (m : Mx α) (val : α) (k : ℤ) : Except Fault (Mx α) :=
  forUp (fun i m => set2 m (diagRow k + i) (diagCol k + i) val) (min (m.rows - diagRow k) (m.cols - diagCol k)).toNat 0 m

/-- Matrix.cc:911-926 `setdiag (d, k)`. -/
def setdiagV (m d : Mx α) (k : ℤ) : Except Fault (Mx α) :=
  if d.n ≠ max 0 (min (m.rows - diagRow k) (m.cols - diagCol k)) then .error .thrown
  else forUp (fun i m => do
    let x ← get1 d i
    set2 m (diagRow k + i) (diagCol k + i) x) (max 0 (min (m.rows - diagRow k) (m.cols - diagCol k))).toNat 0 m

/-- Matrix.cc:929-940 `getdiag`. -/
def getdiag (zero : α) (m : Mx α) (k : ℤ) : Except Fault (Mx α) := do
  let len := min (m.rows - diagRow k) (m.cols - diagCol k)
  let d := newMx len 1 fun _ => zero
  forUp (fun i (d : Mx α) => do
    let x ← get2 m (diagRow k + i) (diagCol k + i)
    if 0 ≤ i ∧ i < d.n then do
      let e ← wr d.data i x
      pure { d with data := e }
    else .error .thrown) len.toNat 0 d

/-- Matrix.cc:942-959 `diag`: for a vector, row and column are the other way round than in `getdiag`. -/
def diag (zero : α) (a : Mx α) (k : ℤ) : Except Fault (Mx α) :=
  if isvec a then
    forUp (fun i z => do
      let x ← get1 a i
      set2 z (diagCol k + i) (diagRow k + i) x) a.n.toNat 0 (newMx (a.n + |k|) (a.n + |k|) fun _ => zero)
  else getdiag zero a k

/-- Matrix.cc:962-979 `any` and `all`: `found` is what ends the loop early. -/
def anyOf (test : α → Bool) (a : Mx α) : Except Fault Bool :=
  forUp (fun i b => if b then .ok true else do
    let x ← rd a.data i
    pure (test x)) a.n.toNat 0 false

/-- Matrix.cc:982-990 `sum` (`op = +`, `x0 = 0`) and 1019-1027 `prod` (`op = *`, `x0 = 1`). -/
def reduce (op : α → α → α) (x0 : α) (a : Mx α) : Except Fault α :=
  forUp (fun i x => do
    let y ← rd a.data i
    pure (op x y)) a.n.toNat 0 x0

/-- Matrix.cc:993-1003 `rsum` and 1030-1040 `rprod`. -/
def rreduce (op : α → α → α) (x0 : α) (a : Mx α) : Except Fault (Mx α) := do
  let m := newMx a.rows 1 fun _ => x0
  let d ← colLoop a.rows a.cols (fun row _ index d => do
    let y ← rd a.data index
    let x ← rd d row
    wr d row (op x y)) m.data
  pure { m with data := d }

/-- Matrix.cc:1006-1016 `csum` and 1043-1053 `cprod`. -/
def creduce (op : α → α → α) (x0 : α) (a : Mx α) : Except Fault (Mx α) := do
  let m := newMx 1 a.cols fun _ => x0
  let d ← colLoop a.rows a.cols (fun _ col index d => do
    let y ← rd a.data index
    let x ← rd d col
    wr d col (op x y)) m.data
  pure { m with data := d }

/-- `std::min` for `lt = <`, `std::max` for `lt = >`: the first argument unless the second is strictly better. -/
def best (lt : α → α → Bool) (x y : α) : α := if lt y x then y else x

/-- Matrix.cc:1064-1075 `min ()` and 1171-1182 `max ()`; `lt` is `<` or `>`. -/
def minOf (lt : α → α → Bool) (a : Mx α) : Except Fault α :=
  if a.n = 0 then .error .thrown
  else do
    let x ← rd a.data 0
    forUp (fun i x => do
      let y ← rd a.data i
      pure (best lt x y)) (a.n - 1).toNat 1 x

/-- Matrix.cc:1077-1093 `min (int& index)` and 1184-1200 `max (int& index)`. -/
def minIdx (lt : α → α → Bool) (a : Mx α) : Except Fault (α × ℤ) :=
  if a.n = 0 then .error .thrown
  else do
    let x ← rd a.data 0
    forUp (fun i (st : α × ℤ) => do
      let y ← rd a.data i
      pure (if lt y st.1 then (y, i) else st)) (a.n - 1).toNat 1 (x, 0)

/-- Matrix.cc:1095-1109 `rmin ()` and 1202-1216 `rmax ()`; `g` is garbage. -/
def rminOf (lt : α → α → Bool) (g : ℤ → α) (a : Mx α) : Except Fault (Mx α) :=
  if a.n = 0 then .error .thrown
  else do
    let m := newMx a.rows 1 g
    let d ← memcpy m.data 0 a.data 0 a.rows
    let d ← colLoop a.rows a.cols (fun row _ index d => do
      let y ← rd a.data index
      let x ← rd d row
      wr d row (best lt x y)) d
    pure { m with data := d }

/-- The loop body of `rmin (Matrix& indices)` (Matrix.cc:1122-1125): cell `slot` and its index are updated. -/
def idxStep (lt : α → α → Bool) (a : Mx α) (slot col index : ℤ) (st : Arr α × Arr ℚ) : Except Fault (Arr α × Arr ℚ) := do
  let y ← rd a.data index
  let x ← rd st.1 slot
  if lt y x then do
    let d ← wr st.1 slot y
    let e ← wr st.2 slot (col : ℚ)
    pure (d, e)
  else pure st

/-- Matrix.cc:1111-1129 `rmin (Matrix& indices)` and 1218-1236 `rmax (Matrix& indices)`. -/
def rminIdx (lt : α → α → Bool) (g : ℤ → α) (a : Mx α) : Except Fault (Mx α × Mx ℚ) :=
  if a.n = 0 then .error .thrown
  else do
    let m := newMx a.rows 1 g
    let ind := newMx a.rows 1 fun _ => (0 : ℚ)
    let d ← memcpy m.data 0 a.data 0 a.rows
    let (d, e) ← colLoop a.rows a.cols (fun row col index st => idxStep lt a row col index st) (d, ind.data)
    pure ({ m with data := d }, { ind with data := e })

/-- The first row (Matrix.cc:1138-1140, 1157-1159 and the two `max` versions). -/
def firstRow (a : Mx α) (d : Arr α) : Except Fault (Arr α) :=
  forUp (fun col d => do
    let x ← get2 a 0 col
    wr d col x) a.cols.toNat 0 d

/-- Matrix.cc:1131-1147 `cmin ()` and 1238-1254 `cmax ()`. -/
def cminOf (lt : α → α → Bool) (g : ℤ → α) (a : Mx α) : Except Fault (Mx α) :=
  if a.n = 0 then .error .thrown
  else do
    let m := newMx 1 a.cols g
    let d ← firstRow a m.data
    let d ← colLoop a.rows a.cols (fun _ col index d => do
      let y ← rd a.data index
      let x ← rd d col
      wr d col (best lt x y)) d
    pure { m with data := d }

/-- Matrix.cc:1149-1169 `cmin (Matrix& indices)` and 1256-1276 `cmax (Matrix& indices)`: the cell is chosen by `row` although the
result has one cell per *column*. -/
def cminIdx (lt : α → α → Bool) (g : ℤ → α) (a : Mx α) : Except Fault (Mx α × Mx ℚ) :=
  if a.n = 0 then .error .thrown
  else do
    let m := newMx 1 a.cols g
    let ind := newMx 1 a.cols fun _ => (0 : ℚ)
    let d ← firstRow a m.data
    let (d, e) ← colLoop a.rows a.cols (fun row col index st => idxStep lt a row col index st) (d, ind.data)
    pure ({ m with data := d }, { ind with data := e })

/-- The functions of one matrix, element by element, that return a new one (Matrix.cc:1379-1447, 1491-1510, 1570-1638, 1810-2048, the operators with one number, and unary `!` 2167-2176). -/
def mapNew {β : Type} (f : α → β) (g : ℤ → β) (a : Mx α) : Except Fault (Mx β) := do
  let z := newMx a.rows a.cols g
  let d ← forUp (fun i d => do
    let x ← rd a.data i
    wr d i (f x)) a.n.toNat 0 z.data
  pure { z with data := d }

/-- The methods that overwrite the matrix element by element (Matrix.cc:1347-1377, 1449-1489, 1512-1568, 1640-1808, computed assignment with a
number 2052-2057 and 2076-2081). -/
def mapIn (f : α → α) (a : Mx α) : Except Fault (Mx α) := do
  let d ← forUp (fun i d => do
    let x ← rd d i
    wr d i (f x)) a.n.toNat 0 a.data
  pure { a with data := d }

/-- The binary operators on two matrices (Matrix.cc:1291-1303, 1319-1331, 2097-2109, 2138-2150, 2180-2191). -/
def zipNew {β : Type} (f : α → α → β) (g : ℤ → β) (a b : Mx α) : Except Fault (Mx β) :=
  if a.rows ≠ b.rows ∨ a.cols ≠ b.cols then .error .thrown
  else do
    let z := newMx a.rows a.cols g
    let d ← forUp (fun i d => do
      let x ← rd a.data i
      let y ← rd b.data i
      wr d i (f x y)) a.n.toNat 0 z.data
    pure { z with data := d }

/-- Computed assignment with a matrix (Matrix.cc:2058-2069 and 2082-2093): the number of rows is compared with itself (lines 2059, 2083). -/
def zipIn (f : α → α → α) (a b : Mx α) : Except Fault (Mx α) :=
  if a.rows ≠ a.rows ∨ a.cols ≠ b.cols then .error .thrown
  else do
    let d ← forUp (fun i d => do
      let x ← rd d i
      let y ← rd b.data i
      wr d i (f x y)) a.n.toNat 0 a.data
    pure { a with data := d }

/-- Matrix.cc:2211-2246 `mtimes` (compiled with `NOBLAS`, setup.py:98): `mul` and `add` may round. -/
def mtimes (add mul : α → α → α) (zero : α) (g : ℤ → α) (a b : Mx α) : Except Fault (Mx α) :=
  if a.n = 1 then do
    let x ← get1 a 0
    mapNew (fun y => mul x y) g b
  else if b.n = 1 then do
    let y ← get1 b 0
    mapNew (fun x => mul x y) g a
  else if a.cols ≠ b.rows then .error .thrown
  else
    let c := newMx a.rows b.cols fun _ => zero
    forUp (fun i c =>
      forUp (fun j c =>
        forUp (fun k c => do
          let x ← get2 a i k
          let y ← get2 b k j
          let z ← get2 c i j
          set2 c i j (add z (mul x y))) a.cols.toNat 0 c) c.cols.toNat 0 c) c.rows.toNat 0 c

end EdgeEval.MatrixOps
