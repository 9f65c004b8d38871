import Verif.Model.CsaMem
import Verif.Model.Match
import Verif.Model.Nms

/-!
# Memory-level model of the class `Matrix` and of the Cython wrappers

C++ `Matrix` objects with their `_data` pointers into a heap of `malloc`ed blocks.  An access to a block that is not allocated
(any more), outside a block or to an uninitialised cell or field, the release of a block that is not allocated, and a failed
`assert` are faults; a thrown `Exception` is a fault of its own.  A Fortran-ordered `float64` numpy array has the same layout as
a `Matrix` (a block of `rows * cols` doubles of its own, column by column) and is represented by the same record.

A *program* (`Prog`) is any terminating sequence of operations on named objects whose course may depend on the values read;
`run` executes it on the heap.  Not modelled: `malloc` failing for a positive size, and the overflow of `rows * cols`.
-/

namespace EdgeEval.MatrixMem

open EdgeEval EdgeEval.CsaMem

/-- What can go wrong. `exception` is `throw Exception(...)`; `notInScope` is the use of a name that is no living object, which a
compiled program cannot contain. -/
inductive Fault
  | outOfBounds | uninitialised | nullPointer | notAllocated | overlap | assertion | exception | notInScope
  deriving DecidableEq, Repr

/-- Matrix.hh:386-388  the members of a `Matrix`; `n = none`: not initialised, `data = none`: `NULL`. -/
structure Mat where
  rows : Nat
  cols : Nat
  n : Option Nat
  data : Option Nat
  wrapped : Bool

/-- The heap, by address (`none`: not allocated), and the living objects, by name. -/
structure St (α : Type) where
  next : Nat
  heap : Nat → Option (Blk α)
  vars : Nat → Option Mat

/-- Change of one entry. -/
def upd {β : Type} (f : Nat → β) (k : Nat) (x : β) : Nat → β := fun i => if i = k then x else f i

/-- An operation. -/
abbrev Op (α β : Type) := St α → Except Fault (β × St α)

/-- Sequencing. -/
def Op.bind {α β γ : Type} (x : Op α β) (f : β → Op α γ) : Op α γ := fun s =>
  match x s with
  | .error e => .error e
  | .ok (b, s') => f b s'

section
variable {α : Type}

/-! ## The heap -/

/-- `malloc` (`init = none`) or `calloc` (`init = some 0`) of `size` cells; `nz`: does a request for 0 bytes return `NULL` (C leaves
the choice to the implementation)? -/
def alloc (nz : Bool) (size : Nat) (init : Option α) : Op α (Option Nat) := fun s =>
  if nz = true ∧ size = 0 then .ok (none, s)
  else .ok (some s.next, { s with next := s.next + 1, heap := upd s.heap s.next (some ⟨size, fun _ => init⟩) })

/-- `free`. -/
def free (p : Nat) : Op α Unit := fun s =>
  match s.heap p with
  | none => .error .notAllocated
  | some _ => .ok ((), { s with heap := upd s.heap p none })

/-- The block a pointer points to. -/
def block (p : Option Nat) : Op α (Nat × Blk α) := fun s =>
  match p with
  | none => .error .nullPointer
  | some p =>
    match s.heap p with
    | none => .error .notAllocated
    | some b => .ok ((p, b), s)

/-- `p[i]` as a value. -/
def load (p : Option Nat) (i : Nat) : Op α α := (block p).bind fun pb s =>
  if i < pb.2.size then
    match pb.2.cell i with
    | some x => .ok (x, s)
    | none => .error .uninitialised
  else .error .outOfBounds

/-- `p[i] = x`. -/
def store (p : Option Nat) (i : Nat) (x : α) : Op α Unit := (block p).bind fun pb s =>
  if i < pb.2.size then .ok ((), { s with heap := upd s.heap pb.1 (some ⟨pb.2.size, upd pb.2.cell i (some x)⟩) })
  else .error .outOfBounds

/-- `memcpy(dst, src, cnt * sizeof(double))`; indeterminate cells may be copied; the regions must not overlap (self-assignment
of a matrix is therefore a fault). -/
def memcpy (dst src : Option Nat) (cnt : Nat) : Op α Unit :=
  (block dst).bind fun d => (block src).bind fun sr s =>
    if d.1 = sr.1 then .error .overlap
    else if cnt ≤ d.2.size ∧ cnt ≤ sr.2.size then
      .ok ((), { s with heap := upd s.heap d.1 (some ⟨d.2.size, fun i => if i < cnt then sr.2.cell i else d.2.cell i⟩) })
    else .error .outOfBounds

/-! ## The class -/

/-- The object of that name. -/
def obj (v : Nat) : Op α Mat := fun s =>
  match s.vars v with
  | none => .error .notInScope
  | some m => .ok (m, s)

/-- Change of the members of an object. -/
def setObj (v : Nat) (m : Option Mat) : Op α Unit := fun s => .ok ((), { s with vars := upd s.vars v m })

/-- Reading the member `_n`. -/
def memberN (m : Mat) : Op α Nat := fun s =>
  match m.n with
  | none => .error .uninitialised
  | some n => .ok (n, s)

/-- Matrix.cc:2248-2263 `_alloc` with fill `undef` (`init = none`) or `zeros` (`init = some 0`). -/
def allocMat (nz : Bool) (v rows cols : Nat) (init : Option α) : Op α Unit :=
  (alloc nz (rows * cols) init).bind fun p =>
    setObj v (some ⟨rows, cols, some (rows * cols), p, false⟩)

/-- A constructor starts the life of an object: the name must be free. -/
def fresh (v : Nat) : Op α Unit := fun s =>
  match s.vars v with
  | none => .ok ((), s)
  | some _ => .error .notInScope

/-- Matrix.cc:157-160 `Matrix()`. -/
def ctorDefault (nz : Bool) (v : Nat) : Op α Unit := (fresh v).bind fun _ => allocMat nz v 0 0 none

/-- Matrix.cc:168-173 `Matrix(rows, cols)`. -/
def ctorSized [Zero α] (nz : Bool) (v : Nat) (rows cols : Int) : Op α Unit :=
  (fresh v).bind fun _ => allocMat nz v (max 0 rows).toNat (max 0 cols).toNat (some 0)

/-- Matrix.cc:181-187 `Matrix(rows, cols, data)`: `_n` is not set. -/
def ctorWrapped (v : Nat) (rows cols : Int) (data : Option Nat) : Op α Unit :=
  (fresh v).bind fun _ => setObj v (some ⟨(max 0 rows).toNat, (max 0 cols).toNat, none, data, true⟩)

/-- Matrix.cc:2298-2312 `_delete` and `_zero`. -/
def deleteMat (v : Nat) : Op α Unit := (obj v).bind fun m =>
  match m.data with
  | none => fun _ => .error .assertion
  | some p => (if m.wrapped then fun s => .ok ((), s) else free p : Op α Unit).bind fun _ =>
      setObj v (some ⟨0, 0, some 0, none, false⟩)

/-- Matrix.cc:189-192 `~Matrix()`; the name goes out of scope. -/
def dtor (v : Nat) : Op α Unit := (deleteMat v).bind fun _ => setObj v none

/-- Matrix.cc:501-504  the first branch of `operator=`. -/
def copySame (v : Nat) (m that : Mat) (n : Nat) : Op α Unit :=
  (setObj v (some { m with rows := that.rows, cols := that.cols })).bind fun _ => memcpy m.data that.data n

/-- Matrix.cc:498-510 `v = w`. The recursive call of the second branch finds equal sizes (else it would not end: `assertion`). -/
def assign (nz : Bool) (v w : Nat) : Op α Unit :=
  (obj v).bind fun m => (obj w).bind fun that => (memberN m).bind fun n => (memberN that).bind fun n' =>
    if n = n' then copySame v m that n
    else
      (deleteMat v).bind fun _ => (allocMat nz v that.rows that.cols none).bind fun _ =>
        (obj v).bind fun m2 => (memberN m2).bind fun n2 =>
          if n2 = n' then copySame v m2 that n2 else fun _ => .error .assertion

/-- Matrix.cc:175-179 `Matrix v(w)`. -/
def ctorCopy (nz : Bool) (v w : Nat) : Op α Unit :=
  (fresh v).bind fun _ => (obj w).bind fun that => (allocMat nz v that.rows that.cols none).bind fun _ => assign nz v w

/-- Matrix.cc:463-469  the range check and the index (comparison as `unsigned`: a negative number is too large). -/
def element (m : Mat) (row col : Int) : Op α Nat := fun s =>
  if 0 ≤ row ∧ row < m.rows ∧ 0 ≤ col ∧ col < m.cols then .ok (col.toNat * m.rows + row.toNat, s) else .error .exception

/-- Matrix.cc:473-484 `v(row, col)` as a value. -/
def get (v : Nat) (row col : Int) : Op α α := (obj v).bind fun m => (element m row col).bind fun i => load m.data i

/-- Matrix.cc:460-471 `v(row, col) = x`. -/
def put (v : Nat) (row col : Int) (x : α) : Op α Unit := (obj v).bind fun m => (element m row col).bind fun i => store m.data i x

/-! ## numpy arrays and Cython views -/

/-- `np.asfortranarray` of an image (nms.pyx:43-44, correspond_pixels.pyx:59-60): a new array holding its values. -/
def arrayOf (v : Nat) (im : Img α) : Op α Unit := (fresh v).bind fun _ s =>
  .ok ((), { next := s.next + 1
             heap := upd s.heap s.next (some ⟨im.rows * im.cols, fun k => some (im.at_ (k % im.rows) (k / im.rows))⟩)
             vars := upd s.vars v (some ⟨im.rows, im.cols, some (im.rows * im.cols), some s.next, false⟩) })

/-- Element-wise copy between two Fortran-ordered views of the same shape, `k` counting the elements in storage order. -/
def copyCells (dst src : Option Nat) : (cnt lo : Nat) → Op α Unit
  | 0, _ => fun s => .ok ((), s)
  | cnt + 1, lo => (load src lo).bind fun x => (store dst lo x).bind fun _ => copyCells dst src cnt (lo + 1)

/-- nms.pyx:25-28, correspond_pixels.pyx:31-34: `view = <double[:a.shape[0]:1,:a.shape[1]]>v.data()` and `view[:,:] = a[:,:]`
(`out = false`), or nms.pyx:35-36, correspond_pixels.pyx:43-46 `a[:,:] = view[:,:]` (`out = true`).  The view has the shape of the
array `a`, whatever the size of the matrix; the cast raises `ValueError` (`false`) for a null pointer or an empty axis. -/
def copyView (out : Bool) (v a : Nat) : Op α Bool := (obj v).bind fun m => (obj a).bind fun arr =>
  if m.data = none ∨ arr.rows = 0 ∨ arr.cols = 0 then fun s => .ok (false, s)
  else
    (if out then copyCells arr.data m.data (arr.rows * arr.cols) 0 else copyCells m.data arr.data (arr.rows * arr.cols) 0).bind
      fun _ s => .ok (true, s)

end

/-! ## Programs -/

/-- Terminating programs over `Matrix` objects and arrays with elements in `α`, returning a `β`. `abort` is a failed assertion or
a call that does not return. -/
inductive Prog (α β : Type)
  | ret (b : β)
  | abort
  | ctorDefault (v : Nat) (k : Prog α β)
  | ctorSized (v : Nat) (rows cols : Int) (k : Prog α β)
  | ctorCopy (v w : Nat) (k : Prog α β)
  | assign (v w : Nat) (k : Prog α β)
  | dtor (v : Nat) (k : Prog α β)
  | size (v : Nat) (k : Nat → Nat → Prog α β)
  | get (v : Nat) (row col : Int) (k : α → Prog α β)
  | put (v : Nat) (row col : Int) (x : α) (k : Prog α β)
  | arrayOf (v : Nat) (im : Img α) (k : Prog α β)
  | copyView (out : Bool) (v a : Nat) (k : Bool → Prog α β)

/-- Sequencing of programs. -/
def Prog.bind {α β γ : Type} : Prog α β → (β → Prog α γ) → Prog α γ
  | .ret b, f => f b
  | .abort, _ => .abort
  | .ctorDefault v k, f => .ctorDefault v (k.bind f)
  | .ctorSized v r c k, f => .ctorSized v r c (k.bind f)
  | .ctorCopy v w k, f => .ctorCopy v w (k.bind f)
  | .assign v w k, f => .assign v w (k.bind f)
  | .dtor v k, f => .dtor v (k.bind f)
  | .size v k, f => .size v fun r c => (k r c).bind f
  | .get v i j k, f => .get v i j fun x => (k x).bind f
  | .put v i j x k, f => .put v i j x (k.bind f)
  | .arrayOf v im k, f => .arrayOf v im (k.bind f)
  | .copyView o v a k, f => .copyView o v a fun b => (k b).bind f

instance {α : Type} : Monad (Prog α) where
  pure := .ret
  bind := .bind

/-- Execution on the heap. -/
def run {α β : Type} [Zero α] (nz : Bool) : Prog α β → Op α β
  | .ret b => fun s => .ok (b, s)
  | .abort => fun _ => .error .assertion
  | .ctorDefault v k => (MatrixMem.ctorDefault nz v).bind fun _ => run nz k
  | .ctorSized v r c k => (MatrixMem.ctorSized nz v r c).bind fun _ => run nz k
  | .ctorCopy v w k => (MatrixMem.ctorCopy nz v w).bind fun _ => run nz k
  | .assign v w k => (MatrixMem.assign nz v w).bind fun _ => run nz k
  | .dtor v k => (MatrixMem.dtor v).bind fun _ => run nz k
  | .size v k => (obj v).bind fun m => run nz (k m.rows m.cols)
  | .get v i j k => (MatrixMem.get v i j).bind fun x => run nz (k x)
  | .put v i j x k => (MatrixMem.put v i j x).bind fun _ => run nz k
  | .arrayOf v im k => (MatrixMem.arrayOf v im).bind fun _ => run nz k
  | .copyView o v a k => (MatrixMem.copyView o v a).bind fun b => run nz (k b)

end EdgeEval.MatrixMem
