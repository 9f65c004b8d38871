import Verif.Model.MatrixMem

/-!
# Memory-level model of the classes `Array1D` to `Array4D` of Array.hh

One model for the four classes: an object has a list of dimensions (`[n]` for `Array1D`), the number of elements as computed in
`unsigned` arithmetic (32 bits, wrapping), and a pointer to a block from `new Elem [_n]`.  A program is any terminating sequence of
operations on named arrays whose course may depend on the values read.  `dbg` says whether `assert` is compiled in (no `NDEBUG`);
`dflt` is the value of a default-initialised element (`none` for `int` and `bool`, which are left indeterminate).

Not modelled: `new` throwing `bad_alloc`; the number and kind of the indices (fixed by the C++ types) is checked at run time here
and a mismatch is the fault `notInScope`, which stands for programs the compiler refuses.
-/

namespace EdgeEval.ArrayHH

open EdgeEval.CsaMem (Blk)
open EdgeEval.MatrixMem (Fault)

/-- The result of an operation of type `unsigned`. -/
def u32 (x : Nat) : Nat := x % 2 ^ 32

/-- Array.hh:81-84, 148-153, 220-226, 295-302  `_n = d0 * d1 * ...`, from left to right. -/
def prod32 (dims : List Nat) : Nat := dims.foldl (fun a d => u32 (a * d)) 1

/-- The remaining multiplications and additions of the index. -/
def horner (acc : Nat) : List (Nat × Nat) → Nat
  | [] => acc
  | (d, i) :: r => horner (u32 (u32 (acc * d) + i)) r

/-- Array.hh:73, 134, 205, 279  `i`, `i * _dim[1] + j`, `(i * _dim[1] + j) * _dim[2] + k`, ... -/
def index32 (dims idx : List Nat) : Nat :=
  match dims.zip idx with
  | [] => 0
  | (_, i) :: r => horner i r

/-- Array.hh:91-92, 160-162, 233-235, 309-311  the members. -/
structure Obj where
  n : Nat
  ptr : Nat
  dims : List Nat

/-- The heap, by address (`none`: not allocated), and the living objects, by name. -/
structure St (α : Type) where
  next : Nat
  heap : Nat → Option (Blk α)
  vars : Nat → Option Obj

/-- An operation. -/
abbrev Op (α β : Type) := St α → Except Fault (β × St α)

/-- Sequencing. -/
def Op.bind {α β γ : Type} (x : Op α β) (f : β → Op α γ) : Op α γ := fun s =>
  match x s with
  | .error e => .error e
  | .ok (b, s') => f b s'

section
variable {α : Type}

/-- The object of that name. -/
def obj (v : Nat) : Op α Obj := fun s =>
  match s.vars v with
  | none => .error .notInScope
  | some o => .ok (o, s)

/-- Array.hh:81-84, 148-153, 220-226, 295-302 `_alloc`: `new Elem [_n]`. -/
def alloc (dflt : Option α) (v : Nat) (dims : List Nat) : Op α Unit := fun s =>
  .ok ((), { next := s.next + 1
             heap := upd s.heap s.next (some ⟨prod32 dims, fun _ => dflt⟩)
             vars := upd s.vars v (some ⟨prod32 dims, s.next, dims⟩) })

/-- Array.hh:85-89, 154-158, 227-231, 303-307 `_delete`: `delete [] _array` (the pointer is never `NULL` while the object lives, `_alloc` follows or the object dies). -/
def delete (p : Nat) : Op α Unit := fun s =>
  match s.heap p with
  | none => .error .notAllocated
  | some _ => .ok ((), { s with heap := upd s.heap p none })

/-- Is every number an `unsigned`? -/
def areU32 (l : List Nat) : Bool := l.all fun x => decide (x < 2 ^ 32)

/-- Array.hh:41-46, 101-106, 171-176, 244-249  the constructors; the default constructor passes zeros. -/
def ctor (dflt : Option α) (v : Nat) (dims : List Nat) : Op α Unit := fun s =>
  match s.vars v with
  | some _ => .error .notInScope
  | none => if areU32 dims then alloc dflt v dims s else .error .notInScope

/-- Array.hh:47-49, 107-109, 177-179, 250-252  the destructor; the name goes out of scope. -/
def dtor (v : Nat) : Op α Unit := (obj v).bind fun o => (delete o.ptr).bind fun _ s =>
  .ok ((), { s with vars := upd s.vars v none })

/-- Array.hh:61-63, 121-123, 191-193, 264-266 `issize`; Array.hh:50-55, 110-115, 180-185, 253-258 `resize`. -/
def resize (dflt : Option α) (v : Nat) (dims : List Nat) : Op α Unit := (obj v).bind fun o =>
  if o.dims = dims then fun s => .ok ((), s)
  else if o.dims.length = dims.length ∧ areU32 dims = true then (delete o.ptr).bind fun _ => alloc dflt v dims
  else fun _ => .error .notInScope

/-- `_array[i] = x`. -/
def store (p i : Nat) (x : α) : Op α Unit := fun s =>
  match s.heap p with
  | none => .error .notAllocated
  | some b => if i < b.size then .ok ((), { s with heap := upd s.heap p (some ⟨b.size, upd b.cell i (some x)⟩) })
              else .error .outOfBounds

/-- `_array[i]` as a value. -/
def load (p i : Nat) : Op α α := fun s =>
  match s.heap p with
  | none => .error .notAllocated
  | some b =>
    if i < b.size then
      match b.cell i with
      | some x => .ok (x, s)
      | none => .error .uninitialised
    else .error .outOfBounds

/-- Array.hh:56-60, 116-120, 186-190, 259-263 `init`: the loop `for (unsigned i = 0; i < _n; i++)`; `left` counts down, the index is `n - left`. -/
def initLoop (p n : Nat) (x : α) : Nat → Op α Unit
  | 0 => fun s => .ok ((), s)
  | left + 1 => (store p (n - (left + 1)) x).bind fun _ => initLoop p n x left

/-- Array.hh:56-60, 116-120, 186-190, 259-263 `init`. -/
def init (v : Nat) (x : α) : Op α Unit := (obj v).bind fun o => initLoop o.ptr o.n x o.n

/-- Are all indices below their dimension? -/
def below : List Nat → List Nat → Bool
  | [], [] => true
  | i :: is, d :: ds => decide (i < d) && below is ds
  | _, _ => false

/-- Array.hh:70-77, 131-144, 201-216, 274-291 `operator()`: the asserts and the address. The indices are `unsigned` arguments. -/
def address (dbg : Bool) (v : Nat) (idx : List Nat) : Op α (Nat × Nat) := (obj v).bind fun o s =>
  if ¬ (idx.length = o.dims.length ∧ areU32 idx = true) then .error .notInScope
  else if dbg = true ∧ below idx o.dims = false then .error .assertion
  else if dbg = true ∧ ¬ index32 o.dims idx < o.n then .error .assertion
  else .ok ((o.ptr, index32 o.dims idx), s)

/-- `... = v(i, j)`. -/
def get (dbg : Bool) (v : Nat) (idx : List Nat) : Op α α := (address dbg v idx).bind fun a => load a.1 a.2

/-- `v(i, j) = x`. -/
def put (dbg : Bool) (v : Nat) (idx : List Nat) (x : α) : Op α Unit := (address dbg v idx).bind fun a => store a.1 a.2 x

/-- Array.hh:67-69, 128-130, 198-200, 271-273 `data()`, then a read of element `i` through the pointer. -/
def raw (v i : Nat) : Op α α := (obj v).bind fun o => load o.ptr i

/-- Conversion from `unsigned` to `int` (two's complement). -/
def toInt (x : Nat) : ℤ := if x < 2 ^ 31 then x else (x : ℤ) - 2 ^ 32

/-- Array.hh:64-66, 124-127, 194-197, 267-270 `size(d)` (`size()` for `Array1D`, `d = 0`, where nothing is asserted). Without the
assert a wrong `d` reads beyond `_dim`. -/
def size (dbg : Bool) (v d : Nat) : Op α ℤ := (obj v).bind fun o s =>
  match o.dims[d]? with
  | some n => .ok (toInt n, s)
  | none => .error (if dbg then .assertion else .outOfBounds)

/-- The copy constructor and `operator=` the compiler generates, as Array.hh declares none: the members are copied. -/
def copyCtor (v w : Nat) : Op α Unit := (obj w).bind fun o s => .ok ((), { s with vars := upd s.vars v (some o) })

end

/-- A program over arrays of elements of type `α`. -/
inductive Prog (α β : Type) where
  | ret (b : β)
  | ctor (v : Nat) (dims : List Nat) (k : Prog α β)
  | dtor (v : Nat) (k : Prog α β)
  | resize (v : Nat) (dims : List Nat) (k : Prog α β)
  | init (v : Nat) (x : α) (k : Prog α β)
  | get (v : Nat) (idx : List Nat) (k : α → Prog α β)
  | put (v : Nat) (idx : List Nat) (x : α) (k : Prog α β)
  | raw (v i : Nat) (k : α → Prog α β)
  | size (v d : Nat) (k : ℤ → Prog α β)

/-- Execution. -/
def run {α β : Type} (dbg : Bool) (dflt : Option α) : Prog α β → Op α β
  | .ret b => fun s => .ok (b, s)
  | .ctor v dims k => (ctor dflt v dims).bind fun _ => run dbg dflt k
  | .dtor v k => (dtor v).bind fun _ => run dbg dflt k
  | .resize v dims k => (resize dflt v dims).bind fun _ => run dbg dflt k
  | .init v x k => (init v x).bind fun _ => run dbg dflt k
  | .get v idx k => (get dbg v idx).bind fun x => run dbg dflt (k x)
  | .put v idx x k => (put dbg v idx x).bind fun _ => run dbg dflt k
  | .raw v i k => (raw v i).bind fun x => run dbg dflt (k x)
  | .size v d k => (size dbg v d).bind fun n => run dbg dflt (k n)

end EdgeEval.ArrayHH
