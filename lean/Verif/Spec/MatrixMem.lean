import Verif.Model.MatrixMem

/-!
# Specification: matrices as values

What a program over matrices and arrays should do when every object is a value of its own: assignment and copying copy the
elements, nothing is shared, and there is no memory.
-/

namespace EdgeEval.Spec

open EdgeEval EdgeEval.MatrixMem

/-- A matrix value; `none` is an element that was never written. -/
structure MatVal (α : Type) where
  rows : Nat
  cols : Nat
  cell : Nat → Nat → Option α

/-- The living objects. -/
abbrev MatEnv (α : Type) := Nat → Option (MatVal α)

/-- Why a program does not end normally: an index out of range (`Exception`), a read of an element never written, an assertion
or missing return, or a program outside the specification: a name not in scope, or a view of another shape than the matrix
or copied onto itself, or a matrix assigned to itself. -/
inductive Why
  | exception | uninitialised | abort | misuse
  deriving DecidableEq, Repr

/-- The image as a matrix value. -/
def ofImg {α : Type} (im : Img α) : MatVal α := ⟨im.rows, im.cols, fun i j => some (im.at_ i j)⟩

/-- Is every element written? -/
def MatVal.Full {α : Type} (A : MatVal α) : Prop := ∀ i < A.rows, ∀ j < A.cols, (A.cell i j).isSome = true

instance {α : Type} (A : MatVal α) : Decidable A.Full := by unfold MatVal.Full; infer_instance

/-- Start of the life of `v`. -/
def born {α : Type} (e : MatEnv α) (v : Nat) (A : MatVal α) : Except Why (MatEnv α) :=
  match e v with
  | none => .ok (MatrixMem.upd e v (some A))
  | some _ => .error .misuse

/-- The object `v`. -/
def the {α : Type} (e : MatEnv α) (v : Nat) : Except Why (MatVal α) :=
  match e v with
  | none => .error .misuse
  | some A => .ok A

/-- Element `(row, col)` in range. -/
def MatVal.inRange {α : Type} (A : MatVal α) (row col : Int) : Prop := 0 ≤ row ∧ row < A.rows ∧ 0 ≤ col ∧ col < A.cols

instance {α : Type} (A : MatVal α) (row col : Int) : Decidable (A.inRange row col) := by unfold MatVal.inRange; infer_instance

/-- The meaning of a program on values. -/
def eval {α β : Type} [Zero α] : Prog α β → MatEnv α → Except Why (β × MatEnv α)
  | .ret b, e => .ok (b, e)
  | .abort, _ => .error .abort
  | .ctorDefault v k, e => do eval k (← born e v ⟨0, 0, fun _ _ => none⟩)
  | .ctorSized v r c k, e => do eval k (← born e v ⟨r.toNat, c.toNat, fun _ _ => some 0⟩)
  | .ctorCopy v w k, e => do eval k (← born e v (← the e w))
  | .assign v w k, e => do
    let _ ← the e v
    let B ← the e w
    if v = w then .error .misuse else eval k (MatrixMem.upd e v (some B))
  | .dtor v k, e => do
    let _ ← the e v
    eval k (MatrixMem.upd e v none)
  | .size v k, e => do
    let A ← the e v
    eval (k A.rows A.cols) e
  | .get v i j k, e => do
    let A ← the e v
    if A.inRange i j then
      match A.cell i.toNat j.toNat with
      | some x => eval (k x) e
      | none => .error .uninitialised
    else .error .exception
  | .put v i j x k, e => do
    let A ← the e v
    if A.inRange i j then
      eval k (MatrixMem.upd e v (some { A with cell := fun a b => if a = i.toNat ∧ b = j.toNat then some x else A.cell a b }))
    else .error .exception
  | .arrayOf v im k, e => do eval k (← born e v (ofImg im))
  | .copyView out v a k, e => do
    let M ← the e v
    let A ← the e a
    if A.rows = 0 ∨ A.cols = 0 then eval (k false) e
    else if v ≠ a ∧ M.rows = A.rows ∧ M.cols = A.cols then
      if (if out then M else A).Full then eval (k true) (MatrixMem.upd e (if out then a else v) (some (if out then M else A)))
      else .error .uninitialised
    else .error .misuse

/-- The object `m` holds the value `A`: its block at address `p` has exactly the size needed and contains the elements, column
by column. -/
def Stored {α : Type} (heap : Nat → Option (CsaMem.Blk α)) (m : Mat) (A : MatVal α) (p : Nat) : Prop :=
  m.rows = A.rows ∧ m.cols = A.cols ∧ m.data = some p ∧
  ∃ b, heap p = some b ∧ b.size = A.rows * A.cols ∧ ∀ i < A.rows, ∀ j < A.cols, b.cell (j * A.rows + i) = A.cell i j

/-- A state in which no object of the program is alive yet; the heap may contain anything. -/
structure Clean {α : Type} (s : St α) : Prop where
  noObj : ∀ v, s.vars v = none
  fresh : ∀ p, s.next ≤ p → s.heap p = none

/-- The fault of the machine that stands for each reason. -/
def Why.fault : Why → Option Fault
  | .exception => some .exception
  | .uninitialised => some .uninitialised
  | .abort => some .assertion
  | .misuse => none

end EdgeEval.Spec
