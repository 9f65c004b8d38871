import Verif.Model.ArrayHH

/-!
# What the arrays of Array.hh are supposed to be

A living array is a shape and a value (or nothing yet) for every tuple of indices; elements follow each other with the last index
changing fastest.
-/

namespace EdgeEval.Spec.ArrayHH

open EdgeEval.ArrayHH
open EdgeEval.MatrixMem (Fault)

/-- One index for every dimension, each below it. -/
def InRange (idx dims : List Nat) : Prop := idx.length = dims.length ∧ ∀ p ∈ idx.zip dims, p.1 < p.2

instance (idx dims : List Nat) : Decidable (InRange idx dims) := inferInstanceAs (Decidable (_ ∧ _))

/-- The number of tuples that come before `idx` when the last index changes fastest: `i * d1 * d2 + j * d2 + k`. -/
def rank : List Nat → List Nat → Nat
  | _ :: ds, i :: is => i * ds.prod + rank ds is
  | _, _ => 0

/-- The tuple in position `k`. -/
def unrank : List Nat → Nat → List Nat
  | [], _ => []
  | _ :: ds, k => k / ds.prod :: unrank ds (k % ds.prod)

/-- An array as a value. -/
structure Arr (α : Type) where
  dims : List Nat
  cell : List Nat → Option α

/-- The living arrays. -/
abbrev Env (α : Type) := Nat → Option (Arr α)

/-- What a program should do: no addresses, no machine arithmetic. A wrong index is a failed assertion; reading an element nobody
has written is an error; `data()[i]` is the element in position `i`. -/
def eval {α β : Type} (dflt : Option α) : Prog α β → Env α → Except Fault (β × Env α)
  | .ret b, e => .ok (b, e)
  | .ctor v dims k, e =>
    match e v with
    | some _ => .error .notInScope
    | none => if areU32 dims then eval dflt k (upd e v (some ⟨dims, fun _ => dflt⟩)) else .error .notInScope
  | .dtor v k, e =>
    match e v with
    | none => .error .notInScope
    | some _ => eval dflt k (upd e v none)
  | .resize v dims k, e =>
    match e v with
    | none => .error .notInScope
    | some A =>
      if A.dims = dims then eval dflt k e
      else if A.dims.length = dims.length ∧ areU32 dims = true then eval dflt k (upd e v (some ⟨dims, fun _ => dflt⟩))
      else .error .notInScope
  | .init v x k, e =>
    match e v with
    | none => .error .notInScope
    | some A => eval dflt k (upd e v (some ⟨A.dims, fun _ => some x⟩))
  | .get v idx k, e =>
    match e v with
    | none => .error .notInScope
    | some A =>
      if ¬ (idx.length = A.dims.length ∧ areU32 idx = true) then .error .notInScope
      else if InRange idx A.dims then
        match A.cell idx with
        | some x => eval dflt (k x) e
        | none => .error .uninitialised
      else .error .assertion
  | .put v idx x k, e =>
    match e v with
    | none => .error .notInScope
    | some A =>
      if ¬ (idx.length = A.dims.length ∧ areU32 idx = true) then .error .notInScope
      else if InRange idx A.dims then
        eval dflt k (upd e v (some ⟨A.dims, fun i => if i = idx then some x else A.cell i⟩))
      else .error .assertion
  | .raw v i k, e =>
    match e v with
    | none => .error .notInScope
    | some A =>
      if i < A.dims.prod then
        match A.cell (unrank A.dims i) with
        | some x => eval dflt (k x) e
        | none => .error .uninitialised
      else .error .outOfBounds
  | .size v d k, e =>
    match e v with
    | none => .error .notInScope
    | some A =>
      match A.dims[d]? with
      | some n => eval dflt (k (toInt n)) e
      | none => .error .assertion

/-- Every array the program can make has fewer than 2³² elements. -/
def FewElements {α β : Type} : Prog α β → Prop
  | .ret _ => True
  | .ctor _ dims k => dims.prod < 2 ^ 32 ∧ FewElements k
  | .resize _ dims k => dims.prod < 2 ^ 32 ∧ FewElements k
  | .dtor _ k => FewElements k
  | .init _ _ k => FewElements k
  | .put _ _ _ k => FewElements k
  | .get _ _ k => ∀ x, FewElements (k x)
  | .raw _ _ k => ∀ x, FewElements (k x)
  | .size _ _ k => ∀ n, FewElements (k n)

/-- The program uses no raw pointer. -/
def NoRaw {α β : Type} : Prog α β → Prop
  | .ret _ => True
  | .ctor _ _ k => NoRaw k
  | .resize _ _ k => NoRaw k
  | .dtor _ k => NoRaw k
  | .init _ _ k => NoRaw k
  | .put _ _ _ k => NoRaw k
  | .get _ _ k => ∀ x, NoRaw (k x)
  | .raw _ _ _ => False
  | .size _ _ k => ∀ n, NoRaw (k n)

/-- No array is alive and fresh addresses are free. -/
structure Clean {α : Type} (s : St α) : Prop where
  vars : ∀ v, s.vars v = none
  fresh : ∀ p, s.next ≤ p → s.heap p = none

/-- The memory `s'`, reached from `s`, holds exactly the arrays of `e`, each in a block of its own that was free in `s`, in row-major
order; everything else is as in `s`. -/
structure Holds {α : Type} (s s' : St α) (e : Env α) : Prop where
  live : ∀ v, s'.vars v = none ↔ e v = none
  stored : ∀ v A, e v = some A → ∃ o b, s'.vars v = some o ∧ o.dims = A.dims ∧ s.heap o.ptr = none ∧ s'.heap o.ptr = some b ∧
    b.size = A.dims.prod ∧ ∀ idx, InRange idx A.dims → b.cell (rank A.dims idx) = A.cell idx
  apart : ∀ v w o o', s'.vars v = some o → s'.vars w = some o' → o.ptr = o'.ptr → v = w
  rest : ∀ p, (∃ v o, s'.vars v = some o ∧ o.ptr = p) ∨ s'.heap p = s.heap p

end EdgeEval.Spec.ArrayHH
