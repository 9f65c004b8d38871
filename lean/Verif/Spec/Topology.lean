import Verif.Model.Img
import Mathlib.Logic.Relation
import Mathlib.Algebra.Order.Field.Rat
import Mathlib.Data.Set.Basic

/-!
# Digital topology vocabulary (specification)

Pixels are integer points `(row, column)` of the plane; the part of the plane outside an image belongs to
the background.
-/

namespace EdgeEval

/-- A pixel of the plane, `(row, column)`. -/
abbrev Pt := ℤ × ℤ

/-- The edge pixels of an image: in range and non-zero. -/
def edgeSet (x : Img ℚ) : Set Pt :=
  {p | 0 ≤ p.1 ∧ p.1 < x.rows ∧ 0 ≤ p.2 ∧ p.2 < x.cols ∧ x.at_ p.1.toNat p.2.toNat ≠ 0}

/-- 8-adjacency: distinct pixels sharing a side or a corner. -/
def Adj8 (p q : Pt) : Prop := p ≠ q ∧ |p.1 - q.1| ≤ 1 ∧ |p.2 - q.2| ≤ 1

/-- 4-adjacency: pixels sharing a side. -/
def Adj4 (p q : Pt) : Prop := |p.1 - q.1| + |p.2 - q.2| = 1

/-- `p` and `q` are joined by a path of adjacent pixels all of which lie in `X`. -/
def Joined (Adj : Pt → Pt → Prop) (X : Set Pt) (p q : Pt) : Prop :=
  p ∈ X ∧ Relation.ReflTransGen (fun a b => b ∈ X ∧ Adj a b) p q

/-- `X'` arises from `X` by deleting pixels without changing the topology: the 8-connected components of
the foreground correspond one to one (each keeps a pixel, none is split, none merged), and so do the
4-connected components of the background (no hole appears, disappears or merges). -/
structure SameTopology (X X' : Set Pt) : Prop where
  sub : X' ⊆ X
  fg : ∀ p q, p ∈ X' → q ∈ X' → (Joined Adj8 X' p q ↔ Joined Adj8 X p q)
  fgKeep : ∀ p ∈ X, ∃ q ∈ X', Joined Adj8 X p q
  bg : ∀ p q, p ∉ X → q ∉ X → (Joined Adj4 X'ᶜ p q ↔ Joined Adj4 Xᶜ p q)
  bgKeep : ∀ p, p ∉ X' → ∃ q, q ∉ X ∧ Joined Adj4 X'ᶜ p q

/-- The neighbour `x_k` of `p` in Guo and Hall's numbering: counter-clockwise from the east, `x_9 = x_1`. -/
def nbrPt (p : Pt) (k : Nat) : Pt :=
  match k with
  | 1 | 9 => (p.1, p.2 + 1)      -- east
  | 2 => (p.1 - 1, p.2 + 1)      -- north-east
  | 3 => (p.1 - 1, p.2)          -- north
  | 4 => (p.1 - 1, p.2 - 1)      -- north-west
  | 5 => (p.1, p.2 - 1)          -- west
  | 6 => (p.1 + 1, p.2 - 1)      -- south-west
  | 7 => (p.1 + 1, p.2)          -- south
  | _ => (p.1 + 1, p.2 + 1)      -- south-east

open Classical in
/-- 1 if the `k`-th neighbour of `p` is in `X`, else 0. -/
noncomputable def nb (X : Set Pt) (p : Pt) (k : Nat) : Nat := if nbrPt p k ∈ X then 1 else 0

/-- Guo–Hall condition G1: the crossing number `X_H(p)` is 1, where `X_H` counts the `i ∈ 1..4` with
`x_{2i-1} = 0` and `x_{2i} = 1` or `x_{2i+1} = 1`. -/
def CondG1 (X : Set Pt) (p : Pt) : Prop :=
  (([1, 2, 3, 4] : List Nat).filter fun i =>
    nb X p (2 * i - 1) = 0 ∧ (nb X p (2 * i) = 1 ∨ nb X p (2 * i + 1) = 1)).length = 1

/-- Guo–Hall condition G2: `2 ≤ min(n1, n2) ≤ 3`, where `n1` counts the `k` with `x_{2k-1} = 1` or
`x_{2k} = 1` and `n2` those with `x_{2k} = 1` or `x_{2k+1} = 1`. -/
def CondG2 (X : Set Pt) (p : Pt) : Prop :=
  let n1 := (([1, 2, 3, 4] : List Nat).filter fun k => nb X p (2 * k - 1) = 1 ∨ nb X p (2 * k) = 1).length
  let n2 := (([1, 2, 3, 4] : List Nat).filter fun k => nb X p (2 * k) = 1 ∨ nb X p (2 * k + 1) = 1).length
  2 ≤ min n1 n2 ∧ min n1 n2 ≤ 3

/-- Guo–Hall condition G3: `(x_2 ∨ x_3 ∨ ¬x_8) ∧ x_1 = 0`. -/
def CondG3 (X : Set Pt) (p : Pt) : Prop :=
  ¬ ((nb X p 2 = 1 ∨ nb X p 3 = 1 ∨ nb X p 8 = 0) ∧ nb X p 1 = 1)

/-- Guo–Hall condition G3': `(x_6 ∨ x_7 ∨ ¬x_4) ∧ x_5 = 0`. -/
def CondG3' (X : Set Pt) (p : Pt) : Prop :=
  ¬ ((nb X p 6 = 1 ∨ nb X p 7 = 1 ∨ nb X p 4 = 0) ∧ nb X p 5 = 1)

/-- The pixels left by the first sub-iteration: all those that are not deletable. -/
def guoHall1 (X : Set Pt) : Set Pt := {p ∈ X | ¬ (CondG1 X p ∧ CondG2 X p ∧ CondG3 X p)}

/-- The pixels left by the second sub-iteration. -/
def guoHall2 (X : Set Pt) : Set Pt := {p ∈ X | ¬ (CondG1 X p ∧ CondG2 X p ∧ CondG3' X p)}

end EdgeEval
