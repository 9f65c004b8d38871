import Verif.Model.Csa

/-!
# Specification vocabulary for assignment problems

The graph has left nodes `1..N`, right nodes `N+1..2N` and weighted arcs from left to right.
-/

namespace EdgeEval

/-- `M` is a perfect matching of the graph `g`: it uses arcs of `g`, every left node occurs exactly once
as a tail and every right node exactly once as a head. -/
def IsPerfectMatching (N : Nat) (g M : List InArc) : Prop :=
  (∀ a ∈ M, a ∈ g) ∧ (M.map InArc.tail).Perm (List.range' 1 N) ∧
    (M.map InArc.head).Perm (List.range' (N + 1) N)

/-- Total cost of a set of arcs. -/
def totalCost (M : List InArc) : Int := (M.map InArc.cost).sum

/-- Every arc goes from a left node to a right node. -/
def WellFormedGraph (N : Nat) (g : List InArc) : Prop :=
  ∀ a ∈ g, 1 ≤ a.tail ∧ a.tail ≤ N ∧ N + 1 ≤ a.head ∧ a.head ≤ 2 * N

end EdgeEval
