import Verif.Model.Codec

/-!
# Specification vocabulary for multi-label edges and label tables
-/

namespace EdgeEval.Spec

/-- Two multi-label edge arrays are the same numpy array: same shape and same entries. -/
def SameEdges (a b : MLEdges) : Prop :=
  a.n = b.n ∧ a.h = b.h ∧ a.w = b.w ∧
    ∀ k i j, k < a.n → i < a.h → j < a.w → a.at_ k i j = b.at_ k i j

/-- Two 2-D arrays are the same numpy array. -/
def SameImg {α : Type} (a b : Img α) : Prop :=
  a.rows = b.rows ∧ a.cols = b.cols ∧ ∀ i j, i < a.rows → j < a.cols → a.at_ i j = b.at_ i j

end EdgeEval.Spec
