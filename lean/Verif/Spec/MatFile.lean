import Verif.Model.MatFile
import Mathlib.Algebra.BigOperators.Group.Finset.Basic
import Mathlib.Order.Interval.Finset.Nat

/-!
# Specification vocabulary for MATLAB files
-/

namespace EdgeEval.Spec

open Text MatFile ConvertSbd

/-- The value a compressed sparse matrix has at row `i`, column `j`: the stored values of column `j` (those with numbers from
`indptr[j]` to `indptr[j+1]`) whose row is `i`, added up. -/
def stored (m : Csc) (i j : Nat) : Int :=
  ∑ k ∈ (Finset.Ico (m.indptr.getD j 0) (m.indptr.getD (j + 1) 0)).filter fun k => m.indices.getD k 0 = i, m.data.getD k 0

/-- The file has a variable of this name with this value. -/
def HasVar (f : MFile) (name : Str) (v : MVal) : Prop :=
  f.names.idxOf name < f.names.length ∧ f.vals (f.names.idxOf name) = v

/-- A structure with these field names has `v` in the field `name`. -/
def HasField (names : List Str) (x : Nat → MVal) (name : Str) (v : MVal) : Prop :=
  names.idxOf name < names.length ∧ x (names.idxOf name) = v

/-- A column cell of sparse 0/1 matrices: the boundaries of the classes (or instances). -/
def IsStack (v : MVal) (b : MLEdges) : Prop :=
  ∃ f, v = .cell b.n 1 f ∧ ∀ k < b.n, ∃ m, f k 0 = .sparse m ∧ m.rows = b.h ∧ m.cols = b.w ∧
    ∀ i < b.h, ∀ j < b.w, stored m i j = if b.at_ k i j then 1 else 0

/-- A full matrix: the segmentation. -/
def IsMatrix (v : MVal) (s : Img Nat) : Prop :=
  ∃ f, v = .num s.rows s.cols f ∧ ∀ i < s.rows, ∀ j < s.cols, f i j = s.at_ i j

/-- A row or column vector: the categories. -/
def IsVector (v : MVal) (l : List Nat) : Prop :=
  (∃ f, v = .num 1 l.length f ∧ ∀ k < l.length, f 0 k = l.getD k 0) ∨
  (∃ f, v = .num l.length 1 f ∧ ∀ k < l.length, f k 0 = l.getD k 0)

/-- The three values of an SBD file: boundaries, segmentation of the same size, categories. -/
structure IsAnnotation (vb vs vc : MVal) (b : MLEdges) (s : Img Nat) (l : List Nat) : Prop where
  bdry : IsStack vb b
  seg : IsMatrix vs s
  cats : IsVector vc l
  rows : s.rows = b.h
  cols : s.cols = b.w

/-- A class file of SBD, as documented. -/
def IsClsFile (f : MFile) (c : ClsMat) : Prop :=
  ∃ x, HasVar f "GTcls".toList (.struct ["Boundaries".toList, "Segmentation".toList, "CategoriesPresent".toList] x) ∧
    IsAnnotation (x 0) (x 1) (x 2) c.bdry c.seg c.present

/-- An instance file of SBD, as documented. -/
def IsInstFile (f : MFile) (c : InstMat) : Prop :=
  ∃ x, HasVar f "GTinst".toList (.struct ["Segmentation".toList, "Boundaries".toList, "Categories".toList] x) ∧
    IsAnnotation (x 1) (x 0) (x 2) c.bdry c.seg c.cats

/-- What a loader returned is this annotation: a uint8 stack of zeros and ones, a two-dimensional array, a
one-dimensional array. -/
structure Returns (r : Loaded) (b : MLEdges) (s : Img Nat) (l : List Nat) : Prop where
  size : r.n = b.n ∧ r.h = b.h ∧ r.w = b.w
  bdry : ∀ k < b.n, ∀ i < b.h, ∀ j < b.w, r.bdry k i j = if b.at_ k i j then 1 else 0
  seg : ∃ g, r.seg = .num [s.rows, s.cols] g ∧ ∀ i < s.rows, ∀ j < s.cols, g [i, j] = s.at_ i j
  cats : ∃ g, r.cats = .num [l.length] g ∧ ∀ k < l.length, g [k] = l.getD k 0

/-- A column cell of one-line strings: the sample names. -/
def IsNames (v : MVal) (l : List Str) : Prop :=
  ∃ f, v = .cell l.length 1 f ∧ ∀ k < l.length, f k 0 = .char [l.getD k []]

/-- A row cell of structures with a field `Boundaries`: the annotations of a BSDS picture. -/
def IsBsds (v : MVal) (l : List (Img Nat)) : Prop :=
  ∃ f, v = .cell 1 l.length f ∧ ∀ k < l.length, ∃ names x vb, f 0 k = .struct names x ∧
    HasField names x "Boundaries".toList vb ∧ IsMatrix vb (l.getD k ⟨0, 0, fun _ _ => 0⟩)

end EdgeEval.Spec
