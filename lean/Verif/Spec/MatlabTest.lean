import Verif.Model.MatlabTest
import Mathlib.Data.Set.Card

/-!
# Specification vocabulary for the comparison with MATLAB
-/

namespace EdgeEval.Spec

open Text MatlabTest

/-- An index tuple inside a shape. -/
def Inside (s i : List Nat) : Prop := List.Forall₂ (· < ·) i s

/-- Two pictures are the same: same size, same entries. -/
def SamePicture (a b : NpArr) : Prop := a.shape = b.shape ∧ ∀ i, Inside a.shape i → a.at_ i = b.at_ i

/-- All entries are bytes. -/
def Bytes (a : NpArr) : Prop := ∀ i, Inside a.shape i → 0 ≤ a.at_ i ∧ a.at_ i < 256

/-- The number of places where two pictures of the same size differ. -/
noncomputable def differences (a b : NpArr) : Nat := {i | Inside a.shape i ∧ a.at_ i ≠ b.at_ i}.ncard

/-- The array of an RGB picture. -/
def rgbArr (im : Rgb) : NpArr :=
  ⟨[im.h, im.w, 3], fun i => match i with
    | [y, x, 0] => im.r y x
    | [y, x, 1] => im.g y x
    | [y, x, _] => im.b y x
    | _ => 0⟩

/-- Two RGB pictures are the same. -/
def SameRgb (p q : Rgb) : Prop :=
  p.h = q.h ∧ p.w = q.w ∧ ∀ y < p.h, ∀ x < p.w, p.r y x = q.r y x ∧ p.g y x = q.g y x ∧ p.b y x = q.b y x

/-- The report about a list of pairs: the file, the picture expected and the picture found. -/
noncomputable def reportOn (l : List (Str × NpArr × NpArr)) : Report := by
  classical exact
  ⟨(l.filter fun x => decide (3 < differences x.2.1 x.2.2)).map fun x => (x.1, differences x.2.1 x.2.2),
    (l.filter fun x => decide (¬ SamePicture x.2.1 x.2.2)).length⟩

end EdgeEval.Spec
