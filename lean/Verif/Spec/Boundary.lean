import Mathlib.Analysis.Real.Sqrt
import Verif.Model.Mask2Edge
import Verif.Spec.Rounding

/-!
# Specification of class boundaries
-/

namespace EdgeEval.Spec

/-- A pixel: row and column. -/
abbrev Px := Nat × Nat

/-- Euclidean distance of two pixels. -/
noncomputable def pdist (p q : Px) : ℝ := Real.sqrt (((p.1 : ℝ) - q.1) ^ 2 + ((p.2 : ℝ) - q.2) ^ 2)

/-- The pixels of an image of the given shape. -/
def pxSet (rows cols : Nat) : Set Px := {p | p.1 < rows ∧ p.2 < cols}

/-- `p` is an edge pixel of the region `M` in the image `U` with ignored region `I` and radius `r`: it lies in `M`
within `r` of a pixel outside `M` and `I`, or outside both within `r` of `M`, or is an ignored pixel outside `M` whose
distances to `M` and to the rest of the image add up to at most `r`. -/
def IsBoundary (r : ℝ) (U M I : Set Px) (p : Px) : Prop :=
  (p ∈ M ∧ ∃ q ∈ U, q ∉ M ∧ q ∉ I ∧ pdist p q ≤ r) ∨
  (p ∉ M ∧ p ∉ I ∧ ∃ q ∈ M, pdist p q ≤ r) ∨
  (p ∉ M ∧ p ∈ I ∧ ∃ q ∈ U, q ∉ M ∧ q ∉ I ∧ ∃ q' ∈ M, pdist p q + pdist p q' ≤ r)

/-- The transform selected by `use_cv2` / `quality`. -/
def usedDT (lib : DTLib) (useCv2 : Bool) (quality : Int) : DT := if useCv2 then lib.cv2 quality else lib.scipy

/-- The addition that goes with it. -/
def usedAdd (lib : DTLib) (useCv2 : Bool) : ℝ → ℝ → ℝ := if useCv2 then lib.add32 else lib.add64

/-- `m` is the least Euclidean distance of the pixel `p` from an unset pixel of the image. -/
def IsLeastDist (rows cols : Nat) (f : Nat → Nat → Bool) (p : Px) (m : ℝ) : Prop :=
  IsLeast {d | ∃ q ∈ pxSet rows cols, f q.1 q.2 = false ∧ d = pdist p q} m

/-- The selected library is a Euclidean distance transform up to radius `R` and up to rounding: 0 on unset pixels, the
*rounded* least Euclidean distance to an unset pixel on set pixels, at least `R + 1` when the image has no unset pixel;
and sums are rounded. The rounding is one that is fine enough for the radius (see `RoundsFine`; no rounding at all,
binary32 with `R ≤ 31` and binary64 with `R ≤ 4800` are). -/
def SoundDT (lib : DTLib) (useCv2 : Bool) (quality : Int) (R : ℝ) : Prop :=
  ∃ fl u, RoundsFine fl u R ∧
    (∀ x y, usedAdd lib useCv2 x y = fl (x + y)) ∧
    (∀ rows cols f i j, i < rows → j < cols → f i j = false → usedDT lib useCv2 quality rows cols f i j = 0) ∧
    (∀ rows cols f i j m, i < rows → j < cols → f i j = true → IsLeastDist rows cols f (i, j) m →
      usedDT lib useCv2 quality rows cols f i j = fl m) ∧
    (∀ rows cols f i j, i < rows → j < cols → f i j = true → (∀ q ∈ pxSet rows cols, f q.1 q.2 = true) →
      R + 1 ≤ usedDT lib useCv2 quality rows cols f i j)

/-- The pixels of class `k`. -/
def classPx (mask : MLEdges) (k : Nat) : Set Px := {p | p ∈ pxSet mask.h mask.w ∧ mask.at_ k p.1 p.2 = true}

/-- The pixels of the ignored classes. -/
def ignoredPx (mask : MLEdges) (ignore : List Int) : Set Px :=
  {p | p ∈ pxSet mask.h mask.w ∧ ∃ k : Nat, (k : Int) ∈ ignore ∧ mask.at_ k p.1 p.2 = true}

/-- The pixels with instance id `v`. -/
def instPx (mask : MLEdges) (im : Img Nat) (v : Nat) : Set Px :=
  {p | p ∈ pxSet mask.h mask.w ∧ im.at_ p.1 p.2 = v}

/-- The image. -/
def allPx (mask : MLEdges) : Set Px := pxSet mask.h mask.w

end EdgeEval.Spec
