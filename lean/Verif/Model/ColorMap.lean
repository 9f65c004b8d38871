import Mathlib.Data.Nat.Bitwise
import Mathlib.Data.Rat.Defs

/-!
# `scripts/other/pascal_voc_colormap.py`
-/

namespace EdgeEval.ColorMap

/-- pascal_voc_colormap.py:15-16  `bitget`. -/
def bitget (v idx : Nat) : Bool := (v &&& (1 <<< idx)) ≠ 0

/-- Loop variables of the inner loop. -/
structure St where
  r : Nat
  g : Nat
  b : Nat
  c : Nat
  deriving DecidableEq

/-- pascal_voc_colormap.py:23-27  one iteration. -/
def step (s : St) (j : Nat) : St where
  r := s.r ||| ((bitget s.c 0).toNat <<< (7 - j))
  g := s.g ||| ((bitget s.c 1).toNat <<< (7 - j))
  b := s.b ||| ((bitget s.c 2).toNat <<< (7 - j))
  c := s.c >>> 3

/-- pascal_voc_colormap.py:21-27  the inner loop for label `i`. -/
def loop (i : Nat) : St := (List.range 8).foldl step ⟨0, 0, 0, i⟩

/-- pascal_voc_colormap.py:29  the entry, stored as `uint8`. -/
def color (i : Nat) : Nat × Nat × Nat := ((loop i).r % 256, (loop i).g % 256, (loop i).b % 256)

/-- pascal_voc_colormap.py:14-32  `color_map(N)`. -/
def colorMap (n : Nat) : List (Nat × Nat × Nat) := (List.range n).map color

/-- pascal_voc_colormap.py:31  `color_map(N, normalized=True)` (float rounding ignored). -/
def colorMapNorm (n : Nat) : List (ℚ × ℚ × ℚ) :=
  (colorMap n).map fun t => ((t.1 : ℚ) / 255, (t.2.1 : ℚ) / 255, (t.2.2 : ℚ) / 255)

end EdgeEval.ColorMap
