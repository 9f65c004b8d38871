import Verif.Props.NmsFloat
import Verif.Props.Nms
import Verif.Props.Io
import Verif.Props.Tighten2

/-!
# Statements added after the second automatic mutation campaign
-/

namespace EdgeEval.Props

open EdgeEval EdgeEval.Spec

/-! ## C65 -/

section OneWide

open EdgeEval.NmsFloat

variable {fl : ℚ → ℚ}

theorem oneWide_lastPos (H : RoundsNearest fl) : -1 < lastPos fl 1 ∧ lastPos fl 1 ≤ 0 := by
  have h1 : 1 ≤ fl 1.001 := H.one_le (by norm_num)
  have e1 := H.abs_err 1.001 1 (by norm_num) (by norm_num [abs_of_pos])
  rw [abs_le] at e1
  norm_num at e1 h1
  have e2 := H.abs_err ((1 : ℚ) - fl 1.001) 1 (by norm_num) (by
    norm_num
    rw [abs_lt]
    constructor <;> linarith)
  rw [abs_le] at e2
  norm_num at e2
  unfold lastPos
  norm_num
  refine ⟨by linarith, ?_⟩
  have := H.mono (show (1 : ℚ) - fl (1001 / 1000) ≤ 0 by linarith)
  rwa [H.zero] at this

theorem oneWide_clamp (H : RoundsNearest fl) (x : ℚ) : cInt (clampCoord fl ((1 : ℕ) : ℤ) x) = 0 := by
  obtain ⟨a, b⟩ := oneWide_lastPos H
  unfold clampCoord
  rw [Nat.cast_one]
  split
  · unfold cInt; simp
  · rename_i h0
    have h0 : 0 ≤ x := not_lt.1 h0
    split
    · unfold cInt
      split
      · rename_i h1
        rw [le_antisymm b h1]; simp
      · rw [Int.ceil_eq_iff]
        constructor <;> push_cast <;> linarith
    · rename_i h1
      have : x = 0 := le_antisymm ((not_lt.1 h1).trans b) h0
      subst this
      unfold cInt; simp

theorem oneWide_interp (H : RoundsNearest fl) (I : Img ℚ) (h : I.rows = 1 ∨ I.cols = 1) (x y : ℚ) :
    interp fl I I.rows I.cols x y = .error .terminated := by
  unfold interp
  have : readAt I (cInt (clampCoord fl (I.rows : ℤ) y) + 1) (cInt (clampCoord fl (I.cols : ℤ) x) + 1) = .error .terminated := by
    unfold readAt
    rw [if_neg]
    rcases h with h | h
    · rw [h, oneWide_clamp H]; simp
    · rw [h, oneWide_clamp H]; simp
  simp only [this]
  split
  · rename_i h4
    cases h4
  · rfl

end OneWide

/-- C65 (finding): with any rounding, sine and cosine, an image of a single row or a single column with a response other than 0 and a radius of at least
1 makes the interpolation ask for an element outside the matrix, and the C++ exception ends the Python process. -/
theorem C65_one_wide_reads_outside {fl fl32 cosF sinF : ℚ → ℚ} (H : RoundsNearest fl) (edge ori : Img ℚ) (h1 : edge.rows = 1 ∨ edge.cols = 1)
    (hrows : edge.rows = ori.rows) (hcols : edge.cols = ori.cols) (r s : ℤ) (hr : 1 ≤ r) (m : ℚ)
    (y x : ℕ) (hy : y < edge.rows) (hx : x < edge.cols) (hne : edge.at_ y x ≠ 0) :
    NmsFloat.nms fl fl32 cosF sinF edge ori r s m = .error .terminated := by
  have hsup : ∀ e c s' x y, NmsFloat.suppressLoop (NmsFloat.beats fl edge e c s' x y) (Nms.offsets r) = .error .terminated := by
    intro e c s' x y
    have hmem : ∃ d ∈ Nms.offsets r, d ≠ 0 := ⟨1, Nms.mem_offsets.2 (by rw [abs_one]; exact hr), by omega⟩
    generalize Nms.offsets r = ds at hmem
    induction ds with
    | nil => simp at hmem
    | cons d ds ih =>
      rw [NmsFloat.suppressLoop]
      by_cases hd : d = 0
      · rw [if_neg (by simp [hd])]
        apply ih
        obtain ⟨d', hm', hd'⟩ := hmem
        rcases List.mem_cons.1 hm' with h | h
        · exact absurd (h.trans hd) hd'
        · exact ⟨d', h, hd'⟩
      · rw [if_pos hd]
        unfold NmsFloat.beats
        rw [oneWide_interp H edge h1]
  have hpix : ∀ m y' x', NmsFloat.nmsPixel fl cosF sinF edge ori r m y' x' = .error .terminated ∨
      (edge.at_ y' x' = 0 ∧ ∃ v, NmsFloat.nmsPixel fl cosF sinF edge ori r m y' x' = .ok v) := by
    intro m y' x'
    unfold NmsFloat.nmsPixel
    by_cases h : edge.at_ y' x' = 0
    · right; exact ⟨h, edge.at_ y' x', by simp only [if_pos h]⟩
    · left; simp only [if_neg h, hsup]
  have hfp : ∀ m (ps : List (ℕ × ℕ)) out, (∃ p ∈ ps, edge.at_ p.2 p.1 ≠ 0) →
      NmsFloat.firstPass fl cosF sinF edge ori r m ps out = .error .terminated := by
    intro m ps
    induction ps with
    | nil => intro out h; simp at h
    | cons p ps ih =>
      intro out h
      rw [NmsFloat.firstPass]
      rcases hpix m p.2 p.1 with h1 | ⟨h0, v, hv⟩
      · rw [h1]
      · rw [hv]
        apply ih
        obtain ⟨q, hq, hqn⟩ := h
        rcases List.mem_cons.1 hq with h2 | h2
        · rw [h2] at hqn; exact absurd h0 hqn
        · exact ⟨q, h2, hqn⟩
  unfold NmsFloat.nms
  rw [if_neg (by omega), if_neg (by omega)]
  unfold NmsFloat.benms
  rw [hfp _ _ _ ⟨(x, y), Nms.mem_loop2.2 ⟨hx, hy⟩, hne⟩]

example : (⟨1, 3, fun _ _ => 1⟩ : Img ℚ).rows = 1 ∨ (⟨1, 3, fun _ _ => 1⟩ : Img ℚ).cols = 1 := .inl rfl

/-! ## C38 -/

open Text in
/-- C38: the only way reading a number can fail is with the `ValueError` of `float(s)`. -/
theorem C38_number_errors (s : Str) (e : PyErr) (h : floatLit s = .error e) : e = .valueError := by
  unfold floatLit at h
  simp only at h
  split at h <;> simp_all

open Text in
example : floatLit ['x'] = .error .valueError := by
  unfold floatLit
  decide +kernel

open Text in
/-- C37: a value exactly between two six-decimal numbers is written as the one whose last digit is even. -/
theorem C37_ties_to_even (x : ℚ) (n : ℤ) (hn : 0 ≤ n) (hx : x * 10 ^ 6 = n + 1 / 2) :
    floatLit (fixed6 x) = .ok ((if n % 2 = 0 then n else n + 1 : ℤ) / 10 ^ 6) := by
  rw [Io.floatLit_fixed]
  have h0 : 0 ≤ x := by
    have : (0 : ℚ) ≤ n := by exact_mod_cast hn
    by_contra h
    push Not at h
    linarith
  have hf : ⌊x * 10 ^ 6⌋ = n := by
    rw [Int.floor_eq_iff, hx]
    constructor <;> linarith
  unfold round6
  have : roundEven (x * 10 ^ 6) = if n % 2 = 0 then n else n + 1 := by
    unfold roundEven
    simp only [hf]
    rw [hx, if_neg (by norm_num), if_neg (by norm_num)]
  rw [abs_of_nonneg h0, this, if_neg (not_lt.2 h0), one_mul]
  have h1 : 0 ≤ (if n % 2 = 0 then n else n + 1) := by split <;> omega
  generalize (if n % 2 = 0 then n else n + 1) = k at h1
  obtain ⟨k, rfl⟩ := Int.eq_ofNat_of_zero_le h1
  simp

open Text in
example : floatLit (fixed6 (25 / 10 ^ 7)) = .ok ((2 : ℤ) / 10 ^ 6) := by
  have := C37_ties_to_even (25 / 10 ^ 7) 2 (by norm_num) (by norm_num)
  simpa using this

/-- C65: a result exactly between two bytes is written as the even one. -/
theorem C65_bytes_ties_to_even (fl : ℚ → ℚ) (im : Img ℚ) (y x n : Nat) (h0 : 0 ≤ im.at_ y x) (h1 : im.at_ y x ≤ 1)
    (h : fl (im.at_ y x * 255) = n + 1 / 2) : (NmsFloat.quantize fl im).at_ y x = if n % 2 = 0 then n else n + 1 := by
  have hf : ⌊(n : ℚ) + 1 / 2⌋ = (n : ℤ) := by
    rw [Int.floor_eq_iff]
    constructor <;> push_cast <;> linarith
  simp only [NmsFloat.quantize, max_eq_left h0, min_eq_left h1, h, NmsFloat.npRound, hf]
  rw [if_neg (by push_cast; norm_num), if_neg (by push_cast; norm_num)]
  split <;> split <;> omega

example : (NmsFloat.quantize id ⟨1, 1, fun _ _ => 1 / 2⟩).at_ 0 0 = 128 :=
  C65_bytes_ties_to_even id ⟨1, 1, fun _ _ => 1 / 2⟩ 0 0 127 (by norm_num) (by norm_num) (by norm_num)

/-! ## C58 -/

/-- The values `C58_no_overflow` speaks about include the squares of the shape and the square of the diagonal that the wrapper computes. -/
theorem C58_covers_diagonal (rows cols : Nat) :
    ∀ z ∈ [(rows : ℤ) * rows, (cols : ℤ) * cols, (rows : ℤ) * rows + (cols : ℤ) * cols], z ∈ pyxInts rows cols := by
  intro z hz
  simp only [List.mem_cons, List.not_mem_nil, or_false] at hz
  unfold pyxInts
  simp only [List.mem_cons, List.not_mem_nil, or_false]
  tauto

example : (25 : ℤ) ∈ pyxInts 3 4 := C58_covers_diagonal 3 4 25 (by simp)

/-! ## C13 -/

open Classical Finset in
/-- Edge pixels (x, y) of a map of `h` rows and `w` columns. -/
noncomputable def edgeSet (h w : Nat) (b : BMap) : Finset Pix := (range w ×ˢ range h).filter fun p => b p.2 p.1 = true

/-- Two pixels are within the tolerance. -/
def NearPix (md2 : ℚ) (p q : Pix) : Prop := ((p.1 : ℚ) - q.1) ^ 2 + ((p.2 : ℚ) - q.2) ^ 2 ≤ md2

theorem nearPix_iff {md2 : ℚ} {p q : Pix} : NearPix md2 p q ↔ (pixDist2 p q : ℚ) ≤ md2 := by
  unfold NearPix pixDist2
  have e : ∀ a b : Nat, (((((a : ℤ) - b).natAbs ^ 2 : Nat)) : ℚ) = ((a : ℚ) - b) ^ 2 := by
    intro a b
    have : ((((a : ℤ) - b).natAbs ^ 2 : Nat) : ℤ) = ((a : ℤ) - b) ^ 2 := by push_cast; rw [sq_abs]
    have h2 : (((((a : ℤ) - b).natAbs ^ 2 : Nat) : ℤ) : ℚ) = (((a : ℤ) - b) ^ 2 : ℤ) := by rw [this]
    rw [Int.cast_natCast] at h2
    rw [h2]; push_cast; rfl
  rw [Nat.cast_add, e, e]

open Classical Finset in
/-- C13: the graph handed to the solver has one arc for every pair of edge pixels within the tolerance, six (or as many as there are) random outlier
connections for every pixel that has a partner at all, six for every pair of outliers' owners, and one overlay arc for every such pixel, whatever the
random stream. -/
theorem C13_arc_count (h w : Nat) (b1 b2 : BMap) (md2 oc2 : ℚ) (xs : Nat → ℚ) (pos : Nat)
    (hx : ∀ i, 0 ≤ xs i ∧ xs i < 1) (hmd : 0 ≤ md2) (hoc : md2 < oc2) :
    let n1 := ((edgeSet h w b1).filter fun p => ∃ q ∈ edgeSet h w b2, NearPix md2 p q).card
    let n2 := ((edgeSet h w b2).filter fun q => ∃ p ∈ edgeSet h w b1, NearPix md2 p q).card
    let pairs := ((edgeSet h w b1 ×ˢ edgeSet h w b2).filter fun pq => NearPix md2 pq.1 pq.2).card
    (matchGraph h w b1 b2 md2 oc2 xs pos).length =
      pairs + min 6 (n1 - 1) * n1 + min 6 (n2 - 1) * n2 + min 6 (min n1 n2) * max n1 n2 + (n1 + n2) := by
  have h1 : (nodes1 h w md2 b1 b2).length = ((edgeSet h w b1).filter fun p => ∃ q ∈ edgeSet h w b2, NearPix md2 p q).card := by
    rw [← List.toFinset_card_of_nodup (nodup_nodes1 ..)]
    congr 1
    ext p
    rw [List.mem_toFinset, mem_nodes1]
    simp only [edgeSet, mem_filter, mem_product, mem_range, nearPix_iff]
    constructor
    · rintro ⟨a, b, c, q, d, e, f, g⟩; exact ⟨⟨⟨a, b⟩, c⟩, q, ⟨⟨d, e⟩, f⟩, g⟩
    · rintro ⟨⟨⟨a, b⟩, c⟩, q, ⟨⟨d, e⟩, f⟩, g⟩; exact ⟨a, b, c, q, d, e, f, g⟩
  have h2 : (nodes2 h w md2 b1 b2).length = ((edgeSet h w b2).filter fun q => ∃ p ∈ edgeSet h w b1, NearPix md2 p q).card := by
    rw [← List.toFinset_card_of_nodup (nodup_nodes2 ..)]
    congr 1
    ext p
    rw [List.mem_toFinset, mem_nodes2]
    simp only [edgeSet, mem_filter, mem_product, mem_range, nearPix_iff]
    constructor
    · rintro ⟨a, b, c, q, d, e, f, g⟩; exact ⟨⟨⟨a, b⟩, c⟩, q, ⟨⟨d, e⟩, f⟩, g⟩
    · rintro ⟨⟨⟨a, b⟩, c⟩, q, ⟨⟨d, e⟩, f⟩, g⟩; exact ⟨a, b, c, q, d, e, f, g⟩
  have h3 : (realEdges h w md2 b1 b2).length = ((edgeSet h w b1 ×ˢ edgeSet h w b2).filter fun pq => NearPix md2 pq.1 pq.2).card := by
    have : (realEdges h w md2 b1 b2).length = ((realEdges h w md2 b1 b2).map fun e => (e.i, e.j)).toFinset.card := by
      rw [List.toFinset_card_of_nodup (nodup_realEdges ..), List.length_map]
    rw [this]
    refine card_bij (fun ij _ => ((nodes1 h w md2 b1 b2).getD ij.1 (0, 0), (nodes2 h w md2 b1 b2).getD ij.2 (0, 0))) ?_ ?_ ?_
    · intro ij hij
      obtain ⟨e, he, rfl⟩ := List.mem_map.1 (List.mem_toFinset.1 hij)
      obtain ⟨a, b, c, d⟩ := mem_realEdges.1 he
      have hp := mem_nodes1.1 (getD_mem a)
      have hq := mem_nodes2.1 (getD_mem b)
      rw [mem_filter, mem_product, nearPix_iff, ← c]
      simp only [edgeSet, mem_filter, mem_product, mem_range]
      exact ⟨⟨⟨⟨hp.1, hp.2.1⟩, hp.2.2.1⟩, ⟨hq.1, hq.2.1⟩, hq.2.2.1⟩, d⟩
    · intro ij hij kl hkl heq
      obtain ⟨e, he, rfl⟩ := List.mem_map.1 (List.mem_toFinset.1 hij)
      obtain ⟨e', he', rfl⟩ := List.mem_map.1 (List.mem_toFinset.1 hkl)
      obtain ⟨a, b, -, -⟩ := mem_realEdges.1 he
      obtain ⟨a', b', -, -⟩ := mem_realEdges.1 he'
      simp only [Prod.mk.injEq] at heq ⊢
      exact ⟨getD_inj (nodup_nodes1 ..) a a' heq.1, getD_inj (nodup_nodes2 ..) b b' heq.2⟩
    · rintro ⟨p, q⟩ hpq
      rw [mem_filter, mem_product, nearPix_iff] at hpq
      simp only [edgeSet, mem_filter, mem_product, mem_range] at hpq
      obtain ⟨⟨⟨⟨p1, p2⟩, p3⟩, ⟨q1, q2⟩, q3⟩, hd⟩ := hpq
      have hp : p ∈ nodes1 h w md2 b1 b2 := mem_nodes1.2 ⟨p1, p2, p3, q, q1, q2, q3, hd⟩
      have hq : q ∈ nodes2 h w md2 b1 b2 := mem_nodes2.2 ⟨q1, q2, q3, p, p1, p2, p3, hd⟩
      refine ⟨((nodes1 h w md2 b1 b2).idxOf p, (nodes2 h w md2 b1 b2).idxOf q), ?_, by simp only [getD_idxOf hp, getD_idxOf hq]⟩
      rw [List.mem_toFinset, List.mem_map]
      refine ⟨⟨(nodes1 h w md2 b1 b2).idxOf p, (nodes2 h w md2 b1 b2).idxOf q, pixDist2 p q⟩,
        mem_realEdges.2 ⟨List.idxOf_lt_length_of_mem hp, List.idxOf_lt_length_of_mem hq, ?_, hd⟩, rfl⟩
      rw [getD_idxOf hp, getD_idxOf hq]
  have := (C13_graph h w b1 b2 md2 oc2 xs pos hx hmd hoc).1
  rw [List.length_map] at this
  rw [this]
  unfold announcedM deg1 deg3 degree
  rw [h1, h2, h3]

/-- Two pixels against one, all within the tolerance: one random connection for each of the two pixels, none for the single one. -/
example : (matchGraph 1 2 (fun _ _ => true) (fun _ x => decide (x = 0)) 1 2 (fun _ => 0) 0).length = 2 + 2 + 0 + 2 + 3 := by decide +kernel

end EdgeEval.Props
