import Verif.Props.Nms
import Verif.Props.Io
import Verif.Props.Mask2Edge
import Verif.Model.MatchInts

/-!
# Statements added after the second automatic mutation campaign, continued
-/

namespace EdgeEval.Props

open EdgeEval EdgeEval.Spec

/-! ## C44 -/

section ReducedSize

open EdgeEval.Nms

/-- C44: the size of a sub-sampled result. Along an axis of `n` pixels exactly those positions `s/2 + k s` are kept that lie below both `n` and
`n - (s - s/2 - 1) + 1` — every full cell of `s` pixels, and the last partial cell if it misses at most one pixel behind its centre. -/
theorem C44_reduced_size (im : Img ℝ) (r s : ℕ) (hr : 1 ≤ r) (hs : 1 < s) (h0 : 0 < im.rows) (w0 : 0 < im.cols) :
    ∃ out, convTri im r s = .ok out ∧
      (∀ k, k < out.rows ↔ ((s / 2 + k * s : ℕ) : ℤ) < min (im.rows : ℤ) ((im.rows : ℤ) - ((s : ℤ) - (s / 2 : ℕ) - 1) + 1)) ∧
      (∀ k, k < out.cols ↔ ((s / 2 + k * s : ℕ) : ℤ) < min (im.cols : ℤ) ((im.cols : ℤ) - ((s : ℤ) - (s / 2 : ℕ) - 1) + 1)) := by
  have hsl : ∀ n k : ℕ, k < sliceLen n (s / 2 + 1 - 1) ((n : ℤ) - ((s : ℤ) - ((s / 2 + 1 : ℕ) : ℤ)) + 1) s ↔
      ((s / 2 + k * s : ℕ) : ℤ) < min (n : ℤ) ((n : ℤ) - ((s : ℤ) - (s / 2 : ℕ) - 1) + 1) := by
    intro n k
    unfold sliceLen
    simp only
    rw [Nat.lt_div_iff_mul_lt (by omega)]
    generalize k * s = q
    have hd : 2 * (s / 2) ≤ s ∧ s < 2 * (s / 2) + 2 := by omega
    generalize s / 2 = t at *
    split <;> (rcases le_total (n : ℤ) ((n : ℤ) - ((s : ℤ) - t - 1) + 1) with h | h <;> simp only [h, min_eq_left, min_eq_right] <;> push_cast <;> omega)
  have := Nat.mul_pos h0 w0
  unfold convTri
  rw [if_neg (by omega), if_neg (by omega), if_pos hs]
  exact ⟨_, rfl, hsl _, hsl _⟩

-- 10 rows reduced by 4: rows 2 and 6; 11 rows: 2, 6 and 10.
example (f : Nat → Nat → ℝ) : ∃ out, convTri ⟨10, 11, f⟩ 1 4 = .ok out ∧ out.rows = 2 ∧ out.cols = 3 := by
  obtain ⟨out, h, hr, hc⟩ := C44_reduced_size ⟨10, 11, f⟩ 1 4 (by norm_num) (by norm_num) (by norm_num) (by norm_num)
  norm_num at hr hc
  have r1 := hr 1
  have r2 := hr 2
  have c2 := hc 2
  have c3 := hc 3
  norm_num at r1 r2 c2 c3
  exact ⟨out, h, by omega, by omega⟩

end ReducedSize

/-! ## C29 -/

/-- C29: without instance labels both versions raise `IndexError` (`sorted([])[0]`); the multiprocess version only if the instance map has a pixel. -/
theorem C29_no_labels (lib : DTLib) (o : BdryOpts) (fuel : Nat) (thin : Bool) (radius quality : Int) (useCv2 : Bool) (mask : MLEdges) (im : Img Nat)
    (ignore : List Int) (hign : ∀ i ∈ ignore, 0 ≤ i ∧ i < mask.n) :
    loopInstMask2Edge lib o fuel thin mask im [] ignore = .error .indexError ∧
    (0 < im.rows → 0 < im.cols → ∀ out, MpInstMask2Edge lib radius quality useCv2 false mask im [] ignore out → out = .error .indexError) := by
  obtain ⟨ign, hi', -⟩ := ignoreMask_ok mask ignore (fun i hi => by have := hign i hi; omega)
  have hm : minLabel [] = .error .indexError := by
    unfold minLabel
    rw [List.mergeSort_nil]
  constructor
  · unfold loopInstMask2Edge
    rw [hi', hm]
  · intro hr hc out h
    unfold MpInstMask2Edge at h
    have hne : uniqueVals im ≠ [] := List.ne_nil_of_mem ((mem_uniqueVals _ _).2 ⟨0, 0, hr, hc, rfl⟩)
    have : mpLabelInst im [] = .error .indexError := by
      unfold mpLabelInst
      rw [if_neg hne, hm]
    simpa [hi', this] using h

example (lib : DTLib) : loopInstMask2Edge lib { radius := 1 } 5 false (uniMask 2 2) ⟨2, 2, fun _ _ => 26001⟩ [] [] = .error .indexError :=
  (C29_no_labels lib { radius := 1 } 5 false 1 0 true (uniMask 2 2) ⟨2, 2, fun _ _ => 26001⟩ [] (by simp)).1

/-! ## C38 -/

open Text in
/-- C38: a digit group that is empty, or ends with an underscore, is refused as a number, with whatever digits before it. -/
theorem C38_bad_digits (ds : List Nat) (hd : ∀ d ∈ ds, d < 10) (hds : ds ≠ []) :
    natLit [] = .error .valueError ∧ natLit (ds.map digitCh ++ ['_']) = .error .valueError ∧
      natLit (ds.map digitCh ++ ['_', '_', '1']) = .error .valueError ∧ natLit ('_' :: ds.map digitCh) = .error .valueError := by
  have hcd : ∀ d < 10, charDigit (digitCh d) = some d := by decide +kernel
  have hu : charDigit '_' = none := by decide +kernel
  have hbad : ∀ (tail : Str), digitsU true tail = none → ∀ (l : List Nat) (prev : Bool), (∀ d ∈ l, d < 10) → l ≠ [] ∨ prev = true →
      digitsU prev (l.map digitCh ++ tail) = none := by
    intro tail ht l
    induction l with
    | nil =>
      intro prev _ hp
      rcases hp with hp | hp
      · exact absurd rfl hp
      · rw [hp]; exact ht
    | cons d l ih =>
      intro prev hl _
      rw [List.map_cons, List.cons_append, digitsU, hcd d (hl d (by simp))]
      simp only
      rw [ih true (fun x hx => hl x (by simp [hx])) (.inr rfl)]
      rfl
  have h1 : digitsU true ['_'] = none := by
    rw [digitsU, hu]; rfl
  have h2 : digitsU true ['_', '_', '1'] = none := by
    rw [digitsU, hu]
    simp only [and_self, if_true]
    rw [digitsU, hu]; rfl
  refine ⟨rfl, ?_, ?_, ?_⟩
  · unfold natLit
    rw [hbad _ h1 ds false hd (.inl hds)]
  · unfold natLit
    rw [hbad _ h2 ds false hd (.inl hds)]
  · unfold natLit
    rw [digitsU, hu]
    rfl

open Text in
example : natLit ['1', '2', '_'] = .error .valueError := (C38_bad_digits [1, 2] (by decide) (by decide)).2.1

/-! ## C58 -/

/-- C58: the trace of the preparation contains the values match.cc computes for the graph: the number of nodes `n1 + n2` and the doubled number, the edge
total, and for every row of `igraph` the node numbers after the offsets. -/
theorem C58_covers_graph (h w r ne ow : Nat) (ns1 ns2 : List Pix) (g : List GEdge) :
    ((ns1.length : ℤ) + ns2.length) ∈ preInts h w r ns1 ns2 ne ow g ∧
    (2 * ((ns1.length : ℤ) + ns2.length)) ∈ preInts h w r ns1 ns2 ne ow g ∧
    ((announcedM ns1.length ns2.length ne : Nat) : ℤ) ∈ preInts h w r ns1 ns2 ne ow g ∧
    (1 + ((ns1.length : ℤ) + ns2.length)) ∈ preInts h w r ns1 ns2 ne ow g ∧
    ((ow : ℤ) * 100) ∈ preInts h w r ns1 ns2 ne ow g ∧
    ∀ e ∈ g, ∀ z ∈ [(e.i : ℤ) + 1, (e.j : ℤ) + (1 + ((ns1.length : ℤ) + ns2.length)), e.c], z ∈ preInts h w r ns1 ns2 ne ow g := by
  unfold preInts countInts graphInts
  refine ⟨?_, ?_, ?_, ?_, ?_, fun e he z hz => ?_⟩
  · simp
  · simp
  · simp
  · simp
  · simp [multiplier]
  · refine List.mem_append_right _ (List.mem_append_right _ (List.mem_flatMap.2 ⟨e, he, ?_⟩))
    simp only [List.mem_cons, List.not_mem_nil, or_false] at hz ⊢
    push_cast
    tauto

/-- C58: the trace of the search windows contains, for every pixel and every offset of the window, the squares, their sum and the neighbour's coordinates. -/
theorem C58_covers_windows (h w r : Nat) (p : Pix) (hp : p ∈ pixels h w) (u v : ℤ) (hu : (u, v) ∈ window r) :
    ∀ z ∈ [u * u, v * v, u * u + v * v, (p.1 : ℤ) + u, (p.2 : ℤ) + v], z ∈ windowInts h w r := by
  intro z hz
  unfold windowInts
  refine List.mem_append_right _ (List.mem_flatMap.2 ⟨p, hp, List.mem_flatMap.2 ⟨(u, v), hu, ?_⟩⟩)
  simp only [List.mem_cons, List.not_mem_nil, or_false] at hz ⊢
  tauto

/-- C58: the trace of the `unsigned` values contains the sizes of both graphs and the index of each of their elements. -/
theorem C58_covers_unsigned (n m : Nat) :
    3 * m ∈ matchUnsigned n m ∧ 3 * n ∈ matchUnsigned n m ∧
    (∀ i k, i < m → k < 3 → 3 * i + k ∈ matchUnsigned n m) ∧ (∀ i k, i < n → k < 3 → 3 * i + k ∈ matchUnsigned n m) := by
  unfold matchUnsigned
  refine ⟨by simp [Nat.mul_comm], by simp [Nat.mul_comm], fun i k hi hk => ?_, fun i k hi hk => ?_⟩
  · refine List.mem_append_left _ (List.mem_append_right _ (List.mem_flatMap.2 ⟨i, List.mem_range.2 hi, ?_⟩))
    simp only [List.mem_cons, List.not_mem_nil, or_false]
    omega
  · refine List.mem_append_right _ (List.mem_flatMap.2 ⟨i, List.mem_range.2 hi, ?_⟩)
    simp only [List.mem_cons, List.not_mem_nil, or_false]
    omega

/-- C58: the trace of the result contains, for every matched pixel, its partner's encoded position and the squared distance. -/
theorem C58_covers_partners (h w : Nat) (m : Pix → Option Pix) (p q : Pix) (hp : p ∈ pixels h w) (hq : m p = some q) :
    ∀ z ∈ [(q.1 : ℤ) * h + q.2 + 1, ((p.1 : ℤ) - q.1) * ((p.1 : ℤ) - q.1) + ((p.2 : ℤ) - q.2) * ((p.2 : ℤ) - q.2)], z ∈ partnerInts h w m := by
  intro z hz
  unfold partnerInts
  refine List.mem_flatMap.2 ⟨p, hp, ?_⟩
  rw [hq]
  simp only [List.mem_cons, List.not_mem_nil, or_false] at hz ⊢
  tauto

example : (7 : ℤ) ∈ preInts 1 1 1 [(0, 0), (1, 0)] [(0, 0)] 1 5 [⟨0, 3, 1⟩] := by
  refine (C58_covers_graph 1 1 1 1 5 [(0, 0), (1, 0)] [(0, 0)] [⟨0, 3, 1⟩]).2.2.2.2.2 ⟨0, 3, 1⟩ (by simp) 7 (by simp)

example : (8 : Nat) ∈ matchUnsigned 3 2 := (C58_covers_unsigned 3 2).2.2.2 2 2 (by norm_num) (by norm_num)

end EdgeEval.Props
