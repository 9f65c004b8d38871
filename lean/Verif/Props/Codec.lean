import Verif.Model.Codec
import Verif.Spec.Labels
import Mathlib.Data.Nat.Bitwise
import Mathlib.Data.List.GetD
import Mathlib.Tactic.IntervalCases

/-!
# C22, C23, C25: encoding and decoding of multi-label edges
-/

namespace EdgeEval.Props

open EdgeEval.Spec

/-! ## Binary words -/

/-- `Σ_{t<n} 2^t * b t`. -/
def word (b : Nat → Bool) : Nat → Nat
  | 0 => 0
  | n + 1 => word b n + 2 ^ n * (b n).toNat

theorem word_lt (b : Nat → Bool) (n : Nat) : word b n < 2 ^ n := by
  induction n with
  | zero => simp [word]
  | succ n ih =>
    rw [word, pow_succ]
    rcases b n with _ | _ <;> simp <;> omega

theorem word_testBit (b : Nat → Bool) (n k : Nat) : (word b n).testBit k = (decide (k < n) && b k) := by
  induction n with
  | zero => simp [word]
  | succ n ih =>
    rw [word, Nat.add_comm, Nat.testBit_two_pow_mul_add _ (word_lt b n)]
    split
    · next h => rw [ih]; simp [h, Nat.lt_succ_of_lt h]
    · next h =>
      rcases Nat.lt_or_ge n k with h2 | h2
      · have hz : k - n ≠ 0 := by omega
        have : ¬ k < n + 1 := by omega
        rcases b n with _ | _
        · simp [this]
        · obtain ⟨m, hm⟩ := Nat.exists_eq_succ_of_ne_zero hz
          simp [this, hm, Nat.testBit_succ]
      · have : k = n := by omega
        subst this
        rcases b k with _ | _ <;> simp

theorem defaultEncode_eq (e : MLEdges) :
    (defaultEncode e).rows = e.h ∧ (defaultEncode e).cols = e.w ∧
    ∀ i j, (defaultEncode e).at_ i j = word (fun k => e.at_ k i j) e.n := by
  unfold defaultEncode
  generalize e.n = n
  induction n with
  | zero => simp [word]
  | succ n ih =>
    rw [List.range_succ, List.foldl_append]
    simp only [List.foldl_cons, List.foldl_nil, word, true_and]
    intro i j
    rw [ih.2.2]

theorem onehot2multilabel_eq (e : MLEdges) : onehot2multilabel e = defaultEncode e := rfl

theorem unpackLittle_getD (n v k : Nat) (hk : k < n) :
    (unpackLittle n v).getD k false = (decide (k < 32) && v.testBit k) := by
  unfold unpackLittle
  rw [List.getD_eq_getElem?_getD, List.getElem?_map, List.getElem?_range hk]
  simp only [Option.map_some, Option.getD_some]
  split <;> simp [*]

/-! ## C23 -/

/-- C23: `decode_tif(default_multilabel_encoding(edges), n)` is `edges`, for every multi-label edge image
with at most 32 classes. -/
theorem C23_tif_roundtrip (e : MLEdges) (hn : e.n ≤ 32) :
    SameEdges (decodeTif (defaultEncode e) e.n) e := by
  obtain ⟨h1, h2, h3⟩ := defaultEncode_eq e
  refine ⟨rfl, h1, h2, ?_⟩
  intro k i j hk _ _
  have hk' : k < e.n := hk
  show (unpackLittle e.n _).getD k false = _
  rw [unpackLittle_getD _ _ _ hk', h3,
    Nat.mod_eq_of_lt (lt_of_lt_of_le (word_lt _ _) (Nat.pow_le_pow_right (by norm_num) hn)), word_testBit]
  have : k < 32 := by omega
  simp [this, hk']

/-- C23: writing the encoded array to a file as 32-bit words and reading it back with
`binary_multilabel_decoding(path, h, w, n)` gives `edges`. -/
theorem C23_binary_roundtrip (e : MLEdges) (hn : e.n ≤ 32) :
    ∃ d, binaryDecode (toFile (defaultEncode e)) e.h e.w e.n = .ok d ∧ SameEdges d e := by
  obtain ⟨h1, h2, h3⟩ := defaultEncode_eq e
  have hlen : (toFile (defaultEncode e)).length = e.h * e.w := by simp [toFile, h1, h2]
  rw [binaryDecode, if_pos hlen]
  refine ⟨_, rfl, rfl, rfl, rfl, ?_⟩
  intro k i j hk hi hj
  have hk' : k < e.n := hk
  have hi' : i < e.h := hi
  have hj' : j < e.w := hj
  have hidx : i * e.w + j < e.h * e.w := by nlinarith
  show (unpackLittle e.n ((toFile (defaultEncode e)).getD (i * e.w + j) 0 % 2 ^ 32)).getD k false = _
  have hw : (toFile (defaultEncode e)).getD (i * e.w + j) 0 = (defaultEncode e).at_ i j := by
    unfold toFile
    rw [h1, h2, List.getD_eq_getElem?_getD, List.getElem?_map, List.getElem?_range hidx]
    have : e.w > 0 := by omega
    simp [Nat.add_div, Nat.not_le.mpr hj', Nat.div_eq_of_lt hj', Nat.mod_eq_of_lt hj', this]
  rw [hw, unpackLittle_getD _ _ _ hk', h3,
    Nat.mod_eq_of_lt (lt_of_lt_of_le (word_lt _ _) (Nat.pow_le_pow_right (by norm_num) hn)), word_testBit]
  have : k < 32 := by omega
  simp [this, hk']

/-- C23: a file whose number of words is not `h * w` is rejected. -/
theorem C23_wrong_size_rejected (words : List Nat) (h w n : Nat) (hne : words.length ≠ h * w) :
    binaryDecode words h w n = .error .valueError := by
  rw [binaryDecode, if_neg hne]

/-- C23: distinct label sets get distinct codes: two edge images (any number of classes) with the same code at
a pixel have the same labels there; and every code is below `2 ^ n`. -/
theorem C23_code_injective (e e' : MLEdges) (hn : e.n = e'.n) (i j : Nat)
    (h : (defaultEncode e).at_ i j = (defaultEncode e').at_ i j) :
    ∀ k < e.n, e.at_ k i j = e'.at_ k i j := by
  intro k hk
  rw [(defaultEncode_eq e).2.2, (defaultEncode_eq e').2.2] at h
  have h1 := word_testBit (fun k => e.at_ k i j) e.n k
  have h2 := word_testBit (fun k => e'.at_ k i j) e'.n k
  rw [h, h2] at h1
  simpa [hk, hn ▸ hk] using h1.symm

/-- C23: the code of a pixel is below `2 ^ n` for `n` classes (so up to 32 classes fit a 32-bit word). -/
theorem C23_code_range (e : MLEdges) (i j : Nat) : (defaultEncode e).at_ i j < 2 ^ e.n := by
  rw [(defaultEncode_eq e).2.2]; exact word_lt _ _

/-- C23: the code read as a binary number has bit `k` set exactly for the classes present at the pixel
(`edge_onehot2multilabel` uses the same code). -/
theorem C23_code_bits (e : MLEdges) (i j k : Nat) (hk : k < e.n) :
    ((defaultEncode e).at_ i j).testBit k = e.at_ k i j ∧
    ((onehot2multilabel e).at_ i j).testBit k = e.at_ k i j := by
  rw [onehot2multilabel_eq, (defaultEncode_eq e).2.2, word_testBit]; simp [hk]

/-- C23 (limit of the format): with more than 32 classes every class from 32 on is lost on reading. -/
theorem C23_classes_beyond_32_lost (e : MLEdges) (k i j : Nat) (hk : 32 ≤ k) (hkn : k < e.n) :
    (decodeTif (defaultEncode e) e.n).at_ k i j = false := by
  show (unpackLittle e.n _).getD k false = _
  rw [unpackLittle_getD _ _ _ hkn]
  simp [Nat.not_lt.mpr hk]

/-- A 3-class edge image used as a witness: class `k` is set at `(i, j)` when `k + i + j` is even. -/
def exEdges : MLEdges := ⟨3, 2, 2, fun k i j => (k + i + j) % 2 == 0⟩

example : exEdges.n ≤ 32 ∧ exEdges.n ≤ 24 ∧ (defaultEncode exEdges).at_ 0 0 = 5 ∧
    (defaultEncode exEdges).at_ 0 1 = 2 := by decide

/-- a 33-class image whose last class is set: the hypotheses of `C23_classes_beyond_32_lost` are met and the
round trip really fails there. -/
example : let e : MLEdges := ⟨33, 1, 1, fun k _ _ => k == 32⟩
    32 < e.n ∧ e.at_ 32 0 0 = true ∧ (decodeTif (defaultEncode e) e.n).at_ 32 0 0 = false := by
  refine ⟨by decide, by decide, C23_classes_beyond_32_lost _ _ _ _ (by decide) (by decide)⟩

example : binaryDecode [1, 2, 3] 2 2 4 = .error .valueError := C23_wrong_size_rejected _ _ _ _ (by decide)

/-! ## C22 -/

/-- The state of the encoder after the classes `< n`. -/
def rgbState (e : MLEdges) (n : Nat) : Rgb :=
  ⟨e.h, e.w,
    fun i j => word (fun t => e.at_ (16 + t) i j) (min 8 (n - 16)),
    fun i j => word (fun t => e.at_ (8 + t) i j) (min 8 (n - 8)),
    fun i j => word (fun t => e.at_ t i j) (min 8 n)⟩

theorem addBit_word (f : Nat → Nat → Nat → Bool) (t : Nat) (ht : t < 8) :
    addBit (fun i j => word (fun t => f t i j) t) t (f t) = fun i j => word (fun t => f t i j) (t + 1) := by
  funext i j
  show (word _ t + _) % 256 = word _ (t + 1)
  have := word_lt (fun t => f t i j) (t + 1)
  have h2 : 2 ^ (t + 1) ≤ 2 ^ 8 := Nat.pow_le_pow_right (by norm_num) ht
  rw [word] at this ⊢
  exact Nat.mod_eq_of_lt (by omega)

theorem rgbStep_state (e : MLEdges) (n : Nat) (hn : n < 24) :
    rgbStep e (rgbState e n) n = .ok (rgbState e (n + 1)) := by
  unfold rgbStep
  by_cases h8 : n < 8
  · rw [if_pos h8]
    have h := addBit_word e.at_ n h8
    have e1 : min 8 n = n := by omega
    have e2 : min 8 (n + 1) = n + 1 := by omega
    have e3 : n - 8 = n + 1 - 8 := by omega
    have e4 : n - 16 = n + 1 - 16 := by omega
    simp only [rgbState, e1, e2, h, ← e3, ← e4]
  · rw [if_neg h8]
    by_cases h16 : n < 16
    · rw [if_pos ⟨by omega, h16⟩]
      have h := addBit_word (fun t => e.at_ (8 + t)) (n - 8) (by omega)
      have e1 : min 8 (n - 8) = n - 8 := by omega
      have e2 : min 8 (n + 1 - 8) = n - 8 + 1 := by omega
      have e3 : min 8 (n + 1) = min 8 n := by omega
      have e4 : n - 16 = n + 1 - 16 := by omega
      have e5 : 8 + (n - 8) = n := by omega
      simp only [e5] at h
      simp only [rgbState, e1, e2, h, e3, ← e4]
    · rw [if_neg (by omega), if_pos ⟨by omega, hn⟩]
      have h := addBit_word (fun t => e.at_ (16 + t)) (n - 16) (by omega)
      have e1 : min 8 (n - 16) = n - 16 := by omega
      have e2 : min 8 (n + 1 - 16) = n - 16 + 1 := by omega
      have e3 : min 8 (n + 1) = min 8 n := by omega
      have e4 : min 8 (n - 8) = min 8 (n + 1 - 8) := by omega
      have e5 : 16 + (n - 16) = n := by omega
      simp only [e5] at h
      simp only [rgbState, e1, e2, h, e3, ← e4]

theorem rgb_fold (e : MLEdges) (n : Nat) (hn : n ≤ 24) :
    (List.range n).foldlM (rgbStep e) ⟨e.h, e.w, fun _ _ => 0, fun _ _ => 0, fun _ _ => 0⟩
      = .ok (rgbState e n) := by
  induction n with
  | zero => simp [rgbState, word]; rfl
  | succ n ih =>
    rw [List.range_succ, List.foldlM_append, ih (by omega)]
    show (do let s' ← rgbStep e (rgbState e n) n; _) = _
    rw [rgbStep_state e n (by omega)]
    rfl

theorem foldlM_error {σ α : Type} (f : σ → α → Except PyErr σ) (l : List α) (s : σ) (er : PyErr)
    (r : List α) (h : l.foldlM f s = .error er) : (l ++ r).foldlM f s = .error er := by
  rw [List.foldlM_append, h]; rfl

/-- C22: the encoder accepts exactly the edge images with at most 24 classes; otherwise it raises. -/
theorem C22_rejects_more_than_24 (e : MLEdges) (hn : 24 < e.n) : rgbEncode e = .error .valueError := by
  unfold rgbEncode
  obtain ⟨m, hm⟩ : ∃ m, e.n = 25 + m := ⟨e.n - 25, by omega⟩
  rw [hm, List.range_add]
  apply foldlM_error
  rw [List.range_succ, List.foldlM_append, rgb_fold e 24 le_rfl]
  rfl

theorem pngBits_getD (n r g b k : Nat) (hk : k < n) :
    (pngBits n r g b).getD k false =
      if k < 8 then b.testBit k else if k < 16 then g.testBit (k - 8)
      else if k < 24 then r.testBit (k - 16) else false := by
  unfold pngBits unpackBig
  rw [List.getD_eq_getElem?_getD, List.getElem?_take, if_pos hk]
  simp only [List.map_cons, List.map_nil, List.cons_append, List.nil_append, List.reverse_cons, List.reverse_nil]
  by_cases h : k < 24
  · interval_cases k <;> rfl
  · have h1 : ¬ k < 8 := by omega
    have h2 : ¬ k < 16 := by omega
    rw [if_neg h1, if_neg h2, if_neg h, List.getElem?_eq_none (by simp; omega)]
    rfl

/-- C22: `decode_png(rgb_multilabel_encoding(edges), n)` is `edges`, for every multi-label edge image with at
most 24 classes; the encoded channels are bytes. -/
theorem C22_png_roundtrip (e : MLEdges) (hn : e.n ≤ 24) :
    ∃ im, rgbEncode e = .ok im ∧ SameEdges (decodePng im e.n) e ∧
      ∀ i j, im.r i j < 256 ∧ im.g i j < 256 ∧ im.b i j < 256 := by
  refine ⟨_, rgb_fold e e.n hn, ⟨by show min e.n 24 = e.n; omega, rfl, rfl, ?_⟩, ?_⟩
  · intro k i j hk _ _
    have hk' : k < e.n := by
      have : k < min e.n 24 := hk
      omega
    show (pngBits e.n _ _ _).getD k false = _
    rw [pngBits_getD _ _ _ _ _ hk']
    simp only [rgbState, word_testBit]
    split
    · have : k < min 8 e.n := by omega
      simp [this]
    · split
      · have : k - 8 < min 8 (e.n - 8) := by omega
        have h2 : 8 + (k - 8) = k := by omega
        simp only [this, h2]; simp
      · split
        · have : k - 16 < min 8 (e.n - 16) := by omega
          have h2 : 16 + (k - 16) = k := by omega
          simp only [this, h2]; simp
        · omega
  · intro i j
    have h : ∀ (f : Nat → Bool) (m : Nat), word f (min 8 m) < 256 := fun f m =>
      lt_of_lt_of_le (word_lt f _) (Nat.pow_le_pow_right (n := 2) (j := 8) (by norm_num) (by omega))
    exact ⟨h _ _, h _ _, h _ _⟩

/-- C22: an edge image can be read with a smaller number of classes: the first `m` channels come back. -/
theorem C22_png_prefix (e : MLEdges) (hn : e.n ≤ 24) (m : Nat) (hm : m ≤ e.n) :
    ∃ im, rgbEncode e = .ok im ∧ SameEdges (decodePng im m) { e with n := m } := by
  refine ⟨_, rgb_fold e e.n hn, by show min m 24 = m; omega, rfl, rfl, ?_⟩
  intro k i j hk _ _
  have hk' : k < m := by
    have : k < min m 24 := hk
    omega
  show (pngBits m _ _ _).getD k false = _
  rw [pngBits_getD _ _ _ _ _ hk']
  simp only [rgbState, word_testBit]
  split
  · have : k < min 8 e.n := by omega
    simp [this]
  · split
    · have : k - 8 < min 8 (e.n - 8) := by omega
      have h2 : 8 + (k - 8) = k := by omega
      simp only [this, h2]; simp
    · split
      · have : k - 16 < min 8 (e.n - 16) := by omega
        have h2 : 16 + (k - 16) = k := by omega
        simp only [this, h2]; simp
      · omega

/-- a 20-class image (classes in all three channels) and a 25-class image. -/
example : let e : MLEdges := ⟨20, 2, 3, fun k i j => (k + i * j) % 3 == 0⟩
    e.n ≤ 24 ∧ ∃ im, rgbEncode e = .ok im ∧ (decodePng im 20).at_ 18 0 0 = true := by
  refine ⟨by decide, ?_⟩
  obtain ⟨im, h, ⟨hn, ha, hb, hs⟩, _⟩ := C22_png_roundtrip ⟨20, 2, 3, fun k i j => (k + i * j) % 3 == 0⟩ (by decide)
  refine ⟨im, h, ?_⟩
  have := hs 18 0 0 (by rw [hn]; decide) (by rw [ha]; decide) (by rw [hb]; decide)
  exact this.trans (by decide)

example : rgbEncode ⟨25, 1, 1, fun _ _ _ => false⟩ = .error .valueError := C22_rejects_more_than_24 _ (by decide)

/-! ## C25 -/

/-- C25: the binary edge map is set exactly where some class channel is set, and has the shape of the edge
image. -/
theorem C25_union (e : MLEdges) :
    (multilabel2binary e).rows = e.h ∧ (multilabel2binary e).cols = e.w ∧
    ∀ i j, (multilabel2binary e).at_ i j = true ↔ ∃ k < e.n, e.at_ k i j = true := by
  refine ⟨rfl, rfl, fun i j => ?_⟩
  simp only [multilabel2binary, decide_eq_true_eq, gt_iff_lt]
  rw [List.sum_pos_iff_exists_pos_nat]
  simp only [List.mem_map, List.mem_range]
  constructor
  · rintro ⟨x, ⟨k, hk, rfl⟩, hx⟩
    exact ⟨k, hk, by cases h : e.at_ k i j <;> simp_all⟩
  · rintro ⟨k, hk, h⟩
    exact ⟨1, ⟨k, hk, by simp [h]⟩, by norm_num⟩

/-- C25: the binary edge map is empty exactly when the 32-bit code is 0. -/
theorem C25_code_nonzero (e : MLEdges) (i j : Nat) :
    (multilabel2binary e).at_ i j = true ↔ (defaultEncode e).at_ i j ≠ 0 := by
  rw [(C25_union e).2.2]
  constructor
  · rintro ⟨k, hk, h⟩ h0
    have := (C23_code_bits e i j k hk).1
    rw [h0, h] at this; simp at this
  · intro h
    obtain ⟨k, hk⟩ := Nat.exists_testBit_of_ne_zero h
    rw [(defaultEncode_eq e).2.2, word_testBit] at hk
    simp at hk
    exact ⟨k, hk⟩

example : (multilabel2binary exEdges).at_ 0 1 = true ∧
    (multilabel2binary ⟨2, 1, 1, fun _ _ _ => false⟩).at_ 0 0 = false := by decide

end EdgeEval.Props
