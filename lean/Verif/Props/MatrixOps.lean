import Verif.Lemmas.MatrixReduce2
import Mathlib.Algebra.BigOperators.Group.Finset.Basic
import Mathlib.Algebra.BigOperators.Intervals
import Mathlib.Tactic.FieldSimp

/-!
# C67–C70: the operations of `Matrix.cc` compute what their names say

`Is m r c f` (Spec/MatrixOps.lean): the object `m` is the `r × c` matrix with entries `f i j`.  `Returns op r c f`: the call returns normally with
such a matrix.  All theorems quantify over the shape (empty ones included unless excluded), the entries and the garbage `g` in fresh memory.
-/

namespace EdgeEval.Props

open EdgeEval.MatrixOps Spec.MatrixOps
open EdgeEval.Sort (Arr)

section
variable {α : Type} {m : Mx α} {r c : ℤ} {f : ℤ → ℤ → α}

/-- A concrete matrix used as witness: 2 rows, 3 columns, entry `10 i + j`. -/
def wit : Mx ℚ := ⟨2, 3, ⟨6, fun k => 10 * ((k % 2 : ℤ) : ℚ) + ((k / 2 : ℤ) : ℚ)⟩⟩

theorem wit_is : Is wit 2 3 (fun i j => 10 * (i : ℚ) + (j : ℚ)) :=
  ⟨rfl, rfl, by omega, by omega, rfl, fun i j h1 h2 h3 h4 => by
    simp only [wit]
    rw [idx_mod h1 h2, idx_div h1 h2]⟩

/-! ### C67: rearrangements -/

/-- Transposing, for vectors, square and other matrices, whatever is in fresh memory. -/
theorem C67_transpose (g : ℤ → α) (h : Is m r c f) : Returns (transpose g m) c r (fun i j => f j i) := transpose_post g h

example : Returns (transpose (fun _ => 7) wit) 3 2 (fun i j => 10 * (j : ℚ) + (i : ℚ)) := C67_transpose _ wit_is

/-- Mirroring. -/
theorem C67_flips (h : Is m r c f) :
    Returns (fliplr m) r c (fun i j => f i (c - 1 - j)) ∧ Returns (flipud m) r c (fun i j => f (r - 1 - i) j) :=
  ⟨fliplr_post h, flipud_post h⟩

example : Returns (fliplr wit) 2 3 (fun i j => 10 * (i : ℚ) + (((3 - 1 - j : ℤ)) : ℚ)) := (C67_flips wit_is).1

/-- `rot90 (k)` is `k` quarter turns counter-clockwise, for every `int k`, negative ones included: four turns are none and one more turn
takes entry `(i, j)` from row `j` and column `c - 1 - i`. -/
theorem C67_rot90 (g : ℤ → α) (k : ℤ) (h : Is m r c f) :
    (k % 4 = 0 → Returns (rot90 g k m) r c f) ∧
    (∀ r' c' f', Returns (rot90 g k m) r' c' f' → Returns (rot90 g (k + 1) m) c' r' (fun i j => f' j (c' - 1 - i))) := by
  refine ⟨(rot90_post g k h).1, ?_⟩
  rintro r' c' f' ⟨b, hb, hB⟩
  have key : ∀ {R C : ℤ} {F F' : ℤ → ℤ → α}, Returns (rot90 g k m) R C F → Returns (rot90 g (k + 1) m) C R F' →
      (∀ i j, 0 ≤ i → i < C → 0 ≤ j → j < R → F' i j = F j (C - 1 - i)) →
      Returns (rot90 g (k + 1) m) c' r' (fun i j => f' j (c' - 1 - i)) := by
    rintro R C F F' ⟨b', hb', hB'⟩ ⟨d, hd, hD⟩ he
    rw [hb] at hb'
    have e : b = b' := by injection hb'
    subst e
    have er : r' = R := hB.rows.symm.trans hB'.rows
    have ec : c' = C := hB.cols.symm.trans hB'.cols
    subst er ec
    refine ⟨d, hd, hD.congr fun i j h1 h2 h3 h4 => ?_⟩
    rw [he i j h1 h2 h3 h4, ← hB.data.entry j (c' - 1 - i) h3 h4 (by omega) (by omega),
      ← hB'.data.entry j (c' - 1 - i) h3 h4 (by omega) (by omega)]
  obtain ⟨a0, a1, a2, a3⟩ := rot90_post g k h
  obtain ⟨b0, b1, b2, b3⟩ := rot90_post g (k + 1) h
  have hk : k % 4 = 0 ∨ k % 4 = 1 ∨ k % 4 = 2 ∨ k % 4 = 3 := by omega
  rcases hk with e | e | e | e
  · exact key (a0 e) (b1 (by omega)) fun i j _ _ _ _ => rfl
  · exact key (a1 e) (b2 (by omega)) fun i j _ _ _ _ => by congr 1
  · exact key (a2 e) (b3 (by omega)) fun i j _ _ _ _ => by congr 1; omega
  · exact key (a3 e) (b0 (by omega)) fun i j _ _ _ _ => by congr 1; omega

/-- Every `k` returns normally, so the second part of `C67_rot90` is about something. -/
theorem C67_rot90_returns (g : ℤ → α) (k : ℤ) (h : Is m r c f) : ∃ (r' c' : ℤ) (f' : ℤ → ℤ → α), Returns (rot90 g k m) r' c' f' := by
  obtain ⟨a0, a1, a2, a3⟩ := rot90_post g k h
  have hk : k % 4 = 0 ∨ k % 4 = 1 ∨ k % 4 = 2 ∨ k % 4 = 3 := by omega
  rcases hk with e | e | e | e
  · exact ⟨_, _, _, a0 e⟩
  · exact ⟨_, _, _, a1 e⟩
  · exact ⟨_, _, _, a2 e⟩
  · exact ⟨_, _, _, a3 e⟩

example : Returns (rot90 (fun _ => 0) (-7) wit) 3 2 (fun i j => 10 * (j : ℚ) + (((3 - 1 - i : ℤ)) : ℚ)) :=
  (C67_rot90 (fun _ => 0) (-8) wit_is).2 _ _ _ ((C67_rot90 _ (-8) wit_is).1 (by decide))

/-- Reshaping keeps the entries in column order; another number of entries is refused. -/
theorem C67_reshape (h : Is m r c f) {r' c' : ℤ} (h1 : 0 ≤ r') (h2 : 0 ≤ c') :
    (r' * c' = r * c → Returns (reshape m r' c') r' c' (fun i j => nth r f (j * r' + i))) ∧
    (r' * c' ≠ r * c → reshape m r' c' = .error .thrown) := by
  refine ⟨reshape_post h h1 h2, fun hn => ?_⟩
  unfold reshape
  rw [is_n h, max_eq_right h1, max_eq_right h2, Int.mul_comm c r, if_pos hn]

example : Returns (reshape wit 3 2) 3 2 (fun i j => nth 2 (fun i j => 10 * (i : ℚ) + (j : ℚ)) (j * 3 + i)) :=
  (C67_reshape wit_is (by omega) (by omega)).1 (by omega)

/-- Tiling: `p` copies downwards, `q ≥ 1` copies to the right. -/
theorem C67_repmat (g : ℤ → α) {p q : ℤ} (hp : 0 ≤ p) (hq : 1 ≤ q) (hr : 0 < r) (h : Is m r c f) :
    Returns (repmat g p q m) (r * p) (c * q) (fun i j => f (i % r) (j % c)) := repmat_post g hp hq hr h

example : Returns (repmat (fun _ => 0) 2 3 wit) 4 9 (fun i j => 10 * ((i % 2 : ℤ) : ℚ) + ((j % 3 : ℤ) : ℚ)) :=
  C67_repmat _ (by omega) (by omega) (by omega) wit_is

/-- The case `C67_repmat` excludes: no copies to the right of a non-empty matrix.  The result has no memory, and it is written to. -/
theorem C67_repmat_none (g : ℤ → α) {p q : ℤ} (hp : 1 ≤ p) (hq : q ≤ 0) (hr : 0 < r) (hc : 0 < c) (h : Is m r c f) :
    repmat g p q m = .error .oob := by
  unfold repmat
  rw [max_eq_right (show 0 ≤ p by omega), max_eq_left hq, h.rows, h.cols]
  simp only [mul_zero]
  refine bind_err (forUp_fails (fun col (st : ℤ × Arr α) => col = 0 → st.2.size = 0) .oob c.toNat 0 _ ?_ 0 (by intros; omega)
    ⟨le_rfl, by omega⟩ ?_)
  · intro _
    simp [newMx]
  · intro st hst
    refine forUp_fails (fun t (st : ℤ × Arr α) => t = 0 → st.2.size = 0) .oob p.toNat 0 st (fun _ => hst rfl) 0 (by intros; omega)
      ⟨le_rfl, by omega⟩ ?_
    intro s hs
    rw [at2_ok h le_rfl hr le_rfl hc]
    simp only [bind, Except.bind, memcpy]
    rw [if_neg (by omega), if_neg (by rw [hs rfl]; omega)]

example : repmat (fun _ => 0) 1 0 wit = .error .oob := C67_repmat_none _ (by omega) (by omega) (by omega) (by omega) wit_is

/-- The other excluded case: a matrix without rows but with columns is refused. -/
theorem C67_repmat_norows (g : ℤ → α) {p q : ℤ} (hp : 1 ≤ p) (hc : 0 < c) (h : Is m 0 c f) :
    repmat g p q m = .error .thrown := by
  unfold repmat
  rw [max_eq_right (show 0 ≤ p by omega), h.rows, h.cols]
  refine bind_err (forUp_fails (fun _ (_ : ℤ × Arr α) => True) .thrown c.toNat 0 _ trivial 0 (by intros; omega) ⟨le_rfl, by omega⟩ ?_)
  intro st _
  refine forUp_fails (fun _ (_ : ℤ × Arr α) => True) .thrown p.toNat 0 st trivial 0 (by intros; omega) ⟨le_rfl, by omega⟩ ?_
  intro s _
  unfold at2
  rw [h.rows, if_neg (by omega)]
  rfl

example : repmat (fun _ => (0 : ℚ)) 1 1 (newMx 0 2 fun _ => 0) = .error .thrown :=
  C67_repmat_norows (f := fun _ _ => 0) _ (by omega) (by omega : (0 : ℤ) < 2) (new_is (by omega) (by omega) _)

/-- The identity matrix, of any shape. -/
theorem C67_eye (zero one : α) (hr : 0 ≤ r) (hc : 0 ≤ c) : Returns (eye zero one r c) r c (fun i j => if i = j then one else zero) :=
  eye_post zero one r c hr hc

example : Returns (eye (0 : ℚ) 1 2 3) 2 3 (fun i j => if i = j then 1 else 0) := C67_eye _ _ (by omega) (by omega)

/-- `tril (k)` keeps what is on or below diagonal `k`, `triu (k)` what is on or above it. -/
theorem C67_tri (zero : α) (k : ℤ) (h : Is m r c f) :
    Returns (tril zero k m) r c (fun i j => if j ≤ i + k then f i j else zero) ∧
    Returns (triu zero k m) r c (fun i j => if i + k ≤ j then f i j else zero) := by
  constructor
  · obtain ⟨b, hb, hB⟩ := tril_post zero k h
    refine ⟨b, hb, hB.congr fun i j _ _ _ _ => ?_⟩
    by_cases e : j - i > k
    · rw [if_pos e, if_neg (by omega)]
    · rw [if_neg e, if_pos (by omega)]
  · obtain ⟨b, hb, hB⟩ := triu_post zero k h
    refine ⟨b, hb, hB.congr fun i j _ _ _ _ => ?_⟩
    by_cases e : j - i < k
    · rw [if_pos e, if_neg (by omega)]
    · rw [if_neg e, if_pos (by omega)]

example : Returns (tril 0 (-1) wit) 2 3 (fun i j => if j ≤ i + -1 then 10 * (i : ℚ) + (j : ℚ) else 0) := (C67_tri 0 (-1) wit_is).1

/-! ### C68: access, indices and parts -/

/-- Element access: inside the matrix it reads and writes that element and no other; outside it throws and never leaves the block. -/
theorem C68_access (h : Is m r c f) (i j : ℤ) (x : α) :
    (0 ≤ i ∧ i < r ∧ 0 ≤ j ∧ j < c → get2 m i j = .ok (f i j) ∧
      Returns (set2 m i j x) r c (fun a b => if a = i ∧ b = j then x else f a b)) ∧
    (¬ (0 ≤ i ∧ i < r ∧ 0 ≤ j ∧ j < c) → get2 m i j = .error .thrown ∧ set2 m i j x = .error .thrown) ∧
    (0 ≤ i ∧ i < r * c → get1 m i = .ok (nth r f i)) ∧ (¬ (0 ≤ i ∧ i < r * c) → get1 m i = .error .thrown) := by
  refine ⟨fun ⟨h1, h2, h3, h4⟩ => ⟨get2_ok h h1 h2 h3 h4, set2_post h h1 h2 h3 h4 x⟩, fun hn => ?_, fun hi => ?_, fun hi => ?_⟩
  · have : at2 m i j = .error .thrown := by
      unfold at2
      rw [h.rows, h.cols, if_neg hn]
    exact ⟨bind_err this, bind_err this⟩
  · exact get1_ok h hi.1 (by rw [Int.mul_comm]; exact hi.2)
  · unfold get1
    rw [is_n h, Int.mul_comm, if_neg hi]

example : get2 wit 1 2 = .ok (10 * ((1 : ℤ) : ℚ) + ((2 : ℤ) : ℚ)) := ((C68_access wit_is 1 2 0).1 (by omega)).1

/-- `find` lists, in increasing order and as a column, exactly the indices of the non-zero entries. -/
theorem C68_find (g : ℤ → ℚ) {a : Mx ℚ} {f : ℤ → ℤ → ℚ} (h : Is a r c f) :
    ∃ (b : Mx ℚ) (cnt : ℤ) (w : ℤ → ℤ), find g a = .ok b ∧ Is b cnt 1 (fun i _ => (w i : ℚ)) ∧
      (∀ x y, 0 ≤ x → x < y → y < cnt → w x < w y) ∧
      ∀ k, (0 ≤ k ∧ k < r * c ∧ nth r f k ≠ 0) ↔ ∃ x, 0 ≤ x ∧ x < cnt ∧ w x = k := by
  obtain ⟨b, hb, cnt, w, ⟨_, _, h3, h4⟩, hB⟩ := find_post g h
  exact ⟨b, cnt, w, hb, hB, h3, fun k => by rw [Int.mul_comm]; exact h4 k⟩

example : ∃ (b : Mx ℚ) (cnt : ℤ) (w : ℤ → ℤ), find (fun _ => 0) wit = .ok b ∧ Is b cnt 1 (fun i _ => (w i : ℚ)) := by
  obtain ⟨b, cnt, w, h1, h2, _⟩ := C68_find (fun _ => 0) wit_is
  exact ⟨b, cnt, w, h1, h2⟩

/-- `gather`: entry by entry the values at the given indices, or an exception if one of them is not an index. -/
theorem C68_gather (g : ℤ → α) {ind : Mx ℚ} {r' c' : ℤ} {q : ℤ → ℤ → ℤ} (h : Is m r c f) (hi : Is ind r' c' (fun i j => (q i j : ℚ))) :
    ((∀ i j, 0 ≤ i → i < r' → 0 ≤ j → j < c' → 0 ≤ q i j ∧ q i j < r * c) → Returns (gather g m ind) r' c' (fun i j => nth r f (q i j))) ∧
    ((∃ i j, 0 ≤ i ∧ i < r' ∧ 0 ≤ j ∧ j < c' ∧ ¬ (0 ≤ q i j ∧ q i j < r * c)) → gather g m ind = .error .thrown) := by
  constructor
  · intro hq
    have := gather_post g h hi (by
      intro i j a1 a2 a3 a4
      rw [toInt_cast, Int.mul_comm]
      exact hq i j a1 a2 a3 a4)
    simpa only [toInt_cast] using this
  · rintro ⟨i, j, a1, a2, a3, a4, a5⟩
    refine gather_fails g h hi a1 a2 a3 a4 ?_
    rw [toInt_cast, Int.mul_comm]
    omega

example : Returns (gather (fun _ => 0) wit (newMx 1 1 fun _ => ((5 : ℤ) : ℚ))) 1 1
    (fun _ _ => nth 2 (fun i j => 10 * (i : ℚ) + (j : ℚ)) 5) :=
  (C68_gather (q := fun _ _ => 5) _ wit_is (new_is (by omega) (by omega) _)).1 fun _ _ _ _ _ _ => ⟨by omega, by omega⟩

/-- `scatter`: the entry whose index occurs last at position `t` of the indices becomes the `t`-th value; entries whose index does not occur
keep their value. -/
theorem C68_scatter {ind : Mx ℚ} {val : Mx α} {r' c' r2 c2 : ℤ} {q : ℤ → ℤ → ℤ} {v : ℤ → ℤ → α} (h : Is m r c f)
    (hi : Is ind r' c' (fun i j => (q i j : ℚ))) (hv : Is val r2 c2 v) (hn : r' * c' = r2 * c2)
    (hin : ∀ i j, 0 ≤ i → i < r' → 0 ≤ j → j < c' → 0 ≤ q i j ∧ q i j < r * c) :
    ∃ f', Returns (scatter m ind val) r c f' ∧
      (∀ k, 0 ≤ k → k < r * c → (∀ t, 0 ≤ t → t < r' * c' → nth r' q t ≠ k) → nth r f' k = nth r f k) ∧
      (∀ t, 0 ≤ t → t < r' * c' → (∀ t', t < t' → t' < r' * c' → nth r' q t' ≠ nth r' q t) → nth r f' (nth r' q t) = nth r2 v t) := by
  have hq : ∀ t, toInt (nth r' (fun i j => ((q i j : ℤ) : ℚ)) t) = nth r' q t := fun t => toInt_cast _
  obtain ⟨b, hb, f', hB, h1, h2⟩ := scatter_post h hi hv (by rw [Int.mul_comm, hn, Int.mul_comm]) (by
    intro i j a1 a2 a3 a4
    rw [toInt_cast, Int.mul_comm]
    exact hin i j a1 a2 a3 a4)
  simp only [hq, Int.mul_comm c r, Int.mul_comm c' r'] at h1 h2
  exact ⟨f', ⟨b, hb, hB⟩, h1, h2⟩

example : ∃ f' : ℤ → ℤ → ℚ, Returns (scatter wit (newMx 1 1 fun _ => ((5 : ℤ) : ℚ)) (newMx 1 1 fun _ => 42)) 2 3 f' ∧ nth 2 f' 5 = 42 := by
  obtain ⟨f', h1, _, h3⟩ := C68_scatter (q := fun _ _ => 5) wit_is (new_is (r := 1) (c := 1) (by omega) (by omega) fun _ => ((5 : ℤ) : ℚ))
    (new_is (r := 1) (c := 1) (by omega) (by omega) fun _ => (42 : ℚ)) rfl (fun _ _ _ _ _ _ => ⟨by omega, by omega⟩)
  exact ⟨f', h1, h3 0 le_rfl (by norm_num) (by intros; omega)⟩

/-- `scatter` refuses values of another number than the indices, and indices outside the matrix. -/
theorem C68_scatter_refuses {ind : Mx ℚ} {val : Mx α} {r' c' r2 c2 : ℤ} {q : ℤ → ℤ → ℤ} {v : ℤ → ℤ → α} (h : Is m r c f)
    (hi : Is ind r' c' (fun i j => (q i j : ℚ))) (hv : Is val r2 c2 v)
    (hbad : r' * c' ≠ r2 * c2 ∨ ∃ i j, 0 ≤ i ∧ i < r' ∧ 0 ≤ j ∧ j < c' ∧ ¬ (0 ≤ q i j ∧ q i j < r * c)) :
    scatter m ind val = .error .thrown := by
  refine scatter_fails h hi hv ?_
  rcases hbad with hb | ⟨i, j, a1, a2, a3, a4, a5⟩
  · left; rwa [Int.mul_comm c' r', Int.mul_comm c2 r2]
  · right
    refine ⟨i, j, a1, a2, a3, a4, ?_⟩
    rw [toInt_cast, Int.mul_comm]
    omega

example : scatter wit (newMx 1 1 fun _ => ((6 : ℤ) : ℚ)) (newMx 1 1 fun _ => 42) = .error .thrown :=
  C68_scatter_refuses (q := fun _ _ => 6) wit_is (new_is (by omega) (by omega) _)
    (new_is (r := 1) (c := 1) (by omega) (by omega) fun _ => (42 : ℚ)) (.inr ⟨0, 0, by omega, by omega, by omega, by omega, by omega⟩)

/-- `ind2sub` finds row and column of an index: it is their position in a matrix with that many rows. -/
theorem C68_ind2sub {siz ind : Mx ℚ} {R C : ℤ} {s : ℤ → ℤ → ℚ} {q : ℤ → ℤ → ℤ} (hs : Is siz 1 2 s) (hs0 : s 0 0 = (R : ℚ)) (_ : s 0 1 = (C : ℚ))
    (hR : 0 < R) (hi : Is ind r c (fun i j => (q i j : ℚ)))
    (hq : ∀ i j, 0 ≤ i → i < r → 0 ≤ j → j < c → 0 ≤ q i j ∧ q i j < R * C) :
    ∃ (a b : Mx ℚ) (u v : ℤ → ℤ → ℤ), ind2sub siz ind = .ok (a, b) ∧ Is a r c (fun i j => ((u i j : ℤ) : ℚ)) ∧ Is b r c (fun i j => ((v i j : ℤ) : ℚ)) ∧
      ∀ i j, 0 ≤ i → i < r → 0 ≤ j → j < c → 0 ≤ u i j ∧ u i j < R ∧ 0 ≤ v i j ∧ v i j < C ∧ v i j * R + u i j = q i j := by
  have h0 : toInt (nth 1 s 0) = R := by
    show toInt (s (0 % 1) (0 / 1)) = R
    norm_num [hs0, toInt_cast]
  obtain ⟨p, hp, h1, h2⟩ := ind2sub_post hs (by norm_num) hi (by rw [h0]; exact hR) (by
    intro i j a1 a2 a3 a4
    rw [toInt_cast]
    exact (hq i j a1 a2 a3 a4).1)
  rw [h0] at h1 h2
  simp only [toInt_cast] at h1 h2
  refine ⟨p.1, p.2, fun i j => q i j % R, fun i j => q i j / R, hp, h1, h2, fun i j a1 a2 a3 a4 => ?_⟩
  obtain ⟨b1, b2⟩ := hq i j a1 a2 a3 a4
  obtain ⟨c1, c2, c3, c4, c5⟩ := idx_split (c := C) hR.le b1 (by rw [Int.mul_comm]; exact b2)
  exact ⟨c1, c2, c3, c4, c5⟩

/-- The size matrix `[2 3]`. -/
def witSize : Mx ℚ := ⟨1, 2, ⟨2, fun k => if k = 0 then 2 else 3⟩⟩

theorem witSize_is : Is witSize 1 2 (fun _ j => if j = 0 then 2 else 3) :=
  ⟨rfl, rfl, by omega, by omega, rfl, fun i j h1 h2 h3 h4 => by
    have : i = 0 := by omega
    simp [witSize, this]⟩

example : ∃ a b, ind2sub witSize (newMx 1 1 fun _ => ((5 : ℤ) : ℚ)) = .ok (a, b) := by
  obtain ⟨a, b, _, _, h, _⟩ := C68_ind2sub (R := 2) (C := 3) (q := fun _ _ => 5) witSize_is (by norm_num) (by norm_num) (by omega)
    (new_is (r := 1) (c := 1) (by omega) (by omega) fun _ => ((5 : ℤ) : ℚ)) (fun _ _ _ _ _ _ => ⟨by omega, by omega⟩)
  exact ⟨a, b, h⟩

/-- `sub2ind` never looks at the columns: it returns `u·R + u` for row `u`, which is the position of row `u` and column `v` only when `u = v`. -/
theorem C68_sub2ind_ignores_columns {siz a b : Mx ℚ} {R : ℤ} {s : ℤ → ℤ → ℚ} {u v : ℤ → ℤ → ℤ} (hs : Is siz 1 2 s) (hs0 : s 0 0 = (R : ℚ)) (hR : 0 < R)
    (ha : Is a r c (fun i j => (u i j : ℚ))) (hb : Is b r c (fun i j => (v i j : ℚ))) :
    ∃ w : ℤ → ℤ → ℤ, Returns (sub2ind siz a b) r c (fun i j => ((w i j : ℤ) : ℚ)) ∧
      ∀ i j, w i j = u i j * R + u i j ∧ (w i j = v i j * R + u i j ↔ u i j = v i j) := by
  have h0 : toInt (nth 1 s 0) = R := by
    show toInt (s (0 % 1) (0 / 1)) = R
    norm_num [hs0, toInt_cast]
  have := sub2ind_post hs (by norm_num) ha hb
  rw [h0] at this
  simp only [toInt_cast] at this
  refine ⟨_, this, fun i j => ⟨rfl, ?_⟩⟩
  constructor
  · intro e
    have : u i j * R = v i j * R := by omega
    exact Int.eq_of_mul_eq_mul_right (by omega) this
  · intro e; rw [e]

example : ∃ w : ℤ → ℤ → ℤ, Returns (sub2ind witSize (newMx 1 1 fun _ => ((1 : ℤ) : ℚ)) (newMx 1 1 fun _ => ((2 : ℤ) : ℚ))) 1 1 (fun i j => ((w i j : ℤ) : ℚ)) ∧
    ∀ i j, w i j ≠ 2 * 2 + 1 := by
  obtain ⟨w, h1, h2⟩ := C68_sub2ind_ignores_columns (R := 2) (u := fun _ _ => 1) (v := fun _ _ => 2) witSize_is (by norm_num) (by omega)
    (new_is (r := 1) (c := 1) (by omega) (by omega) fun _ => ((1 : ℤ) : ℚ)) (new_is (by omega) (by omega) fun _ => ((2 : ℤ) : ℚ))
  exact ⟨w, h1, fun i j h => by have := (h2 i j).2.mp h; omega⟩

/-- Taking out rows `r1..r2` and columns `c1..c2`; a corner outside the matrix is refused. -/
theorem C68_extract (zero : α) (h : Is m r c f) (r1 r2 c1 c2 : ℤ) :
    (0 ≤ r1 → r1 ≤ r2 → r2 < r → 0 ≤ c1 → c1 ≤ c2 → c2 < c →
      Returns (extract zero m r1 r2 c1 c2) (r2 - r1 + 1) (c2 - c1 + 1) (fun i j => f (r1 + i) (c1 + j))) ∧
    (¬ (0 ≤ r1 ∧ r1 < r ∧ 0 ≤ r2 ∧ r2 < r ∧ 0 ≤ c1 ∧ c1 < c ∧ 0 ≤ c2 ∧ c2 < c) → extract zero m r1 r2 c1 c2 = .error .thrown) := by
  refine ⟨fun a1 a2 a3 b1 b2 b3 => extract_post zero h a1 a2 a3 b1 b2 b3, fun hn => ?_⟩
  unfold extract
  rw [if_pos (by unfold badRange; rw [h.rows, h.cols]; omega)]

example : Returns (extract 0 wit 1 1 1 2) 1 2 (fun i j => 10 * ((1 + i : ℤ) : ℚ) + ((1 + j : ℤ) : ℚ)) :=
  (C68_extract 0 wit_is 1 1 1 2).1 (by omega) (by omega) (by omega) (by omega) (by omega) (by omega)

/-- An empty range of columns gives an empty matrix, but an empty range of rows with a non-empty one of columns throws (the code computes the
address of element `(0, 0)` of a matrix without rows), although both ranges passed the check. -/
theorem C68_extract_empty (zero : α) (h : Is m r c f) {r1 r2 c1 c2 : ℤ} (hin : 0 ≤ r1 ∧ r1 < r ∧ 0 ≤ r2 ∧ r2 < r ∧ 0 ≤ c1 ∧ c1 < c ∧ 0 ≤ c2 ∧ c2 < c) :
    (c2 < c1 → Returns (extract zero m r1 r2 c1 c2) (if r1 ≤ r2 then r2 - r1 + 1 else 0) 0 (fun _ _ => zero)) ∧
    (r2 < r1 → c1 ≤ c2 → extract zero m r1 r2 c1 c2 = .error .thrown) := by
  have hb : ¬ badRange m r1 r2 c1 c2 := by unfold badRange; rw [h.rows, h.cols]; omega
  refine ⟨fun hc => ?_, fun hr hc => ?_⟩
  · unfold extract
    rw [if_neg hb, if_neg (show ¬ c1 ≤ c2 by omega)]
    exact ⟨_, rfl, new_is (by split_ifs <;> omega) le_rfl _⟩
  · unfold extract
    rw [if_neg hb, if_neg (by omega), if_pos hc]
    refine bind_err (forUp_fails (fun _ (_ : Arr α) => True) .thrown _ 0 _ trivial 0 (by intros; omega) ⟨le_rfl, by omega⟩ ?_)
    intro s _
    unfold at2
    rw [if_neg (by simp [newMx])]
    rfl

example : extract 0 wit 1 0 0 2 = .error .thrown := (C68_extract_empty 0 wit_is (by omega)).2 (by omega) (by omega)

/-- Writing a matrix into rows `r1..r2` and columns `c1..c2`: with a source at least as large (its top-left part is used), these entries
change and no others. -/
theorem C68_insert {s : Mx α} {rs cs : ℤ} {fs : ℤ → ℤ → α} (h : Is m r c f) (hs : Is s rs cs fs) {r1 r2 c1 c2 : ℤ} (a1 : 0 ≤ r1)
    (a2 : r1 ≤ r2) (a3 : r2 < r) (b1 : 0 ≤ c1) (b2 : c1 ≤ c2) (b3 : c2 < c) (hrs : r2 - r1 + 1 ≤ rs) (hcs : c2 - c1 + 1 ≤ cs) :
    Returns (MatrixOps.insert m s r1 r2 c1 c2) r c (fun i j => if r1 ≤ i ∧ i ≤ r2 ∧ c1 ≤ j ∧ j ≤ c2 then fs (i - r1) (j - c1) else f i j) :=
  insert_post h hs a1 a2 a3 b1 b2 b3 hrs hcs

example : Returns (MatrixOps.insert wit (newMx 1 2 fun _ => 9) 1 1 1 2) 2 3
    (fun i j => if 1 ≤ i ∧ i ≤ 1 ∧ 1 ≤ j ∧ j ≤ 2 then (9 : ℚ) else 10 * (i : ℚ) + (j : ℚ)) :=
  C68_insert wit_is (new_is (by omega) (by omega) fun _ => 9) (by omega) (by omega) (by omega) (by omega) (by omega) (by omega) (by omega) (by omega)

/-- The sizes are not checked: a source with enough columns but too few rows is read past its end. -/
theorem C68_insert_too_small {s : Mx α} {rs : ℤ} {fs : ℤ → ℤ → α} (h : Is m r c f) {r1 r2 c1 c2 : ℤ} (hs : Is s rs (c2 - c1 + 1) fs) (a1 : 0 ≤ r1)
    (a2 : r1 ≤ r2) (a3 : r2 < r) (b1 : 0 ≤ c1) (b2 : c1 ≤ c2) (b3 : c2 < c) (h0 : 0 < rs) (hrs : rs < r2 - r1 + 1) :
    MatrixOps.insert m s r1 r2 c1 c2 = .error .oob := by
  unfold MatrixOps.insert
  rw [if_neg (by unfold badRange; rw [h.rows, h.cols]; omega), if_pos a2, if_pos b2]
  refine bind_err (forUp_fails (fun _ (d : Arr α) => d.size = c * r) .oob _ 0 _ h.data.size (c2 - c1) ?_ ⟨by omega, by omega⟩ ?_)
  · intro t d t1 t2 hd
    rw [at2_ok h a1 (by omega) (by omega) (by omega)]
    simp only [bind, Except.bind]
    rw [at2_ok hs le_rfl (by omega) t1 (by omega)]
    simp only [memcpy]
    rw [if_neg (by omega)]
    split_ifs with hc
    · exact .inl ⟨_, rfl, hd⟩
    · exact .inr rfl
  · intro d hd
    rw [at2_ok h a1 (by omega) (by omega) (by omega)]
    simp only [bind, Except.bind]
    rw [at2_ok hs le_rfl (by omega) (by omega) (by omega)]
    simp only [memcpy]
    rw [if_neg (by omega), if_neg]
    rintro ⟨_, _, _, h4⟩
    rw [hs.data.size] at h4
    have : (c2 - c1 + 1) * rs = (c2 - c1) * rs + rs := by ring
    omega

example : MatrixOps.insert wit (newMx 1 1 fun _ => 9) 0 1 0 0 = .error .oob :=
  C68_insert_too_small (r1 := 0) (r2 := 1) (c1 := 0) (c2 := 0) wit_is (new_is (r := 1) (c := 1) (by omega) (by omega) fun _ => 9)
    (by omega) (by omega) (by omega) (by omega) (by omega) (by omega) (by omega) (by omega)

/-- Diagonals: `setdiag` sets the entries with `column - row = k` and no others, `getdiag` returns them from top to bottom. -/
theorem C68_diagonals (zero x : α) (k : ℤ) (h : Is m r c f) :
    Returns (setdiag1 m x k) r c (fun i j => if j - i = k then x else f i j) ∧
    Returns (getdiag zero m k) (max 0 (min (r - max 0 (-k)) (c - max 0 k))) 1 (fun i _ => f (max 0 (-k) + i) (max 0 k + i)) ∧
    ∀ (d : Mx α) (r' c' : ℤ) (v : ℤ → ℤ → α), Is d r' c' v →
      (r' * c' = max 0 (min (r - max 0 (-k)) (c - max 0 k)) →
        Returns (setdiagV m d k) r c (fun i j => if j - i = k then nth r' v (min i j) else f i j)) ∧
      (r' * c' ≠ max 0 (min (r - max 0 (-k)) (c - max 0 k)) → setdiagV m d k = .error .thrown) := by
  obtain ⟨b1, b2, b3, b4⟩ := diag_bounds k
  have e1 : diagRow k = max 0 (-k) := by omega
  have e2 : diagCol k = max 0 k := by omega
  refine ⟨setdiag1_post x k h, getdiag_post zero k h, fun d r' c' v hd => ⟨fun hn => ?_, fun hn => ?_⟩⟩
  · exact setdiagV_post k h hd (by rw [e1, e2]; exact hn)
  · unfold setdiagV
    rw [is_n hd, h.rows, h.cols, e1, e2, Int.mul_comm c' r', if_pos hn]

example : Returns (getdiag 0 wit 1) 2 1 (fun i _ => 10 * ((0 + i : ℤ) : ℚ) + ((1 + i : ℤ) : ℚ)) := (C68_diagonals 0 5 1 wit_is).2.1

/-- `diag` of a matrix is its diagonal; `diag` of a vector puts it on the diagonal `row - column = k`, which for `k ≠ 0` is the one `getdiag`
calls `-k`: reading diagonal `-k` of `diag (v, k)` gives `v` back. -/
theorem C68_diag (zero : α) (k : ℤ) (h : Is m r c f) :
    (r ≠ 1 ∧ c ≠ 1 → diag zero m k = getdiag zero m k) ∧
    (r = 1 ∨ c = 1 → Returns (diag zero m k) (r * c + |k|) (r * c + |k|) (fun i j => if i - j = k then nth r f (min i j) else zero) ∧
      ∃ d, diag zero m k = .ok d ∧ Returns (getdiag zero d (-k)) (r * c) 1 (fun i _ => nth r f i)) := by
  refine ⟨diag_mat_post zero k h, fun hv => ?_⟩
  have h1 := diag_vec_post zero k h hv
  refine ⟨h1, ?_⟩
  obtain ⟨d, hd, hD⟩ := h1
  refine ⟨d, hd, ?_⟩
  have hn : 0 ≤ r * c := mul_nonneg (is_r0 h) (is_c0 h)
  obtain ⟨b, hb, hB⟩ := getdiag_post zero (-k) hD
  have e : max 0 (min (r * c + |k| - max 0 (- -k)) (r * c + |k| - max 0 (-k))) = r * c := by
    rcases abs_cases k with ⟨q1, q2⟩ | ⟨q1, q2⟩ <;> rw [q1] <;> omega
  rw [e] at hB
  refine ⟨b, hb, hB.congr fun i j q1 q2 q3 q4 => ?_⟩
  rw [if_pos (by omega)]
  congr 1; omega

example : (Returns (diag 0 (newMx 1 2 fun _ => (5 : ℚ)) 1) (1 * 2 + |1|) (1 * 2 + |1|) (fun i j => if i - j = 1 then 5 else 0)) :=
  ((C68_diag 0 1 (new_is (r := 1) (c := 2) (by omega) (by omega) fun _ => (5 : ℚ))).2 (.inl rfl)).1

/-! ### C69: reductions and extremes -/

/-- `sum` and `prod` (over everything, each row, each column) combine the entries from the left in index order, whatever the operation: in
particular for rounded addition and multiplication. -/
theorem C69_folds (op : α → α → α) (x0 : α) (h : Is m r c f) :
    reduce op x0 m = .ok (foldFirst op x0 (nth r f) (r * c).toNat) ∧
    Returns (rreduce op x0 m) r 1 (fun i _ => foldFirst op x0 (fun j => f i j) c.toNat) ∧
    Returns (creduce op x0 m) 1 c (fun _ j => foldFirst op x0 (fun i => f i j) r.toNat) := by
  refine ⟨?_, rreduce_post op x0 h, creduce_post op x0 h⟩
  rw [Int.mul_comm]; exact reduce_post op x0 h

example : Returns (creduce (· + ·) 0 wit) 1 3 (fun _ j => foldFirst (· + ·) 0 (fun i => 10 * (i : ℚ) + (j : ℚ)) 2) := (C69_folds _ _ wit_is).2.2

theorem foldFirst_sum (v : ℤ → ℚ) (n : ℕ) : foldFirst (· + ·) 0 v n = ∑ k ∈ Finset.range n, v k := by
  induction n with
  | zero => rfl
  | succ n ih => rw [Finset.sum_range_succ, ← ih]; rfl

theorem foldFirst_prod (v : ℤ → ℚ) (n : ℕ) : foldFirst (· * ·) 1 v n = ∏ k ∈ Finset.range n, v k := by
  induction n with
  | zero => rfl
  | succ n ih => rw [Finset.prod_range_succ, ← ih]; rfl

/-- In exact arithmetic these are the sums and products of the entries. -/
theorem C69_sums {a : Mx ℚ} {f : ℤ → ℤ → ℚ} (h : Is a r c f) :
    reduce (· + ·) 0 a = .ok (∑ k ∈ Finset.range (r * c).toNat, nth r f k) ∧
    reduce (· * ·) 1 a = .ok (∏ k ∈ Finset.range (r * c).toNat, nth r f k) ∧
    Returns (rreduce (· + ·) 0 a) r 1 (fun i _ => ∑ j ∈ Finset.range c.toNat, f i j) ∧
    Returns (rreduce (· * ·) 1 a) r 1 (fun i _ => ∏ j ∈ Finset.range c.toNat, f i j) ∧
    Returns (creduce (· + ·) 0 a) 1 c (fun _ j => ∑ i ∈ Finset.range r.toNat, f i j) ∧
    Returns (creduce (· * ·) 1 a) 1 c (fun _ j => ∏ i ∈ Finset.range r.toNat, f i j) := by
  obtain ⟨a1, a2, a3⟩ := C69_folds (· + ·) 0 h
  obtain ⟨b1, b2, b3⟩ := C69_folds (· * ·) 1 h
  simp only [foldFirst_sum, foldFirst_prod] at a1 a2 a3 b1 b2 b3
  exact ⟨a1, b1, a2, b2, a3, b3⟩

example : reduce (· + ·) 0 wit = .ok 36 := by
  rw [(C69_sums wit_is).1]
  congr 1
  rw [show (2 * 3 : ℤ).toNat = 6 from rfl]
  simp only [Finset.sum_range_succ, Finset.sum_range_zero, nth]
  norm_num

/-- `any` (with `test x = (x ≠ 0)`) and `all` (its negation, with `test x = (x = 0)`). -/
theorem C69_any_all {a : Mx ℚ} {f : ℤ → ℤ → ℚ} (h : Is a r c f) :
    (∃ b, anyOf (fun x => decide (x ≠ 0)) a = .ok b ∧ (b = true ↔ ∃ i j, 0 ≤ i ∧ i < r ∧ 0 ≤ j ∧ j < c ∧ f i j ≠ 0)) ∧
    (∃ b, anyOf (fun x => decide (x = 0)) a = .ok b ∧ ((!b) = true ↔ ∀ i j, 0 ≤ i → i < r → 0 ≤ j → j < c → f i j ≠ 0)) := by
  have key : ∀ test : ℚ → Bool, (∃ k, 0 ≤ k ∧ k < c * r ∧ test (nth r f k) = true) ↔
      ∃ i j, 0 ≤ i ∧ i < r ∧ 0 ≤ j ∧ j < c ∧ test (f i j) = true := by
    intro test
    constructor
    · rintro ⟨k, k1, k2, k3⟩
      obtain ⟨a1, a2, a3, a4, a5⟩ := idx_split (is_r0 h) k1 k2
      exact ⟨_, _, a1, a2, a3, a4, k3⟩
    · rintro ⟨i, j, a1, a2, a3, a4, a5⟩
      refine ⟨j * r + i, idx_nonneg (is_r0 h) a1 a3, idx_lt a1 a2 a4, ?_⟩
      rwa [nth, idx_mod a1 a2, idx_div a1 a2]
  constructor
  · obtain ⟨b, hb, hB⟩ := anyOf_post (fun x => decide (x ≠ 0)) h
    refine ⟨b, hb, ?_⟩
    rw [hB, key fun x => decide (x ≠ 0)]
    simp
  · obtain ⟨b, hb, hB⟩ := anyOf_post (fun x => decide (x = 0)) h
    refine ⟨b, hb, ?_⟩
    rw [key fun x => decide (x = 0)] at hB
    have : (!b) = true ↔ ¬ (b = true) := by cases b <;> simp
    rw [this, hB]
    simp only [decide_eq_true_eq, not_exists, not_and]

example : ∃ b, anyOf (fun x => decide (x ≠ 0)) wit = .ok b ∧ b = true := by
  obtain ⟨b, h1, h2⟩ := (C69_any_all wit_is).1
  exact ⟨b, h1, h2.mpr ⟨1, 0, by norm_num⟩⟩

/-- `min` and `max` of a non-empty matrix: an entry that no other beats, with the index of the first such entry. -/
theorem C69_min {lt : α → α → Bool} (hs : Strict lt) (h : Is m r c f) (hr : 0 < r) (hc : 0 < c) :
    ∃ x k, minIdx lt m = .ok (x, k) ∧ minOf lt m = .ok x ∧ 0 ≤ k ∧ k < r * c ∧ x = nth r f k ∧
      (∀ i j, 0 ≤ i → i < r → 0 ≤ j → j < c → lt (f i j) x = false) ∧ ∀ l, 0 ≤ l → l < k → lt x (nth r f l) = true := by
  have hne : c * r ≠ 0 := by positivity
  obtain ⟨⟨x, k⟩, hp, a1, a2, a3, a4, a5⟩ := minIdx_post hs h hne
  refine ⟨x, k, hp, minOf_eq_minIdx lt h hne _ hp, a1, by rw [Int.mul_comm]; exact a2, a3, fun i j b1 b2 b3 b4 => ?_, a5⟩
  have := a4 (j * r + i) (idx_nonneg hr.le b1 b3) (idx_lt b1 b2 b4)
  rwa [nth, idx_mod b1 b2, idx_div b1 b2] at this

/-- `<` and `>` on numbers are such orders. -/
theorem strict_lt : Strict (fun x y : ℚ => decide (x < y)) :=
  ⟨by simp, by simp only [decide_eq_true_eq]; exact fun _ _ _ => lt_trans, by simp only [decide_eq_false_iff_not, not_lt]; exact fun _ _ _ h1 h2 => le_trans h2 h1⟩

theorem strict_gt : Strict (fun x y : ℚ => decide (x > y)) :=
  ⟨by simp, by simp only [decide_eq_true_eq]; exact fun _ _ _ h1 h2 => lt_trans h2 h1, by simp only [decide_eq_false_iff_not, not_lt]; exact fun _ _ _ h1 h2 => le_trans h1 h2⟩

example : ∃ x k, minIdx (fun x y : ℚ => decide (x > y)) wit = .ok (x, k) ∧ ∀ i j : ℤ, 0 ≤ i → i < 2 → 0 ≤ j → j < 3 →
    decide (10 * (i : ℚ) + (j : ℚ) > x) = false := by
  obtain ⟨x, k, h1, _, _, _, _, h2, _⟩ := C69_min strict_gt wit_is (by omega) (by omega)
  exact ⟨x, k, h1, h2⟩

/-- `rmin`/`rmax`, with and without indices: for each row the best entry and the first column it is in. -/
theorem C69_rmin {lt : α → α → Bool} (hs : Strict lt) (g : ℤ → α) (h : Is m r c f) (hr : 0 < r) (hc : 0 < c) :
    ∃ (a : Mx α) (b : Mx ℚ) (x : ℤ → α) (k : ℤ → ℤ), rminIdx lt g m = .ok (a, b) ∧ Is a r 1 (fun i _ => x i) ∧ Is b r 1 (fun i _ => ((k i : ℤ) : ℚ)) ∧
      (∀ i, 0 ≤ i → i < r → 0 ≤ k i ∧ k i < c ∧ x i = f i (k i) ∧ (∀ j, 0 ≤ j → j < c → lt (f i j) (x i) = false) ∧
        ∀ j, 0 ≤ j → j < k i → lt (x i) (f i j) = true) ∧
      ∃ y : ℤ → α, Returns (rminOf lt g m) r 1 (fun i _ => y i) ∧
        ∀ i, 0 ≤ i → i < r → (∃ j, 0 ≤ j ∧ j < c ∧ y i = f i j) ∧ ∀ j, 0 ≤ j → j < c → lt (f i j) (y i) = false := by
  have hne : c * r ≠ 0 := by positivity
  obtain ⟨⟨a, b⟩, hp, x, k, h1, h2, h3⟩ := rminIdx_post hs g h hne
  obtain ⟨d, hd, y, l, h4, h5⟩ := rminOf_post hs g h hne
  refine ⟨a, b, x, k, hp, h1, h2, h3, y, ⟨d, hd, h4⟩, fun i i1 i2 => ?_⟩
  obtain ⟨q1, q2, q3, q4, q5⟩ := h5 i i1 i2
  exact ⟨⟨_, q1, q2, q3⟩, q4⟩

example : ∃ a b, rminIdx (fun x y : ℚ => decide (x < y)) (fun _ => 0) wit = .ok (a, b) := by
  obtain ⟨a, b, _, _, h, _⟩ := C69_rmin strict_lt (fun _ => 0) wit_is (by omega) (by omega)
  exact ⟨a, b, h⟩

/-- `cmin`/`cmax` without indices: for each column its best entry. -/
theorem C69_cmin {lt : α → α → Bool} (hs : Strict lt) (g : ℤ → α) (h : Is m r c f) (hr : 0 < r) (hc : 0 < c) :
    ∃ y : ℤ → α, Returns (cminOf lt g m) 1 c (fun _ j => y j) ∧
      ∀ j, 0 ≤ j → j < c → (∃ i, 0 ≤ i ∧ i < r ∧ y j = f i j) ∧ ∀ i, 0 ≤ i → i < r → lt (f i j) (y j) = false := by
  have hne : c * r ≠ 0 := by positivity
  obtain ⟨d, hd, y, l, h4, h5⟩ := cminOf_post hs g h hne
  refine ⟨y, ⟨d, hd, h4⟩, fun i i1 i2 => ?_⟩
  obtain ⟨q1, q2, q3, q4, q5⟩ := h5 i i1 i2
  exact ⟨⟨_, q1, q2, q3⟩, q4⟩

example : ∃ y : ℤ → ℚ, Returns (cminOf (fun x y : ℚ => decide (x < y)) (fun _ => 0) wit) 1 3 (fun _ j => y j) := by
  obtain ⟨y, h, _⟩ := C69_cmin strict_lt (fun _ => 0) wit_is (by omega) (by omega)
  exact ⟨y, h⟩

/-- `cmin`/`cmax` *with* indices do not compute column minima: with more rows than columns they leave the memory of the result, otherwise cell `j`
is the best of the top of column `j` and of the entries of **row** `j`. -/
theorem C69_cmin_indices_wrong {lt : α → α → Bool} (hs : Strict lt) (g : ℤ → α) (h : Is m r c f) (hr : 0 < r) (hc : 0 < c) :
    (c < r → cminIdx lt g m = .error .oob) ∧
    (r ≤ c → ∃ (a : Mx α) (b : Mx ℚ) (x : ℤ → α), cminIdx lt g m = .ok (a, b) ∧ Is a 1 c (fun _ j => x j) ∧ (∀ j, r ≤ j → j < c → x j = f 0 j) ∧
      ∀ j, 0 ≤ j → j < r → (x j = f 0 j ∨ ∃ k, 0 ≤ k ∧ k < c ∧ x j = f j k) ∧ lt (f 0 j) (x j) = false ∧
        ∀ k, 0 ≤ k → k < c → lt (f j k) (x j) = false) := by
  refine ⟨cminIdx_fails lt g h hc, fun hrc => ?_⟩
  obtain ⟨⟨a, b⟩, hp, x, h1, h2, h3⟩ := cminIdx_post hs g h hr hrc
  exact ⟨a, b, x, hp, h1, h2, h3⟩

/-- The largest entry of the last column of `wit` is 12; `cmax` with indices does not find it. -/
example : ∃ (a : Mx ℚ) (b : Mx ℚ) (x : ℤ → ℚ), cminIdx (fun x y : ℚ => decide (x > y)) (fun _ => 0) wit = .ok (a, b) ∧ Is a 1 3 (fun _ j => x j) ∧ x 2 ≠ 12 := by
  obtain ⟨a, b, x, h1, h2, h3, h4⟩ := (C69_cmin_indices_wrong strict_gt (fun _ => 0) wit_is (by omega) (by omega)).2 (by omega)
  refine ⟨a, b, x, h1, h2, ?_⟩
  rw [h3 2 (by omega) (by omega)]
  norm_num

/-- All of them refuse empty matrices. -/
theorem C69_empty (lt : α → α → Bool) (g : ℤ → α) (h : Is m r c f) (he : r * c = 0) :
    minOf lt m = .error .thrown ∧ minIdx lt m = .error .thrown ∧ rminOf lt g m = .error .thrown ∧ rminIdx lt g m = .error .thrown ∧
      cminOf lt g m = .error .thrown ∧ cminIdx lt g m = .error .thrown := nonempty_fails lt g h (by rw [Int.mul_comm]; exact he)

example : minOf (fun x y : ℚ => decide (x < y)) (newMx 0 3 fun _ => 1) = .error .thrown :=
  (C69_empty _ (fun _ => 0) (new_is (r := 0) (c := 3) (by omega) (by omega) _) rfl).1

/-! ### C70: elementwise operations, product, comparison, `linspace` -/

/-- Elementwise functions, into a new matrix and in place. -/
theorem C70_map {β : Type} (u : α → β) (w : α → α) (x : α) (g : ℤ → β) (h : Is m r c f) :
    Returns (mapNew u g m) r c (fun i j => u (f i j)) ∧ Returns (mapIn w m) r c (fun i j => w (f i j)) ∧
    Returns (fillWith m x) r c (fun _ _ => x) := ⟨mapNew_post u g h, mapIn_post w h, fillWith_post x h⟩

example : Returns (mapNew (fun x => -x) (fun _ => 0) wit) 2 3 (fun i j => -(10 * (i : ℚ) + (j : ℚ))) := (C70_map _ (fun x => x) 0 _ wit_is).1

/-- Binary operators: for equal shapes entry by entry, otherwise refused. -/
theorem C70_zip {β : Type} (u : α → α → β) (g : ℤ → β) {b : Mx α} {r' c' : ℤ} {f' : ℤ → ℤ → α} (h : Is m r c f) (hb : Is b r' c' f') :
    (r = r' → c = c' → Returns (zipNew u g m b) r c (fun i j => u (f i j) (f' i j))) ∧
    (¬ (r = r' ∧ c = c') → zipNew u g m b = .error .thrown) := by
  constructor
  · rintro rfl rfl; exact zipNew_post u g h hb
  · intro hn
    exact zipNew_fails u g (by rw [h.rows, h.cols, hb.rows, hb.cols]; tauto)

example : Returns (zipNew (· + ·) (fun _ => 0) wit wit) 2 3 (fun i j => (10 * (i : ℚ) + (j : ℚ)) + (10 * (i : ℚ) + (j : ℚ))) :=
  (C70_zip _ _ wit_is wit_is).1 rfl rfl

/-- Computed assignment (`a += b`): for equal shapes entry by entry. Other numbers of columns are refused. -/
theorem C70_assign (u : α → α → α) {b : Mx α} {r' c' : ℤ} {f' : ℤ → ℤ → α} (h : Is m r c f) (hb : Is b r' c' f') :
    (r = r' → c = c' → Returns (zipIn u m b) r c (fun i j => u (f i j) (f' i j))) ∧ (c ≠ c' → zipIn u m b = .error .thrown) := by
  constructor
  · rintro rfl rfl
    obtain ⟨d, hd, hD⟩ := zipIn_post u h hb le_rfl
    refine ⟨d, hd, hD.congr fun i j a1 a2 a3 a4 => ?_⟩
    rw [nth, idx_mod a1 a2, idx_div a1 a2]
  · intro hne
    unfold zipIn
    rw [h.cols, hb.cols, if_pos (.inr hne)]

example : Returns (zipIn (· * ·) wit wit) 2 3 (fun i j => (10 * (i : ℚ) + (j : ℚ)) * (10 * (i : ℚ) + (j : ℚ))) :=
  (C70_assign _ wit_is wit_is).1 rfl rfl

/-- But another number of *rows* is not refused (the check compares the target with itself): fewer rows are read past the end, more rows are used in column
order, shifted. -/
theorem C70_assign_rows_unchecked (u : α → α → α) {b : Mx α} {r' : ℤ} {f' : ℤ → ℤ → α} (h : Is m r c f) (hb : Is b r' c f') (hc : 0 < c) :
    (r' < r → zipIn u m b = .error .oob) ∧ (r < r' → Returns (zipIn u m b) r c (fun i j => u (f i j) (nth r' f' (j * r + i)))) :=
  ⟨fun hlt => zipIn_fails u h hb hlt hc, fun hlt => zipIn_post u h hb hlt.le⟩

example : zipIn (· + ·) wit (newMx 1 3 fun _ => 0) = .error .oob :=
  (C70_assign_rows_unchecked _ wit_is (new_is (r := 1) (c := 3) (by omega) (by omega) _) (by omega)).1 (by omega)

/-- `isequal`: same shape and equal entries. -/
theorem C70_isequal {a b : Mx ℚ} {r' c' : ℤ} {f f' : ℤ → ℤ → ℚ} (h : Is a r c f) (hb : Is b r' c' f') :
    ∃ x, isequal (fun x y => decide (x = y)) a b = .ok x ∧
      (x = true ↔ r = r' ∧ c = c' ∧ ∀ i j, 0 ≤ i → i < r → 0 ≤ j → j < c → f i j = f' i j) := by
  obtain ⟨x, hx, hX⟩ := isequal_post (fun x y : ℚ => decide (x = y)) h hb
  exact ⟨x, hx, by simpa using hX⟩

example : ∃ x, isequal (fun x y => decide (x = y)) wit wit = .ok x ∧ x = true := by
  obtain ⟨x, h1, h2⟩ := C70_isequal wit_is wit_is
  exact ⟨x, h1, h2.mpr ⟨rfl, rfl, fun _ _ _ _ _ _ => rfl⟩⟩

/-- The matrix product, for any addition and multiplication (rounded ones included): `c(i,j)` accumulates `a(i,k) * b(k,j)` from `k = 0`.  A
`1 × 1` factor scales; other shapes that do not fit are refused. -/
theorem C70_mtimes (add mul : α → α → α) (zero : α) (g : ℤ → α) {b : Mx α} {r' c' : ℤ} {f' : ℤ → ℤ → α} (h : Is m r c f) (hb : Is b r' c' f') :
    (¬ (r = 1 ∧ c = 1) → ¬ (r' = 1 ∧ c' = 1) → c = r' →
      Returns (mtimes add mul zero g m b) r c' (fun i j => foldFirst add zero (fun k => mul (f i k) (f' k j)) c.toNat)) ∧
    (r = 1 → c = 1 → Returns (mtimes add mul zero g m b) r' c' (fun i j => mul (f 0 0) (f' i j))) ∧
    (¬ (r = 1 ∧ c = 1) → r' = 1 → c' = 1 → Returns (mtimes add mul zero g m b) r c (fun i j => mul (f i j) (f' 0 0))) ∧
    (¬ (r = 1 ∧ c = 1) → ¬ (r' = 1 ∧ c' = 1) → c ≠ r' → mtimes add mul zero g m b = .error .thrown) := by
  have one : ∀ {x y : ℤ}, 0 ≤ x → 0 ≤ y → ¬ (x = 1 ∧ y = 1) → y * x ≠ 1 := by
    intro x y hx hy hn he
    have h1 : x ∣ 1 := ⟨y, by rw [← he]; ring⟩
    have h2 : x = 1 := by
      rcases Int.isUnit_iff.mp (isUnit_of_dvd_one h1) with h | h <;> omega
    subst h2
    exact hn ⟨rfl, by omega⟩
  refine ⟨fun h1 h2 e => ?_, fun e1 e2 => ?_, fun h1 e1 e2 => ?_, fun h1 h2 e => ?_⟩
  · subst e
    exact mtimes_post add mul zero g h hb (one (is_r0 h) (is_c0 h) h1) (one (is_r0 hb) (is_c0 hb) h2)
  · subst e1 e2
    exact mtimes_scalar_left add mul zero g h hb
  · subst e1 e2
    exact mtimes_scalar_right add mul zero g h (one (is_r0 h) (is_c0 h) h1) hb
  · exact mtimes_fails add mul zero g h hb (one (is_r0 h) (is_c0 h) h1) (one (is_r0 hb) (is_c0 hb) h2) e

/-- In exact arithmetic this is the matrix product, also when a factor is `1 × 1` and the shapes fit. -/
theorem C70_product (g : ℤ → ℚ) {a b : Mx ℚ} {c' : ℤ} {f f' : ℤ → ℤ → ℚ} (h : Is a r c f) (hb : Is b c c' f') :
    Returns (mtimes (· + ·) (· * ·) 0 g a b) r c' (fun i j => ∑ k ∈ Finset.range c.toNat, f i k * f' k j) := by
  obtain ⟨p1, p2, p3, p4⟩ := C70_mtimes (· + ·) (· * ·) 0 g h hb
  by_cases e1 : r = 1 ∧ c = 1
  · obtain ⟨rfl, rfl⟩ := e1
    obtain ⟨d, hd, hD⟩ := p2 rfl rfl
    refine ⟨d, hd, hD.congr fun i j a1 a2 a3 a4 => ?_⟩
    have : i = 0 := by omega
    simp [this]
  · by_cases e2 : c = 1 ∧ c' = 1
    · obtain ⟨rfl, rfl⟩ := e2
      obtain ⟨d, hd, hD⟩ := p3 e1 rfl rfl
      refine ⟨d, hd, hD.congr fun i j a1 a2 a3 a4 => ?_⟩
      have : j = 0 := by omega
      simp [this]
    · have := p1 e1 e2 rfl
      simpa only [foldFirst_sum] using this

example : Returns (mtimes (· + ·) (· * ·) 0 (fun _ => 0) wit (newMx 3 1 fun _ => (1 : ℚ))) 2 1
    (fun i _ => ∑ k ∈ Finset.range 3, (10 * (i : ℚ) + ((k : ℤ) : ℚ)) * 1) :=
  C70_product _ wit_is (new_is (r := 3) (c := 1) (by omega) (by omega) fun _ => 1)

/-- `linspace (a, b, n)` has `n` points in a column, from exactly `a` to exactly `b`, with equal steps. -/
theorem C70_linspace (g : ℤ → ℚ) (a b : ℚ) {n : ℤ} (hn : 2 ≤ n) :
    ∃ x : ℤ → ℚ, Returns (linspace g a b n) n 1 (fun i _ => x i) ∧ x 0 = a ∧ x (n - 1) = b ∧
      ∀ i, x (i + 1) - x i = (b - a) / ((n : ℚ) - 1) := by
  refine ⟨_, linspace_post g a b hn, by simp, ?_, fun i => by push_cast; ring⟩
  have : ((n : ℚ) - 1) ≠ 0 := by
    have : (2 : ℚ) ≤ (n : ℚ) := by exact_mod_cast hn
    linarith
  push_cast
  field_simp
  ring

example : ∃ x : ℤ → ℚ, Returns (linspace (fun _ => 9) 0 1 5) 5 1 (fun i _ => x i) ∧ x 0 = 0 ∧ x (5 - 1) = 1 := by
  obtain ⟨x, h1, h2, h3, _⟩ := C70_linspace (fun _ => 9) 0 1 (n := 5) (by omega)
  exact ⟨x, h1, h2, h3⟩

/-- Asking for fewer than two points gives the single point `b`. -/
theorem C70_linspace_one (g : ℤ → ℚ) (a b : ℚ) {n : ℤ} (hn : n ≤ 1) : Returns (linspace g a b n) 1 1 (fun _ _ => b) := by
  unfold linspace linspaceIn
  rw [max_eq_left hn]
  have hz := new_is (show (0 : ℤ) ≤ 1 by omega) (show (0 : ℤ) ≤ 1 by omega) g
  rw [is_n hz, if_neg (by omega), if_pos (by omega)]
  have := cols_wr hz.data (i := 0) (j := 0) le_rfl (by omega) le_rfl (by omega) b
  refine Post.bind this fun d hd => ⟨_, rfl, rfl, rfl, hd.congr fun i j a1 a2 a3 a4 => ?_⟩
  rw [upd_apply, if_pos (by omega)]

example : Returns (linspace (fun _ => 9) 0 1 (-4)) 1 1 (fun _ _ => 1) := C70_linspace_one _ _ _ (by omega)

end

end EdgeEval.Props
