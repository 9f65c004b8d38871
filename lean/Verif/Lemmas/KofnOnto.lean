import Verif.Lemmas.Match

/-! # Every choice of rows is produced by some random stream -/

namespace EdgeEval

open Props

/-- From position `pos` on the stream starts with the listed draws. -/
def Reads (xs : Nat → ℚ) (pos : Nat) (ds : List ℚ) : Prop := ∀ i (h : i < ds.length), xs (pos + i) = ds[i]

/-- Draws in `[0, 1)`. -/
def UnitDraws (ds : List ℚ) : Prop := ∀ d ∈ ds, 0 ≤ d ∧ d < 1

theorem Reads.head {xs : Nat → ℚ} {pos : Nat} {d : ℚ} {ds : List ℚ} (h : Reads xs pos (d :: ds)) :
    xs pos = d ∧ Reads xs (pos + 1) ds := by
  refine ⟨h 0 (by simp), fun i hi => ?_⟩
  have := h (i + 1) (by simpa using hi)
  rw [show pos + 1 + i = pos + (i + 1) by omega, this]; rfl

theorem Reads.app {xs : Nat → ℚ} {pos : Nat} {a b : List ℚ} (h : Reads xs pos (a ++ b)) :
    Reads xs pos a ∧ Reads xs (pos + a.length) b := by
  constructor
  · intro i hi
    have := h i (by rw [List.length_append]; omega)
    rwa [List.getElem_append_left hi] at this
  · intro i hi
    have := h (a.length + i) (by rw [List.length_append]; omega)
    rw [List.getElem_append_right (by omega)] at this
    rw [show pos + a.length + i = pos + (a.length + i) by omega, this]
    congr 1; omega

theorem UnitDraws.append {a b : List ℚ} (ha : UnitDraws a) (hb : UnitDraws b) : UnitDraws (a ++ b) := by
  intro d hd
  rcases List.mem_append.mp hd with h | h
  · exact ha d h
  · exact hb d h

theorem UnitDraws.cons {d : ℚ} {b : List ℚ} (h0 : 0 ≤ d) (h1 : d < 1) (hb : UnitDraws b) : UnitDraws (d :: b) := by
  intro e he
  rcases List.mem_cons.mp he with rfl | h
  · exact ⟨h0, h1⟩
  · exact hb e h

theorem UnitDraws.nil : UnitDraws [] := by intro d hd; simp at hd

theorem reads_getD (ds : List ℚ) : Reads (fun i => ds.getD i 0) 0 ds := by
  intro i hi
  show ds.getD (0 + i) 0 = ds[i]
  rw [Nat.zero_add, List.getD_eq_getElem?_getD, List.getElem?_eq_getElem hi]; rfl

theorem unit_getD {ds : List ℚ} (h : UnitDraws ds) : UnitStream (fun i => ds.getD i 0) := by
  intro i
  simp only [List.getD_eq_getElem?_getD]
  by_cases hi : i < ds.length
  · rw [List.getElem?_eq_getElem hi]; exact h _ (List.getElem_mem hi)
  · rw [List.getElem?_eq_none (by omega)]; exact ⟨le_refl _, one_pos⟩

theorem largeKLoop_onto (k n : Nat) (rem j : Nat) (l : List Nat) (h1 : rem ≤ n) (h2 : j ≤ k)
    (hl : l.length = k - j) (hs : l.Pairwise (· < ·)) (hr : ∀ x ∈ l, n - rem ≤ x ∧ x < n) :
    ∃ ds, ds.length = rem ∧ UnitDraws ds ∧ ∀ xs pos, Reads xs pos ds → largeKLoop k n xs rem pos j = l := by
  induction rem generalizing j l with
  | zero =>
    refine ⟨[], rfl, UnitDraws.nil, fun xs pos _ => ?_⟩
    cases l with
    | nil => rfl
    | cons x l => have := hr x (by simp); omega
  | succ rem ih =>
    have hpos : (0 : ℚ) < ((rem + 1 : Nat) : ℚ) := by positivity
    by_cases hc : ∃ l', l = (n - (rem + 1)) :: l'
    · obtain ⟨l', rfl⟩ := hc
      rw [List.length_cons] at hl
      obtain ⟨ds, a, b, c⟩ := ih (j + 1) l' (by omega) (by omega) (by omega) (List.pairwise_cons.mp hs).2 (by
        intro x hx
        have := (List.pairwise_cons.mp hs).1 x hx
        have := hr x (by simp [hx]); omega)
      refine ⟨0 :: ds, by simp [a], b.cons (le_refl _) one_pos, fun xs pos hR => ?_⟩
      obtain ⟨e1, e2⟩ := hR.head
      unfold largeKLoop
      rw [e1, if_pos, c _ _ e2]
      apply div_pos _ hpos
      have : (j : ℚ) < k := by exact_mod_cast (by omega : j < k)
      linarith
    · have hr' : ∀ x ∈ l, n - rem ≤ x ∧ x < n := by
        intro x hx
        have h3 := hr x hx
        refine ⟨?_, h3.2⟩
        by_contra hlt
        have hxe : x = n - (rem + 1) := by omega
        cases l with
        | nil => simp at hx
        | cons y l =>
          rcases List.mem_cons.mp hx with rfl | hx'
          · exact hc ⟨l, by rw [hxe]⟩
          · have := (List.pairwise_cons.mp hs).1 x hx'
            have := hr y (by simp); omega
      have hle : k - j ≤ rem := by
        have hsub : l ⊆ List.range' (n - rem) rem := by
          intro x hx
          have := hr' x hx
          rw [List.mem_range'_1]; omega
        have := (List.subperm_of_subset (hs.imp (fun h => Nat.ne_of_lt h)) hsub).length_le
        rw [List.length_range'] at this; omega
      obtain ⟨ds, a, b, c⟩ := ih j l (by omega) h2 hl hs hr'
      have hkj : ((k : ℚ) - j) = ((k - j : Nat) : ℚ) := by rw [Nat.cast_sub h2]
      refine ⟨((k : ℚ) - j) / ((rem + 1 : Nat) : ℚ) :: ds, by simp [a], b.cons ?_ ?_, fun xs pos hR => ?_⟩
      · rw [hkj]; positivity
      · rw [hkj, div_lt_one hpos]; exact_mod_cast (by omega)
      · obtain ⟨e1, e2⟩ := hR.head
        unfold largeKLoop
        rw [e1, if_neg (lt_irrefl _), c _ _ e2]

theorem randI32_frac {v m : Nat} (hm : 0 < m) : randI32 ((v : ℚ) / m) 0 ((m : Int) - 1) = v := by
  unfold randI32
  have hm' : (m : ℚ) ≠ 0 := by positivity
  have : (v : ℚ) / m * ((((m : Int) - 1 : Int) : ℚ) - ((0 : Int) : ℚ) + 1) + ((0 : Int) : ℚ) = ((v : Int) : ℚ) := by
    push_cast; field_simp; ring
  rw [this, Int.floor_intCast]

theorem smallKSplit_onto (n leftN : Nat) (hl : leftN ≤ n) (cnt i lk rk a b : Nat) (h1 : i = lk + rk) (hab : a + b = cnt)
    (h2 : lk + a ≤ leftN) (h3 : rk + b ≤ n - leftN) :
    ∃ ds, ds.length = cnt ∧ UnitDraws ds ∧
      ∀ xs pos, Reads xs pos ds → smallKSplit n leftN xs cnt pos i lk rk = (lk + a, rk + b) := by
  induction cnt generalizing i lk rk a b with
  | zero =>
    refine ⟨[], rfl, UnitDraws.nil, fun xs pos _ => ?_⟩
    simp only [smallKSplit, Prod.mk.injEq]; omega
  | succ cnt ih =>
    have e : ((n : Int) - i - 1) = (((n - i : Nat) : Int) - 1) := by omega
    by_cases ha : 0 < a
    · obtain ⟨ds, d1, d2, d3⟩ := ih (i + 1) (lk + 1) rk (a - 1) b (by omega) (by omega) (by omega) h3
      refine ⟨0 :: ds, by simp [d1], d2.cons (le_refl _) one_pos, fun xs pos hR => ?_⟩
      obtain ⟨e1, e2⟩ := hR.head
      have h0 := randI32_frac (v := 0) (m := n - i) (by omega)
      rw [Nat.cast_zero, zero_div] at h0
      unfold smallKSplit
      have hc : ((0 : Nat) : Int) < (leftN : Int) - lk := by omega
      rw [e1, e, h0, if_pos hc, d3 _ _ e2]
      exact Prod.ext (show lk + 1 + (a - 1) = lk + a by omega) rfl
    · obtain ⟨ds, d1, d2, d3⟩ := ih (i + 1) lk (rk + 1) a (b - 1) (by omega) (by omega) h2 (by omega)
      have hp : (0 : ℚ) < ((n - i : Nat) : ℚ) := by exact_mod_cast (by omega : 0 < n - i)
      refine ⟨((n - i - 1 : Nat) : ℚ) / ((n - i : Nat) : ℚ) :: ds, by simp [d1], d2.cons (by positivity) ?_,
        fun xs pos hR => ?_⟩
      · rw [div_lt_one hp]; exact_mod_cast (by omega)
      obtain ⟨e1, e2⟩ := hR.head
      have h0 := randI32_frac (v := n - i - 1) (m := n - i) (by omega)
      unfold smallKSplit
      have hc : ¬ ((n - i - 1 : Nat) : Int) < (leftN : Int) - lk := by omega
      rw [e1, e, h0, if_neg hc, d3 _ _ e2]
      exact Prod.ext rfl (show rk + 1 + (b - 1) = rk + b by omega)

/-- A sorted list is the part below `m` followed by the rest. -/
theorem split_sorted (m n : Nat) (hm : m ≤ n) (l : List Nat) (hs : l.Pairwise (· < ·)) (hr : ∀ x ∈ l, x < n) :
    ∃ L R, IsKSubset L.length m L ∧ IsKSubset R.length (n - m) R ∧ l = L ++ R.map (· + m) := by
  induction l with
  | nil => exact ⟨[], [], ⟨rfl, List.Pairwise.nil, by simp⟩, ⟨rfl, List.Pairwise.nil, by simp⟩, rfl⟩
  | cons x l ih =>
    rw [List.pairwise_cons] at hs
    by_cases hx : x < m
    · obtain ⟨L, R, hL, hR, he⟩ := ih hs.2 (fun y hy => hr y (by simp [hy]))
      refine ⟨x :: L, R, ⟨rfl, List.pairwise_cons.mpr ⟨fun y hy => hs.1 y (by rw [he]; simp [hy]), hL.2.1⟩, ?_⟩, hR,
        by rw [he]; rfl⟩
      intro y hy
      rcases List.mem_cons.mp hy with rfl | hy
      · exact hx
      · exact hL.2.2 y hy
    · have hge : ∀ y ∈ x :: l, m ≤ y ∧ y < n := by
        intro y hy
        refine ⟨?_, hr y hy⟩
        rcases List.mem_cons.mp hy with rfl | hy
        · omega
        · have := hs.1 y hy; omega
      refine ⟨[], (x :: l).map (· - m), ⟨rfl, List.Pairwise.nil, by simp⟩, ⟨rfl, ?_, ?_⟩, ?_⟩
      · rw [List.pairwise_map]
        refine List.Pairwise.imp_of_mem ?_ (List.pairwise_cons.mpr hs)
        intro a b ha hb hab
        have := hge a ha; omega
      · intro y hy
        obtain ⟨z, hz, rfl⟩ := List.mem_map.mp hy
        have := hge z hz; omega
      · rw [List.nil_append, List.map_map]
        symm
        conv_rhs => rw [← List.map_id (x :: l)]
        apply List.map_congr_left
        intro y hy
        have := hge y hy
        simp only [Function.comp_apply, id]; omega

theorem smallK_onto (fuel k n : Nat) (hk : 0 < k) (hf : n ≤ fuel) (l : List Nat) (hl : IsKSubset k n l) :
    ∃ ds, UnitDraws ds ∧ ∀ xs pos, Reads xs pos ds → smallK xs fuel k n pos = (l, pos + ds.length) := by
  induction fuel generalizing k n l with
  | zero =>
    cases l with
    | nil => have := hl.1; simp at this; omega
    | cons x l => have := hl.2.2 x (by simp); omega
  | succ fuel ih =>
    have hkn : k ≤ n := by
      have hsub : l ⊆ List.range n := fun x hx => List.mem_range.mpr (hl.2.2 x hx)
      have := (List.subperm_of_subset (hl.2.1.imp (fun h => Nat.ne_of_lt h)) hsub).length_le
      rw [List.length_range, hl.1] at this; exact this
    by_cases h1 : k = 1
    · obtain ⟨v, rfl⟩ := List.length_eq_one_iff.mp (hl.1.trans h1)
      have hv : v < n := hl.2.2 v (by simp)
      have hn : (0 : ℚ) < n := by exact_mod_cast (by omega : 0 < n)
      refine ⟨[(v : ℚ) / n], UnitDraws.nil.cons (by positivity) ?_, fun xs pos hR => ?_⟩
      · rw [div_lt_one hn]; exact_mod_cast hv
      · unfold smallK
        rw [if_pos h1, hR.head.1, randI32_frac (by omega)]
        rfl
    · obtain ⟨L, R, hL, hR, he⟩ := split_sorted (n / 2) n (by omega) l hl.2.1 hl.2.2
      have hlen : L.length + R.length = k := by rw [← hl.1, he]; simp
      have card : ∀ {m : Nat} {l : List Nat}, IsKSubset l.length m l → l.length ≤ m := by
        intro m l h
        have hsub : l ⊆ List.range m := fun x hx => List.mem_range.mpr (h.2.2 x hx)
        have := (List.subperm_of_subset (h.2.1.imp (fun h => Nat.ne_of_lt h)) hsub).length_le
        rwa [List.length_range] at this
      obtain ⟨d0, a0, b0, c0⟩ := smallKSplit_onto n (n / 2) (by omega) k 0 0 0 L.length R.length rfl hlen
        (by rw [Nat.zero_add]; exact card hL) (by rw [Nat.zero_add]; exact card hR)
      have part : ∀ (m : Nat) (l : List Nat), m ≤ fuel → IsKSubset l.length m l → ∃ ds, UnitDraws ds ∧ ∀ xs pos, Reads xs pos ds →
          (if l.length > 0 then smallK xs fuel l.length m pos else ([], pos)) = (l, pos + ds.length) := by
        intro m l hm h
        by_cases h0 : l.length > 0
        · obtain ⟨ds, h2, h3⟩ := ih l.length m h0 hm l h
          exact ⟨ds, h2, fun xs pos hR => by rw [if_pos h0, h3 xs pos hR]⟩
        · have : l = [] := List.length_eq_zero_iff.mp (by omega)
          subst this
          exact ⟨[], UnitDraws.nil, fun xs pos _ => rfl⟩
      obtain ⟨d1, b1, c1⟩ := part (n / 2) L (by omega) hL
      obtain ⟨d2, b2, c2⟩ := part (n - n / 2) R (by omega) hR
      refine ⟨d0 ++ (d1 ++ d2), b0.append (b1.append b2), fun xs pos hRd => ?_⟩
      obtain ⟨r0, r12⟩ := hRd.app
      obtain ⟨r1, r2⟩ := r12.app
      rw [a0] at r1 r2
      unfold smallK
      rw [if_neg h1]
      simp only [c0 xs pos r0, Nat.zero_add, c1 xs _ r1, c2 xs _ r2, ← he, List.length_append, a0, Prod.mk.injEq, true_and]
      omega

theorem kOfN_onto (k n : Nat) (l : List Nat) (hl : IsKSubset k n l) :
    ∃ ds, UnitDraws ds ∧ ∀ xs pos, Reads xs pos ds → kOfN k n xs pos = (l, pos + ds.length) := by
  by_cases h0 : k = 0
  · have : l = [] := List.length_eq_zero_iff.mp (hl.1.trans h0)
    subst this
    exact ⟨[], UnitDraws.nil, fun xs pos _ => by unfold kOfN; rw [if_pos h0]; rfl⟩
  · by_cases h1 : k ^ k < 2 ^ (n / 2)
    · obtain ⟨ds, a, b⟩ := smallK_onto n k n (by omega) (le_refl _) l hl
      exact ⟨ds, a, fun xs pos h => by unfold kOfN; rw [if_neg h0, if_pos h1, b xs pos h]⟩
    · obtain ⟨ds, a, b, c⟩ := largeKLoop_onto k n n 0 l (le_refl _) (by omega) hl.1 hl.2.1
        (fun x hx => ⟨by omega, hl.2.2 x hx⟩)
      exact ⟨ds, b, fun xs pos h => by unfold kOfN largeK; rw [if_neg h0, if_neg h1, c xs pos h, a]⟩

theorem kRows_onto (k n cnt : Nat) (rows : List (List Nat)) (h : GoodRows k n cnt rows) :
    ∃ ds, UnitDraws ds ∧ ∀ xs pos, Reads xs pos ds → kRows k n xs cnt pos = (rows, pos + ds.length) := by
  induction cnt generalizing rows with
  | zero =>
    have : rows = [] := List.length_eq_zero_iff.mp h.1
    subst this
    exact ⟨[], UnitDraws.nil, fun xs pos _ => rfl⟩
  | succ cnt ih =>
    obtain ⟨hl, hr⟩ := h
    cases rows with
    | nil => simp at hl
    | cons r rows =>
      obtain ⟨d1, a1, b1⟩ := kOfN_onto k n r (hr r (by simp))
      obtain ⟨d2, a2, b2⟩ := ih rows ⟨by simpa using hl, fun r hr' => hr r (by simp [hr'])⟩
      refine ⟨d1 ++ d2, a1.append a2, fun xs pos hR => ?_⟩
      obtain ⟨r1, r2⟩ := hR.app
      unfold kRows
      simp only [b1 xs pos r1, b2 xs _ r2, List.length_append, Prod.mk.injEq, true_and]
      omega

/-- Three batches of rows, as in match.cc. -/
theorem kRows3_onto {k1 m1 c1 k2 m2 c2 k3 m3 c3 : Nat} {s1 s2 s3 : List (List Nat)} (h1 : GoodRows k1 m1 c1 s1)
    (h2 : GoodRows k2 m2 c2 s2) (h3 : GoodRows k3 m3 c3 s3) :
    ∃ xs, UnitStream xs ∧ (kRows k1 m1 xs c1 0).1 = s1 ∧ (kRows k2 m2 xs c2 (kRows k1 m1 xs c1 0).2).1 = s2 ∧
      (kRows k3 m3 xs c3 (kRows k2 m2 xs c2 (kRows k1 m1 xs c1 0).2).2).1 = s3 := by
  obtain ⟨d1, a1, b1⟩ := kRows_onto _ _ _ _ h1
  obtain ⟨d2, a2, b2⟩ := kRows_onto _ _ _ _ h2
  obtain ⟨d3, a3, b3⟩ := kRows_onto _ _ _ _ h3
  have hR := reads_getD (d1 ++ (d2 ++ d3))
  obtain ⟨r1, r23⟩ := hR.app
  obtain ⟨r2, r3⟩ := r23.app
  refine ⟨_, unit_getD (a1.append (a2.append a3)), ?_⟩
  rw [b1 _ _ r1, b2 _ _ r2, b3 _ _ r3]
  exact ⟨rfl, rfl, rfl⟩

end EdgeEval
