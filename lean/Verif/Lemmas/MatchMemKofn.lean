import Verif.Lemmas.MatchMemNodes
import Verif.Props.Kofn

/-! # Lemmas on the memory-level model of `kofn.cc` -/

namespace EdgeEval.MatchMem

open EdgeEval EdgeEval.CsaMem EdgeEval.Props

/-- The block after writing the numbers `l` from cell `off` on. -/
def put (b : Blk Int) (off : Nat) (l : List Nat) : Blk Int :=
  ⟨b.size, fun j => if off ≤ j ∧ j < off + l.length then some ((l.getD (j - off) 0 : Nat) : Int) else b.cell j⟩

theorem put_nil (b : Blk Int) (off : Nat) : put b off [] = b := by
  unfold put
  congr 1
  funext j
  rw [if_neg]
  simp

theorem blk_ext {b c : Blk Int} (hs : b.size = c.size) (hc : ∀ j, b.cell j = c.cell j) : b = c := by
  obtain ⟨s, f⟩ := b
  obtain ⟨t, g⟩ := c
  obtain rfl : s = t := hs
  obtain rfl : f = g := funext hc
  rfl

theorem put_cons (b : Blk Int) (off x : Nat) (l : List Nat) : put (b.set off (x : Int)) (off + 1) l = put b off (x :: l) := by
  refine blk_ext rfl fun j => ?_
  unfold put Blk.set
  simp only [List.length_cons]
  by_cases hj : j = off
  · subst hj
    rw [if_neg (by omega), if_pos rfl, if_pos (by omega)]
    simp
  · by_cases h : off + 1 ≤ j ∧ j < off + 1 + l.length
    · rw [if_pos h, if_pos (by omega), show j - off = (j - (off + 1)) + 1 by omega]
      rfl
    · rw [if_neg h, if_neg hj, if_neg (by omega)]

theorem put_append (b : Blk Int) (off : Nat) (l r : List Nat) : put (put b off l) (off + l.length) r = put b off (l ++ r) := by
  induction l generalizing b off with
  | nil => rw [put_nil]; rfl
  | cons x l ih =>
    rw [List.cons_append, ← put_cons, ← put_cons, ← ih, List.length_cons]
    rw [show off + (l.length + 1) = off + 1 + l.length by omega]

theorem put_single (b : Blk Int) (off x : Nat) : b.set off (x : Int) = put b off [x] := by
  rw [← put_cons, put_nil]

theorem put_has {b : Blk Int} {off : Nat} {l : List Nat} (h : off + l.length ≤ b.size) {i : Nat} (hi : i < l.length) :
    (put b off l).Has (off + i) ((l[i] : Nat) : Int) := by
  refine ⟨by show _ < b.size; omega, ?_⟩
  show (if _ then _ else _) = _
  rw [if_pos (by omega), show off + i - off = i by omega, List.getD_eq_getElem?_getD, List.getElem?_eq_getElem hi]
  rfl

theorem largeLoop_ok (k n : Nat) (xs : Nat → ℚ) (hx : UnitStream xs) (off rem j pos : Nat) (b : Blk Int) (h1 : rem ≤ n) (h2 : j ≤ k)
    (h3 : k - j ≤ rem) (hb : off + k ≤ b.size) :
    forLoop (largeStep k n xs off) rem (n - rem) (j, pos, b) =
      .ok (k, pos + rem, put b (off + j) (largeKLoop k n xs rem pos j)) := by
  induction rem generalizing j pos b with
  | zero =>
    obtain rfl : j = k := by omega
    show Except.ok _ = _
    simp only [largeKLoop]
    rw [put_nil]
    rfl
  | succ rem ih =>
    have hl := (largeKLoop_ok k n xs hx (rem + 1) pos j h1 h2 h3).1
    have hc : ((n : ℚ) - ((n - (rem + 1) : Nat) : ℚ)) = ((rem + 1 : Nat) : ℚ) := by
      rw [Nat.cast_sub h1]; ring
    show (largeStep k n xs off (n - (rem + 1)) (j, pos, b) >>= fun s => forLoop _ rem (n - (rem + 1) + 1) s) = _
    rw [show n - (rem + 1) + 1 = n - rem by omega]
    have hst : largeStep k n xs off (n - (rem + 1)) (j, pos, b) =
        if xs pos < ((k : ℚ) - j) / ((rem + 1 : Nat) : ℚ) then
          (b.wr (off + j) ((n - (rem + 1) : Nat) : Int) >>= fun b => Except.ok (j + 1, pos + 1, b))
        else .ok (j, pos + 1, b) := by
      rw [← hc]
      rfl
    rw [hst]
    unfold largeKLoop at hl ⊢
    by_cases hlt : xs pos < ((k : ℚ) - j) / ((rem + 1 : Nat) : ℚ)
    · rw [if_pos hlt] at hl
      rw [if_pos hlt, if_pos hlt]
      rw [List.length_cons] at hl
      have hjk : j < k := by omega
      rw [Blk.wr_eq (by omega), ok_bind, ok_bind, ih (j + 1) (pos + 1) (b.set _ _) (by omega) (by omega) (by omega) hb,
        show off + (j + 1) = off + j + 1 by omega, put_cons, show pos + 1 + rem = pos + (rem + 1) by omega]
    · rw [if_neg hlt] at hl
      rw [if_neg hlt, if_neg hlt]
      have : k - j ≤ rem := by
        have := (largeKLoop_ok k n xs hx (rem + 1) pos j h1 h2 h3).2
        by_contra hgt
        have e : k - j = rem + 1 := by omega
        apply hlt
        have : ((k : ℚ) - j) = ((rem + 1 : Nat) : ℚ) := by rw [← e, Nat.cast_sub h2]
        have hpos : (0 : ℚ) < ((rem + 1 : Nat) : ℚ) := by positivity
        rw [this, div_self hpos.ne']
        exact (hx pos).2
      rw [ok_bind, ih j (pos + 1) _ (by omega) (by omega) this hb, show pos + 1 + rem = pos + (rem + 1) by omega]

theorem largeKM_ok (k n : Nat) (xs : Nat → ℚ) (hx : UnitStream xs) (off pos : Nat) (b : Blk Int) (hk : 0 < k) (hkn : k ≤ n)
    (hb : off + k ≤ b.size) :
    largeKM k n xs pos off b = .ok ((largeK k n xs pos).2, put b off (largeK k n xs pos).1) := by
  unfold largeKM
  have e := largeLoop_ok k n xs hx off n 0 pos b (le_refl _) (by omega) (by omega) hb
  rw [Nat.sub_self] at e
  rw [need_ok hk, ok_bind, need_ok hkn, ok_bind, e, ok_bind, need_ok rfl, ok_bind]
  rfl

/-- The last loop of `_kOfN_smallK`. -/
theorem shift_ok (leftN off lo : Nat) (r : List Nat) (b : Blk Int) (hb : off + lo + r.length ≤ b.size) :
    forLoop (shiftVal leftN off) r.length lo (put b (off + lo) r) = .ok (put b (off + lo) (r.map (· + leftN))) := by
  induction r generalizing lo b with
  | nil => rfl
  | cons x r ih =>
    rw [List.length_cons] at hb ⊢
    show (shiftVal leftN off lo (put b (off + lo) (x :: r)) >>= fun s => forLoop _ r.length (lo + 1) s) = _
    have hh := put_has (b := b) (off := off + lo) (l := x :: r) (by rw [List.length_cons]; omega) (i := 0) (by simp)
    rw [Nat.add_zero] at hh
    have hst : shiftVal leftN off lo (put b (off + lo) (x :: r)) = .ok ((put b (off + lo) (x :: r)).set (off + lo) ((((x :: r)[0] : Nat) : Int) + (leftN : Int))) := by
      unfold shiftVal
      rw [hh.rd, ok_bind, hh.wr]
    rw [hst, ok_bind]
    have e : (put b (off + lo) (x :: r)).set (off + lo) ((((x :: r)[0] : Nat) : Int) + (leftN : Int)) =
        put (b.set (off + lo) ((x + leftN : Nat) : Int)) (off + (lo + 1)) r := by
      rw [show off + (lo + 1) = off + lo + 1 by omega, put_cons]
      refine blk_ext rfl fun j => ?_
      unfold put Blk.set
      simp only [List.length_cons]
      by_cases hj : j = off + lo
      · subst hj
        rw [if_pos rfl, if_pos (by omega)]
        simp
      · rw [if_neg hj]
        by_cases h : off + lo ≤ j ∧ j < off + lo + (r.length + 1)
        · rw [if_pos h, if_pos h, show j - (off + lo) = (j - (off + lo) - 1) + 1 by omega]
          rfl
        · rw [if_neg h, if_neg h]
    rw [e, ih (lo + 1) _ (by show _ ≤ b.size; omega), show off + (lo + 1) = off + lo + 1 by omega, put_cons]
    rfl

theorem smallKM_ok (xs : Nat → ℚ) (hx : UnitStream xs) (fuel k n pos off : Nat) (b : Blk Int) (hk : 0 < k) (hkn : k ≤ n)
    (hf : n ≤ fuel) (hb : off + k ≤ b.size) :
    smallKM xs fuel k n pos off b = .ok ((smallK xs fuel k n pos).2, put b off (smallK xs fuel k n pos).1) := by
  induction fuel generalizing k n pos off b with
  | zero => omega
  | succ fuel ih =>
    unfold smallKM smallK
    rw [need_ok hk, ok_bind, need_ok hkn, ok_bind]
    by_cases h1 : k = 1
    · subst h1
      have hr := randI32_range (xs pos) n (hx pos).1 (hx pos).2 (by omega)
      rw [if_pos rfl, if_pos rfl, Blk.wr_eq (by omega), ok_bind]
      have e : (((randI32 (xs pos) 0 ((n : Int) - 1)).toNat : Nat) : Int) = randI32 (xs pos) 0 ((n : Int) - 1) := by omega
      rw [← put_single, e]
    · have hs := smallKSplit_ok n (n / 2) xs hx (by omega) k pos 0 0 0 rfl (by omega) (by omega) (by omega)
      rw [if_neg h1, if_neg h1]
      rcases hsp : smallKSplit n (n / 2) xs k pos 0 0 0 with ⟨lk, rk⟩
      rw [hsp] at hs
      simp only at hs
      dsimp only
      rw [hsp]
      dsimp only
      obtain ⟨L, eL, hL, eLm⟩ : ∃ L : List Nat × Nat, (if lk > 0 then smallK xs fuel lk (n / 2) (pos + k) else ([], pos + k)) = L ∧
          L.1.length = lk ∧
          (if lk > 0 then smallKM xs fuel lk (n / 2) (pos + k) off b else .ok (pos + k, b)) = .ok (L.2, put b off L.1) := by
        refine ⟨_, rfl, ?_, ?_⟩
        · split
          · rename_i h; exact (smallK_ok xs hx fuel lk (n / 2) _ h hs.2.1 (by omega)).1
          · rename_i h; simp; omega
        · split
          · rename_i h; exact ih lk (n / 2) _ off b h hs.2.1 (by omega) (by omega)
          · rw [put_nil]
      obtain ⟨R, eR, hR, eRm⟩ : ∃ R : List Nat × Nat, (if rk > 0 then smallK xs fuel rk (n - n / 2) L.2 else ([], L.2)) = R ∧
          R.1.length = rk ∧
          (if rk > 0 then smallKM xs fuel rk (n - n / 2) L.2 (off + lk) (put b off L.1) else .ok (L.2, put b off L.1)) =
            .ok (R.2, put (put b off L.1) (off + lk) R.1) := by
        refine ⟨_, rfl, ?_, ?_⟩
        · split
          · rename_i h; exact (smallK_ok xs hx fuel rk (n - n / 2) _ h hs.2.2 (by omega)).1
          · rename_i h; simp; omega
        · split
          · rename_i h
            exact ih rk (n - n / 2) _ (off + lk) _ h hs.2.2 (by omega) (by show _ ≤ b.size; omega)
          · rw [put_nil]
      rw [eL, eLm, ok_bind]
      dsimp only
      rw [eR, eRm, ok_bind]
      dsimp only
      have e := shift_ok (n / 2) off lk R.1 (put b off L.1) (by show _ ≤ b.size; omega)
      rw [show k - lk = R.1.length by omega, e, ok_bind]
      have := put_append b off L.1 (R.1.map (· + n / 2))
      rw [hL] at this
      rw [this]

/-- `kOfN` on memory writes the sample into the first `k` cells, touches nothing else, and consumes the same numbers. -/
theorem kOfNM_ok (k n : Nat) (xs : Nat → ℚ) (hx : UnitStream xs) (pos : Nat) (b : Blk Int) (hkn : k ≤ n) (hb : k ≤ b.size) :
    kOfNM k n xs pos b = .ok ((kOfN k n xs pos).2, put b 0 (kOfN k n xs pos).1) := by
  unfold kOfNM kOfN
  split
  · rw [put_nil]
  · rename_i h
    split
    · exact smallKM_ok xs hx n k n pos 0 b (by omega) hkn (le_refl _) (by omega)
    · exact largeKM_ok k n xs hx 0 pos b (by omega) hkn (by omega)

end EdgeEval.MatchMem
