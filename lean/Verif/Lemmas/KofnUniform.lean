import Mathlib.Algebra.BigOperators.Fin
import Mathlib.Data.Fintype.BigOperators
import Mathlib.Data.Nat.Choose.Basic
import Mathlib.Tactic.FieldSimp
import Mathlib.Tactic.Ring
import Mathlib.Tactic.Linarith
import Verif.Lemmas.KofnOnto
import Verif.Spec.KofnUniform

/-! # The sampler as a tree of uniform integer draws, and its distribution -/

namespace EdgeEval.KofnU

open EdgeEval Props Finset

/-- A computation that draws integers uniformly below given bounds. -/
inductive Tree (α : Type) where
  | ret (a : α)
  | draw (m : Nat) (f : Nat → Tree α)

namespace Tree

variable {α β : Type}

/-- Run on a stream of numbers in `[0, 1)`: the draw below `m` from `x` is `⌊x m⌋`. -/
def run (xs : Nat → ℚ) : Tree α → Nat → α × Nat
  | .ret a, pos => (a, pos)
  | .draw m f, pos => run xs (f ⌊xs pos * m⌋.toNat) (pos + 1)

/-- Sequential composition. -/
def bind : Tree α → (α → Tree β) → Tree β
  | .ret a, g => g a
  | .draw m f, g => .draw m fun r => bind (f r) g

/-- Probability of an outcome. -/
def prob [DecidableEq α] (a : α) : Tree α → ℚ
  | .ret b => if b = a then 1 else 0
  | .draw m f => (∑ r ∈ range m, prob a (f r)) / m

/-- All outcomes satisfy `Q`. -/
def All (Q : α → Prop) : Tree α → Prop
  | .ret a => Q a
  | .draw m f => ∀ r < m, All Q (f r)

/-- At most `L` draws, all below positive divisors of `M`. -/
def Fits (M : Nat) : Nat → Tree α → Prop
  | _, .ret _ => True
  | 0, .draw _ _ => False
  | L + 1, .draw m f => 0 < m ∧ m ∣ M ∧ ∀ r < m, Fits M L (f r)

theorem run_bind (xs : Nat → ℚ) (T : Tree α) (g : α → Tree β) (pos : Nat) :
    run xs (T.bind g) pos = run xs (g (run xs T pos).1) (run xs T pos).2 := by
  induction T generalizing pos with
  | ret a => rfl
  | draw m f ih => exact ih _ _

theorem All.mono {Q R : α → Prop} (h : ∀ a, Q a → R a) : ∀ {T : Tree α}, T.All Q → T.All R
  | .ret a, hT => h a hT
  | .draw _ _, hT => fun r hr => All.mono h (hT r hr)

theorem All.bind {Q : α → Prop} {R : β → Prop} {T : Tree α} {g : α → Tree β} (hT : T.All Q)
    (hg : ∀ a, Q a → (g a).All R) : (T.bind g).All R := by
  induction T with
  | ret a => exact hg a hT
  | draw m f ih => exact fun r hr => ih r (hT r hr)

theorem Fits.mono {M : Nat} {L L' : Nat} {T : Tree α} (h : Fits M L T) (hL : L ≤ L') : Fits M L' T := by
  induction T generalizing L L' with
  | ret a => cases L' <;> trivial
  | draw m f ih =>
    cases L with
    | zero => exact absurd h id
    | succ L =>
      cases L' with
      | zero => omega
      | succ L' => exact ⟨h.1, h.2.1, fun r hr => ih r (h.2.2 r hr) (by omega)⟩

theorem Fits.bind {M L : Nat} {N : α → Nat} {B : Nat} {Q : α → Prop} {T : Tree α} {g : α → Tree β} (hT : Fits M L T) (hQ : T.All Q)
    (hg : ∀ a, Q a → Fits M (N a) (g a)) (hN : ∀ a, Q a → L + N a ≤ B) : Fits M B (T.bind g) := by
  induction T generalizing L B with
  | ret a => exact (hg a hQ).mono (by have := hN a hQ; omega)
  | draw m f ih =>
    cases L with
    | zero => exact absurd hT id
    | succ L =>
      cases B with
      | zero =>
        exfalso
        -- some outcome exists because m > 0
        have hex : ∀ (T : Tree α) (L : Nat), Fits M L T → T.All Q → ∃ a, Q a := by
          intro T
          induction T with
          | ret a => intro _ _ h; exact ⟨a, h⟩
          | draw m f ih =>
            intro L h hA
            cases L with
            | zero => exact absurd h id
            | succ L => exact ih 0 L (h.2.2 0 h.1) (hA 0 h.1)
        obtain ⟨a, ha⟩ := hex (f 0) L (hT.2.2 0 hT.1) (hQ 0 hT.1)
        have := hN a ha
        omega
      | succ B => exact ⟨hT.1, hT.2.1, fun r hr => ih r (hT.2.2 r hr) (hQ r hr) (fun a ha => by have := hN a ha; omega)⟩

theorem prob_zero [DecidableEq α] {a : α} {T : Tree α} (h : T.All (· ≠ a)) : T.prob a = 0 := by
  induction T with
  | ret b => exact if_neg h
  | draw m f ih =>
    unfold prob
    rw [Finset.sum_eq_zero, zero_div]
    intro r hr
    exact ih r (h r (Finset.mem_range.1 hr))

/-- If only the intermediate outcome `a` can lead to `b`. -/
theorem prob_bind [DecidableEq α] [DecidableEq β] {Q : α → Prop} {a : α} {b : β} {T : Tree α} {g : α → Tree β} (hT : T.All Q)
    (hg : ∀ a', Q a' → a' ≠ a → (g a').prob b = 0) : (T.bind g).prob b = T.prob a * (g a).prob b := by
  induction T with
  | ret c =>
    show (g c).prob b = (if c = a then 1 else 0) * _
    by_cases h : c = a
    · rw [if_pos h, h, one_mul]
    · rw [if_neg h, zero_mul, hg c hT h]
  | draw m f ih =>
    show (∑ r ∈ range m, ((f r).bind g).prob b) / m = (∑ r ∈ range m, (f r).prob a) / m * _
    rw [Finset.sum_congr rfl fun r hr => ih r (hT r (Finset.mem_range.1 hr)), ← Finset.sum_mul]
    ring

end Tree

open KofnU.Tree

/-! ## Counting streams -/

theorem run_shift {α : Type} (xs ys : Nat → ℚ) (h : ∀ i, ys (i + 1) = xs i) (T : Tree α) (pos : Nat) :
    (run ys T (pos + 1)).1 = (run xs T pos).1 := by
  induction T generalizing pos with
  | ret a => rfl
  | draw m f ih =>
    show (run ys (f ⌊ys (pos + 1) * m⌋.toNat) (pos + 1 + 1)).1 = (run xs (f ⌊xs pos * m⌋.toNat) (pos + 1)).1
    rw [h pos]
    exact ih _ _

theorem sum_div_range (g : Nat → ℚ) (m q : Nat) (hq : 0 < q) : ∑ c ∈ range (m * q), g (c / q) = q * ∑ r ∈ range m, g r := by
  induction m with
  | zero => simp
  | succ m ih =>
    rw [Nat.succ_mul, Finset.sum_range_add, ih, Finset.sum_range_succ, mul_add]
    congr 1
    rw [Finset.sum_congr rfl (g := fun _ => g m)]
    · simp
    · intro i hi
      have hi := Finset.mem_range.1 hi
      congr 1
      rw [Nat.add_comm, Nat.add_mul_div_right _ _ hq, Nat.div_eq_of_lt hi, Nat.zero_add]

theorem floor_grid (c m q : Nat) (hq : 0 < q) (hm : 0 < m) : ⌊((c : ℚ) / ((m * q : Nat) : ℚ)) * m⌋.toNat = c / q := by
  have hm' : (m : ℚ) ≠ 0 := by exact_mod_cast hm.ne'
  have hq' : (q : ℚ) ≠ 0 := by exact_mod_cast hq.ne'
  have : ((c : ℚ) / ((m * q : Nat) : ℚ)) * m = (c : ℚ) / q := by
    push_cast
    field_simp
  rw [this, Rat.floor_natCast_div_natCast]
  exact Int.toNat_natCast _

/-- Counting grid vectors computes probabilities. -/
theorem count_eq {α : Type} [DecidableEq α] (M : Nat) (hM : 0 < M) (a : α) (T : Tree α) (L : Nat) (h : Fits M L T) :
    ((univ.filter fun v : Fin L → Fin M => (run (gridStream v) T 0).1 = a).card : ℚ) = M ^ L * T.prob a := by
  induction T generalizing L with
  | ret b =>
    show ((univ.filter fun v : Fin L → Fin M => b = a).card : ℚ) = M ^ L * (if b = a then 1 else 0)
    by_cases hb : b = a
    · simp [hb]
    · simp [hb]
  | draw m f ih =>
    cases L with
    | zero => exact absurd h id
    | succ L =>
      obtain ⟨hm, ⟨q, rfl⟩, hf⟩ := h
      have hq : 0 < q := Nat.pos_of_mul_pos_left hM
      have key : ((univ.filter fun v : Fin (L + 1) → Fin (m * q) => (run (gridStream v) (.draw m f) 0).1 = a).card : ℚ) =
          ∑ c : Fin (m * q), ((univ.filter fun w : Fin L → Fin (m * q) => (run (gridStream w) (f (c / q)) 0).1 = a).card : ℚ) := by
        rw [← Nat.cast_sum, Nat.cast_inj]
        simp only [Finset.card_filter]
        rw [← (Fin.consEquiv fun _ => Fin (m * q)).sum_comp, Fintype.sum_prod_type]
        refine Finset.sum_congr rfl fun c _ => Finset.sum_congr rfl fun w _ => ?_
        have e : (run (gridStream ((Fin.consEquiv fun _ => Fin (m * q)) (c, w))) (.draw m f) 0).1 =
            (run (gridStream w) (f (c / q)) 0).1 := by
          show (run (gridStream (Fin.cons c w : Fin (L + 1) → Fin (m * q))) (f ⌊gridStream (Fin.cons c w : Fin (L + 1) → Fin (m * q)) 0 * m⌋.toNat) (0 + 1)).1 = _
          have h0 : gridStream (Fin.cons c w : Fin (L + 1) → Fin (m * q)) 0 = ((c : Nat) : ℚ) / ((m * q : Nat) : ℚ) := by
            unfold gridStream
            rw [dif_pos (Nat.succ_pos L)]
            rfl
          rw [h0, floor_grid _ _ _ hq hm]
          refine run_shift _ _ ?_ _ _
          intro i
          unfold gridStream
          by_cases hi : i < L
          · rw [dif_pos hi, dif_pos (by omega : i + 1 < L + 1)]
            rfl
          · rw [dif_neg hi, dif_neg (by omega)]
        rw [e]
      rw [key]
      have hsub : ∀ c : Fin (m * q), (c : Nat) / q < m := fun c => Nat.div_lt_of_lt_mul (lt_of_lt_of_eq c.2 (Nat.mul_comm m q))
      rw [Finset.sum_congr rfl fun c _ => ih _ L (hf _ (hsub c)), ← Finset.mul_sum]
      rw [Fin.sum_univ_eq_sum_range (fun c => (f (c / q)).prob a) (m * q), sum_div_range (fun r => (f r).prob a) m q hq]
      show _ = ((m * q : Nat) : ℚ) ^ (L + 1) * ((∑ r ∈ range m, (f r).prob a) / m)
      have hm' : (m : ℚ) ≠ 0 := by exact_mod_cast hm.ne'
      rw [pow_succ]
      push_cast
      field_simp

/-! ## The sampler as a tree -/

/-- `largeKLoop` as a tree. -/
def largeT (k n : Nat) : (rem : Nat) → (j : Nat) → Tree (List Nat)
  | 0, _ => .ret []
  | rem + 1, j => .draw (rem + 1) fun r =>
    if (r : Int) < (k : Int) - j then (largeT k n rem (j + 1)).bind fun l => .ret ((n - (rem + 1)) :: l)
    else largeT k n rem j

/-- `smallKSplit` as a tree. -/
def splitT (n leftN : Nat) : (cnt : Nat) → (i leftK rightK : Nat) → Tree (Nat × Nat)
  | 0, _, leftK, rightK => .ret (leftK, rightK)
  | cnt + 1, i, leftK, rightK => .draw (n - i) fun r =>
    if (r : Int) < (leftN : Int) - leftK then splitT n leftN cnt (i + 1) (leftK + 1) rightK
    else splitT n leftN cnt (i + 1) leftK (rightK + 1)

/-- `smallK` as a tree. -/
def smallT : (fuel : Nat) → (k n : Nat) → Tree (List Nat)
  | 0, _, _ => .ret []
  | fuel + 1, k, n =>
    if k = 1 then .draw n fun r => .ret [r]
    else (splitT n (n / 2) k 0 0 0).bind fun ab =>
      (if ab.1 > 0 then smallT fuel ab.1 (n / 2) else .ret []).bind fun l =>
      (if ab.2 > 0 then smallT fuel ab.2 (n - n / 2) else .ret []).bind fun r =>
      .ret (l ++ r.map (· + n / 2))

/-- `kOfN` as a tree. -/
def kOfNT (k n : Nat) : Tree (List Nat) :=
  if k = 0 then .ret [] else if k ^ k < 2 ^ (n / 2) then smallT n k n else largeT k n n 0

theorem floor_nonneg {x : ℚ} (h0 : 0 ≤ x) (m : Nat) : 0 ≤ ⌊x * m⌋ := Int.floor_nonneg.2 (by positivity)

theorem largeT_run (k n : Nat) (xs : Nat → ℚ) (hx : UnitStream xs) (rem pos j : Nat) :
    run xs (largeT k n rem j) pos = (largeKLoop k n xs rem pos j, pos + rem) := by
  induction rem generalizing pos j with
  | zero => rfl
  | succ rem ih =>
    have hpos : (0 : ℚ) < ((rem + 1 : Nat) : ℚ) := by exact_mod_cast Nat.succ_pos rem
    have hiff : xs pos < (((k : ℚ) - j) / ((rem + 1 : Nat) : ℚ)) ↔ ((⌊xs pos * ((rem + 1 : Nat) : ℚ)⌋.toNat : Nat) : Int) < (k : Int) - j := by
      rw [lt_div_iff₀ hpos, Int.toNat_of_nonneg (floor_nonneg (hx pos).1 _), Int.floor_lt]
      push_cast
      exact Iff.rfl
    show run xs (if ((⌊xs pos * ((rem + 1 : Nat) : ℚ)⌋.toNat : Nat) : Int) < (k : Int) - j then _ else _) (pos + 1) = _
    unfold largeKLoop
    by_cases h : xs pos < (((k : ℚ) - j) / ((rem + 1 : Nat) : ℚ))
    · rw [if_pos h, if_pos (hiff.1 h), run_bind, ih]
      show (_, _) = _
      congr 1
      omega
    · rw [if_neg h, if_neg (fun hc => h (hiff.2 hc)), ih]
      congr 1
      omega

theorem randI32_zero (x : ℚ) (n i : Nat) (hi : i < n) : randI32 x 0 ((n : Int) - i - 1) = ⌊x * ((n - i : Nat) : ℚ)⌋ := by
  unfold randI32
  congr 1
  rw [Nat.cast_sub hi.le]
  push_cast
  ring

theorem splitT_run (n leftN : Nat) (xs : Nat → ℚ) (hx : UnitStream xs) (cnt pos i a b : Nat) (h : i + cnt ≤ n) :
    run xs (splitT n leftN cnt i a b) pos = (smallKSplit n leftN xs cnt pos i a b, pos + cnt) := by
  induction cnt generalizing pos i a b with
  | zero => rfl
  | succ cnt ih =>
    show run xs (if ((⌊xs pos * ((n - i : Nat) : ℚ)⌋.toNat : Nat) : Int) < (leftN : Int) - a then _ else _) (pos + 1) = _
    unfold smallKSplit
    rw [randI32_zero _ _ _ (by omega), Int.toNat_of_nonneg (floor_nonneg (hx pos).1 _)]
    split
    · rw [ih _ _ _ _ (by omega)]; congr 1; omega
    · rw [ih _ _ _ _ (by omega)]; congr 1; omega

/-! ## Outcomes of the trees -/

theorem largeT_all (k n rem j : Nat) : (largeT k n rem j).All fun l => ∀ x ∈ l, n - rem ≤ x := by
  induction rem generalizing j with
  | zero => intro x hx; cases hx
  | succ rem ih =>
    intro r _
    show (if (r : Int) < (k : Int) - j then _ else _ : Tree (List Nat)).All _
    split
    · refine (ih (j + 1)).bind ?_
      intro l hl x hx
      rcases List.mem_cons.1 hx with rfl | hx
      · exact le_refl _
      · have := hl x hx; omega
    · exact (ih j).mono fun l hl x hx => by have := hl x hx; omega

theorem splitT_all (n leftN cnt i a b : Nat) (hi : i = a + b) (hn : i + cnt ≤ n) (ha : a ≤ leftN) (hb : b ≤ n - leftN)
    (hl : leftN ≤ n) :
    (splitT n leftN cnt i a b).All fun ab => ab.1 + ab.2 = i + cnt ∧ ab.1 ≤ leftN ∧ ab.2 ≤ n - leftN := by
  induction cnt generalizing i a b with
  | zero => exact ⟨hi.symm, ha, hb⟩
  | succ cnt ih =>
    intro r hr
    show (if (r : Int) < (leftN : Int) - a then _ else _ : Tree (Nat × Nat)).All _
    split
    · exact (ih (i + 1) (a + 1) b (by omega) (by omega) (by omega) hb).mono fun ab h => ⟨by omega, h.2⟩
    · exact (ih (i + 1) a (b + 1) (by omega) (by omega) ha (by omega)).mono fun ab h => ⟨by omega, h.2⟩

theorem smallT_all (fuel k n : Nat) (h1 : 1 ≤ k) (hk : k ≤ n) (hf : n ≤ fuel) :
    (smallT fuel k n).All fun l => l.length = k ∧ ∀ x ∈ l, x < n := by
  induction fuel generalizing k n with
  | zero => omega
  | succ fuel ih =>
    unfold smallT
    split
    · rename_i hk1
      intro r hr
      refine ⟨by rw [hk1]; rfl, ?_⟩
      intro x hx
      rw [List.mem_singleton.1 hx]
      exact hr
    · refine (splitT_all n (n / 2) k 0 0 0 rfl (by omega) (by omega) (by omega) (by omega)).bind ?_
      rintro ⟨a, b⟩ ⟨hs, ha, hb⟩
      simp only at hs ha hb
      have left : (if a > 0 then smallT fuel a (n / 2) else .ret [] : Tree (List Nat)).All
          fun l => l.length = a ∧ ∀ x ∈ l, x < n / 2 := by
        split
        · exact ih a (n / 2) (by omega) ha (by omega)
        · refine ⟨?_, fun x hx => by cases hx⟩
          simp; omega
      have right : (if b > 0 then smallT fuel b (n - n / 2) else .ret [] : Tree (List Nat)).All
          fun l => l.length = b ∧ ∀ x ∈ l, x < n - n / 2 := by
        split
        · exact ih b (n - n / 2) (by omega) hb (by omega)
        · refine ⟨?_, fun x hx => by cases hx⟩
          simp; omega
      refine left.bind ?_
      rintro l ⟨hl1, hl2⟩
      refine right.bind ?_
      rintro r ⟨hr1, hr2⟩
      refine ⟨by simp; omega, ?_⟩
      intro x hx
      rcases List.mem_append.1 hx with hx | hx
      · have := hl2 x hx; omega
      · obtain ⟨y, hy, rfl⟩ := List.mem_map.1 hx
        have := hr2 y hy; omega

theorem smallT_run (xs : Nat → ℚ) (hx : UnitStream xs) (fuel k n pos : Nat) (h1 : 1 ≤ k) (hk : k ≤ n) (hf : n ≤ fuel) :
    run xs (smallT fuel k n) pos = smallK xs fuel k n pos := by
  induction fuel generalizing k n pos with
  | zero => omega
  | succ fuel ih =>
    unfold smallT smallK
    by_cases hk1 : k = 1
    · rw [if_pos hk1, if_pos hk1]
      have := randI32_zero (xs pos) n 0 (by omega)
      simp only [Nat.cast_zero, sub_zero, Nat.sub_zero] at this
      rw [this]
      rfl
    · rw [if_neg hk1, if_neg hk1, run_bind, splitT_run n (n / 2) xs hx k pos 0 0 0 (by omega)]
      have hok := smallKSplit_ok n (n / 2) xs hx (by omega) k pos 0 0 0 rfl (by omega) (by omega) (by omega)
      simp only at hok
      cases hsp : smallKSplit n (n / 2) xs k pos 0 0 0 with
      | mk a b =>
        rw [hsp] at hok
        simp only [hsp] at hok ⊢
        have left : run xs (if a > 0 then smallT fuel a (n / 2) else .ret []) (pos + k) =
            if a > 0 then smallK xs fuel a (n / 2) (pos + k) else ([], pos + k) := by
          split
          · exact ih _ _ _ (by omega) (by omega) (by omega)
          · rfl
        rw [run_bind, left]
        generalize (if a > 0 then smallK xs fuel a (n / 2) (pos + k) else ([], pos + k)) = lp
        have right : run xs (if b > 0 then smallT fuel b (n - n / 2) else .ret []) lp.2 =
            if b > 0 then smallK xs fuel b (n - n / 2) lp.2 else ([], lp.2) := by
          split
          · exact ih _ _ _ (by omega) (by omega) (by omega)
          · rfl
        rw [run_bind, right]
        rfl

theorem kOfNT_run (xs : Nat → ℚ) (hx : UnitStream xs) (k n pos : Nat) (hk : k ≤ n) :
    run xs (kOfNT k n) pos = kOfN k n xs pos := by
  unfold kOfNT kOfN
  split
  · rfl
  · split
    · exact smallT_run xs hx n k n pos (by omega) hk (le_refl _)
    · exact largeT_run k n xs hx n pos 0

/-! ## Number of draws -/

theorem largeT_fits (M k n : Nat) (hM : ∀ m, 1 ≤ m → m ≤ n → m ∣ M) (rem j : Nat) (hr : rem ≤ n) :
    Fits M rem (largeT k n rem j) := by
  induction rem generalizing j with
  | zero => trivial
  | succ rem ih =>
    refine ⟨by omega, hM _ (by omega) hr, fun r _ => ?_⟩
    show Fits M rem (if (r : Int) < (k : Int) - j then _ else _)
    split
    · exact Fits.bind (N := fun _ => 0) (Q := fun _ => True) (ih (j + 1) (by omega)) ((largeT_all k n rem (j + 1)).mono fun _ _ => trivial)
        (fun _ _ => trivial) (fun _ _ => by omega)
    · exact ih j (by omega)

theorem splitT_fits (M n leftN : Nat) (hM : ∀ m, 1 ≤ m → m ≤ n → m ∣ M) (cnt i a b : Nat) (h : i + cnt ≤ n) :
    Fits M cnt (splitT n leftN cnt i a b) := by
  induction cnt generalizing i a b with
  | zero => trivial
  | succ cnt ih =>
    refine ⟨by omega, hM _ (by omega) (by omega), fun r _ => ?_⟩
    show Fits M cnt (if (r : Int) < (leftN : Int) - a then _ else _)
    split
    · exact ih _ _ _ (by omega)
    · exact ih _ _ _ (by omega)

theorem smallT_fits (M N : Nat) (hM : ∀ m, 1 ≤ m → m ≤ N → m ∣ M) (fuel k n : Nat) (h1 : 1 ≤ k) (hk : k ≤ n) (hf : n ≤ fuel)
    (hN : n ≤ N) : Fits M (k * n) (smallT fuel k n) := by
  induction fuel generalizing k n with
  | zero => omega
  | succ fuel ih =>
    unfold smallT
    split
    · rename_i hk1
      subst hk1
      rw [Nat.one_mul]
      cases n with
      | zero => omega
      | succ n => exact ⟨by omega, hM _ (by omega) hN, fun r _ => by cases n <;> trivial⟩
    · rename_i hk1
      refine Fits.bind (N := fun ab => ab.1 * (n / 2) + ab.2 * (n - n / 2))
        (splitT_fits M n (n / 2) (fun m a b => hM m a (by omega)) k 0 0 0 (by omega))
        (splitT_all n (n / 2) k 0 0 0 rfl (by omega) (by omega) (by omega) (by omega)) ?_ ?_
      · rintro ⟨a, b⟩ ⟨hs, ha, hb⟩
        simp only at hs ha hb ⊢
        have left : Fits M (a * (n / 2)) (if a > 0 then smallT fuel a (n / 2) else .ret []) := by
          split
          · exact ih a (n / 2) (by omega) ha (by omega) (by omega)
          · cases a * (n / 2) <;> trivial
        have right : Fits M (b * (n - n / 2)) (if b > 0 then smallT fuel b (n - n / 2) else .ret []) := by
          split
          · exact ih b (n - n / 2) (by omega) hb (by omega) (by omega)
          · cases b * (n - n / 2) <;> trivial
        have triv : ∀ T : Tree (List Nat), T.All fun _ => True := by
          intro T
          induction T with
          | ret a => trivial
          | draw m f ih => exact fun r _ => ih r
        refine Fits.bind (N := fun _ => b * (n - n / 2)) left (triv _) (fun l _ => ?_) (fun _ _ => le_refl _)
        refine Fits.bind (N := fun _ => 0) right (triv _) (fun r _ => ?_) (fun _ _ => le_refl _)
        trivial
      · rintro ⟨a, b⟩ ⟨hs, ha, hb⟩
        simp only at hs ha hb ⊢
        have h2 : n / 2 ≤ n - 1 := by omega
        have h3 : n - n / 2 ≤ n - 1 := by omega
        have : a * (n / 2) + b * (n - n / 2) ≤ k * (n - 1) := by
          calc a * (n / 2) + b * (n - n / 2) ≤ a * (n - 1) + b * (n - 1) :=
                Nat.add_le_add (Nat.mul_le_mul_left _ h2) (Nat.mul_le_mul_left _ h3)
            _ = k * (n - 1) := by rw [← Nat.add_mul]; congr 1; omega
        calc k + (a * (n / 2) + b * (n - n / 2)) ≤ k + k * (n - 1) := by omega
          _ = k * (n - 1 + 1) := by ring
          _ = k * n := by congr 1; omega

theorem kOfNT_fits (M k n : Nat) (hk : k ≤ n) (hM : ∀ m, 1 ≤ m → m ≤ n → m ∣ M) : Fits M (k * n) (kOfNT k n) := by
  unfold kOfNT
  split
  · cases k * n <;> trivial
  · split
    · exact smallT_fits M n hM n k n (by omega) hk (le_refl _) (le_refl _)
    · refine (largeT_fits M k n hM n 0 (le_refl _)).mono ?_
      exact Nat.le_mul_of_pos_left n (by omega)

/-! ## Distribution -/

theorem sum_if (N t : Nat) (ht : t ≤ N) (A B : ℚ) :
    ∑ r ∈ range N, (if r < t then A else B) = t * A + ((N : ℚ) - t) * B := by
  obtain ⟨u, rfl⟩ := Nat.exists_eq_add_of_le ht
  rw [Finset.sum_range_add, Finset.sum_congr rfl (g := fun _ => A), Finset.sum_congr (s₂ := range u) rfl (g := fun _ => B)]
  · simp
  · intro i _
    rw [if_neg (by omega)]
  · intro i hi
    rw [if_pos (Finset.mem_range.1 hi)]

theorem sorted_length_le {m n : Nat} {l : List Nat} (hs : l.Pairwise (· < ·)) (hr : ∀ x ∈ l, m ≤ x ∧ x < n) : l.length ≤ n - m := by
  have hnd : l.Nodup := hs.imp fun h => Nat.ne_of_lt h
  rw [← List.toFinset_card_of_nodup hnd, ← Nat.card_Ico]
  refine Finset.card_le_card fun x hx => ?_
  rw [List.mem_toFinset] at hx
  rw [Finset.mem_Ico]
  exact hr x hx

theorem largeT_prob (k n rem j : Nat) (hj : j ≤ k) (hrn : rem ≤ n) (l : List Nat) (hl : l.length = k - j)
    (hs : l.Pairwise (· < ·)) (hr : ∀ x ∈ l, n - rem ≤ x ∧ x < n) :
    (largeT k n rem j).prob l = 1 / (rem.choose (k - j) : ℚ) := by
  induction rem generalizing j l with
  | zero =>
    have : l.length ≤ n - (n - 0) := sorted_length_le hs hr
    have h0 : l = [] := List.length_eq_zero_iff.1 (by omega)
    subst h0
    simp only [List.length_nil] at hl
    rw [← hl]
    simp [largeT, prob]
  | succ rem ih =>
    have hlen : k - j ≤ rem + 1 := by
      have := sorted_length_le hs hr
      omega
    set need := k - j with hneed
    have e : (largeT k n (rem + 1) j).prob l =
        (need * ((largeT k n rem (j + 1)).bind fun l => .ret ((n - (rem + 1)) :: l)).prob l
          + (((rem + 1 : Nat) : ℚ) - need) * (largeT k n rem j).prob l) / ((rem + 1 : Nat) : ℚ) := by
      rw [← sum_if (rem + 1) need hlen]
      show (∑ r ∈ range (rem + 1), prob l (if (r : Int) < (k : Int) - j then _ else _)) / ((rem + 1 : Nat) : ℚ) = _
      congr 1
      refine Finset.sum_congr rfl fun r _ => ?_
      by_cases h : r < need
      · rw [if_pos h, if_pos (by omega)]
      · rw [if_neg h, if_neg (by omega)]
    rw [e]
    have hR : ((rem + 1 : Nat) : ℚ) ≠ 0 := by exact_mod_cast Nat.succ_ne_zero rem
    have hC : ((rem + 1).choose need : ℚ) ≠ 0 := by exact_mod_cast (Nat.choose_pos hlen).ne'
    by_cases hd : ∃ l', l = (n - (rem + 1)) :: l'
    · obtain ⟨l', rfl⟩ := hd
      rw [List.length_cons] at hl
      rw [List.pairwise_cons] at hs
      have hB : (largeT k n rem j).prob ((n - (rem + 1)) :: l') = 0 := by
        refine prob_zero ((largeT_all k n rem j).mono ?_)
        rintro l hl rfl
        have := hl (n - (rem + 1)) (List.mem_cons_self ..)
        omega
      have hA : ((largeT k n rem (j + 1)).bind fun l => .ret ((n - (rem + 1)) :: l)).prob ((n - (rem + 1)) :: l')
          = 1 / (rem.choose (need - 1) : ℚ) := by
        rw [prob_bind (Q := fun _ => True) (a := l') ((largeT_all k n rem (j + 1)).mono fun _ _ => trivial)]
        · rw [ih (j + 1) (by omega) (by omega) l' (by omega) hs.2]
          · show _ * (if _ then (1 : ℚ) else 0) = _
            rw [if_pos rfl, mul_one]
            congr 3
          · intro x hx
            have h1 := hs.1 x hx
            have h2 := hr x (List.mem_cons_of_mem _ hx)
            omega
        · intro l'' _ hne
          show (if _ then (1 : ℚ) else 0) = 0
          rw [if_neg]
          intro h
          exact hne (List.cons.inj h).2
      rw [hA, hB, mul_zero, add_zero]
      obtain ⟨u, hu⟩ : ∃ u, need = u + 1 := ⟨need - 1, by omega⟩
      rw [hu] at hC hlen ⊢
      have hid := Nat.add_one_mul_choose_eq rem u
      have hid' : ((rem + 1 : Nat) : ℚ) * (rem.choose u : ℚ) = ((rem + 1).choose (u + 1) : ℚ) * ((u + 1 : Nat) : ℚ) := by
        exact_mod_cast hid
      have hc : (rem.choose u : ℚ) ≠ 0 := by exact_mod_cast (Nat.choose_pos (by omega)).ne'
      rw [Nat.add_sub_cancel]
      rw [mul_one_div, div_div, div_eq_div_iff (mul_ne_zero hc hR) hC, one_mul, mul_comm (rem.choose u : ℚ), hid']
      ring
    · have hge : ∀ x ∈ l, n - rem ≤ x ∧ x < n := by
        intro x hx
        refine ⟨?_, (hr x hx).2⟩
        cases l with
        | nil => cases hx
        | cons y l' =>
          have hy := hr y (List.mem_cons_self ..)
          have hy' : y ≠ n - (rem + 1) := fun h => hd ⟨l', by rw [h]⟩
          rcases List.mem_cons.1 hx with rfl | hx
          · omega
          · have := (List.pairwise_cons.1 hs).1 x hx
            omega
      have hlen' : need ≤ rem := by
        have := sorted_length_le hs hge
        omega
      have hA : ((largeT k n rem (j + 1)).bind fun l => .ret ((n - (rem + 1)) :: l)).prob l = 0 := by
        refine prob_zero (Tree.All.bind (Q := fun _ => True) ((largeT_all k n rem (j + 1)).mono fun _ _ => trivial) ?_)
        intro l' _ h
        exact hd ⟨l', h.symm⟩
      rw [hA, ih j hj (by omega) l hl hs hge, mul_zero, zero_add]
      have hid' : ((rem + 1 : Nat) : ℚ) * (rem.choose need : ℚ) = ((rem + 1).choose need : ℚ) * (((rem + 1 : Nat) : ℚ) - need) := by
        have := Nat.choose_mul_succ_eq rem need
        rw [← Nat.cast_sub (by omega)]
        rw [mul_comm]
        exact_mod_cast this
      have hc : (rem.choose need : ℚ) ≠ 0 := by exact_mod_cast (Nat.choose_pos hlen').ne'
      rw [mul_one_div, div_div, div_eq_div_iff (mul_ne_zero hc hR) hC, one_mul, mul_comm (rem.choose need : ℚ), hid']
      ring

theorem splitT_ge (n leftN cnt i a b : Nat) : (splitT n leftN cnt i a b).All fun ab => a ≤ ab.1 ∧ b ≤ ab.2 := by
  induction cnt generalizing i a b with
  | zero => exact ⟨le_refl _, le_refl _⟩
  | succ cnt ih =>
    intro r _
    show (if (r : Int) < (leftN : Int) - a then _ else _ : Tree (Nat × Nat)).All _
    split
    · exact (ih (i + 1) (a + 1) b).mono fun ab h => ⟨by omega, h.2⟩
    · exact (ih (i + 1) a (b + 1)).mono fun ab h => ⟨h.1, by omega⟩

/-- The split of the sample between the halves is hypergeometric. -/
theorem splitT_prob (n leftN cnt i a b x y : Nat) (hi : i = a + b) (hn : i + cnt ≤ n) (ha : a ≤ leftN) (hb : b ≤ n - leftN)
    (hl : leftN ≤ n) (hxy : x + y = cnt) :
    (splitT n leftN cnt i a b).prob (a + x, b + y) =
      ((leftN - a).choose x : ℚ) * ((n - leftN - b).choose y : ℚ) / ((n - i).choose cnt : ℚ) := by
  induction cnt generalizing i a b x y with
  | zero =>
    have h1 : x = 0 := by omega
    have h2 : y = 0 := by omega
    subst h1 h2
    simp [splitT, prob]
  | succ cnt ih =>
    have hN : ((n - i : Nat) : ℚ) ≠ 0 := by
      have : n - i ≠ 0 := by omega
      exact_mod_cast this
    have e : (splitT n leftN (cnt + 1) i a b).prob (a + x, b + y) =
        (((leftN - a : Nat) : ℚ) * (splitT n leftN cnt (i + 1) (a + 1) b).prob (a + x, b + y)
          + (((n - i : Nat) : ℚ) - ((leftN - a : Nat) : ℚ)) * (splitT n leftN cnt (i + 1) a (b + 1)).prob (a + x, b + y)) / ((n - i : Nat) : ℚ) := by
      rw [← sum_if (n - i) (leftN - a) (by omega)]
      show (∑ r ∈ range (n - i), prob (a + x, b + y) (if (r : Int) < (leftN : Int) - a then _ else _)) / ((n - i : Nat) : ℚ) = _
      congr 1
      refine Finset.sum_congr rfl fun r _ => ?_
      by_cases h : r < leftN - a
      · rw [if_pos h, if_pos (by omega)]
      · rw [if_neg h, if_neg (by omega)]
    have hB : ((n - i : Nat) : ℚ) - ((leftN - a : Nat) : ℚ) = ((n - leftN - b : Nat) : ℚ) := by
      rw [← Nat.cast_sub (by omega)]
      congr 1
      omega
    rw [e, hB]
    have hD : ((n - (i + 1)).choose cnt : ℚ) ≠ 0 := by exact_mod_cast (Nat.choose_pos (by omega)).ne'
    have c1 : ((leftN - a : Nat) : ℚ) * (splitT n leftN cnt (i + 1) (a + 1) b).prob (a + x, b + y) =
        x * (((leftN - a).choose x : ℚ) * ((n - leftN - b).choose y : ℚ) / ((n - (i + 1)).choose cnt : ℚ)) := by
      rcases Nat.eq_zero_or_pos x with rfl | hx
      · rw [prob_zero ((splitT_ge n leftN cnt (i + 1) (a + 1) b).mono ?_)]
        · simp
        · rintro ab ⟨h1, h2⟩ rfl
          simp at h1
      · rcases Nat.eq_zero_or_pos (leftN - a) with h0 | hA
        · obtain ⟨x', rfl⟩ : ∃ x', x = x' + 1 := ⟨x - 1, by omega⟩
          rw [h0, Nat.choose_zero_succ]
          simp
        · obtain ⟨x', rfl⟩ : ∃ x', x = x' + 1 := ⟨x - 1, by omega⟩
          obtain ⟨A, hA'⟩ : ∃ A, leftN - a = A + 1 := ⟨leftN - a - 1, by omega⟩
          have := ih (i + 1) (a + 1) b x' y (by omega) (by omega) (by omega) hb (by omega)
          rw [show a + 1 + x' = a + (x' + 1) by omega] at this
          rw [this, show leftN - (a + 1) = A by omega, hA']
          have hid : ((A + 1 : Nat) : ℚ) * (A.choose x' : ℚ) = ((A + 1).choose (x' + 1) : ℚ) * ((x' + 1 : Nat) : ℚ) := by
            exact_mod_cast Nat.add_one_mul_choose_eq A x'
          rw [← mul_div_assoc, ← mul_assoc, hid, ← mul_div_assoc]
          congr 1
          ring
    have c2 : ((n - leftN - b : Nat) : ℚ) * (splitT n leftN cnt (i + 1) a (b + 1)).prob (a + x, b + y) =
        y * (((leftN - a).choose x : ℚ) * ((n - leftN - b).choose y : ℚ) / ((n - (i + 1)).choose cnt : ℚ)) := by
      rcases Nat.eq_zero_or_pos y with rfl | hy
      · rw [prob_zero ((splitT_ge n leftN cnt (i + 1) a (b + 1)).mono ?_)]
        · simp
        · rintro ab ⟨h1, h2⟩ rfl
          simp at h2
      · rcases Nat.eq_zero_or_pos (n - leftN - b) with h0 | hA
        · obtain ⟨y', rfl⟩ : ∃ y', y = y' + 1 := ⟨y - 1, by omega⟩
          rw [h0, Nat.choose_zero_succ]
          simp
        · obtain ⟨y', rfl⟩ : ∃ y', y = y' + 1 := ⟨y - 1, by omega⟩
          obtain ⟨A, hA'⟩ : ∃ A, n - leftN - b = A + 1 := ⟨n - leftN - b - 1, by omega⟩
          have := ih (i + 1) a (b + 1) x y' (by omega) (by omega) ha (by omega) (by omega)
          rw [show b + 1 + y' = b + (y' + 1) by omega] at this
          rw [this, show n - leftN - (b + 1) = A by omega, hA']
          have hid : ((A + 1 : Nat) : ℚ) * (A.choose y' : ℚ) = ((A + 1).choose (y' + 1) : ℚ) * ((y' + 1 : Nat) : ℚ) := by
            exact_mod_cast Nat.add_one_mul_choose_eq A y'
          rw [← mul_div_assoc, mul_left_comm, hid, ← mul_div_assoc]
          congr 1
          ring
    rw [c1, c2, ← add_mul]
    have hsum : (x : ℚ) + y = ((cnt + 1 : Nat) : ℚ) := by exact_mod_cast hxy
    obtain ⟨N, hN'⟩ : ∃ N, n - i = N + 1 := ⟨n - i - 1, by omega⟩
    have hnN : n - (i + 1) = N := by omega
    have hcN : cnt ≤ N := by omega
    rw [hnN] at hD
    rw [hN'] at hN
    rw [hsum, hnN, hN']
    have hid : ((N + 1 : Nat) : ℚ) * (N.choose cnt : ℚ) = ((N + 1).choose (cnt + 1) : ℚ) * ((cnt + 1 : Nat) : ℚ) := by
      exact_mod_cast Nat.add_one_mul_choose_eq N cnt
    have hE : ((N + 1).choose (cnt + 1) : ℚ) ≠ 0 := by exact_mod_cast (Nat.choose_pos (Nat.succ_le_succ hcN)).ne'
    rw [← mul_div_assoc, div_div, div_eq_div_iff (mul_ne_zero hD hN) hE, mul_comm (N.choose cnt : ℚ), hid]
    ring

theorem app_inj {h : Nat} {l' r' l r : List Nat} (hl' : ∀ x ∈ l', x < h) (hl : ∀ x ∈ l, x < h)
    (he : l' ++ r'.map (· + h) = l ++ r.map (· + h)) : l' = l ∧ r' = r := by
  have key : ∀ a b : List Nat, (∀ x ∈ a, x < h) → (a ++ b.map (· + h)).filter (· < h) = a := by
    intro a b ha
    rw [List.filter_append, List.filter_eq_self.2 (by simpa using ha), List.filter_eq_nil_iff.2, List.append_nil]
    intro x hx
    obtain ⟨y, _, rfl⟩ := List.mem_map.1 hx
    simp
  have h1 : l' = l := by rw [← key l' r' hl', he, key l r hl]
  subst h1
  refine ⟨rfl, ?_⟩
  exact (List.map_injective_iff.2 fun a b hab => Nat.add_right_cancel hab) (List.append_cancel_left he)

theorem smallT_prob (fuel k n : Nat) (h1 : 1 ≤ k) (hk : k ≤ n) (hf : n ≤ fuel) (l : List Nat) (hl : IsKSubset k n l) :
    (smallT fuel k n).prob l = 1 / (n.choose k : ℚ) := by
  induction fuel generalizing k n l with
  | zero => omega
  | succ fuel ih =>
    unfold smallT
    by_cases hk1 : k = 1
    · rw [if_pos hk1]
      subst hk1
      obtain ⟨x, rfl⟩ := List.length_eq_one_iff.1 hl.1
      have hx : x < n := hl.2.2 x (by simp)
      show (∑ r ∈ range n, (if [r] = [x] then (1 : ℚ) else 0)) / n = _
      rw [Finset.sum_eq_single x, if_pos rfl, Nat.choose_one_right]
      · intro r _ hr
        rw [if_neg]
        intro h
        exact hr (List.cons.inj h).1
      · intro h
        exact absurd (Finset.mem_range.2 hx) h
    · rw [if_neg hk1]
      obtain ⟨L, R, hL, hR, he⟩ := split_sorted (n / 2) n (by omega) l hl.2.1 hl.2.2
      have hlen : L.length + R.length = k := by
        rw [← hl.1, he]; simp
      have side : ∀ a m, a ≤ m → m ≤ fuel → (if a > 0 then smallT fuel a m else .ret [] : Tree (List Nat)).All
          fun l => l.length = a ∧ ∀ x ∈ l, x < m := by
        intro a m ha hm
        split
        · exact smallT_all fuel a m (by omega) ha hm
        · refine ⟨?_, fun x hx => by cases hx⟩
          simp; omega
      have sideP : ∀ m, m ≤ fuel → ∀ l, IsKSubset l.length m l →
          (if l.length > 0 then smallT fuel l.length m else .ret [] : Tree (List Nat)).prob l = 1 / (m.choose l.length : ℚ) := by
        intro m hm l hl
        have hle : l.length ≤ m := by
          have := sorted_length_le (m := 0) hl.2.1 (fun x hx => ⟨Nat.zero_le _, hl.2.2 x hx⟩)
          omega
        split
        · exact ih _ _ (by omega) hle hm l hl
        · rename_i h0
          have : l = [] := List.length_eq_zero_iff.1 (by omega)
          subst this
          simp [prob]
      have hLle : L.length ≤ n / 2 := by
        have := sorted_length_le (m := 0) hL.2.1 (fun x hx => ⟨Nat.zero_le _, hL.2.2 x hx⟩)
        omega
      have hRle : R.length ≤ n - n / 2 := by
        have := sorted_length_le (m := 0) hR.2.1 (fun x hx => ⟨Nat.zero_le _, hR.2.2 x hx⟩)
        omega
      rw [prob_bind (a := (L.length, R.length)) (splitT_all n (n / 2) k 0 0 0 rfl (by omega) (by omega) (by omega) (by omega))]
      · have hsp := splitT_prob n (n / 2) k 0 0 0 L.length R.length rfl (by omega) (by omega) (by omega) (by omega) hlen
        simp only [Nat.zero_add, Nat.sub_zero] at hsp
        rw [hsp, prob_bind (a := L) (side L.length (n / 2) hLle (by omega))]
        · rw [prob_bind (a := R) (side R.length (n - n / 2) hRle (by omega))]
          · rw [sideP _ (by omega) L hL, sideP _ (by omega) R hR]
            show _ * (_ * (_ * (if _ then (1 : ℚ) else 0))) = _
            rw [if_pos he.symm]
            have c1 : ((n / 2).choose L.length : ℚ) ≠ 0 := by exact_mod_cast (Nat.choose_pos hLle).ne'
            have c2 : ((n - n / 2).choose R.length : ℚ) ≠ 0 := by exact_mod_cast (Nat.choose_pos hRle).ne'
            field_simp
          · rintro r' ⟨_, _⟩ hne
            show (if _ then (1 : ℚ) else 0) = 0
            rw [if_neg]
            intro h
            rw [he] at h
            exact hne (app_inj hL.2.2 hL.2.2 h).2
        · rintro l' ⟨_, hl'⟩ hne
          refine prob_zero ((side R.length (n - n / 2) hRle (by omega)).bind ?_)
          intro r' _ h
          rw [he] at h
          exact hne (app_inj hl' hL.2.2 h).1
      · rintro ⟨a, b⟩ ⟨hs, ha, hb⟩ hne
        simp only at hs ha hb
        refine prob_zero ((side a (n / 2) ha (by omega)).bind ?_)
        rintro l' ⟨hl1, hl2⟩
        refine (side b (n - n / 2) hb (by omega)).bind ?_
        rintro r' ⟨hr1, _⟩ h
        rw [he] at h
        obtain ⟨rfl, rfl⟩ := app_inj hl2 hL.2.2 h
        exact hne (by rw [hl1, hr1])

/-- Every `k`-subset has probability `1 / C(n, k)`. -/
theorem kOfNT_prob (k n : Nat) (hk : k ≤ n) (l : List Nat) (hl : IsKSubset k n l) :
    (kOfNT k n).prob l = 1 / (n.choose k : ℚ) := by
  unfold kOfNT
  split
  · rename_i h0
    subst h0
    have : l = [] := List.length_eq_zero_iff.1 hl.1
    subst this
    simp [prob]
  · split
    · exact smallT_prob n k n (by omega) hk (le_refl _) l hl
    · exact largeT_prob k n n 0 (by omega) (le_refl _) l hl.1 hl.2.1 fun x hx => ⟨by omega, hl.2.2 x hx⟩

theorem gridStream_unit {M L : Nat} (hM : 0 < M) (v : Fin L → Fin M) : UnitStream (gridStream v) := by
  intro i
  have hM' : (0 : ℚ) < M := by exact_mod_cast hM
  unfold gridStream
  split
  · rename_i h
    refine ⟨by positivity, ?_⟩
    rw [div_lt_one hM']
    exact_mod_cast (v ⟨i, h⟩).2
  · exact ⟨le_refl _, one_pos⟩

end EdgeEval.KofnU
