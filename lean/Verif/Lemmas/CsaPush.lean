import Verif.Lemmas.CsaScan
import Mathlib.Algebra.BigOperators.Group.Finset.Basic
import Mathlib.Algebra.BigOperators.Ring.Finset
import Mathlib.Algebra.Order.BigOperators.Group.Finset
import Mathlib.Algebra.Order.Floor.Ring
import Mathlib.Data.Fintype.Card
import Mathlib.Data.Rat.Floor

/-! # Invariants of `double_push`, termination of `refine` -/

namespace EdgeEval

/-- Head of the `k`-th arc of `v`. -/
def hd (adj : Nat → List Arc) (v k : Nat) : Nat := (arcAt adj v k).head

/-- Invariant of a refine phase: `p0` are the prices at its start. -/
structure CsaInv (adj : Nat → List Arc) (N : Nat) (eps : ℚ) (p0 : Nat → ℚ) (s : CsaState) : Prop where
  mLR : ∀ v k, s.mL v = some k → v < N ∧ k < (adj v).length ∧ s.mR (hd adj v k) = some v
  mRL : ∀ w v, s.mR w = some v → ∃ k, s.mL v = some k ∧ hd adj v k = w
  eopt : ∀ v k, s.mL v = some k → ∀ j, j < (adj v).length →
    redCost adj s.p v k ≤ redCost adj s.p v j + eps
  act : ∀ v, v ∈ s.active ↔ v < N ∧ s.mL v = none
  nodup : s.active.Nodup
  excess : s.totalE = s.active.length
  cache : ∀ v, v < N → ¬ (adj v).length < numBest + 1 →
    CacheOK (redCost adj s.p v) (adj v).length (s.best v) (s.nextBest v)
  untouched : ∀ w, s.mR w = none → s.p w = p0 w

theorem redCost_upd_le (adj : Nat → List Arc) (p : Nat → ℚ) (w : Nat) (d : ℚ) (hd : 0 ≤ d) (v k : Nat) :
    redCost adj p v k ≤ redCost adj (upd p w (p w - d)) v k := by
  unfold redCost upd
  split
  · rename_i h; rw [h]; linarith
  · exact le_refl _

/-- What a double push does to prices and matching, and that it keeps the invariant. -/
theorem doublePush_inv {adj : Nat → List Arc} {N : Nat} {eps po : ℚ} {p0 : Nat → ℚ} {s : CsaState}
    {v : Nat} {rest : List Nat} (he : 0 < eps) (hpo : 0 ≤ po) (hne : adj v ≠ [])
    (hact : s.active = v :: rest) (inv : CsaInv adj N eps p0 s) :
    CsaInv adj N eps p0 (doublePush adj eps po v { s with active := rest }) ∧
    ∃ k, k < (adj v).length ∧
      (∀ j, j < (adj v).length → redCost adj s.p v k ≤ redCost adj s.p v j) ∧
      (∃ d, eps ≤ d ∧ (doublePush adj eps po v { s with active := rest }).p =
        upd s.p (hd adj v k) (s.p (hd adj v k) - d)) := by
  obtain ⟨i1, i2, i3, i4, i5, i6, i7, i8⟩ := inv
  have hv : v < N ∧ s.mL v = none := (i4 v).mp (by rw [hact]; exact List.mem_cons_self)
  have hdeg : 0 < (adj v).length := List.length_pos_iff.mpr hne
  obtain ⟨hsc, hca⟩ := choose_ok (redCost adj s.p v) (adj v).length eps po (s.best v) (s.nextBest v)
    hdeg he.le hpo (fun h => i7 v hv.1 h)
  rcases hch : choose (redCost adj s.p v) (adj v).length eps po (s.best v) (s.nextBest v) with
    ⟨sc, best', nb'⟩
  rw [hch] at hsc hca
  simp only at hsc hca
  obtain ⟨q1, q2, q3, q4, q5⟩ := hsc
  have hgap : 0 ≤ sc.second - sc.pref := by linarith
  have hrest : v ∉ rest := by rw [hact] at i5; exact (List.nodup_cons.mp i5).1
  have hrestnd : rest.Nodup := by rw [hact] at i5; exact (List.nodup_cons.mp i5).2
  have hinrest : ∀ x, x ∈ rest ↔ (x < N ∧ s.mL x = none) ∧ x ≠ v := by
    intro x
    have := i4 x
    rw [hact, List.mem_cons] at this
    constructor
    · intro hx
      exact ⟨this.mp (.inr hx), fun e => hrest (e ▸ hx)⟩
    · rintro ⟨hx, hxv⟩
      rcases this.mpr hx with h | h
      · exact absurd h hxv
      · exact h
  -- notation for the pieces of the new state
  set w := hd adj v sc.adm with hw
  set d := (sc.second - sc.pref) + eps with hdd
  have hd0 : 0 ≤ d := by rw [hdd]; linarith
  have hdeps : eps ≤ d := by rw [hdd]; linarith
  set p' := upd s.p w (s.p w - d) with hp'
  have hmono : ∀ x k, redCost adj s.p x k ≤ redCost adj p' x k := fun x k => redCost_upd_le adj s.p w d hd0 x k
  have hsame : ∀ x k, hd adj x k ≠ w → redCost adj p' x k = redCost adj s.p x k := by
    intro x k hx
    unfold redCost
    rw [hp']
    unfold upd
    rw [if_neg (show (arcAt adj x k).head ≠ w from hx)]
  have hnew : redCost adj p' v sc.adm = sc.second + eps := by
    have e1 : redCost adj p' v sc.adm = ((arcAt adj v sc.adm).cost : ℚ) - (s.p w - d) := by
      unfold redCost
      rw [hp']
      unfold upd
      rw [if_pos (show (arcAt adj v sc.adm).head = w from rfl)]
    have e2 : sc.pref = ((arcAt adj v sc.adm).cost : ℚ) - s.p w := q1
    rw [e1, hdd]; linarith
  -- ε-optimality of the newly matched arc
  have heoptv : ∀ j, j < (adj v).length → redCost adj p' v sc.adm ≤ redCost adj p' v j + eps := by
    intro j hj
    by_cases hja : j = sc.adm
    · subst hja; linarith
    · rw [hnew]
      have := (q5 j hj hja).trans (hmono v j)
      linarith
  -- the cache
  have hcache : ∀ x, x < N → ¬ (adj x).length < numBest + 1 →
      CacheOK (redCost adj p' x) (adj x).length (upd s.best v best' x) (upd s.nextBest v nb' x) := by
    intro x hx hfew
    unfold upd
    by_cases hxv : x = v
    · subst hxv
      rw [if_pos rfl, if_pos rfl]
      exact (hca hfew).mono (hmono x)
    · rw [if_neg hxv, if_neg hxv]
      exact (i7 x hx hfew).mono (hmono x)
  cases hmr : s.mR w with
  | none =>
    have hst : doublePush adj eps po v { s with active := rest } =
        ⟨p', upd s.mL v (some sc.adm), upd s.mR w (some v), upd s.best v best', upd s.nextBest v nb',
          rest, s.totalE - 1⟩ := by
      unfold doublePush
      simp only [hch]
      have : s.mR (arcAt adj v sc.adm).head = none := hmr
      simp only [this]
      rfl
    rw [hst]
    refine ⟨⟨?_, ?_, ?_, ?_, hrestnd, ?_, hcache, ?_⟩, sc.adm, q2, ?_, d, hdeps, rfl⟩
    · intro x k hx
      simp only [upd] at hx ⊢
      by_cases hxv : x = v
      · subst hxv
        rw [if_pos rfl] at hx
        cases hx
        exact ⟨hv.1, q2, by rw [if_pos rfl]⟩
      · rw [if_neg hxv] at hx
        obtain ⟨a, b, c⟩ := i1 x k hx
        refine ⟨a, b, ?_⟩
        rw [if_neg]
        · exact c
        · intro e; rw [e, hmr] at c; cases c
    · intro y x hy
      simp only [upd] at hy ⊢
      by_cases hyw : y = w
      · subst hyw
        rw [if_pos rfl] at hy
        cases hy
        exact ⟨sc.adm, by rw [if_pos rfl], rfl⟩
      · rw [if_neg hyw] at hy
        obtain ⟨k, hk1, hk2⟩ := i2 y x hy
        refine ⟨k, ?_, hk2⟩
        rw [if_neg]
        · exact hk1
        · intro e; subst e; rw [hv.2] at hk1; cases hk1
    · intro x k hx j hj
      simp only [upd] at hx
      by_cases hxv : x = v
      · subst hxv
        rw [if_pos rfl] at hx
        cases hx
        exact heoptv j hj
      · rw [if_neg hxv] at hx
        have hxw : hd adj x k ≠ w := by
          intro e
          have := (i1 x k hx).2.2
          rw [e, hmr] at this; cases this
        simp only
        rw [hsame x k hxw]
        exact (i3 x k hx j hj).trans (by linarith [hmono x j])
    · intro x
      rw [hinrest x]
      simp only [upd]
      by_cases hxv : x = v
      · subst hxv; simp
      · rw [if_neg hxv]; simp [hxv]
    · simp only [i6, hact, List.length_cons, Nat.add_sub_cancel]
    · intro y hy
      simp only [upd] at hy
      by_cases hyw : y = w
      · subst hyw; rw [if_pos rfl] at hy; cases hy
      · rw [if_neg hyw] at hy
        simp only [hp', upd, if_neg hyw]
        exact i8 y hy
    · intro j hj; rw [← q1]; exact q4 j hj
  | some u =>
    obtain ⟨ku, hku, hkuw⟩ := i2 w u hmr
    have huv : u ≠ v := by intro e; subst e; rw [hv.2] at hku; cases hku
    have huN := (i1 u ku hku).1
    have hurest : u ∉ rest := by
      intro h
      have := (hinrest u).mp h
      rw [hku] at this; cases this.1.2
    have hst : doublePush adj eps po v { s with active := rest } =
        ⟨p', upd (upd s.mL u none) v (some sc.adm), upd s.mR w (some v), upd s.best v best',
          upd s.nextBest v nb', u :: rest, s.totalE⟩ := by
      unfold doublePush
      simp only [hch]
      have : s.mR (arcAt adj v sc.adm).head = some u := hmr
      simp only [this]
      rfl
    rw [hst]
    refine ⟨⟨?_, ?_, ?_, ?_, List.nodup_cons.mpr ⟨hurest, hrestnd⟩, ?_, hcache, ?_⟩, sc.adm, q2, ?_, d,
      hdeps, rfl⟩
    · intro x k hx
      simp only [upd] at hx ⊢
      by_cases hxv : x = v
      · subst hxv
        rw [if_pos rfl] at hx
        cases hx
        exact ⟨hv.1, q2, by rw [if_pos rfl]⟩
      · rw [if_neg hxv] at hx
        by_cases hxu : x = u
        · rw [if_pos hxu] at hx; cases hx
        · rw [if_neg hxu] at hx
          obtain ⟨a, b, c⟩ := i1 x k hx
          refine ⟨a, b, ?_⟩
          rw [if_neg]
          · exact c
          · intro e; rw [e, hmr] at c; cases c; exact hxu rfl
    · intro y x hy
      simp only [upd] at hy ⊢
      by_cases hyw : y = w
      · subst hyw
        rw [if_pos rfl] at hy
        cases hy
        exact ⟨sc.adm, by rw [if_pos rfl], rfl⟩
      · rw [if_neg hyw] at hy
        obtain ⟨k, hk1, hk2⟩ := i2 y x hy
        refine ⟨k, ?_, hk2⟩
        rw [if_neg, if_neg]
        · exact hk1
        · intro e; subst e; rw [hku] at hk1; cases hk1; exact hyw (hk2.symm.trans hkuw)
        · intro e; subst e; rw [hv.2] at hk1; cases hk1
    · intro x k hx j hj
      simp only [upd] at hx
      by_cases hxv : x = v
      · subst hxv
        rw [if_pos rfl] at hx
        cases hx
        exact heoptv j hj
      · rw [if_neg hxv] at hx
        by_cases hxu : x = u
        · rw [if_pos hxu] at hx; cases hx
        · rw [if_neg hxu] at hx
          have hxw : hd adj x k ≠ w := by
            intro e
            have := (i1 x k hx).2.2
            rw [e, hmr] at this; cases this; exact hxu rfl
          simp only
          rw [hsame x k hxw]
          exact (i3 x k hx j hj).trans (by linarith [hmono x j])
    · intro x
      simp only [List.mem_cons, upd]
      rw [hinrest x]
      by_cases hxv : x = v
      · subst hxv; simp [Ne.symm huv]
      · rw [if_neg hxv]
        by_cases hxu : x = u
        · subst hxu; simp [huN]
        · rw [if_neg hxu]; simp [hxu, hxv]
    · simp only [i6, hact, List.length_cons]
    · intro y hy
      simp only [upd] at hy
      by_cases hyw : y = w
      · subst hyw; rw [if_pos rfl] at hy; cases hy
      · rw [if_neg hyw] at hy
        simp only [hp', upd, if_neg hyw]
        exact i8 y hy
    · intro j hj; rw [← q1]; exact q4 j hj

/-- A perfect matching of the graph, as a choice of one arc per left node. -/
structure PMat (adj : Nat → List Arc) (N : Nat) (σ : Nat → Nat) : Prop where
  valid : ∀ v, v < N → σ v < (adj v).length
  range : ∀ v, v < N → hd adj v (σ v) < N
  inj : ∀ v v', v < N → v' < N → hd adj v (σ v) = hd adj v' (σ v') → v = v'

/-- Walk along `σ`-arcs and matched arcs. -/
def walk (adj : Nat → List Arc) (s : CsaState) (σ : Nat → Nat) (v0 : Nat) : Nat → Option Nat
  | 0 => some v0
  | i + 1 => (walk adj s σ v0 i).bind fun v => s.mR (hd adj v (σ v))

theorem walk_lt {adj N eps p0 s} (inv : CsaInv adj N eps p0 s) (σ : Nat → Nat) {v0 : Nat} (h0 : v0 < N)
    (i v : Nat) (h : walk adj s σ v0 i = some v) : v < N := by
  cases i with
  | zero => simp only [walk, Option.some.injEq] at h; omega
  | succ i =>
    simp only [walk, Option.bind_eq_some_iff] at h
    obtain ⟨u, _, hu⟩ := h
    obtain ⟨k, hk, _⟩ := inv.mRL _ _ hu
    exact (inv.mLR _ _ hk).1

theorem walk_inj {adj N eps p0 s} (inv : CsaInv adj N eps p0 s) {σ : Nat → Nat} (hσ : PMat adj N σ)
    {v0 : Nat} (h0 : v0 < N) (hun : s.mL v0 = none) (i j v : Nat) (hi : walk adj s σ v0 i = some v)
    (hj : walk adj s σ v0 j = some v) : i = j := by
  have hsucc : ∀ i v, walk adj s σ v0 (i + 1) = some v → ∃ k, s.mL v = some k := by
    intro i v h
    simp only [walk, Option.bind_eq_some_iff] at h
    obtain ⟨u, _, hu⟩ := h
    obtain ⟨k, hk, _⟩ := inv.mRL _ _ hu
    exact ⟨k, hk⟩
  induction i generalizing j v with
  | zero =>
    simp only [walk, Option.some.injEq] at hi
    subst hi
    cases j with
    | zero => rfl
    | succ j => obtain ⟨k, hk⟩ := hsucc j _ hj; rw [hun] at hk; cases hk
  | succ i ih =>
    cases j with
    | zero =>
      simp only [walk, Option.some.injEq] at hj
      subst hj
      obtain ⟨k, hk⟩ := hsucc i _ hi; rw [hun] at hk; cases hk
    | succ j =>
      simp only [walk, Option.bind_eq_some_iff] at hi hj
      obtain ⟨a, ha, ha'⟩ := hi
      obtain ⟨b, hb, hb'⟩ := hj
      obtain ⟨k1, e1, f1⟩ := inv.mRL _ _ ha'
      obtain ⟨k2, e2, f2⟩ := inv.mRL _ _ hb'
      rw [e1] at e2; cases e2
      have hab : a = b := hσ.inj a b (walk_lt inv σ h0 i a ha) (walk_lt inv σ h0 j b hb) (f1.symm.trans f2)
      subst hab
      rw [ih j a ha hb]

/-- The walk from an unmatched left node ends at an unmatched right node within `N` steps. -/
theorem walk_ends {adj N eps p0 s} (inv : CsaInv adj N eps p0 s) {σ : Nat → Nat} (hσ : PMat adj N σ)
    {v0 : Nat} (h0 : v0 < N) (hun : s.mL v0 = none) :
    ∃ i v, i < N ∧ walk adj s σ v0 i = some v ∧ s.mR (hd adj v (σ v)) = none := by
  by_contra hcon
  push Not at hcon
  have hall : ∀ i, i ≤ N → ∃ v, walk adj s σ v0 i = some v := by
    intro i
    induction i with
    | zero => intro _; exact ⟨v0, rfl⟩
    | succ i ih =>
      intro hi
      obtain ⟨v, hv⟩ := ih (by omega)
      have := hcon i v (by omega) hv
      cases hm : s.mR (hd adj v (σ v)) with
      | none => exact absurd hm this
      | some u => exact ⟨u, by simp [walk, hv, hm]⟩
  choose f hf using hall
  let g : Fin (N + 1) → Fin N := fun i => ⟨f i.1 (by omega), walk_lt inv σ h0 _ _ (hf i.1 (by omega))⟩
  have hg : Function.Injective g := by
    intro a b hab
    have : f a.1 (by omega) = f b.1 (by omega) := by simpa [g] using hab
    have h1 := hf a.1 (by omega)
    rw [this] at h1
    exact Fin.ext (walk_inj inv hσ h0 hun _ _ _ h1 (hf b.1 (by omega)))
  have := Fintype.card_le_of_injective g hg
  simp at this

/-- Costs are bounded by `C` in absolute value. -/
def CostLe (adj : Nat → List Arc) (N : Nat) (C : ℚ) : Prop :=
  ∀ v k, v < N → k < (adj v).length → |((arcAt adj v k).cost : ℚ)| ≤ C

/-- As long as a left node is unmatched, the price of its `σ`-partner is bounded below. -/
theorem price_bound {adj N eps p0 s} (inv : CsaInv adj N eps p0 s) {σ : Nat → Nat} (hσ : PMat adj N σ)
    {C m0 : ℚ} (hC : CostLe adj N C) (heps : 0 < eps) (hm0 : ∀ w, w < N → m0 ≤ p0 w) {v0 : Nat} (h0 : v0 < N)
    (hun : s.mL v0 = none) : m0 - N * (2 * C + eps) ≤ s.p (hd adj v0 (σ v0)) := by
  obtain ⟨i, v, hi, hw, hnone⟩ := walk_ends inv hσ h0 hun
  have hC0 : 0 ≤ C := (abs_nonneg _).trans (hC v0 (σ v0) h0 (hσ.valid v0 h0))
  have step : ∀ i v, walk adj s σ v0 i = some v →
      s.p (hd adj v (σ v)) ≤ s.p (hd adj v0 (σ v0)) + i * (2 * C + eps) := by
    intro i
    induction i with
    | zero => intro v h; simp only [walk, Option.some.injEq] at h; subst h; simp
    | succ i ih =>
      intro v h
      have hvN := walk_lt inv σ h0 _ _ h
      simp only [walk, Option.bind_eq_some_iff] at h
      obtain ⟨u, hu, hu'⟩ := h
      obtain ⟨k, hk, hkw⟩ := inv.mRL _ _ hu'
      have h1 := inv.eopt v k hk (σ v) (hσ.valid v hvN)
      unfold redCost at h1
      have e1 : (arcAt adj v k).head = hd adj u (σ u) := hkw
      have e2 : (arcAt adj v (σ v)).head = hd adj v (σ v) := rfl
      rw [e1, e2] at h1
      have h2 := abs_le.mp (hC v k hvN (inv.mLR v k hk).2.1)
      have h3 := abs_le.mp (hC v (σ v) hvN (hσ.valid v hvN))
      have h4 := ih u hu
      push_cast
      linarith [h2.1, h3.2]
  have h1 := step i v hw
  have hvN := walk_lt inv σ h0 _ _ hw
  rw [inv.untouched _ hnone] at h1
  have h2 := hm0 _ (hσ.range v hvN)
  have h3 : (i : ℚ) * (2 * C + eps) ≤ N * (2 * C + eps) := by
    apply mul_le_mul_of_nonneg_right
    · exact_mod_cast hi.le
    · linarith
  linarith

/-- Termination measure of a refine phase. -/
def pot (N : Nat) (K eps : ℚ) (p : Nat → ℚ) : Nat :=
  ∑ w ∈ Finset.range N, if K ≤ p w then ⌊(p w - K) / eps⌋₊ + 1 else 0

theorem pot_lt {N : Nat} {K eps : ℚ} {p : Nat → ℚ} {w : Nat} {d : ℚ} (heps : 0 < eps) (hw : w < N)
    (hK : K ≤ p w) (hd : eps ≤ d) : pot N K eps (upd p w (p w - d)) < pot N K eps p := by
  unfold pot
  have hterm : (if K ≤ upd p w (p w - d) w then ⌊(upd p w (p w - d) w - K) / eps⌋₊ + 1 else 0) <
      (if K ≤ p w then ⌊(p w - K) / eps⌋₊ + 1 else 0) := by
    rw [if_pos hK]
    have e : upd p w (p w - d) w = p w - d := by simp [upd]
    rw [e]
    split
    · rename_i hKd
      have h1 : (p w - d - K) / eps + 1 ≤ (p w - K) / eps := by
        rw [← sub_nonneg]
        have : (p w - K) / eps - ((p w - d - K) / eps + 1) = (d - eps) / eps := by
          field_simp; ring
        rw [this]
        exact div_nonneg (by linarith) heps.le
      have h0 : 0 ≤ (p w - d - K) / eps := div_nonneg (by linarith) heps.le
      have h2 : ⌊(p w - d - K) / eps⌋₊ + 1 ≤ ⌊(p w - K) / eps⌋₊ := by
        rw [← Nat.floor_add_one h0]
        exact Nat.floor_le_floor h1
      omega
    · omega
  apply Finset.sum_lt_sum
  · intro i _
    by_cases hiw : i = w
    · subst hiw; exact hterm.le
    · simp [upd, hiw]
  · exact ⟨w, Finset.mem_range.mpr hw, hterm⟩

/-- All heads lie in range. -/
def HeadLt (adj : Nat → List Arc) (N : Nat) : Prop := ∀ v k, v < N → k < (adj v).length → hd adj v k < N

/-- Partial correctness of the refine loop. -/
theorem refineLoop_inv {adj N eps po p0} (he : 0 < eps) (hpo : 0 ≤ po) (fuel : Nat) (s s' : CsaState)
    (inv : CsaInv adj N eps p0 s) (h : refineLoop adj eps po fuel s = some s') :
    CsaInv adj N eps p0 s' ∧ s'.totalE = 0 := by
  induction fuel generalizing s with
  | zero => simp [refineLoop] at h
  | succ f ih =>
    unfold refineLoop at h
    split at h
    · rename_i h0; cases h; exact ⟨inv, h0⟩
    · split at h
      · cases h
      · rename_i v rest hact
        split at h
        · cases h
        · rename_i hne
          exact ih _ (doublePush_inv he hpo hne hact inv).1 h

theorem refineLoop_mono (adj : Nat → List Arc) (eps po : ℚ) (f f' : Nat) (hle : f ≤ f')
    (s s' : CsaState) (h : refineLoop adj eps po f s = some s') :
    refineLoop adj eps po f' s = some s' := by
  induction f generalizing s f' with
  | zero => simp [refineLoop] at h
  | succ f ih =>
    obtain ⟨g, rfl⟩ : ∃ g, f' = g + 1 := ⟨f' - 1, by omega⟩
    unfold refineLoop at h ⊢
    split at h
    · rename_i h0; rw [if_pos h0]; exact h
    · rename_i h0
      rw [if_neg h0]
      split at h
      · cases h
      · rename_i v rest hact
        split at h
        · cases h
        · rename_i hne
          rw [if_neg hne]
          exact ih g (by omega) _ h

/-- Total correctness of the refine loop: it ends within `pot + 1` iterations. -/
theorem refineLoop_total {adj N eps po p0} (he : 0 < eps) (hpo : 0 ≤ po) {σ : Nat → Nat}
    (hσ : PMat adj N σ) {C m0 : ℚ} (hC : CostLe adj N C) (hh : HeadLt adj N)
    (hm0 : ∀ w, w < N → m0 ≤ p0 w) (fuel : Nat) (s : CsaState) (inv : CsaInv adj N eps p0 s)
    (hf : pot N (m0 - N * (2 * C + eps) - 2 * C) eps s.p < fuel) :
    ∃ s', refineLoop adj eps po fuel s = some s' := by
  induction fuel generalizing s with
  | zero => omega
  | succ f ih =>
    unfold refineLoop
    split
    · exact ⟨s, rfl⟩
    · rename_i h0
      cases hact : s.active with
      | nil => exact absurd (inv.excess.trans (by rw [hact]; rfl)) h0
      | cons v rest =>
        have hv := (inv.act v).mp (by rw [hact]; exact List.mem_cons_self)
        have hne : adj v ≠ [] := by
          intro e
          have := hσ.valid v hv.1
          rw [e] at this; simp at this
        simp only [hne, if_false]
        obtain ⟨inv', k, hk, hmin, d, hd1, hd2⟩ := doublePush_inv he hpo hne hact inv
        refine ih _ inv' ?_
        have hlow := price_bound inv hσ hC he hm0 hv.1 hv.2
        have h1 := hmin (σ v) (hσ.valid v hv.1)
        unfold redCost at h1
        have h2 := abs_le.mp (hC v k hv.1 hk)
        have h3 := abs_le.mp (hC v (σ v) hv.1 (hσ.valid v hv.1))
        have e1 : (arcAt adj v k).head = hd adj v k := rfl
        have e2 : (arcAt adj v (σ v)).head = hd adj v (σ v) := rfl
        rw [e1, e2] at h1
        have hK : m0 - N * (2 * C + eps) - 2 * C ≤ s.p (hd adj v k) := by linarith [h2.1, h3.2]
        have := pot_lt (N := N) he (hh v k hv.1 hk) hK hd1
        rw [hd2]
        omega

end EdgeEval
