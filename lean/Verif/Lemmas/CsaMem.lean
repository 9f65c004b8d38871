import Verif.Lemmas.CsaFloatMain
import Verif.Model.CsaMem

/-! # Lemmas on the memory-level model of the assignment solver -/

namespace EdgeEval.CsaMem

open EdgeEval

/-! ## Blocks and loops -/

/-- Cell `i` exists, is initialised and holds `x`. -/
def Blk.Has {α : Type} (b : Blk α) (i : Nat) (x : α) : Prop := i < b.size ∧ b.cell i = some x

/-- The block after a write. -/
def Blk.set {α : Type} (b : Blk α) (i : Nat) (x : α) : Blk α := ⟨b.size, fun j => if j = i then some x else b.cell j⟩

theorem Blk.Has.rd {α : Type} {b : Blk α} {i : Nat} {x : α} (h : b.Has i x) : b.rd i = .ok x := by
  unfold Blk.rd
  rw [if_pos h.1, h.2]

theorem Blk.wr_eq {α : Type} {b : Blk α} {i : Nat} (h : i < b.size) (x : α) : b.wr i x = .ok (b.set i x) := if_pos h

theorem Blk.Has.wr {α : Type} {b : Blk α} {i : Nat} {x : α} (h : b.Has i x) (y : α) : b.wr i y = .ok (b.set i y) :=
  Blk.wr_eq h.1 y

theorem Blk.has_set {α : Type} {b : Blk α} {i : Nat} (h : i < b.size) (x : α) : (b.set i x).Has i x := ⟨h, if_pos rfl⟩

theorem Blk.has_set_ne {α : Type} {b : Blk α} {i j : Nat} {x y : α} (hne : j ≠ i) (h : b.Has j y) : (b.set i x).Has j y :=
  ⟨h.1, (if_neg hne).trans h.2⟩

theorem Blk.size_set {α : Type} (b : Blk α) (i : Nat) (x : α) : (b.set i x).size = b.size := rfl

/-- A block that holds `f` everywhere below `N`, after a write below `N`. -/
theorem Blk.has_upd {α : Type} {b : Blk α} {N i : Nat} {f : Nat → α} (h : ∀ v < N, b.Has v (f v)) (hi : i < N) (x : α) :
    ∀ v < N, (b.set i x).Has v (upd f i x v) := by
  intro v hv
  unfold upd
  split
  · rename_i e
    subst e
    exact Blk.has_set (h v hv).1 x
  · rename_i e
    exact Blk.has_set_ne e (h v hv)

theorem ok_bind {α β : Type} (x : α) (f : α → Except MErr β) : ((Except.ok x : Except MErr α) >>= f) = f x := rfl

theorem forLoop_inv {σ : Type} (P : Nat → σ → Prop) {f : Nat → σ → Except MErr σ} {cnt lo : Nat} {s : σ} (h0 : P lo s)
    (hs : ∀ i s, lo ≤ i → i < lo + cnt → P i s → ∃ s', f i s = .ok s' ∧ P (i + 1) s') :
    ∃ s', forLoop f cnt lo s = .ok s' ∧ P (lo + cnt) s' := by
  induction cnt generalizing lo s with
  | zero => exact ⟨s, rfl, h0⟩
  | succ cnt ih =>
    obtain ⟨s1, e1, h1⟩ := hs lo s (le_refl _) (by omega) h0
    obtain ⟨s2, e2, h2⟩ := ih h1 (fun i s a b => hs i s (by omega) (by omega))
    refine ⟨s2, ?_, by rw [show lo + (cnt + 1) = lo + 1 + cnt by omega]; exact h2⟩
    show (f lo s >>= fun s => forLoop f cnt (lo + 1) s) = _
    rw [e1, ok_bind, e2]

/-! ## The layout -/

/-- Index of the first arc of left node `v`. -/
def off (adj : Nat → List Arc) : Nat → Nat
  | 0 => 0
  | v + 1 => off adj v + (adj v).length

/-- The blocks that do not change after `parse`. -/
structure Static (adj : Nat → List Arc) (N : Nat) (h : Heap) : Prop where
  arcs : ∀ v < N, ∀ k < (adj v).length, h.arcs.Has (off adj v + k) (arcAt adj v k)
  first : ∀ v < N, h.first.Has v (off adj v)
  pout : ∀ v ≤ N, h.pricedOut.Has v (off adj v)
  few : ∀ v < N, h.few.Has v (decide ((adj v).length < numBest + 1))
  pin : ∀ w < N, h.pricedIn.Has w true
  szB : h.best.size = numBest * (N + 1)
  szN : h.nextBest.size = N + 1
  szS : h.stack.size = 2 * N

/-- Node `v` caches the arcs `L`. -/
def BestHas (adj : Nat → List Arc) (b : Blk Nat) (v : Nat) (L : List Nat) : Prop :=
  ∀ i x, L[i]? = some x → b.Has (numBest * v + i) (off adj v + x)

/-- The blocks hold the state. -/
structure Dyn (adj : Nat → List Arc) (N : Nat) (h : Heap) (s : CsaState) : Prop where
  lm : ∀ v < N, h.lMatched.Has v ((s.mL v).map (off adj v + ·))
  rm : ∀ w < N, h.rMatched.Has w (s.mR w)
  pr : ∀ w < N, h.price.Has w (s.p w)
  bst : ∀ v < N, ¬ (adj v).length < numBest + 1 → BestHas adj h.best v (s.best v)
  nb : ∀ v < N, ¬ (adj v).length < numBest + 1 → h.nextBest.Has v (s.nextBest v)
  top : h.top = s.active.length
  stk : ∀ i x, s.active.reverse[i]? = some x → h.stack.Has i x
  te : h.totalE = s.totalE

variable {adj : Nat → List Arc} {N : Nat}

theorem rcM_ok {fl : ℚ → ℚ} {h : Heap} {p : Nat → ℚ} (st : Static adj N h) (hh : HeadLt adj N)
    (pr : ∀ w < N, h.price.Has w (p w)) {v k : Nat} (hv : v < N) (hk : k < (adj v).length) :
    rcM fl h (off adj v + k) = .ok (redCostF fl adj p v k) := by
  unfold rcM
  rw [(st.arcs v hv k hk).rd, ok_bind, (pr (arcAt adj v k).head (hh v k hv hk)).rd]
  rfl

theorem bestRd_ok {h : Heap} {v i x : Nat} (hi : i < numBest) (hb : h.best.Has (numBest * v + i) x) :
    bestRd h v i = .ok x := by
  unfold bestRd
  rw [if_pos hi, hb.rd]

theorem bestWr_ok {h : Heap} {v i : Nat} (hi : i < numBest) (hv : v < N) (sz : h.best.size = numBest * (N + 1)) (a : Nat) :
    bestWr h v i a = .ok { h with best := h.best.set (numBest * v + i) a } := by
  unfold bestWr
  rw [if_pos hi, Blk.wr_eq (by rw [sz]; unfold numBest at *; omega), ok_bind]

/-! ## `sort_insert` -/

/-- Position found by `sort_insert`. -/
def posIn (rc : Nat → ℚ) (a : Nat) : List Nat → Nat
  | [] => 0
  | b :: bs => if rc a < rc b then 0 else posIn rc a bs + 1

theorem posIn_le (rc : Nat → ℚ) (a : Nat) (L : List Nat) : posIn rc a L ≤ L.length := by
  induction L with
  | nil => exact le_refl _
  | cons b bs ih =>
    unfold posIn
    split
    · exact Nat.zero_le _
    · rw [List.length_cons]; omega

theorem sortInsert_pos (rc : Nat → ℚ) (a : Nat) (L : List Nat) (nsize : Nat) (hn : L.length ≤ nsize) :
    sortInsert rc a L nsize =
      if posIn rc a L < L.length then (L.take (posIn rc a L) ++ a :: L.drop (posIn rc a L)).take nsize else L ++ [a] := by
  induction L generalizing nsize with
  | nil => rfl
  | cons b bs ih =>
    rw [List.length_cons] at hn
    unfold sortInsert posIn
    by_cases hc : rc a < rc b
    · rw [if_pos hc, if_pos hc, if_pos (by simp)]
      rfl
    · rw [if_neg hc, if_neg hc, ih (nsize - 1) (by omega), List.length_cons]
      by_cases hp : posIn rc a bs < bs.length
      · rw [if_pos hp, if_pos (by omega)]
        obtain ⟨m, rfl⟩ : ∃ m, nsize = m + 1 := ⟨nsize - 1, by omega⟩
        simp
      · rw [if_neg hp, if_neg (by omega)]
        rfl

theorem findPos_ok {fl : ℚ → ℚ} {h : Heap} {p : Nat → ℚ} (st : Static adj N h) (hh : HeadLt adj N)
    (pr : ∀ w < N, h.price.Has w (p w)) {v : Nat} (hv : v < N) (a : Nat) (L : List Nat) (i : Nat)
    (hi : i + L.length ≤ numBest) (hL : ∀ x ∈ L, x < (adj v).length)
    (hb : ∀ k x, L[k]? = some x → h.best.Has (numBest * v + (i + k)) (off adj v + x)) :
    findPos fl h v (redCostF fl adj p v a) L.length i = .ok (i + posIn (redCostF fl adj p v) a L) := by
  induction L generalizing i with
  | nil => rfl
  | cons b bs ih =>
    rw [List.length_cons] at hi ⊢
    unfold findPos posIn
    have hb0 := hb 0 b rfl
    rw [Nat.add_zero] at hb0
    rw [bestRd_ok (by omega) hb0, ok_bind, rcM_ok st hh pr hv (hL b (List.mem_cons_self ..)), ok_bind]
    split
    · rfl
    · rw [ih (i + 1) (by omega) (fun x hx => hL x (List.mem_cons_of_mem _ hx))]
      · congr 1; omega
      · intro k x hk
        have := hb (k + 1) x (by rwa [List.getElem?_cons_succ])
        rwa [show i + 1 + k = i + (k + 1) by omega]

theorem shiftUp_ok (h : Heap) (v : Nat) (hv : v < N) (sz : h.best.size = numBest * (N + 1)) (j cnt : Nat) (hj : j + cnt < numBest)
    (f : Nat → Nat) (hb : ∀ i, j ≤ i → i < j + cnt → h.best.Has (numBest * v + i) (f i)) :
    ∃ b, shiftUp v j cnt h = .ok { h with best := b } ∧ b.size = h.best.size ∧
      (∀ i, j < i → i ≤ j + cnt → b.Has (numBest * v + i) (f (i - 1))) ∧
      (∀ i y, ¬ (numBest * v + j < i ∧ i ≤ numBest * v + (j + cnt)) → h.best.Has i y → b.Has i y) := by
  induction cnt generalizing h with
  | zero => exact ⟨h.best, rfl, rfl, fun i a b => by omega, fun i y _ hy => hy⟩
  | succ cnt ih =>
    unfold shiftUp
    rw [bestRd_ok (by omega) (hb (j + cnt) (by omega) (by omega)), ok_bind, bestWr_ok (N := N) (by omega) hv sz, ok_bind]
    have hsz : numBest * v + (j + cnt + 1) < h.best.size := by rw [sz]; unfold numBest at *; omega
    obtain ⟨b, e, hs, h1, h2⟩ := ih { h with best := h.best.set (numBest * v + (j + cnt + 1)) (f (j + cnt)) } sz (by omega)
      (fun i a c => Blk.has_set_ne (by omega) (hb i a (by omega)))
    refine ⟨b, e, hs, ?_, ?_⟩
    · intro i hi1 hi2
      by_cases hc : i = j + cnt + 1
      · subst hc
        exact h2 _ _ (by omega) (Blk.has_set hsz _)
      · exact h1 i hi1 (by omega)
    · intro i y hi hy
      refine h2 i y (by omega) (Blk.has_set_ne (by omega) hy)

/-- `sort_insert` writes the list `sortInsert` and nothing else. -/
theorem sortInsertM_ok {fl : ℚ → ℚ} {h : Heap} {p : Nat → ℚ} (st : Static adj N h) (hh : HeadLt adj N)
    (pr : ∀ w < N, h.price.Has w (p w)) {v : Nat} (hv : v < N) {a : Nat} {L : List Nat} {nsize : Nat}
    (hL : ∀ x ∈ L, x < (adj v).length) (hb : BestHas adj h.best v L)
    (hc : (L.length < numBest ∧ nsize = L.length + 1) ∨
      (L.length = numBest ∧ nsize = numBest ∧ posIn (redCostF fl adj p v) a L < L.length)) :
    ∃ b, sortInsertM fl v L.length (off adj v + a) (redCostF fl adj p v a) nsize h = .ok { h with best := b } ∧
      b.size = h.best.size ∧ BestHas adj b v (sortInsert (redCostF fl adj p v) a L nsize) ∧
      (∀ j y, (j < numBest * v ∨ numBest * v + numBest ≤ j) → h.best.Has j y → b.Has j y) := by
  have hn : L.length ≤ nsize := by omega
  have hnb : nsize ≤ numBest := by omega
  unfold sortInsertM
  by_cases h0 : L.length = 0
  · rw [if_pos h0, bestWr_ok (by unfold numBest; omega) hv st.szB]
    have hnil : L = [] := List.length_eq_zero_iff.1 h0
    subst hnil
    refine ⟨_, rfl, rfl, ?_, ?_⟩
    · intro i x hx
      have hi : i = 0 := by
        by_contra hi
        obtain ⟨m, rfl⟩ : ∃ m, i = m + 1 := ⟨i - 1, by omega⟩
        simp [sortInsert] at hx
      subst hi
      simp only [sortInsert, List.getElem?_cons_zero, Option.some.injEq] at hx
      subst hx
      exact Blk.has_set (by rw [st.szB]; unfold numBest at *; omega) _
    · intro j y hj hy
      exact Blk.has_set_ne (by unfold numBest at *; omega) hy
  · rw [if_neg h0, findPos_ok st hh pr hv a L 0 (by omega) hL (fun k x hk => by rw [Nat.zero_add]; exact hb k x hk), ok_bind,
      Nat.zero_add, sortInsert_pos _ _ _ _ hn]
    set P := posIn (redCostF fl adj p v) a L with hP
    by_cases hp : P < L.length
    · rw [if_pos hp, if_pos hp]
      obtain ⟨b, e, hs, h1, h2⟩ := shiftUp_ok (N := N) h v hv st.szB P (nsize - 1 - P) (by omega) (fun i => off adj v + L.getD i 0) (by
        intro i _ hi2
        have hi : i < L.length := by omega
        refine hb i _ ?_
        rw [List.getElem?_eq_getElem hi, List.getD_eq_getElem?_getD, List.getElem?_eq_getElem hi]; rfl)
      rw [e, ok_bind]
      beta_reduce
      rw [bestWr_ok (N := N) (by omega) hv (by show b.size = _; rw [hs, st.szB])]
      have hsz : numBest * v + P < b.size := by rw [hs, st.szB]; unfold numBest at *; omega
      refine ⟨_, rfl, hs, ?_, ?_⟩
      · intro i x hx
        rw [List.getElem?_take] at hx
        split at hx
        swap
        · cases hx
        rename_i hin
        rcases Nat.lt_trichotomy i P with hlt | heq | hgt
        · rw [List.getElem?_append_left (by simp; omega), List.getElem?_take, if_pos hlt] at hx
          exact Blk.has_set_ne (by omega) (h2 _ _ (by omega) (hb i x hx))
        · subst heq
          rw [List.getElem?_append_right (by simp)] at hx
          rw [List.length_take, Nat.min_eq_left (by omega), Nat.sub_self, List.getElem?_cons_zero] at hx
          cases hx
          exact Blk.has_set hsz _
        · rw [List.getElem?_append_right (by simp; omega)] at hx
          rw [List.length_take, Nat.min_eq_left (by omega)] at hx
          obtain ⟨d, hd⟩ : ∃ d, i = P + (d + 1) := ⟨i - P - 1, by omega⟩
          rw [show i - P = d + 1 by omega, List.getElem?_cons_succ, List.getElem?_drop] at hx
          refine Blk.has_set_ne (by omega) ?_
          have := h1 i hgt (by omega)
          rwa [show i - 1 = P + d by omega, List.getD_eq_getElem?_getD, hx] at this
      · intro j y hj hy
        exact Blk.has_set_ne (by omega) (h2 j y (by omega) hy)
    · rw [if_neg hp, if_neg hp, ok_bind]
      beta_reduce
      have hPe : P = L.length := by have := posIn_le (redCostF fl adj p v) a L; omega
      rw [bestWr_ok (N := N) (by omega) hv st.szB]
      have hsz : numBest * v + P < h.best.size := by rw [st.szB]; unfold numBest at *; omega
      refine ⟨_, rfl, rfl, ?_, ?_⟩
      · intro i x hx
        by_cases hi : i < L.length
        · rw [List.getElem?_append_left hi] at hx
          exact Blk.has_set_ne (by omega) (hb i x hx)
        · rw [List.getElem?_append_right (by omega)] at hx
          have hi' : i = L.length := by
            by_contra hne
            obtain ⟨d, hd⟩ : ∃ d, i - L.length = d + 1 := ⟨i - L.length - 1, by omega⟩
            rw [hd] at hx
            simp at hx
          subst hi'
          rw [Nat.sub_self, List.getElem?_cons_zero] at hx
          cases hx
          rw [hPe] at hsz ⊢
          exact Blk.has_set hsz _
      · intro j y hj hy
        exact Blk.has_set_ne (by omega) hy

theorem sortInsert_mem {rc : Nat → ℚ} {a : Nat} {L : List Nat} {nsize : Nat} (hn : L.length ≤ nsize) {x : Nat}
    (hx : x ∈ sortInsert rc a L nsize) : x = a ∨ x ∈ L := by
  rw [sortInsert_pos _ _ _ _ hn] at hx
  split at hx
  · have hx := List.mem_of_mem_take hx
    rcases List.mem_append.1 hx with h | h
    · exact .inr (List.mem_of_mem_take h)
    · rcases List.mem_cons.1 h with h | h
      · exact .inl h
      · exact .inr (List.mem_of_mem_drop h)
  · rcases List.mem_append.1 hx with h | h
    · exact .inr h
    · exact .inl (List.mem_singleton.1 h)

theorem sortInsert_length {rc : Nat → ℚ} {a : Nat} {L : List Nat} {nsize : Nat}
    (hc : nsize = L.length + 1 ∨ (nsize = L.length ∧ posIn rc a L < L.length)) :
    (sortInsert rc a L nsize).length = nsize := by
  rw [sortInsert_pos _ _ _ _ (by omega)]
  split
  · rw [List.length_take, List.length_append, List.length_cons, List.length_take, List.length_drop]
    omega
  · rw [List.length_append, List.length_singleton]
    omega

theorem posIn_lt {rc : Nat → ℚ} {a x : Nat} {L : List Nat} (hx : x ∈ L) (h : rc a < rc x) : posIn rc a L < L.length := by
  induction L with
  | nil => cases hx
  | cons b bs ih =>
    unfold posIn
    rw [List.length_cons]
    split
    · omega
    · rename_i hb
      rcases List.mem_cons.1 hx with rfl | hx
      · exact absurd h hb
      · have := ih hx
        omega

/-! ## `best_build` -/

theorem Static.withBest {h : Heap} (st : Static adj N h) {b : Blk Nat} (hb : b.size = h.best.size) :
    Static adj N { h with best := b } :=
  ⟨st.arcs, st.first, st.pout, st.few, st.pin, hb.trans st.szB, st.szN, st.szS⟩

theorem Static.withCache {h : Heap} (st : Static adj N h) {b : Blk Nat} (hb : b.size = h.best.size) {x : Blk ℚ}
    (hx : x.size = h.nextBest.size) : Static adj N { h with best := b, nextBest := x } :=
  ⟨st.arcs, st.first, st.pout, st.few, st.pin, hb.trans st.szB, hx.trans st.szN, st.szS⟩

/-- `h'` is `h` with the cache of node `v` set to `L`, `nb`. -/
def CacheUpd (adj : Nat → List Arc) (v : Nat) (h h' : Heap) (L : List Nat) (nb : ℚ) : Prop :=
  ∃ b x, h' = { h with best := b, nextBest := x } ∧ b.size = h.best.size ∧ x.size = h.nextBest.size ∧
    BestHas adj b v L ∧ x.Has v nb ∧
    (∀ j y, (j < numBest * v ∨ numBest * v + numBest ≤ j) → h.best.Has j y → b.Has j y) ∧
    (∀ j y, j ≠ v → h.nextBest.Has j y → x.Has j y)

theorem CacheUpd.trans {v : Nat} {h h' h'' : Heap} {L L' : List Nat} {nb nb' : ℚ} (c : CacheUpd adj v h h' L nb)
    (c' : CacheUpd adj v h' h'' L' nb') : CacheUpd adj v h h'' L' nb' := by
  obtain ⟨b, x, rfl, h1, h2, h3, h4, h5, h6⟩ := c
  obtain ⟨b', x', rfl, g1, g2, g3, g4, g5, g6⟩ := c'
  exact ⟨b', x', rfl, g1.trans h1, g2.trans h2, g3, g4, fun j y hj hy => g5 j y hj (h5 j y hj hy), fun j y hj hy => g6 j y hj (h6 j y hj hy)⟩

theorem lastBest_get {L : List Nat} (hl : L.length = numBest) : L[numBest - 1]? = some (lastBest L) := by
  unfold lastBest
  rw [List.getD_eq_getElem?_getD, List.getElem?_eq_getElem (by rw [hl]; decide)]; rfl

theorem bestStepM_ok {fl : ℚ → ℚ} {h : Heap} {p : Nat → ℚ} (st : Static adj N h) (hh : HeadLt adj N)
    (pr : ∀ w < N, h.price.Has w (p w)) {v : Nat} (hv : v < N) {k : Nat} (hk : k < (adj v).length) {L : List Nat} {nb : ℚ}
    (hlen : L.length = numBest) (hL : ∀ x ∈ L, x < (adj v).length) (hb : BestHas adj h.best v L) (hn : h.nextBest.Has v nb) :
    ∃ h', bestStepM fl v (off adj v + k) h = .ok h' ∧
      CacheUpd adj v h h' (bestStep (redCostF fl adj p v) (L, nb) k).1 (bestStep (redCostF fl adj p v) (L, nb) k).2 ∧
      (bestStep (redCostF fl adj p v) (L, nb) k).1.length = numBest ∧
      ∀ x ∈ (bestStep (redCostF fl adj p v) (L, nb) k).1, x < (adj v).length := by
  unfold bestStepM
  rw [rcM_ok st hh pr hv hk, ok_bind, hn.rd, ok_bind]
  unfold bestStep
  by_cases h1 : redCostF fl adj p v k < nb
  · have hlast := lastBest_get hlen
    have hmem : lastBest L ∈ L := List.mem_of_getElem? hlast
    have hsz : v < h.nextBest.size := hn.1
    simp only [if_pos h1]
    rw [bestRd_ok (by decide) (hb _ _ hlast), ok_bind, rcM_ok st hh pr hv (hL _ hmem), ok_bind]
    by_cases h2 : redCostF fl adj p v k < redCostF fl adj p v (lastBest L)
    · simp only [if_pos h2]
      have hpos := posIn_lt hmem h2
      obtain ⟨b, e, hs, hB, ho⟩ := sortInsertM_ok (fl := fl) (a := k) (nsize := numBest) st hh pr hv hL hb
        (.inr ⟨hlen, rfl, hpos⟩)
      rw [hlen] at e
      rw [e, ok_bind]
      rw [Blk.wr_eq hsz, ok_bind]
      refine ⟨_, rfl, ⟨b, _, rfl, hs, rfl, hB, Blk.has_set hsz _, ho, fun j y hj hy => Blk.has_set_ne hj hy⟩, ?_, ?_⟩
      · exact sortInsert_length (.inr ⟨hlen.symm, hpos⟩)
      · intro x hx
        rcases sortInsert_mem (by omega) hx with rfl | hx
        · exact hk
        · exact hL x hx
    · simp only [if_neg h2]
      rw [Blk.wr_eq hsz, ok_bind]
      exact ⟨_, rfl, ⟨h.best, _, rfl, rfl, rfl, hb, Blk.has_set hsz _, fun j y _ hy => hy, fun j y hj hy => Blk.has_set_ne hj hy⟩,
        hlen, hL⟩
  · simp only [if_neg h1]
    exact ⟨h, rfl, ⟨h.best, h.nextBest, rfl, rfl, rfl, hb, hn, fun j y _ hy => hy, fun j y _ hy => hy⟩, hlen, hL⟩

theorem bestBuildM_ok {fl : ℚ → ℚ} {h : Heap} {p : Nat → ℚ} (st : Static adj N h) (hh : HeadLt adj N)
    (pr : ∀ w < N, h.price.Has w (p w)) {v : Nat} (hv : v < N) (hdeg : numBest + 1 ≤ (adj v).length) :
    ∃ h', bestBuildM fl v h = .ok h' ∧
      CacheUpd adj v h h' (bestBuild (redCostF fl adj p v) (adj v).length).1 (bestBuild (redCostF fl adj p v) (adj v).length).2 := by
  set rc := redCostF fl adj p v with hrc
  unfold bestBuildM
  rw [(st.first v hv).rd, ok_bind]
  -- the first three arcs
  obtain ⟨h1, e1, b, rfl, hs1, hB1, hl1, hm1, ho1⟩ := forLoop_inv (f := bestFirstM fl v (off adj v)) (cnt := numBest) (lo := 0) (s := h)
    (fun i h' => ∃ b, h' = { h with best := b } ∧ b.size = h.best.size ∧
      BestHas adj b v ((List.range i).foldl (fun best i => sortInsert rc i best (i + 1)) []) ∧
      ((List.range i).foldl (fun best i => sortInsert rc i best (i + 1)) []).length = i ∧
      (∀ x ∈ (List.range i).foldl (fun best i => sortInsert rc i best (i + 1)) [], x < i) ∧
      (∀ j y, (j < numBest * v ∨ numBest * v + numBest ≤ j) → h.best.Has j y → b.Has j y))
    ⟨h.best, rfl, rfl, fun i x hx => by simp at hx, rfl, by simp, fun j y _ hy => hy⟩ (by
      rintro i _ - hi ⟨b, rfl, hs, hB, hl, hm, ho⟩
      rw [Nat.zero_add] at hi
      have hi' : i < (adj v).length := by omega
      have st' := st.withBest hs
      have hlt : ∀ x ∈ (List.range i).foldl (fun best i => sortInsert rc i best (i + 1)) [], x < (adj v).length :=
        fun x hx => by have := hm x hx; omega
      obtain ⟨b', e, hs', hB', ho'⟩ := sortInsertM_ok (fl := fl) (h := { h with best := b }) (a := i) (nsize := i + 1) st' hh pr hv
        hlt hB (.inl ⟨by rw [hl]; exact hi, by rw [hl]⟩)
      rw [hl] at e
      refine ⟨_, ?_, b', rfl, hs'.trans hs, ?_, ?_, ?_, fun j y hj hy => ho' j y hj (ho j y hj hy)⟩
      · unfold bestFirstM
        rw [rcM_ok st' hh pr hv hi', ok_bind]
        exact e
      · rw [List.range_succ, List.foldl_append]
        exact hB'
      · rw [List.range_succ, List.foldl_append]
        exact sortInsert_length (.inl (by rw [hl]))
      · rw [List.range_succ, List.foldl_append]
        intro x hx
        rcases sortInsert_mem (by rw [hl]; omega) hx with rfl | hx
        · omega
        · have := hm x hx; omega)
  rw [e1, ok_bind]
  rw [Nat.zero_add] at hB1 hl1 hm1
  unfold bestBuild
  generalize (List.range numBest).foldl (fun best i => sortInsert rc i best (i + 1)) [] = L at *
  have hltL : ∀ x ∈ L, x < (adj v).length := fun x hx => by have := hm1 x hx; omega
  have st1 := st.withBest hs1
  have hszn : v < h.nextBest.size := by rw [st.szN]; omega
  -- the fourth arc
  rw [rcM_ok (h := { h with best := b }) st1 hh pr hv (show numBest < (adj v).length by omega), ok_bind]
  rw [Blk.wr_eq hszn, ok_bind]
  have st2 := st.withCache hs1 (x := h.nextBest.set v (rc numBest)) rfl
  have hlast := lastBest_get hl1
  have hmem : lastBest L ∈ L := List.mem_of_getElem? hlast
  set first : List Nat × ℚ := if rc numBest < rc (lastBest L) then (sortInsert rc numBest L numBest, rc (lastBest L))
    else (L, rc numBest) with hfirst
  have h4 : ∃ h2, bestFourthM fl v (off adj v + numBest) (redCostF fl adj p v numBest)
        { h with best := b, nextBest := h.nextBest.set v (rc numBest) } = Except.ok h2 ∧
      CacheUpd adj v h h2 first.1 first.2 ∧ first.1.length = numBest ∧ ∀ x ∈ first.1, x < (adj v).length := by
    unfold bestFourthM
    rw [bestRd_ok (h := { h with best := b, nextBest := h.nextBest.set v (rc numBest) }) (by decide) (hB1 _ _ hlast), ok_bind,
      rcM_ok st2 hh pr hv (hltL _ hmem), ok_bind]
    by_cases hc : rc numBest < rc (lastBest L)
    · have hf : first = (sortInsert rc numBest L numBest, rc (lastBest L)) := if_pos hc
      rw [hf, if_pos hc]
      have hpos := posIn_lt hmem hc
      obtain ⟨b', e, hs', hB', ho'⟩ := sortInsertM_ok (fl := fl) (a := numBest) (nsize := numBest) st2 hh pr hv hltL hB1
        (.inr ⟨hl1, rfl, hpos⟩)
      rw [hl1] at e
      rw [e, ok_bind]
      simp only
      rw [Blk.wr_eq (by exact hszn), ok_bind]
      refine ⟨_, rfl, ⟨b', _, rfl, hs'.trans hs1, rfl, hB', Blk.has_set (b := h.nextBest.set v (rc numBest)) hszn _, fun j y hj hy => ho' j y hj (ho1 j y hj hy),
        fun j y hj hy => Blk.has_set_ne hj (Blk.has_set_ne hj hy)⟩, ?_, ?_⟩
      · exact sortInsert_length (.inr ⟨hl1.symm, hpos⟩)
      · intro x hx
        rcases sortInsert_mem (by omega) hx with rfl | hx
        · omega
        · exact hltL x hx
    · have hf : first = (L, rc numBest) := if_neg hc
      rw [hf, if_neg hc]
      exact ⟨_, rfl, ⟨b, _, rfl, hs1, rfl, hB1, Blk.has_set hszn _, ho1, fun j y hj hy => Blk.has_set_ne hj hy⟩, hl1, hltL⟩
  obtain ⟨h2, e2, cu2, hl2, hm2⟩ := h4
  rw [e2, ok_bind]
  -- the remaining arcs
  have hpo : h2.pricedOut.Has (v + 1) (off adj v + (adj v).length) := by
    obtain ⟨_, _, rfl, _⟩ := cu2
    exact st.pout (v + 1) (by omega)
  rw [hpo.rd, ok_bind]
  unfold forPtr
  rw [if_neg (by omega)]
  obtain ⟨h3, e3, hP⟩ := forLoop_inv (f := bestStepM fl v) (cnt := off adj v + (adj v).length - (off adj v + numBest + 1))
    (lo := off adj v + numBest + 1) (s := h2)
    (fun i h' => CacheUpd adj v h h' ((List.range' (numBest + 1) (i - (off adj v + numBest + 1))).foldl (bestStep rc) first).1
        ((List.range' (numBest + 1) (i - (off adj v + numBest + 1))).foldl (bestStep rc) first).2 ∧
      ((List.range' (numBest + 1) (i - (off adj v + numBest + 1))).foldl (bestStep rc) first).1.length = numBest ∧
      ∀ x ∈ ((List.range' (numBest + 1) (i - (off adj v + numBest + 1))).foldl (bestStep rc) first).1, x < (adj v).length)
    (by rw [Nat.sub_self]; exact ⟨cu2, hl2, hm2⟩) (by
      rintro i h' hi1 hi2 ⟨cu, hl, hm⟩
      obtain ⟨d, rfl⟩ : ∃ d, i = off adj v + (numBest + 1 + d) := ⟨i - (off adj v + numBest + 1), by omega⟩
      rw [show off adj v + (numBest + 1 + d) - (off adj v + numBest + 1) = d by omega] at cu hl hm
      rw [show off adj v + (numBest + 1 + d) + 1 - (off adj v + numBest + 1) = d + 1 by omega]
      rw [List.range'_concat, List.foldl_append]
      obtain ⟨b', x', rfl, g1, g2, g3, g4, g5, g6⟩ := cu
      obtain ⟨h'', e, cu', hl', hm'⟩ := bestStepM_ok (fl := fl) (h := { h with best := b', nextBest := x' }) (st.withCache g1 g2) hh pr hv
        (k := numBest + 1 + d) (by omega) hl hm g3 g4
      refine ⟨h'', e, ?_, ?_, ?_⟩
      · exact CacheUpd.trans ⟨b', x', rfl, g1, g2, g3, g4, g5, g6⟩ (by simpa using cu')
      · simpa using hl'
      · simpa using hm')
  refine ⟨h3, e3, ?_⟩
  have := hP.1
  rw [show off adj v + numBest + 1 + (off adj v + (adj v).length - (off adj v + numBest + 1)) - (off adj v + numBest + 1) =
    (adj v).length - (numBest + 1) by omega] at this
  exact this

end EdgeEval.CsaMem
