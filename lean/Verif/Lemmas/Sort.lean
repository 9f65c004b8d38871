import Verif.Model.Sort
import Verif.Spec.Sort
import Mathlib.Logic.Equiv.Basic
import Mathlib.Tactic.SplitIfs
import Mathlib.Tactic.Push
import Mathlib.Tactic.Ring
import Mathlib.Tactic.Linarith

namespace EdgeEval.Sort

open Spec.Sort

variable {α β γ : Type}

/-- The computation returns normally, with a result satisfying `Q`. -/
def Post (m : Except Fault β) (Q : β → Prop) : Prop := ∃ b, m = .ok b ∧ Q b

theorem Post.bind {m : Except Fault β} {k : β → Except Fault γ} {Q : β → Prop} {R : γ → Prop}
    (h : Post m Q) (hk : ∀ b, Q b → Post (k b) R) : Post (m >>= k) R := by
  obtain ⟨b, rfl, hb⟩ := h
  exact hk b hb

theorem Post.pure {b : β} {Q : β → Prop} (h : Q b) : Post (Except.ok b) Q := ⟨b, rfl, h⟩

theorem Post.mono {m : Except Fault β} {Q R : β → Prop} (h : Post m Q) (hi : ∀ b, Q b → R b) : Post m R := by
  obtain ⟨b, e, hb⟩ := h
  exact ⟨b, e, hi b hb⟩

/-- Valid index. -/
def Arr.In (a : Arr α) (i : ℤ) : Prop := 0 ≤ i ∧ i < a.size

/-- The array with two elements exchanged. -/
def Arr.sw (a : Arr α) (i j : ℤ) : Arr α :=
  { a with at_ := fun k => if k = j then a.at_ i else if k = i then a.at_ j else a.at_ k }

theorem sortSwap_eq (a : Arr α) {i j : ℤ} (hi : a.In i) (hj : a.In j) : sortSwap a i j = .ok (a.sw i j) := by
  unfold Arr.In at hi hj
  simp [sortSwap, Arr.read, Arr.write, hi, hj, bind, Except.bind, Arr.sw]

theorem sortCmp_eq (cmp : α → α → ℤ) (a : Arr α) {i j : ℤ} (hi : a.In i) (hj : a.In j) :
    sortCmp cmp a i j = .ok (cmp (a.at_ i) (a.at_ j)) := by
  unfold Arr.In at hi hj
  simp [sortCmp, Arr.read, hi, hj, bind, Except.bind, pure, Except.pure]

/-- `b` is `a` with the positions `[lo, hi)` rearranged. -/
def Re (a b : Arr α) (lo hi : ℤ) : Prop := b.size = a.size ∧ Rearranged a.at_ b.at_ lo hi

theorem Re.refl (a : Arr α) (lo hi : ℤ) : Re a a lo hi := ⟨rfl, Equiv.refl ℤ, by simp, by simp⟩

theorem Re.trans {a b c : Arr α} {lo hi : ℤ} (h : Re a b lo hi) (h' : Re b c lo hi) : Re a c lo hi := by
  obtain ⟨s, σ, h1, h2⟩ := h
  obtain ⟨s', τ, h3, h4⟩ := h'
  refine ⟨s'.trans s, τ.trans σ, ?_, ?_⟩
  · intro i hi
    simp [h3 i hi, h1 i hi]
  · intro i
    simp [h4, h2]

theorem Re.widen {a b : Arr α} {lo hi lo' hi' : ℤ} (h : Re a b lo hi) (hl : lo' ≤ lo) (hh : hi ≤ hi') : Re a b lo' hi' := by
  obtain ⟨s, σ, h1, h2⟩ := h
  exact ⟨s, σ, fun i hi => h1 i (by omega), h2⟩

theorem Re.sw (a : Arr α) {i j lo hi : ℤ} (hi1 : lo ≤ i) (hi2 : i < hi) (hj1 : lo ≤ j) (hj2 : j < hi) :
    Re a (a.sw i j) lo hi := by
  refine ⟨rfl, Equiv.swap i j, ?_, ?_⟩
  · intro k hk
    exact Equiv.swap_apply_of_ne_of_ne (by omega) (by omega)
  · intro k
    simp only [Arr.sw, Equiv.swap_apply_def]
    split_ifs <;> simp_all

theorem Re.in_ {a b : Arr α} {lo hi i : ℤ} (h : Re a b lo hi) : b.In i ↔ a.In i := by
  unfold Arr.In; rw [h.1]

theorem Re.out {a b : Arr α} {lo hi i : ℤ} (h : Re a b lo hi) (hi : i < lo ∨ hi ≤ i) : b.at_ i = a.at_ i := by
  obtain ⟨_, σ, h1, h2⟩ := h
  rw [h2, h1 i hi]

/-- A property of all elements of the range survives. -/
theorem Re.all {a b : Arr α} {lo hi : ℤ} (h : Re a b lo hi) {P : α → Prop}
    (ha : ∀ i, lo ≤ i → i < hi → P (a.at_ i)) : ∀ i, lo ≤ i → i < hi → P (b.at_ i) := by
  obtain ⟨_, σ, h1, h2⟩ := h
  intro i hl hh
  rw [h2]
  by_cases hc : σ i < lo ∨ hi ≤ σ i
  · have := σ.injective (h1 _ hc)
    omega
  · push Not at hc
    exact ha _ hc.1 hc.2

theorem forUp_post {σ : Type} {body : ℤ → σ → Except Fault σ} (I : ℤ → σ → Prop) (k : Nat) (i0 : ℤ) (s : σ)
    (h0 : I i0 s) (hs : ∀ i s, i0 ≤ i → i < i0 + k → I i s → Post (body i s) (I (i + 1))) :
    Post (forUp body k i0 s) (I (i0 + k)) := by
  induction k generalizing i0 s with
  | zero => simpa [forUp] using Post.pure (Q := I i0) h0
  | succ k ih =>
    simp only [forUp]
    refine (hs i0 s le_rfl (by push_cast; omega) h0).bind fun s' h' => ?_
    have := ih (i0 + 1) s' h' (fun i s h1 h2 h3 => hs i s (by omega) (by push_cast; omega) h3)
    refine this.mono fun b hb => ?_
    have e : i0 + ((k + 1 : Nat) : ℤ) = i0 + 1 + k := by push_cast; ring
    rw [e]; exact hb

/-! ### Insertion sort -/

/-- Sorted except possibly the element at `j`, which is not above the later ones. -/
def Hole (cmp : α → α → ℤ) (a : Arr α) (lo hi j : ℤ) : Prop :=
  ∀ p q, lo ≤ p → p < q → q < hi → q ≠ j → cmp (a.at_ p) (a.at_ q) ≤ 0

theorem insInner_post (cmp : α → α → ℤ) (start hi : ℤ) (f : Nat) (j : ℤ) (a : Arr α) (h0 : 0 ≤ start)
    (hj : start ≤ j) (hjh : j < hi) (hh : hi ≤ a.size) (hf : (j - start).toNat < f) :
    Post (insInner cmp start f j a) fun b => Re a b start hi ∧
      (Orders cmp → Hole cmp a start hi j → Increasing cmp b.at_ start hi) := by
  induction f generalizing j a with
  | zero => omega
  | succ f ih =>
    unfold insInner
    split_ifs with hjs
    · rw [sortCmp_eq cmp a (by unfold Arr.In; omega) (by unfold Arr.In; omega)]
      simp only [bind, Except.bind]
      split_ifs with hc
      · refine Post.pure ⟨Re.refl _ _ _, fun ho hH p q h1 h2 h3 => ?_⟩
        by_cases hq : q = j
        · subst hq
          by_cases hp : p = q - 1
          · subst hp; exact hc
          · exact ho.trans _ _ _ (hH p (q - 1) h1 (by omega) (by omega) (by omega)) hc
        · exact hH p q h1 h2 h3 hq
      · rw [sortSwap_eq a (by unfold Arr.In; omega) (by unfold Arr.In; omega)]
        have hR : Re a (a.sw (j - 1) j) start hi := Re.sw a (by omega) (by omega) (by omega) (by omega)
        refine (ih (j - 1) (a.sw (j - 1) j) (by omega) (by omega) hh (by omega)).mono ?_
        rintro b ⟨hb1, hb2⟩
        refine ⟨hR.trans hb1, fun ho hH => hb2 ho ?_⟩
        intro p q h1 h2 h3 h4
        have hlt : cmp (a.at_ j) (a.at_ (j - 1)) ≤ 0 := by
          have := (ho.flip (a.at_ j) (a.at_ (j - 1))).mpr (by omega)
          omega
        simp only [Arr.sw]
        by_cases e1 : q = j
        · subst e1
          by_cases e2 : p = q - 1
          · subst e2; simpa using hlt
          · have : p ≠ q := by omega
            simpa [e2, this] using hH p (q - 1) h1 (by omega) (by omega) (by omega)
        · by_cases e2 : p = j
          · subst e2
            simpa [e1, h4] using hH (p - 1) q (by omega) (by omega) h3 e1
          · by_cases e3 : p = j - 1
            · subst e3
              simpa [e1, h4] using hH j q (by omega) (by omega) h3 e1
            · simpa [e1, h4, e2, e3] using hH p q h1 h2 h3 e1
    · refine Post.pure ⟨Re.refl _ _ _, fun ho hH p q h1 h2 h3 => hH p q h1 h2 h3 (by omega)⟩

theorem insertionSort_post (cmp : α → α → ℤ) (start n : ℤ) (F : Nat) (a : Arr α) (h0 : 0 ≤ start)
    (hh : start + n ≤ a.size) (hF : n < F) :
    Post (insertionSort F cmp start n a) fun b => Re a b start (start + n) ∧
      (Orders cmp → Increasing cmp b.at_ start (start + n)) := by
  unfold insertionSort
  by_cases hn : n ≤ 0
  · have : (n - 1).toNat = 0 := by omega
    rw [this]
    exact Post.pure ⟨Re.refl _ _ _, fun _ i j _ _ _ => by omega⟩
  have key := forUp_post (body := fun i a => insInner cmp start F (i + 1) a)
    (fun i b => Re a b start (start + n) ∧ (Orders cmp → Increasing cmp b.at_ start (i + 1))) (n - 1).toNat start a
    ⟨Re.refl _ _ _, fun _ i j _ _ _ => by omega⟩ ?_
  · refine key.mono fun b hb => ⟨hb.1, fun ho => ?_⟩
    have := hb.2 ho
    have e : start + ((n - 1).toNat : ℤ) + 1 = start + n := by omega
    rwa [e] at this
  · rintro i b h1 h2 ⟨hR, hI⟩
    refine (insInner_post cmp start (i + 2) F (i + 1) b h0 (by omega) (by omega) (by rw [hR.1]; omega) (by omega)).mono ?_
    rintro c ⟨hc1, hc2⟩
    refine ⟨hR.trans (hc1.widen le_rfl (by omega)), fun ho => ?_⟩
    have e : i + 1 + 1 = i + 2 := by ring
    rw [e]
    refine hc2 ho ?_
    intro p q h3 h4 h5 h6
    exact hI ho p q h3 h4 (by omega)

/-! ### Consequences of an ordering comparison -/

theorem _root_.EdgeEval.Spec.Sort.Orders.zero {cmp : α → α → ℤ} (h : Orders cmp) {x y : α} (e : cmp x y = 0) : cmp y x = 0 := by
  have h1 := h.flip x y
  have h2 := h.flip y x
  omega

theorem _root_.EdgeEval.Spec.Sort.Orders.refl {cmp : α → α → ℤ} (h : Orders cmp) (x : α) : cmp x x = 0 := by
  have h1 := h.flip x x
  omega

/-- Replacing the right-hand side by an equal element does not change the outcome. -/
theorem _root_.EdgeEval.Spec.Sort.Orders.lt_eq {cmp : α → α → ℤ} (h : Orders cmp) {x v w : α} (e : cmp v w = 0) : cmp x w < 0 ↔ cmp x v < 0 := by
  have e' := h.zero e
  have f1 := h.flip x w
  have f2 := h.flip x v
  have t1 := h.trans w v x (by omega)
  have t2 := h.trans v w x (by omega)
  constructor
  · intro hx; by_contra hc
    have := f2
    have := t1 (by omega)
    omega
  · intro hx; by_contra hc
    have := t2 (by omega)
    omega

theorem _root_.EdgeEval.Spec.Sort.Orders.eq_eq {cmp : α → α → ℤ} (h : Orders cmp) {x v w : α} (e : cmp v w = 0) : cmp x w = 0 ↔ cmp x v = 0 := by
  have e' := h.zero e
  have f1 := h.flip x w
  have f2 := h.flip w x
  have f3 := h.flip x v
  have f4 := h.flip v x
  have t1 := h.trans w v x (by omega)
  have t2 := h.trans v w x (by omega)
  have t3 := h.trans x v w
  have t4 := h.trans x w v
  constructor
  · intro hx
    have := t2 (by omega)
    have := t4 (by omega) (by omega)
    omega
  · intro hx
    have := t1 (by omega)
    have := t3 (by omega) (by omega)
    omega

theorem _root_.EdgeEval.Spec.Sort.Orders.gt_eq {cmp : α → α → ℤ} (h : Orders cmp) {x v w : α} (e : cmp v w = 0) : 0 < cmp x w ↔ 0 < cmp x v := by
  have h1 := h.lt_eq (x := x) e
  have h2 := h.eq_eq (x := x) e
  omega

/-! ### The partition -/

/-- The invariant of the partition of `[st, st + n)` with respect to the element `v`. -/
structure Inv (cmp : α → α → ℤ) (st n : ℤ) (v : α) (s : Part α) : Prop where
  p : st ≤ s.pivot
  pl : s.pivot < s.left
  lr : s.left ≤ s.right + 1
  r : s.right < st + n
  sz : st + n ≤ s.arr.size
  eq : Orders cmp → ∀ k, st ≤ k → k ≤ s.pivot → cmp (s.arr.at_ k) v = 0
  lt : Orders cmp → ∀ k, s.pivot < k → k < s.left → cmp (s.arr.at_ k) v < 0
  gt : Orders cmp → ∀ k, s.right < k → k < st + n → 0 < cmp (s.arr.at_ k) v

theorem toEqual_eq (a : Arr α) {left pivot : ℤ} (hl : a.In left) (hp : a.In (pivot + 1)) :
    toEqual a left pivot = .ok (a.sw left (pivot + 1)) := by
  unfold toEqual
  split_ifs with h
  · exact sortSwap_eq a hl hp
  · push Not at h
    subst h
    congr 1
    cases a with | mk n f => ?_
    simp only [Arr.sw, Arr.mk.injEq, true_and]
    funext k
    by_cases hk : k = pivot + 1 <;> simp [hk]

/-- The step shared by both scans: an element equal to the pivot joins the equal block. -/
theorem inv_equal {cmp : α → α → ℤ} {st n : ℤ} {v : α} {s : Part α} (h : Inv cmp st n v s) (hlr : s.left ≤ s.right)
    (hc : cmp (s.arr.at_ s.left) (s.arr.at_ s.pivot) = 0) :
    Inv cmp st n v ⟨s.arr.sw s.left (s.pivot + 1), s.pivot + 1, s.left + 1, s.right⟩ := by
  obtain ⟨h1, h2, h3, h4, h5, h6, h7, h8⟩ := h
  refine ⟨by simp; omega, by simp; omega, by simp; omega, h4, h5, ?_, ?_, ?_⟩ <;>
    intro ho k hk1 hk2 <;> simp only [Arr.sw] at *
  · by_cases e : k = s.pivot + 1
    · have := (ho.eq_eq (x := s.arr.at_ s.left) (ho.zero (h6 ho s.pivot h1 le_rfl))).mp hc
      simpa [e] using this
    · have e2 : k ≠ s.left := by omega
      simpa [e, e2] using h6 ho k hk1 (by omega)
  · have e : k ≠ s.pivot + 1 := by omega
    by_cases e2 : k = s.left
    · simpa [e, e2, show s.left ≠ s.pivot + 1 by omega] using h7 ho (s.pivot + 1) (by omega) (by omega)
    · simpa [e, e2] using h7 ho k (by omega) (by omega)
  · have e : k ≠ s.pivot + 1 := by omega
    have e2 : k ≠ s.left := by omega
    simpa [e, e2] using h8 ho k hk1 hk2

theorem scanLeft_post {cmp : α → α → ℤ} {st n : ℤ} {v : α} (f : Nat) (s : Part α) (h0 : 0 ≤ st) (h : Inv cmp st n v s)
    (hf : (s.right - s.left + 1).toNat < f) :
    Post (scanLeft cmp f s) fun t => Inv cmp st n v t ∧ Re s.arr t.arr st (st + n) ∧ t.right = s.right ∧ s.left ≤ t.left ∧
      (t.left ≤ t.right → 0 < cmp (t.arr.at_ t.left) (t.arr.at_ t.pivot)) ∧
      (s.left ≤ s.right → cmp (s.arr.at_ s.left) (s.arr.at_ s.pivot) ≤ 0 → s.left < t.left) := by
  induction f generalizing s with
  | zero => omega
  | succ f ih =>
    unfold scanLeft
    have hI := h
    obtain ⟨h1, h2, h3, h4, h5, h6, h7, h8⟩ := h
    split_ifs with hlr
    · rw [sortCmp_eq cmp s.arr (by unfold Arr.In; omega) (by unfold Arr.In; omega)]
      simp only [bind, Except.bind]
      split_ifs with hc hc'
      · exact Post.pure ⟨hI, Re.refl _ _ _, rfl, le_rfl, fun _ => hc, fun _ hx => by omega⟩
      · refine (ih { s with left := s.left + 1 } ?_ (by simp; omega)).mono ?_
        · refine ⟨h1, by simp; omega, by simp; omega, h4, h5, h6, ?_, h8⟩
          intro ho k hk1 hk2
          simp only at hk1 hk2
          by_cases e : k = s.left
          · rw [e]
            exact (ho.lt_eq (ho.zero (h6 ho s.pivot h1 le_rfl))).mp hc'
          · exact h7 ho k hk1 (by omega)
        · rintro t ⟨t1, t2, t3, t4, t5, _⟩
          simp only at t2 t3 t4
          exact ⟨t1, t2, t3, by omega, t5, fun _ _ => by omega⟩
      · have hz : cmp (s.arr.at_ s.left) (s.arr.at_ s.pivot) = 0 := by omega
        rw [toEqual_eq s.arr (by unfold Arr.In; omega) (by unfold Arr.In; omega)]
        refine (ih ⟨s.arr.sw s.left (s.pivot + 1), s.pivot + 1, s.left + 1, s.right⟩ (inv_equal hI hlr hz) (by simp; omega)).mono ?_
        rintro t ⟨t1, t2, t3, t4, t5, _⟩
        simp only at t2 t3 t4
        exact ⟨t1, (Re.sw s.arr (by omega) (by omega) (by omega) (by omega)).trans t2, t3, by omega, t5, fun _ _ => by omega⟩
    · exact Post.pure ⟨hI, Re.refl _ _ _, rfl, le_rfl, fun hx => by omega, fun hx => by omega⟩

theorem scanRight_post {cmp : α → α → ℤ} {st n : ℤ} {v : α} (f : Nat) (s : Part α) (h0 : 0 ≤ st) (h : Inv cmp st n v s)
    (hb : s.left ≤ s.right → 0 < cmp (s.arr.at_ s.left) (s.arr.at_ s.pivot))
    (hf : (s.right - s.left + 1).toNat < f) :
    Post (scanRight cmp f s) fun t => Inv cmp st n v t.2 ∧ Re s.arr t.2.arr st (st + n) ∧
      (t.1 = true → t.2.right - t.2.left + 2 ≤ s.right - s.left) ∧
      (t.1 = false → t.2.arr = s.arr ∧ t.2.pivot = s.pivot ∧ t.2.left = s.left ∧ t.2.right ≤ s.right ∧
        (t.2.left ≤ t.2.right → t.2.left < t.2.right ∧ cmp (s.arr.at_ t.2.right) (s.arr.at_ s.pivot) < 0)) := by
  induction f generalizing s with
  | zero => omega
  | succ f ih =>
    unfold scanRight
    have hI := h
    obtain ⟨h1, h2, h3, h4, h5, h6, h7, h8⟩ := h
    by_cases hlr : s.left ≤ s.right
    · rw [if_pos hlr, sortCmp_eq cmp s.arr (by unfold Arr.In; omega) (by unfold Arr.In; omega)]
      simp only [bind, Except.bind]
      have hne : cmp (s.arr.at_ s.right) (s.arr.at_ s.pivot) ≤ 0 → s.left < s.right := by
        intro hx
        by_contra hcon
        have e : s.left = s.right := by omega
        have := hb hlr
        rw [e] at this
        omega
      split_ifs with hc hc' hlt
      · exact Post.pure ⟨hI, Re.refl _ _ _, by simp, fun _ => ⟨rfl, rfl, rfl, le_rfl, fun _ => ⟨hne (by omega), hc⟩⟩⟩
      · refine (ih { s with right := s.right - 1 } ?_ ?_ (by simp; omega)).mono ?_
        · refine ⟨h1, h2, by simp; omega, by simp; omega, h5, h6, h7, ?_⟩
          intro ho k hk1 hk2
          simp only at hk1 hk2
          by_cases e : k = s.right
          · rw [e]
            exact (ho.gt_eq (ho.zero (h6 ho s.pivot h1 le_rfl))).mp hc'
          · exact h8 ho k (by omega) hk2
        · intro _; exact hb hlr
        · rintro ⟨b, t⟩ ⟨t1, t2, t3, t4⟩
          simp only at t2 t3 t4
          refine ⟨t1, t2, fun e => ?_, fun e => ?_⟩
          · have := t3 e; simp only; omega
          · obtain ⟨u1, u2, u3, u4, u5⟩ := t4 e
            exact ⟨u1, u2, u3, by simp only; omega, u5⟩
      · have hz : cmp (s.arr.at_ s.right) (s.arr.at_ s.pivot) = 0 := by omega
        rw [sortSwap_eq s.arr (by unfold Arr.In; omega) (by unfold Arr.In; omega)]
        simp only
        rw [toEqual_eq (s.arr.sw s.left s.right) (by unfold Arr.In; simp only [Arr.sw]; omega) (by unfold Arr.In; simp only [Arr.sw]; omega)]
        have hI2 : Inv cmp st n v ⟨s.arr.sw s.left s.right, s.pivot, s.left, s.right - 1⟩ := by
          refine ⟨h1, h2, by simp; omega, by simp; omega, h5, ?_, ?_, ?_⟩ <;>
            intro ho k hk1 hk2 <;> simp only [Arr.sw] at *
          · simpa [show k ≠ s.left by omega, show k ≠ s.right by omega] using h6 ho k hk1 hk2
          · simpa [show k ≠ s.left by omega, show k ≠ s.right by omega] using h7 ho k hk1 hk2
          · by_cases e : k = s.right
            · have := (ho.gt_eq (x := s.arr.at_ s.left) (ho.zero (h6 ho s.pivot h1 le_rfl))).mp (hb hlr)
              simpa [e] using this
            · simpa [e, show k ≠ s.left by omega] using h8 ho k (by omega) hk2
        have hz2 : cmp ((s.arr.sw s.left s.right).at_ s.left) ((s.arr.sw s.left s.right).at_ s.pivot) = 0 := by
          simp only [Arr.sw]
          simpa [show s.left ≠ s.right by omega, show s.pivot ≠ s.left by omega, show s.pivot ≠ s.right by omega] using hz
        have hI3 := inv_equal hI2 (by simp only; omega) hz2
        refine Post.pure ⟨hI3, ?_, fun _ => by simp only; omega, by simp⟩
        exact (Re.sw s.arr (by omega) (by omega) (by omega) (by omega)).trans (Re.sw _ (by omega) (by omega) (by omega) (by omega))
      · exact absurd (hne (by omega)) hlt
    · rw [if_neg hlr]
      exact ⟨_, rfl, hI, Re.refl _ _ _, by simp, fun _ => ⟨rfl, rfl, rfl, le_rfl, fun hx => absurd hx hlr⟩⟩

theorem partLoop_post {cmp : α → α → ℤ} {st n : ℤ} {v : α} (F f : Nat) (s : Part α) (h0 : 0 ≤ st) (h : Inv cmp st n v s)
    (hF : n < F)
    (hf : 2 * (s.right - s.left + 1) + (if 0 < cmp (s.arr.at_ s.left) (s.arr.at_ s.pivot) then 1 else 0) < f) :
    Post (partLoop F cmp f s) fun t => Inv cmp st n v t ∧ Re s.arr t.arr st (st + n) ∧ t.left = t.right + 1 := by
  induction f generalizing s with
  | zero =>
    have := h.lr
    split_ifs at hf <;> simp at hf <;> omega
  | succ f ih =>
    unfold partLoop
    have hp := h.p
    have hpl := h.pl
    have hr := h.r
    have hlr := h.lr
    refine (scanLeft_post F s h0 h (by omega)).bind ?_
    rintro t ⟨tI, tR, t1, t2, t3, t4⟩
    refine (scanRight_post F t h0 tI t3 (by omega)).bind ?_
    rintro ⟨b, u⟩ ⟨uI, uR, u1, u2⟩
    simp only at uI uR u1 u2
    have htI := tI.lr
    cases b with
    | true =>
      simp only [if_true]
      have u1 := u1 rfl
      have huI := uI.lr
      refine (ih u uI ?_).mono fun w hw => ⟨hw.1, (tR.trans uR).trans hw.2.1, hw.2.2⟩
      split_ifs at hf ⊢ <;> push_cast at hf ⊢ <;> omega
    | false =>
      simp only [Bool.false_eq_true, if_false]
      obtain ⟨v1, v2, v3, v4, v5⟩ := u2 rfl
      split_ifs with hgt
      · refine Post.pure ⟨uI, tR.trans uR, ?_⟩
        have := uI.lr
        omega
      · have hur := uI.r
        have hup := uI.pl
        have hup' := uI.p
        have husz := uI.sz
        obtain ⟨v6, v7⟩ := v5 (by omega)
        rw [sortSwap_eq u.arr (by unfold Arr.In; omega) (by unfold Arr.In; omega)]
        simp only [bind, Except.bind]
        have hI2 : Inv cmp st n v { u with arr := u.arr.sw u.left u.right } := by
          obtain ⟨w1, w2, w3, w4, w5, w6, w7, w8⟩ := uI
          refine ⟨w1, w2, w3, w4, w5, ?_, ?_, ?_⟩ <;> intro ho k hk1 hk2 <;> simp only [Arr.sw] at *
          · simpa [show k ≠ u.left by omega, show k ≠ u.right by omega] using w6 ho k hk1 hk2
          · simpa [show k ≠ u.left by omega, show k ≠ u.right by omega] using w7 ho k hk1 hk2
          · simpa [show k ≠ u.left by omega, show k ≠ u.right by omega] using w8 ho k hk1 hk2
        refine (ih { u with arr := u.arr.sw u.left u.right } hI2 ?_).mono ?_
        · have hc : ¬ 0 < cmp ((u.arr.sw u.left u.right).at_ u.left) ((u.arr.sw u.left u.right).at_ u.pivot) := by
            simp only [Arr.sw]
            rw [v1, v2]
            simp [show u.left ≠ u.right by omega, show t.pivot ≠ u.left by omega, show t.pivot ≠ u.right by omega]
            omega
          simp only [hc, if_false]
          by_cases hs : 0 < cmp (s.arr.at_ s.left) (s.arr.at_ s.pivot)
          · simp only [hs, if_true] at hf
            push_cast at hf
            omega
          · simp only [hs, if_false] at hf
            have := t4 (by omega) (by omega)
            push_cast at hf
            omega
        · rintro w ⟨w1, w2, w3⟩
          exact ⟨w1, ((tR.trans uR).trans (Re.sw _ (by omega) (by omega) (by omega) (by omega))).trans w2, w3⟩

/-! ### Quick sort -/

theorem median3_post (cmp : α → α → ℤ) (a : Arr α) (x y z : ℤ) (hx : a.In x) (hy : a.In y) (hz : a.In z) :
    Post (median3 cmp a x y z) fun m => m = x ∨ m = y ∨ m = z := by
  unfold median3
  rw [sortCmp_eq cmp a hx hy, sortCmp_eq cmp a hy hz, sortCmp_eq cmp a hx hz]
  simp only [bind, Except.bind]
  split_ifs <;> exact Post.pure (by simp)

/-- The pivots are copied into the middle. -/
theorem middle_post (a : Arr α) (start count dist : ℤ) (h0 : 0 ≤ start) (hc : 0 ≤ count) (hd : count ≤ dist)
    (hh : start + dist + count ≤ a.size) :
    Post (forUp (fun i a => sortSwap a (start + i) (start + i + dist)) count.toNat 0 a) fun b =>
      Re a b start (start + dist + count) ∧
      ∀ k, b.at_ k = if start ≤ k ∧ k < start + count then a.at_ (k + dist)
        else if start + dist ≤ k ∧ k < start + dist + count then a.at_ (k - dist) else a.at_ k := by
  have key := forUp_post (body := fun i (a : Arr α) => sortSwap a (start + i) (start + i + dist))
    (fun i b => Re a b start (start + dist + count) ∧
      ∀ k, b.at_ k = if start ≤ k ∧ k < start + i then a.at_ (k + dist)
        else if start + dist ≤ k ∧ k < start + dist + i then a.at_ (k - dist) else a.at_ k) count.toNat 0 a
    ⟨Re.refl _ _ _, fun k => by
      rw [if_neg (by omega), if_neg (by omega)]⟩ ?_
  · have e : (0 : ℤ) + (count.toNat : ℤ) = count := by omega
    rw [e] at key
    exact key
  · rintro i b h1 h2 ⟨hR, hk⟩
    have hsz := hR.1
    rw [sortSwap_eq b (by unfold Arr.In; omega) (by unfold Arr.In; omega)]
    refine Post.pure ⟨hR.trans (Re.sw _ (by omega) (by omega) (by omega) (by omega)), fun k => ?_⟩
    simp only [Arr.sw]
    by_cases e1 : k = start + i + dist
    · rw [if_pos e1, hk, if_neg (by omega), if_neg (by omega), if_neg (by omega), if_pos (by omega)]
      congr 1; omega
    · rw [if_neg e1]
      by_cases e2 : k = start + i
      · rw [if_pos e2, hk, if_neg (by omega), if_neg (by omega), if_pos (by omega)]
        congr 1; omega
      · rw [if_neg e2, hk]
        by_cases c1 : start ≤ k ∧ k < start + i
        · rw [if_pos c1, if_pos (by omega)]
        · rw [if_neg c1, if_neg (by omega : ¬ (start ≤ k ∧ k < start + (i + 1)))]
          by_cases c2 : start + dist ≤ k ∧ k < start + dist + i
          · rw [if_pos c2, if_pos (by omega)]
          · rw [if_neg c2, if_neg (by omega)]

/-- Three consecutive blocks, below, equal to and above `v`, the outer ones sorted: the whole is sorted. -/
theorem three_blocks {cmp : α → α → ℤ} (ho : Orders cmp) {b : ℤ → α} {v : α} {lo m1 m2 hi : ℤ}
    (h1 : ∀ k, lo ≤ k → k < m1 → cmp (b k) v < 0) (h2 : ∀ k, m1 ≤ k → k < m2 → cmp (b k) v = 0)
    (h3 : ∀ k, m2 ≤ k → k < hi → 0 < cmp (b k) v) (s1 : Increasing cmp b lo m1) (s3 : Increasing cmp b m2 hi) :
    Increasing cmp b lo hi := by
  intro i j hi1 hij hj
  have hge : ∀ k, m1 ≤ k → k < hi → cmp v (b k) ≤ 0 := by
    intro k hk1 hk2
    by_cases h : k < m2
    · have := ho.zero (h2 k hk1 h); omega
    · have := (ho.flip v (b k)).mpr (h3 k (by omega) hk2); omega
  by_cases c1 : i < m1
  · by_cases c2 : j < m1
    · exact s1 i j hi1 hij c2
    · have := h1 i hi1 c1
      exact ho.trans _ v _ (by omega) (hge j (by omega) hj)
  · by_cases c2 : i < m2
    · have := h2 i (by omega) c2
      exact ho.trans _ v _ (by omega) (hge j (by omega) hj)
    · exact s3 i j (by omega) hij hj

theorem assert_true {b : Bool} (h : b = true) : assert_ b = .ok () := by simp [assert_, h]

theorem quickSort_post (cmp : α → α → ℤ) (F f : Nat) (start n : ℤ) (a : Arr α) (h0 : 0 ≤ start)
    (hh : start + n ≤ a.size) (hF : 2 * n + 1 < F) (hF0 : 0 < F) (hf : n < f) (hf0 : 0 < f) :
    Post (quickSort F cmp f start n a) fun b => Re a b start (start + n) ∧
      (Orders cmp → Increasing cmp b.at_ start (start + n)) := by
  induction f generalizing start n a with
  | zero => omega
  | succ f ih =>
    unfold quickSort
    split_ifs with hn
    · exact insertionSort_post cmp start n F a h0 hh (by omega)
    simp only
    refine (median3_post cmp a (start + n / 4) (start + n / 2) (start + n / 4 + n / 2) (by unfold Arr.In; omega)
      (by unfold Arr.In; omega) (by unfold Arr.In; omega)).bind ?_
    intro m hm
    have hm1 : start ≤ m ∧ m < start + n := by omega
    rw [sortSwap_eq a (by unfold Arr.In; omega) (by unfold Arr.In; omega)]
    have hR0 : Re a (a.sw start m) start (start + n) := Re.sw a (by omega) (by omega) (by omega) (by omega)
    generalize a.sw start m = a1 at hR0
    have hsz1 := hR0.1
    refine Post.bind (Q := fun b => b = a1) ⟨a1, rfl, rfl⟩ ?_
    rintro _ rfl
    rename_i a1
    have hI : Inv cmp start n (a1.at_ start) ⟨a1, start, start + 1, start + n - 1⟩ := by
      refine ⟨le_rfl, by simp, by simp; omega, by simp, by simp only; omega, ?_, ?_, ?_⟩ <;> intro ho k hk1 hk2 <;> simp only at *
      · have : k = start := by omega
        rw [this]; exact ho.refl _
      · omega
      · omega
    refine (partLoop_post F F _ h0 hI (by omega) ?_).bind ?_
    · simp only
      split_ifs <;> omega
    rintro ⟨a2, p, l, r⟩ ⟨sI, sR, hs⟩
    obtain ⟨i1, i2, i3, i4, i5, i6, i7, i8⟩ := sI
    simp only at i1 i2 i3 i4 i5 i6 i7 i8 sR hs ⊢
    rw [assert_true (by simpa using i1), assert_true (by simp; omega), assert_true (by simpa using hs), assert_true (by simp; omega),
      assert_true (by simp; omega)]
    simp only [bind, Except.bind]
    set count := if p - start + 1 < r - p then p - start + 1 else r - p with hcount
    have hc1 : count ≤ p - start + 1 ∧ count ≤ r - p ∧ 0 ≤ count ∧ (count = p - start + 1 ∨ count = r - p) := by
      rw [hcount]; split_ifs <;> omega
    refine (middle_post a2 start count (l - start - count) h0 (by omega) (by omega) (by omega)).bind ?_
    rintro b ⟨bR, bk⟩
    have hsum : start + (l - start - count) + count = l := by ring
    rw [hsum] at bR
    have hb1 : Orders cmp → ∀ k, start ≤ k → k < start + (r - p) → cmp (b.at_ k) (a1.at_ start) < 0 := by
      intro ho k hk1 hk2
      rw [bk]
      split_ifs <;> exact i7 ho _ (by omega) (by omega)
    have hb2 : Orders cmp → ∀ k, start + (r - p) ≤ k → k < l → cmp (b.at_ k) (a1.at_ start) = 0 := by
      intro ho k hk1 hk2
      rw [bk]
      split_ifs <;> exact i6 ho _ (by omega) (by omega)
    have hb3 : Orders cmp → ∀ k, l ≤ k → k < start + n → 0 < cmp (b.at_ k) (a1.at_ start) := by
      intro ho k hk1 hk2
      rw [bR.out (by omega)]
      exact i8 ho k (by omega) hk2
    have bsz := bR.1
    have asz := sR.1
    have h1 : Post (if r - p > 0 then quickSort F cmp f start (r - p) b else .ok b) fun c =>
        Re b c start (start + (r - p)) ∧ (Orders cmp → Increasing cmp c.at_ start (start + (r - p))) := by
      split_ifs with hx
      · exact ih start (r - p) b h0 (by omega) (by omega) (by omega) (by omega)
      · exact Post.pure ⟨Re.refl _ _ _, fun _ i j _ _ _ => by omega⟩
    refine h1.bind ?_
    rintro c ⟨cR, cI⟩
    have csz := cR.1
    have h2 : Post (if n - (l - start) > 0 then quickSort F cmp f l (n - (l - start)) c else .ok c) fun d =>
        Re c d l (start + n) ∧ (Orders cmp → Increasing cmp d.at_ l (start + n)) := by
      have e : l + (n - (l - start)) = start + n := by ring
      split_ifs with hx
      · have := ih l (n - (l - start)) c (by omega) (by omega) (by omega) (by omega) (by omega)
        rwa [e] at this
      · exact Post.pure ⟨Re.refl _ _ _, fun _ i j _ _ _ => by omega⟩
    refine h2.mono ?_
    rintro d ⟨dR, dI⟩
    have wc := cR.widen (lo' := start) (hi' := start + n) le_rfl (by omega)
    have wd := dR.widen (lo' := start) (hi' := start + n) (by omega) le_rfl
    refine ⟨(((hR0.trans sR).trans (bR.widen le_rfl (by omega))).trans wc).trans wd, fun ho => ?_⟩
    refine three_blocks ho (v := a1.at_ start) (m1 := start + (r - p)) (m2 := l) ?_ ?_ ?_ ?_ (dI ho)
    · intro k hk1 hk2
      rw [dR.out (by omega)]
      exact cR.all (P := fun x => cmp x (a1.at_ start) < 0) (hb1 ho) k hk1 hk2
    · intro k hk1 hk2
      rw [dR.out (by omega), cR.out (by omega)]
      exact hb2 ho k hk1 hk2
    · refine dR.all (P := fun x => 0 < cmp x (a1.at_ start)) ?_
      intro k hk1 hk2
      rw [cR.out (by omega)]
      exact hb3 ho k hk1 hk2
    · intro i j hi hij hj
      rw [dR.out (by omega), dR.out (by omega)]
      exact cI ho i j hi hij hj

end EdgeEval.Sort
