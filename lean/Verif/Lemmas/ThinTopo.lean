import Verif.Lemmas.ThinBits
import Mathlib.Data.Set.Finite.Basic
import Mathlib.Data.Finset.Insert
import Mathlib.Tactic.Linarith

/-!
# Parallel deletion preserves the topology
-/

namespace EdgeEval

open Relation

/-! ## Paths -/

theorem Joined.refl {A : Pt → Pt → Prop} {X : Set Pt} {p : Pt} (h : p ∈ X) : Joined A X p p :=
  ⟨h, ReflTransGen.refl⟩

theorem Joined.mem_right {A : Pt → Pt → Prop} {X : Set Pt} {p q : Pt} (h : Joined A X p q) : q ∈ X := by
  obtain ⟨h1, h2⟩ := h
  cases h2 with
  | refl => exact h1
  | tail _ h => exact h.1

theorem Joined.trans {A : Pt → Pt → Prop} {X : Set Pt} {p q r : Pt} (h1 : Joined A X p q)
    (h2 : Joined A X q r) : Joined A X p r := ⟨h1.1, h1.2.trans h2.2⟩

theorem Joined.step {A : Pt → Pt → Prop} {X : Set Pt} {p q r : Pt} (h1 : Joined A X p q) (hr : r ∈ X)
    (ha : A q r) : Joined A X p r := ⟨h1.1, h1.2.tail ⟨hr, ha⟩⟩

theorem Joined.mono {A : Pt → Pt → Prop} {X Y : Set Pt} {p q : Pt} (h : Joined A X p q) (hs : X ⊆ Y) :
    Joined A Y p q :=
  ⟨hs h.1, ReflTransGen.mono (r := fun a b => b ∈ X ∧ A a b) (fun _ _ hab => ⟨hs hab.1, hab.2⟩) _ _ h.2⟩

theorem Joined.symm {A : Pt → Pt → Prop} (hA : ∀ a b, A a b → A b a) {X : Set Pt} {p q : Pt}
    (h : Joined A X p q) : Joined A X q p := by
  obtain ⟨hp, h⟩ := h
  induction h with
  | refl => exact Joined.refl hp
  | tail hab hbc ih =>
    rename_i b c
    have hb := ih.1
    exact ((Joined.refl hbc.1).step hb (hA _ _ hbc.2)).trans ih

theorem Adj8.symm {a b : Pt} (h : Adj8 a b) : Adj8 b a := by
  obtain ⟨h1, h2, h3⟩ := h
  exact ⟨h1.symm, by rwa [abs_sub_comm], by rwa [abs_sub_comm]⟩

theorem Adj4.symm {a b : Pt} (h : Adj4 a b) : Adj4 b a := by
  unfold Adj4 at *
  rwa [abs_sub_comm, abs_sub_comm b.2]

/-- Removing a point whose remaining neighbours are joined without it keeps the components. -/
theorem remove_point {A : Pt → Pt → Prop} (hA : ∀ a b, A a b → A b a) (hirr : ∀ a, ¬ A a a)
    {Z Z' : Set Pt} {p n0 : Pt}
    (hp : p ∈ Z) (hp' : p ∉ Z') (hZ : ∀ q, q ∈ Z ↔ q = p ∨ q ∈ Z') (hn0 : n0 ∈ Z') (hadj : A p n0)
    (hall : ∀ n ∈ Z', A p n → Joined A Z' n0 n) :
    (∀ a b, a ∈ Z' → b ∈ Z' → (Joined A Z' a b ↔ Joined A Z a b)) ∧
    (∀ a ∈ Z, ∃ b ∈ Z', Joined A Z a b) := by
  classical
  have hsub : Z' ⊆ Z := fun q hq => (hZ q).mpr (Or.inr hq)
  constructor
  · intro a b ha hb
    constructor
    · intro h; exact h.mono hsub
    · rintro ⟨-, h⟩
      have key : ∀ c, ReflTransGen (fun a b => b ∈ Z ∧ A a b) a c →
          Joined A Z' a (if c = p then n0 else c) := by
        intro c hc
        induction hc with
        | refl =>
          rw [if_neg (by rintro rfl; exact hp' ha)]
          exact Joined.refl ha
        | tail hbc hcd ih =>
          rename_i c d
          obtain ⟨hd, hcd⟩ := hcd
          by_cases hdp : d = p
          · rw [if_pos hdp]
            subst hdp
            by_cases hcp : c = d
            · subst hcp; exact absurd hcd (hirr _)
            · rw [if_neg hcp] at ih
              exact ih.trans ((hall c ih.mem_right (hA _ _ hcd)).symm hA)
          · rw [if_neg hdp]
            have hd' : d ∈ Z' := by
              rcases (hZ d).mp hd with h | h
              · exact absurd h hdp
              · exact h
            by_cases hcp : c = p
            · rw [if_pos hcp] at ih
              subst hcp
              exact ih.trans (hall d hd' hcd)
            · rw [if_neg hcp] at ih
              exact ih.step hd' hcd
      have := key b h
      rwa [if_neg (by rintro rfl; exact hp' hb)] at this
  · intro a ha
    rcases (hZ a).mp ha with rfl | h
    · exact ⟨n0, hn0, (Joined.refl hp).step (hsub hn0) hadj⟩
    · exact ⟨a, h, Joined.refl ha⟩

theorem SameTopology.refl (X : Set Pt) : SameTopology X X where
  sub := Set.Subset.rfl
  fg := fun _ _ _ _ => Iff.rfl
  fgKeep := fun p hp => ⟨p, hp, Joined.refl hp⟩
  bg := fun _ _ _ _ => Iff.rfl
  bgKeep := fun p hp => ⟨p, hp, Joined.refl hp⟩

theorem SameTopology.trans {X Y Z : Set Pt} (h1 : SameTopology X Y) (h2 : SameTopology Y Z) :
    SameTopology X Z where
  sub := h2.sub.trans h1.sub
  fg := fun p q hp hq => (h2.fg p q hp hq).trans (h1.fg p q (h2.sub hp) (h2.sub hq))
  fgKeep := by
    intro p hp
    obtain ⟨q, hq, hpq⟩ := h1.fgKeep p hp
    obtain ⟨r, hr, hqr⟩ := h2.fgKeep q hq
    exact ⟨r, hr, hpq.trans (hqr.mono h1.sub)⟩
  bg := fun p q hp hq => (h2.bg p q (fun h => hp (h1.sub h)) (fun h => hq (h1.sub h))).trans (h1.bg p q hp hq)
  bgKeep := by
    intro p hp
    obtain ⟨q, hq, hpq⟩ := h2.bgKeep p hp
    obtain ⟨r, hr, hqr⟩ := h1.bgKeep q hq
    exact ⟨r, hr, hpq.trans (hqr.mono (Set.compl_subset_compl.mpr h2.sub))⟩

/-! ## The ring of neighbours in the plane -/

theorem mem8 {k : Nat} : k ∈ [1, 2, 3, 4, 5, 6, 7, 8] ↔
    k = 1 ∨ k = 2 ∨ k = 3 ∨ k = 4 ∨ k = 5 ∨ k = 6 ∨ k = 7 ∨ k = 8 := by simp

theorem nbr_adj8 (p : Pt) (k : Nat) : Adj8 p (nbrPt p k) := by
  obtain ⟨a, b⟩ := p
  unfold nbrPt Adj8
  split <;> simp <;> omega

theorem adj8_nbr {p q : Pt} (h : Adj8 p q) : ∃ k ∈ [1, 2, 3, 4, 5, 6, 7, 8], q = nbrPt p k := by
  obtain ⟨a, b⟩ := p
  obtain ⟨c, d⟩ := q
  obtain ⟨h1, h2, h3⟩ := h
  simp only [abs_le] at h2 h3
  simp only [ne_eq, Prod.mk.injEq, not_and] at h1
  have hc : c = a - 1 ∨ c = a ∨ c = a + 1 := by omega
  have hd : d = b - 1 ∨ d = b ∨ d = b + 1 := by omega
  rcases hc with rfl | rfl | rfl <;> rcases hd with rfl | rfl | rfl
  · exact ⟨4, by simp, rfl⟩
  · exact ⟨3, by simp, rfl⟩
  · exact ⟨2, by simp, rfl⟩
  · exact ⟨5, by simp, rfl⟩
  · exact absurd rfl (h1 rfl)
  · exact ⟨1, by simp, rfl⟩
  · exact ⟨6, by simp, rfl⟩
  · exact ⟨7, by simp, rfl⟩
  · exact ⟨8, by simp, rfl⟩

theorem nbr_adj4 (p : Pt) {k : Nat} (h : k ∈ [1, 3, 5, 7]) : Adj4 p (nbrPt p k) := by
  obtain ⟨a, b⟩ := p
  simp only [List.mem_cons, List.not_mem_nil, or_false] at h
  rcases h with rfl | rfl | rfl | rfl <;> simp [nbrPt, Adj4]

theorem adj4_nbr {p q : Pt} (h : Adj4 p q) : ∃ k ∈ [1, 3, 5, 7], q = nbrPt p k := by
  obtain ⟨a, b⟩ := p
  obtain ⟨c, d⟩ := q
  unfold Adj4 at h
  simp only at h
  have h1 := abs_cases (a - c)
  have h2 := abs_cases (b - d)
  have hc : (c = a - 1 ∧ d = b) ∨ (c = a + 1 ∧ d = b) ∨ (c = a ∧ d = b - 1) ∨ (c = a ∧ d = b + 1) := by omega
  rcases hc with ⟨rfl, rfl⟩ | ⟨rfl, rfl⟩ | ⟨rfl, rfl⟩ | ⟨rfl, rfl⟩
  · exact ⟨3, by simp, rfl⟩
  · exact ⟨7, by simp, rfl⟩
  · exact ⟨5, by simp, rfl⟩
  · exact ⟨1, by simp, rfl⟩

theorem ring4_adj (p : Pt) {i j : Nat} (hi : i ∈ [1, 2, 3, 4, 5, 6, 7, 8]) (hj : j ∈ [1, 2, 3, 4, 5, 6, 7, 8])
    (h : ring4 i j = true) : Adj4 (nbrPt p i) (nbrPt p j) := by
  obtain ⟨a, b⟩ := p
  rw [mem8] at hi hj
  rcases hi with rfl | rfl | rfl | rfl | rfl | rfl | rfl | rfl <;>
  rcases hj with rfl | rfl | rfl | rfl | rfl | rfl | rfl | rfl <;>
  first
    | (exact absurd h (by decide))
    | (simp [nbrPt, Adj4])

theorem ring8_adj (p : Pt) {i j : Nat} (hi : i ∈ [1, 2, 3, 4, 5, 6, 7, 8]) (hj : j ∈ [1, 2, 3, 4, 5, 6, 7, 8])
    (h : ring8 i j = true) : Adj8 (nbrPt p i) (nbrPt p j) := by
  obtain ⟨a, b⟩ := p
  rw [mem8] at hi hj
  rcases hi with rfl | rfl | rfl | rfl | rfl | rfl | rfl | rfl <;>
  rcases hj with rfl | rfl | rfl | rfl | rfl | rfl | rfl | rfl <;>
  first
    | (exact absurd h (by decide))
    | (simp [nbrPt, Adj8] <;> omega)

/-! ## Deletable pixels -/

open Classical in
/-- Is the `k`-th neighbour of `p` set? -/
noncomputable def bt (X : Set Pt) (p : Pt) (k : Nat) : Bool := decide (nbrPt p k ∈ X)

/-- `p` is deletable in sub-iteration 1 (`pr = false`) or 2 (`pr = true`). -/
def DelB (pr : Bool) (X : Set Pt) (p : Pt) : Prop :=
  delb pr (bt X p 1) (bt X p 2) (bt X p 3) (bt X p 4) (bt X p 5) (bt X p 6) (bt X p 7) (bt X p 8) = true

theorem may1_of (pr : Bool) {X : Set Pt} {p : Pt} (hp : p ∈ X) (hm : nbrPt p 1 ∈ X)
    (hd : DelB pr X (nbrPt p 1)) :
    may1 pr (bt X p 1) (bt X p 2) (bt X p 3) (bt X p 4) (bt X p 5) (bt X p 6) (bt X p 7) (bt X p 8) = true := by
  have hb : bt X p 1 = true := by simp [bt, hm]
  unfold DelB at hd
  have e3 : bt X (nbrPt p 1) 3 = bt X p 2 := by
    have : nbrPt (nbrPt p 1) 3 = nbrPt p 2 := by simp [nbrPt]
    unfold bt; rw [this]
  have e4 : bt X (nbrPt p 1) 4 = bt X p 3 := by
    have : nbrPt (nbrPt p 1) 4 = nbrPt p 3 := by simp [nbrPt]
    unfold bt; rw [this]
  have e5 : bt X (nbrPt p 1) 5 = true := by
    have : nbrPt (nbrPt p 1) 5 = p := by simp [nbrPt]
    simp [bt, this, hp]
  have e6 : bt X (nbrPt p 1) 6 = bt X p 7 := by
    have : nbrPt (nbrPt p 1) 6 = nbrPt p 7 := by simp [nbrPt]
    unfold bt; rw [this]
  have e7 : bt X (nbrPt p 1) 7 = bt X p 8 := by
    have : nbrPt (nbrPt p 1) 7 = nbrPt p 8 := by simp [nbrPt]
    unfold bt; rw [this]
  rw [e3, e4, e5, e6, e7] at hd
  simp only [may1, anyB_iff, Bool.and_eq_true]
  exact ⟨_, _, _, hd, hb⟩

theorem may2_of (pr : Bool) {X : Set Pt} {p : Pt} (hp : p ∈ X) (hm : nbrPt p 2 ∈ X)
    (hd : DelB pr X (nbrPt p 2)) :
    may2 pr (bt X p 1) (bt X p 2) (bt X p 3) (bt X p 4) (bt X p 5) (bt X p 6) (bt X p 7) (bt X p 8) = true := by
  have hb : bt X p 2 = true := by simp [bt, hm]
  unfold DelB at hd
  have e5 : bt X (nbrPt p 2) 5 = bt X p 3 := by
    have : nbrPt (nbrPt p 2) 5 = nbrPt p 3 := by simp [nbrPt]
    unfold bt; rw [this]
  have e6 : bt X (nbrPt p 2) 6 = true := by
    have : nbrPt (nbrPt p 2) 6 = p := by simp [nbrPt]
    simp [bt, this, hp]
  have e7 : bt X (nbrPt p 2) 7 = bt X p 1 := by
    have : nbrPt (nbrPt p 2) 7 = nbrPt p 1 := by simp [nbrPt]
    unfold bt; rw [this]
  rw [e5, e6, e7] at hd
  simp only [may2, anyB_iff, Bool.and_eq_true]
  exact ⟨_, _, _, _, _, hd, hb⟩

theorem may3_of (pr : Bool) {X : Set Pt} {p : Pt} (hp : p ∈ X) (hm : nbrPt p 3 ∈ X)
    (hd : DelB pr X (nbrPt p 3)) :
    may3 pr (bt X p 1) (bt X p 2) (bt X p 3) (bt X p 4) (bt X p 5) (bt X p 6) (bt X p 7) (bt X p 8) = true := by
  have hb : bt X p 3 = true := by simp [bt, hm]
  unfold DelB at hd
  have e1 : bt X (nbrPt p 3) 1 = bt X p 2 := by
    have : nbrPt (nbrPt p 3) 1 = nbrPt p 2 := by simp [nbrPt]
    unfold bt; rw [this]
  have e5 : bt X (nbrPt p 3) 5 = bt X p 4 := by
    have : nbrPt (nbrPt p 3) 5 = nbrPt p 4 := by simp [nbrPt]
    unfold bt; rw [this]
  have e6 : bt X (nbrPt p 3) 6 = bt X p 5 := by
    have : nbrPt (nbrPt p 3) 6 = nbrPt p 5 := by simp [nbrPt]
    unfold bt; rw [this]
  have e7 : bt X (nbrPt p 3) 7 = true := by
    have : nbrPt (nbrPt p 3) 7 = p := by simp [nbrPt]
    simp [bt, this, hp]
  have e8 : bt X (nbrPt p 3) 8 = bt X p 1 := by
    have : nbrPt (nbrPt p 3) 8 = nbrPt p 1 := by simp [nbrPt]
    unfold bt; rw [this]
  rw [e1, e5, e6, e7, e8] at hd
  simp only [may3, anyB_iff, Bool.and_eq_true]
  exact ⟨_, _, _, hd, hb⟩

theorem may4_of (pr : Bool) {X : Set Pt} {p : Pt} (hp : p ∈ X) (hm : nbrPt p 4 ∈ X)
    (hd : DelB pr X (nbrPt p 4)) :
    may4 pr (bt X p 1) (bt X p 2) (bt X p 3) (bt X p 4) (bt X p 5) (bt X p 6) (bt X p 7) (bt X p 8) = true := by
  have hb : bt X p 4 = true := by simp [bt, hm]
  unfold DelB at hd
  have e1 : bt X (nbrPt p 4) 1 = bt X p 3 := by
    have : nbrPt (nbrPt p 4) 1 = nbrPt p 3 := by simp [nbrPt]
    unfold bt; rw [this]
  have e7 : bt X (nbrPt p 4) 7 = bt X p 5 := by
    have : nbrPt (nbrPt p 4) 7 = nbrPt p 5 := by simp [nbrPt]
    unfold bt; rw [this]
  have e8 : bt X (nbrPt p 4) 8 = true := by
    have : nbrPt (nbrPt p 4) 8 = p := by simp [nbrPt]
    simp [bt, this, hp]
  rw [e1, e7, e8] at hd
  simp only [may4, anyB_iff, Bool.and_eq_true]
  exact ⟨_, _, _, _, _, hd, hb⟩

theorem may5_of (pr : Bool) {X : Set Pt} {p : Pt} (hp : p ∈ X) (hm : nbrPt p 5 ∈ X)
    (hd : DelB pr X (nbrPt p 5)) :
    may5 pr (bt X p 1) (bt X p 2) (bt X p 3) (bt X p 4) (bt X p 5) (bt X p 6) (bt X p 7) (bt X p 8) = true := by
  have hb : bt X p 5 = true := by simp [bt, hm]
  unfold DelB at hd
  have e1 : bt X (nbrPt p 5) 1 = true := by
    have : nbrPt (nbrPt p 5) 1 = p := by simp [nbrPt]
    simp [bt, this, hp]
  have e2 : bt X (nbrPt p 5) 2 = bt X p 3 := by
    have : nbrPt (nbrPt p 5) 2 = nbrPt p 3 := by simp [nbrPt]
    unfold bt; rw [this]
  have e3 : bt X (nbrPt p 5) 3 = bt X p 4 := by
    have : nbrPt (nbrPt p 5) 3 = nbrPt p 4 := by simp [nbrPt]
    unfold bt; rw [this]
  have e7 : bt X (nbrPt p 5) 7 = bt X p 6 := by
    have : nbrPt (nbrPt p 5) 7 = nbrPt p 6 := by simp [nbrPt]
    unfold bt; rw [this]
  have e8 : bt X (nbrPt p 5) 8 = bt X p 7 := by
    have : nbrPt (nbrPt p 5) 8 = nbrPt p 7 := by simp [nbrPt]
    unfold bt; rw [this]
  rw [e1, e2, e3, e7, e8] at hd
  simp only [may5, anyB_iff, Bool.and_eq_true]
  exact ⟨_, _, _, hd, hb⟩

theorem may6_of (pr : Bool) {X : Set Pt} {p : Pt} (hp : p ∈ X) (hm : nbrPt p 6 ∈ X)
    (hd : DelB pr X (nbrPt p 6)) :
    may6 pr (bt X p 1) (bt X p 2) (bt X p 3) (bt X p 4) (bt X p 5) (bt X p 6) (bt X p 7) (bt X p 8) = true := by
  have hb : bt X p 6 = true := by simp [bt, hm]
  unfold DelB at hd
  have e1 : bt X (nbrPt p 6) 1 = bt X p 7 := by
    have : nbrPt (nbrPt p 6) 1 = nbrPt p 7 := by simp [nbrPt]
    unfold bt; rw [this]
  have e2 : bt X (nbrPt p 6) 2 = true := by
    have : nbrPt (nbrPt p 6) 2 = p := by simp [nbrPt]
    simp [bt, this, hp]
  have e3 : bt X (nbrPt p 6) 3 = bt X p 5 := by
    have : nbrPt (nbrPt p 6) 3 = nbrPt p 5 := by simp [nbrPt]
    unfold bt; rw [this]
  rw [e1, e2, e3] at hd
  simp only [may6, anyB_iff, Bool.and_eq_true]
  exact ⟨_, _, _, _, _, hd, hb⟩

theorem may7_of (pr : Bool) {X : Set Pt} {p : Pt} (hp : p ∈ X) (hm : nbrPt p 7 ∈ X)
    (hd : DelB pr X (nbrPt p 7)) :
    may7 pr (bt X p 1) (bt X p 2) (bt X p 3) (bt X p 4) (bt X p 5) (bt X p 6) (bt X p 7) (bt X p 8) = true := by
  have hb : bt X p 7 = true := by simp [bt, hm]
  unfold DelB at hd
  have e1 : bt X (nbrPt p 7) 1 = bt X p 8 := by
    have : nbrPt (nbrPt p 7) 1 = nbrPt p 8 := by simp [nbrPt]
    unfold bt; rw [this]
  have e2 : bt X (nbrPt p 7) 2 = bt X p 1 := by
    have : nbrPt (nbrPt p 7) 2 = nbrPt p 1 := by simp [nbrPt]
    unfold bt; rw [this]
  have e3 : bt X (nbrPt p 7) 3 = true := by
    have : nbrPt (nbrPt p 7) 3 = p := by simp [nbrPt]
    simp [bt, this, hp]
  have e4 : bt X (nbrPt p 7) 4 = bt X p 5 := by
    have : nbrPt (nbrPt p 7) 4 = nbrPt p 5 := by simp [nbrPt]
    unfold bt; rw [this]
  have e5 : bt X (nbrPt p 7) 5 = bt X p 6 := by
    have : nbrPt (nbrPt p 7) 5 = nbrPt p 6 := by simp [nbrPt]
    unfold bt; rw [this]
  rw [e1, e2, e3, e4, e5] at hd
  simp only [may7, anyB_iff, Bool.and_eq_true]
  exact ⟨_, _, _, hd, hb⟩

theorem may8_of (pr : Bool) {X : Set Pt} {p : Pt} (hp : p ∈ X) (hm : nbrPt p 8 ∈ X)
    (hd : DelB pr X (nbrPt p 8)) :
    may8 pr (bt X p 1) (bt X p 2) (bt X p 3) (bt X p 4) (bt X p 5) (bt X p 6) (bt X p 7) (bt X p 8) = true := by
  have hb : bt X p 8 = true := by simp [bt, hm]
  unfold DelB at hd
  have e3 : bt X (nbrPt p 8) 3 = bt X p 1 := by
    have : nbrPt (nbrPt p 8) 3 = nbrPt p 1 := by simp [nbrPt]
    unfold bt; rw [this]
  have e4 : bt X (nbrPt p 8) 4 = true := by
    have : nbrPt (nbrPt p 8) 4 = p := by simp [nbrPt]
    simp [bt, this, hp]
  have e5 : bt X (nbrPt p 8) 5 = bt X p 7 := by
    have : nbrPt (nbrPt p 8) 5 = nbrPt p 7 := by simp [nbrPt]
    unfold bt; rw [this]
  rw [e3, e4, e5] at hd
  simp only [may8, anyB_iff, Bool.and_eq_true]
  exact ⟨_, _, _, _, _, hd, hb⟩

theorem sel_bt (X : Set Pt) (p : Pt) {k : Nat} (hk : k ∈ [1, 2, 3, 4, 5, 6, 7, 8]) :
    sel (bt X p 1) (bt X p 2) (bt X p 3) (bt X p 4) (bt X p 5) (bt X p 6) (bt X p 7) (bt X p 8) k = true ↔
      nbrPt p k ∈ X := by
  rw [mem8] at hk
  rcases hk with rfl | rfl | rfl | rfl | rfl | rfl | rfl | rfl <;> simp [sel, bt]

theorem mem4_8 {k : Nat} (h : k ∈ [1, 3, 5, 7]) : k ∈ [1, 2, 3, 4, 5, 6, 7, 8] := by
  simp only [List.mem_cons, List.not_mem_nil, or_false] at *
  omega

theorem nbr_ne (p : Pt) (k : Nat) : nbrPt p k ≠ p := fun h => (nbr_adj8 p k).1 h.symm

/-- Removing one pixel with crossing number 1. -/
theorem remove_simple {X : Set Pt} {p : Pt} (hp : p ∈ X)
    (h : g1b (bt X p 1) (bt X p 2) (bt X p 3) (bt X p 4) (bt X p 5) (bt X p 6) (bt X p 7) (bt X p 8) = true) :
    SameTopology X (X \ {p}) := by
  obtain ⟨⟨i, hi, hbi⟩, ⟨i', hi', hbi'⟩, hfg, hbg⟩ := ring_facts _ _ _ _ _ _ _ _ h
  rw [sel_bt X p hi] at hbi
  have F := remove_point (A := Adj8) (Z := X) (Z' := X \ {p}) (p := p) (n0 := nbrPt p i)
    (fun _ _ => Adj8.symm) (fun a ha => ha.1 rfl) hp (by simp)
    (by intro q; simp only [Set.mem_sdiff, Set.mem_singleton_iff]
        by_cases hq : q = p
        · simp [hq, hp]
        · simp [hq])
    ⟨hbi, nbr_ne p i⟩ (nbr_adj8 p i)
    (by
      rintro n ⟨hn, -⟩ ha
      obtain ⟨j, hj, rfl⟩ := adj8_nbr ha
      refine grow7_sound (adj := ring8) (b := sel (bt X p 1) (bt X p 2) (bt X p 3) (bt X p 4) (bt X p 5) (bt X p 6) (bt X p 7) (bt X p 8))
        (E := fun k => Joined Adj8 (X \ {p}) (nbrPt p i) (nbrPt p k)) ?_ hi (Joined.refl ⟨hbi, nbr_ne p i⟩) j
        (hfg i hi ((sel_bt X p hi).mpr hbi) j hj ((sel_bt X p hj).mpr hn))
      intro a b ha hb hE hadj hbb
      exact hE.step ⟨(sel_bt X p hb).mp hbb, nbr_ne p b⟩ (ring8_adj p ha hb hadj))
  have nmem : ∀ k, k ∈ [1, 2, 3, 4, 5, 6, 7, 8] →
      (sel (bt X p 1) (bt X p 2) (bt X p 3) (bt X p 4) (bt X p 5) (bt X p 6) (bt X p 7) (bt X p 8) k = false ↔
        nbrPt p k ∉ X) := by
    intro k hk
    rw [← sel_bt X p hk, Bool.not_eq_true]
  have hbi'' := (nmem i' (mem4_8 hi')).mp hbi'
  have B := remove_point (A := Adj4) (Z := (X \ {p})ᶜ) (Z' := Xᶜ) (p := p) (n0 := nbrPt p i')
    (fun _ _ => Adj4.symm) (fun a ha => by simp [Adj4] at ha) (by simp) (by simpa using hp)
    (by intro q; simp only [Set.mem_compl_iff, Set.mem_sdiff, Set.mem_singleton_iff]; tauto)
    hbi'' (nbr_adj4 p hi')
    (by
      intro n hn ha
      obtain ⟨j, hj, rfl⟩ := adj4_nbr ha
      refine grow7_sound (adj := ring4) (b := fun k => !sel (bt X p 1) (bt X p 2) (bt X p 3) (bt X p 4) (bt X p 5) (bt X p 6) (bt X p 7) (bt X p 8) k)
        (E := fun k => Joined Adj4 Xᶜ (nbrPt p i') (nbrPt p k)) ?_ (mem4_8 hi') (Joined.refl hbi'') j
        (hbg i' hi' hbi' j hj ((nmem j (mem4_8 hj)).mpr hn))
      intro a b ha hb hE hadj hbb
      simp only [Bool.not_eq_true'] at hbb
      exact hE.step ((nmem b hb).mp hbb) (ring4_adj p ha hb hadj))
  refine ⟨Set.sdiff_subset, F.1, F.2, ?_, ?_⟩
  · intro a b ha hb
    exact (B.1 a b ha hb).symm
  · intro a ha
    obtain ⟨b, hb, hab⟩ := B.2 a ha
    exact ⟨b, hb, hab⟩

/-- Removing any set of deletable pixels at once. -/
theorem remove_parallel (pr : Bool) {X : Set Pt} (S : Finset Pt) (hS : ∀ q ∈ S, q ∈ X ∧ DelB pr X q) :
    SameTopology X (X \ ↑S) := by
  classical
  induction S using Finset.induction_on with
  | empty => simpa using SameTopology.refl X
  | insert p S hpS ih =>
    refine (ih fun q hq => hS q (Finset.mem_insert_of_mem hq)).trans ?_
    have hp := hS p (Finset.mem_insert_self _ _)
    have hS' : ∀ q ∈ S, q ∈ X ∧ DelB pr X q := fun q hq => hS q (Finset.mem_insert_of_mem hq)
    have e : X \ ↑(insert p S) = (X \ ↑S) \ {p} := by
      ext q
      simp only [Finset.coe_insert, Set.mem_sdiff, Set.mem_insert_iff, Finset.mem_coe, Set.mem_singleton_iff]
      tauto
    rw [e]
    apply remove_simple (X := X \ ↑S) (p := p) ⟨hp.1, by simpa using hpS⟩
    have hb : ∀ k, bt (X \ ↑S) p k = (bt X p k && !decide (nbrPt p k ∈ S)) := by
      intro k
      simp [bt]
    simp only [hb]
    have hd := hp.2
    unfold DelB at hd
    refine robust pr _ _ _ _ _ _ _ _ _ _ _ _ _ _ _ _ hd ?_ ?_ ?_ ?_ ?_ ?_ ?_ ?_
    · intro h; have := hS' _ (of_decide_eq_true h); exact may1_of pr hp.1 this.1 this.2
    · intro h; have := hS' _ (of_decide_eq_true h); exact may2_of pr hp.1 this.1 this.2
    · intro h; have := hS' _ (of_decide_eq_true h); exact may3_of pr hp.1 this.1 this.2
    · intro h; have := hS' _ (of_decide_eq_true h); exact may4_of pr hp.1 this.1 this.2
    · intro h; have := hS' _ (of_decide_eq_true h); exact may5_of pr hp.1 this.1 this.2
    · intro h; have := hS' _ (of_decide_eq_true h); exact may6_of pr hp.1 this.1 this.2
    · intro h; have := hS' _ (of_decide_eq_true h); exact may7_of pr hp.1 this.1 this.2
    · intro h; have := hS' _ (of_decide_eq_true h); exact may8_of pr hp.1 this.1 this.2

end EdgeEval
