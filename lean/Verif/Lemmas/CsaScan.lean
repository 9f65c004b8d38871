import Verif.Model.Csa

/-! # The minimum search of the assignment solver (scan, cache of best arcs) -/

namespace EdgeEval

/-- `s` holds the minimum reduced cost, where it is attained, and a lower bound of all the others,
over the arcs satisfying `P`. -/
structure ScanOK (rc : Nat → ℚ) (P : Nat → Prop) (s : Scan) : Prop where
  pref_eq : s.pref = rc s.adm
  mem : P s.adm
  le : s.pref ≤ s.second
  min : ∀ k, P k → s.pref ≤ rc k
  second : ∀ k, P k → k ≠ s.adm → s.second ≤ rc k

theorem ScanOK.step {rc : Nat → ℚ} {P : Nat → Prop} {s : Scan} (h : ScanOK rc P s) {k : Nat}
    (hk : ¬ P k) : ScanOK rc (fun j => P j ∨ j = k) (scanStep rc s k) := by
  obtain ⟨h1, h2, h3, h4, h5⟩ := h
  have hne : k ≠ s.adm := fun e => hk (e ▸ h2)
  unfold scanStep
  split
  · rename_i hlt
    refine ⟨rfl, .inr rfl, hlt.le, ?_, ?_⟩
    · rintro j (hj | rfl)
      · exact hlt.le.trans (h4 j hj)
      · exact le_refl _
    · rintro j (hj | rfl) hjk
      · exact h4 j hj
      · exact absurd rfl hjk
  · rename_i hlt
    have hge : s.pref ≤ rc k := not_lt.mp hlt
    split
    · rename_i h2lt
      refine ⟨h1, .inl h2, hge, ?_, ?_⟩
      · rintro j (hj | rfl)
        · exact h4 j hj
        · exact hge
      · rintro j (hj | rfl) hjk
        · exact h2lt.le.trans (h5 j hj hjk)
        · exact le_refl _
    · rename_i h2lt
      refine ⟨h1, .inl h2, h3, ?_, ?_⟩
      · rintro j (hj | rfl)
        · exact h4 j hj
        · exact hge
      · rintro j (hj | rfl) hjk
        · exact h5 j hj hjk
        · exact not_lt.mp h2lt

theorem ScanOK.congr {rc : Nat → ℚ} {P Q : Nat → Prop} {s : Scan} (h : ScanOK rc P s)
    (e : ∀ k, P k ↔ Q k) : ScanOK rc Q s :=
  ⟨h.pref_eq, (e _).mp h.mem, h.le, fun k hk => h.min k ((e k).mpr hk),
    fun k hk => h.second k ((e k).mpr hk)⟩

theorem scanAll_ok (rc : Nat → ℚ) (deg : Nat) (eps po : ℚ) (hd : 0 < deg) (he : 0 ≤ eps)
    (hpo : 0 ≤ po) : ScanOK rc (fun k => k < deg) (scanAll rc deg eps po) := by
  have key : ∀ n, ScanOK rc (fun k => k < n + 1)
      ((List.range' 1 n).foldl (scanStep rc) ⟨rc 0, rc 0 + eps * (po + 1), 0⟩) := by
    intro n
    induction n with
    | zero =>
      refine ⟨rfl, by simp, ?_, ?_, ?_⟩
      · have : 0 ≤ eps * (po + 1) := mul_nonneg he (by linarith)
        simp only [List.range'_zero, List.foldl_nil]
        linarith
      · intro k hk
        have : k = 0 := by omega
        subst this; exact le_refl _
      · intro k hk hne
        have : k = 0 := by omega
        exact absurd this hne
    | succ n ih =>
      rw [List.range'_concat, List.foldl_append]
      refine (ih.step (k := 1 + 1 * n) (by omega)).congr ?_
      intro k; omega
  have := key (deg - 1)
  rw [show deg - 1 + 1 = deg by omega] at this
  exact this

theorem scanBest_ok (rc : Nat → ℚ) (x y z : Nat) (hxy : x ≠ y) (hxz : x ≠ z) (hyz : y ≠ z) :
    ScanOK rc (fun k => k = x ∨ k = y ∨ k = z) (scanBest rc [x, y, z]) := by
  have h0 : ScanOK rc (fun k => k = x ∨ k = y)
      (if rc x > rc y then ⟨rc y, rc x, y⟩ else ⟨rc x, rc y, x⟩ : Scan) := by
    split
    · rename_i h
      refine ⟨rfl, .inr rfl, h.le, ?_, ?_⟩
      · rintro k (rfl | rfl)
        · exact h.le
        · exact le_refl _
      · rintro k (rfl | rfl) hk
        · exact le_refl _
        · exact absurd rfl hk
    · rename_i h
      have h' := not_lt.mp h
      refine ⟨rfl, .inl rfl, h', ?_, ?_⟩
      · rintro k (rfl | rfl)
        · exact le_refl _
        · exact h'
      · rintro k (rfl | rfl) hk
        · exact absurd rfl hk
        · exact le_refl _
  have := h0.step (k := z) (by rintro (h | h) <;> [exact hxz h.symm; exact hyz h.symm])
  exact this.congr (by intro k; tauto)

/-- The cache after a rebuild covering the arcs below `m`: three distinct arcs in order of reduced
cost, and `nb` between them and all the others. -/
def BestOK (rc : Nat → ℚ) (m : Nat) (s : List Nat × ℚ) : Prop :=
  ∃ x y z, s.1 = [x, y, z] ∧ x ≠ y ∧ x ≠ z ∧ y ≠ z ∧ x < m ∧ y < m ∧ z < m ∧
    rc x ≤ rc y ∧ rc y ≤ rc z ∧ rc z ≤ s.2 ∧ ∀ k, k < m → k ≠ x → k ≠ y → k ≠ z → s.2 ≤ rc k

theorem sortInsert3 (rc : Nat → ℚ) (a x y z : Nat) (h : rc a < rc z) :
    sortInsert rc a [x, y, z] numBest =
      if rc a < rc x then [a, x, y] else if rc a < rc y then [x, a, y] else [x, y, a] := by
  simp only [sortInsert, numBest, h, if_true]
  split
  · rfl
  · split
    · rfl
    · rfl

theorem insert_ok {rc : Nat → ℚ} {m x y z : Nat} {nb : ℚ} (hxy : x ≠ y) (hxz : x ≠ z) (hyz : y ≠ z)
    (hx : x < m) (hy : y < m) (hz : z < m) (h1 : rc x ≤ rc y) (h2 : rc y ≤ rc z)
    (h4 : ∀ k, k < m → k ≠ x → k ≠ y → k ≠ z → rc z ≤ rc k) (h : rc m < rc z) :
    BestOK rc (m + 1) (sortInsert rc m [x, y, z] numBest, rc z) := by
  rw [sortInsert3 _ _ _ _ _ h]
  have key : ∀ k, k < m + 1 → k ≠ m → k ≠ x → k ≠ y → rc z ≤ rc k := by
    intro k hk hm hkx hky
    by_cases hkz : k = z
    · subst hkz; exact le_refl _
    · exact h4 k (by omega) hkx hky hkz
  split
  · rename_i ha
    refine ⟨m, x, y, rfl, by omega, by omega, hxy, by omega, by omega, by omega, ha.le, h1, h2, ?_⟩
    intro k hk a b c; exact key k hk a b c
  · rename_i ha
    split
    · rename_i hb
      refine ⟨x, m, y, rfl, by omega, hxy, by omega, by omega, by omega, by omega, not_lt.mp ha, hb.le,
        h2, ?_⟩
      intro k hk a b c; exact key k hk b a c
    · rename_i hb
      refine ⟨x, y, m, rfl, hxy, by omega, by omega, by omega, by omega, by omega, h1, not_lt.mp hb,
        h.le, ?_⟩
      intro k hk a b c; exact key k hk c a b

theorem bestStep_ok {rc : Nat → ℚ} {m : Nat} {s : List Nat × ℚ} (h : BestOK rc m s) :
    BestOK rc (m + 1) (bestStep rc s m) := by
  obtain ⟨x, y, z, e, hxy, hxz, hyz, hx, hy, hz, h1, h2, h3, h4⟩ := h
  obtain ⟨best, nb⟩ := s
  simp only at e h3 h4
  subst e
  have hl : lastBest [x, y, z] = z := rfl
  unfold bestStep
  simp only [hl]
  split
  · rename_i hlt
    split
    · rename_i hlt2
      refine insert_ok (nb := nb) hxy hxz hyz hx hy hz h1 h2 ?_ hlt2
      intro k hk a b c; exact h3.trans (h4 k hk a b c)
    · rename_i hlt2
      refine ⟨x, y, z, rfl, hxy, hxz, hyz, by omega, by omega, by omega, h1, h2, not_lt.mp hlt2, ?_⟩
      intro k hk a b c
      by_cases hm : k = m
      · subst hm; exact le_refl _
      · exact hlt.le.trans (h4 k (by omega) a b c)
  · rename_i hlt
    refine ⟨x, y, z, rfl, hxy, hxz, hyz, by omega, by omega, by omega, h1, h2, h3, ?_⟩
    intro k hk a b c
    by_cases hm : k = m
    · subst hm; exact not_lt.mp hlt
    · exact h4 k (by omega) a b c

theorem initBest (rc : Nat → ℚ) : ∃ x y z,
    (List.range numBest).foldl (fun best i => sortInsert rc i best (i + 1)) [] = [x, y, z] ∧
    x ≠ y ∧ x ≠ z ∧ y ≠ z ∧ x < 3 ∧ y < 3 ∧ z < 3 ∧ rc x ≤ rc y ∧ rc y ≤ rc z := by
  simp only [numBest, show List.range 3 = [0, 1, 2] from rfl, List.foldl_cons, List.foldl_nil,
    sortInsert]
  by_cases h1 : rc 1 < rc 0
  · simp only [h1, if_true, List.take, sortInsert]
    by_cases h2 : rc 2 < rc 1
    · simp only [h2, if_true, List.take]
      exact ⟨2, 1, 0, rfl, by omega, by omega, by omega, by omega, by omega, by omega, h2.le, h1.le⟩
    · simp only [h2, if_false]
      by_cases h3 : rc 2 < rc 0
      · simp only [h3, if_true]
        exact ⟨1, 2, 0, rfl, by omega, by omega, by omega, by omega, by omega, by omega, not_lt.mp h2, h3.le⟩
      · simp only [h3, if_false]
        exact ⟨1, 0, 2, rfl, by omega, by omega, by omega, by omega, by omega, by omega, h1.le, not_lt.mp h3⟩
  · simp only [h1, if_false, sortInsert]
    by_cases h2 : rc 2 < rc 0
    · simp only [h2, if_true, List.take]
      exact ⟨2, 0, 1, rfl, by omega, by omega, by omega, by omega, by omega, by omega, h2.le, not_lt.mp h1⟩
    · simp only [h2, if_false]
      by_cases h3 : rc 2 < rc 1
      · simp only [h3, if_true]
        exact ⟨0, 2, 1, rfl, by omega, by omega, by omega, by omega, by omega, by omega, not_lt.mp h2, h3.le⟩
      · simp only [h3, if_false]
        exact ⟨0, 1, 2, rfl, by omega, by omega, by omega, by omega, by omega, by omega, not_lt.mp h1, not_lt.mp h3⟩

theorem bestBuild_ok (rc : Nat → ℚ) (deg : Nat) (hd : numBest + 1 ≤ deg) :
    BestOK rc deg (bestBuild rc deg) := by
  obtain ⟨x, y, z, e, hxy, hxz, hyz, hx, hy, hz, h1, h2⟩ := initBest rc
  unfold bestBuild
  simp only [e]
  have hl : lastBest [x, y, z] = z := rfl
  simp only [hl]
  have h3 : ∀ k, k < 3 → k ≠ x → k ≠ y → k ≠ z → False := by intro k hk a b c; omega
  have hfirst : BestOK rc (numBest + 1)
      (if rc numBest < rc z then (sortInsert rc numBest [x, y, z] numBest, rc z)
        else ([x, y, z], rc numBest)) := by
    split
    · rename_i hlt
      exact insert_ok (nb := 0) hxy hxz hyz hx hy hz h1 h2 (fun k hk a b c => (h3 k hk a b c).elim) hlt
    · rename_i hlt
      refine ⟨x, y, z, rfl, hxy, hxz, hyz, by simp only [numBest]; omega, by simp only [numBest]; omega,
        by simp only [numBest]; omega, h1, h2, not_lt.mp hlt, ?_⟩
      intro k hk a b c
      have : k = numBest := by
        by_contra hne
        exact h3 k (by simp only [numBest] at hk hne; omega) a b c
      subst this; exact le_refl _
  have key : ∀ n, BestOK rc (numBest + 1 + n) ((List.range' (numBest + 1) n).foldl (bestStep rc)
      (if rc numBest < rc z then (sortInsert rc numBest [x, y, z] numBest, rc z)
        else ([x, y, z], rc numBest))) := by
    intro n
    induction n with
    | zero => exact hfirst
    | succ n ih =>
      rw [List.range'_concat, List.foldl_append]
      simp only [List.foldl_cons, List.foldl_nil, Nat.one_mul]
      exact bestStep_ok ih
  have := key (deg - (numBest + 1))
  rw [show numBest + 1 + (deg - (numBest + 1)) = deg by omega] at this
  exact this

/-- What is kept of the cache while prices go down: three distinct arcs, every other arc costs at least
`nb`. -/
def CacheOK (rc : Nat → ℚ) (deg : Nat) (best : List Nat) (nb : ℚ) : Prop :=
  ∃ x y z, best = [x, y, z] ∧ x ≠ y ∧ x ≠ z ∧ y ≠ z ∧ x < deg ∧ y < deg ∧ z < deg ∧
    ∀ k, k < deg → k ≠ x → k ≠ y → k ≠ z → nb ≤ rc k

theorem CacheOK.mono {rc rc' : Nat → ℚ} {deg : Nat} {best : List Nat} {nb : ℚ}
    (h : CacheOK rc deg best nb) (hle : ∀ k, rc k ≤ rc' k) : CacheOK rc' deg best nb := by
  obtain ⟨x, y, z, e, h1, h2, h3, h4, h5, h6, h7⟩ := h
  exact ⟨x, y, z, e, h1, h2, h3, h4, h5, h6, fun k a b c d => (h7 k a b c d).trans (hle k)⟩

theorem BestOK.cache {rc : Nat → ℚ} {deg : Nat} {s : List Nat × ℚ} (h : BestOK rc deg s) :
    CacheOK rc deg s.1 s.2 := by
  obtain ⟨x, y, z, e, h1, h2, h3, h4, h5, h6, _, _, _, h7⟩ := h
  exact ⟨x, y, z, e, h1, h2, h3, h4, h5, h6, h7⟩

/-- Part I of `double_push` finds the minimum reduced cost over all arcs and a lower bound of the rest,
and keeps the cache valid. -/
theorem choose_ok (rc : Nat → ℚ) (deg : Nat) (eps po : ℚ) (best : List Nat) (nb : ℚ) (hd : 0 < deg)
    (he : 0 ≤ eps) (hpo : 0 ≤ po) (hc : ¬ deg < numBest + 1 → CacheOK rc deg best nb) :
    ScanOK rc (fun k => k < deg) (choose rc deg eps po best nb).1 ∧
    (¬ deg < numBest + 1 →
      CacheOK rc deg (choose rc deg eps po best nb).2.1 (choose rc deg eps po best nb).2.2) := by
  unfold choose
  by_cases hfew : deg < numBest + 1
  · rw [if_pos hfew]
    exact ⟨scanAll_ok rc deg eps po hd he hpo, fun h => absurd hfew h⟩
  · rw [if_neg hfew]
    by_cases hs : (scanBest rc best).second > nb
    · simp only [hs, if_true]
      have hb := bestBuild_ok rc deg (by omega)
      refine ⟨?_, fun _ => hb.cache⟩
      obtain ⟨x, y, z, e, hxy, hxz, hyz, hx, hy, hz, h1, h2, h3, h4⟩ := hb
      rw [e]
      refine ⟨rfl, hx, h1, ?_, ?_⟩
      · intro k hk
        by_cases a : k = x
        · subst a; exact le_refl _
        by_cases b : k = y
        · subst b; exact h1
        by_cases c : k = z
        · subst c; exact h1.trans h2
        · exact h1.trans (h2.trans (h3.trans (h4 k hk a b c)))
      · intro k hk (a : k ≠ x)
        change rc y ≤ rc k
        by_cases b : k = y
        · subst b; exact le_refl _
        by_cases c : k = z
        · subst c; exact h2
        · exact h2.trans (h3.trans (h4 k hk a b c))
    · simp only [hs, if_false]
      refine ⟨?_, hc⟩
      obtain ⟨x, y, z, e, hxy, hxz, hyz, hx, hy, hz, h4⟩ := hc hfew
      subst e
      obtain ⟨q1, q2, q3, q4, q5⟩ := scanBest_ok rc x y z hxy hxz hyz
      have hle := not_lt.mp hs
      refine ⟨q1, ?_, q3, ?_, ?_⟩
      · rcases q2 with h | h | h <;> rw [h] <;> assumption
      · intro k hk
        by_cases h : k = x ∨ k = y ∨ k = z
        · exact q4 k h
        · simp only [not_or] at h
          exact q3.trans (hle.trans (h4 k hk h.1 h.2.1 h.2.2))
      · intro k hk hne
        by_cases h : k = x ∨ k = y ∨ k = z
        · exact q5 k h hne
        · simp only [not_or] at h
          exact hle.trans (h4 k hk h.1 h.2.1 h.2.2)

end EdgeEval
