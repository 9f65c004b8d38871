import Verif.Lemmas.CsaMemParse

/-! # Memory-level solver: results and the whole run -/

namespace EdgeEval.CsaMem

open EdgeEval

variable {adj : Nat → List Arc} {N : Nat}

/-- The output arc of left node `v` matched through its arc `k`. -/
def outArc (adj : Nat → List Arc) (N v k : Nat) : InArc := ⟨v + 1, (arcAt adj v k).head + 1 + N, (arcAt adj v k).cost⟩

theorem storeArc_ok {h : Heap} {s : CsaState} (st : Static adj N h) (d : Dyn adj N h s) {v k : Nat} (hv : v < N)
    (hk : k < (adj v).length) (hm : s.mL v = some k) {r : Result} (ha : v < r.a.size) (hb : v < r.b.size) (hc : v < r.c.size) :
    storeArc N h v r = .ok ⟨r.a.set v (v + 1), r.b.set v ((arcAt adj v k).head + 1 + N), r.c.set v (arcAt adj v k).cost⟩ := by
  unfold storeArc
  have hl := d.lm v hv
  rw [hm] at hl
  rw [hl.rd, ok_bind]
  show (deref (some (off adj v + k)) >>= _) = _
  unfold deref
  dsimp only
  rw [ok_bind, (st.arcs v hv k hk).rd, ok_bind, Blk.wr_eq hc, ok_bind, Blk.wr_eq ha, ok_bind, Blk.wr_eq hb, ok_bind]

theorem storeArc_null {h : Heap} {s : CsaState} (d : Dyn adj N h s) {v : Nat} (hv : v < N) (hm : s.mL v = none) (r : Result) :
    storeArc N h v r = .error .nullPointer := by
  unfold storeArc
  have hl := d.lm v hv
  rw [hm] at hl
  rw [hl.rd, ok_bind]
  rfl

/-- The result blocks hold the output arcs below `i`. -/
structure OutInv (N : Nat) (out : Nat → InArc) (i : Nat) (r : Result) : Prop where
  sz : r.a.size = N ∧ r.b.size = N ∧ r.c.size = N
  a : ∀ v < i, r.a.Has v ((out v).tail : Int)
  b : ∀ v < i, r.b.Has v ((out v).head : Int)
  c : ∀ v < i, r.c.Has v (out v).cost

theorem readEdges_ok {out : Nat → InArc} {r : Result} (inv : OutInv N out N r) (cnt i : Nat) (hi : i + cnt ≤ N) :
    readEdges r cnt i = .ok ((List.range' i cnt).map fun v => triple (out v)) := by
  induction cnt generalizing i with
  | zero => rfl
  | succ cnt ih =>
    unfold readEdges
    rw [(inv.a i (by omega)).rd, ok_bind, (inv.b i (by omega)).rd, ok_bind, (inv.c i (by omega)).rd, ok_bind, ih (i + 1) (by omega), ok_bind]
    rfl

theorem storeM_ok {h : Heap} {s : CsaState} (st : Static adj N h) (d : Dyn adj N h s) {f : Nat → Nat}
    (hf : ∀ v < N, s.mL v = some (f v)) (hk : ∀ v < N, f v < (adj v).length) :
    ∃ r, forLoop (storeArc N h) N 0 ⟨malloc Int N, malloc Int N, malloc Int N⟩ = .ok r ∧
      OutInv N (fun v => outArc adj N v (f v)) N r := by
  obtain ⟨r, e, inv⟩ := forLoop_inv (f := storeArc N h) (cnt := N) (lo := 0) (s := ⟨malloc Int N, malloc Int N, malloc Int N⟩)
    (fun i r => OutInv N (fun v => outArc adj N v (f v)) i r)
    ⟨⟨rfl, rfl, rfl⟩, fun v hv => by omega, fun v hv => by omega, fun v hv => by omega⟩ (by
      rintro i r - hi inv
      rw [Nat.zero_add] at hi
      obtain ⟨z1, z2, z3⟩ := inv.sz
      have k1 : i < r.a.size := by omega
      have k2 : i < r.b.size := by omega
      have k3 : i < r.c.size := by omega
      refine ⟨_, storeArc_ok st d hi (hk i hi) (hf i hi) k1 k2 k3, ⟨z1, z2, z3⟩, ?_, ?_, ?_⟩
      · intro v hv
        rcases Nat.lt_succ_iff_lt_or_eq.1 hv with h1 | h1
        · exact Blk.has_set_ne (by omega) (inv.a v h1)
        · subst h1
          have := Blk.has_set k1 ((v : Int) + 1)
          simpa [outArc] using this
      · intro v hv
        rcases Nat.lt_succ_iff_lt_or_eq.1 hv with h1 | h1
        · exact Blk.has_set_ne (by omega) (inv.b v h1)
        · subst h1
          have := Blk.has_set k2 (((arcAt adj v (f v)).head : Int) + 1 + N)
          simpa [outArc] using this
      · intro v hv
        rcases Nat.lt_succ_iff_lt_or_eq.1 hv with h1 | h1
        · exact Blk.has_set_ne (by omega) (inv.c v h1)
        · subst h1
          exact Blk.has_set k3 _)
  rw [Nat.zero_add] at inv
  exact ⟨r, e, inv⟩

theorem storeResults_all {s : CsaState} {f : Nat → Nat} (hf : ∀ v < N, s.mL v = some (f v)) :
    storeResults adj N s = some ((List.range N).map fun v => outArc adj N v (f v)) := by
  unfold storeResults
  have : ∀ l : List Nat, (∀ v ∈ l, v < N) → (l.mapM fun (v : Nat) => (s.mL v).map fun k =>
      (⟨v + 1, (arcAt adj v k).head + 1 + N, (arcAt adj v k).cost⟩ : InArc)) = some (l.map fun v => outArc adj N v (f v)) := by
    intro l hl
    induction l with
    | nil => rfl
    | cons a l ih =>
      rw [List.mapM_cons, hf a (hl a List.mem_cons_self), ih (fun v hv => hl v (List.mem_cons_of_mem _ hv))]
      rfl
  exact this _ (fun v hv => List.mem_range.1 hv)

theorem forLoop_fail {σ : Type} (P : Nat → σ → Prop) {f : Nat → σ → Except MErr σ} {cnt lo j : Nat} {s : σ} {err : MErr} (h0 : P lo s)
    (hj : lo ≤ j) (hj2 : j < lo + cnt)
    (hs : ∀ i s, lo ≤ i → i < j → P i s → ∃ s', f i s = .ok s' ∧ P (i + 1) s') (hf : ∀ s, P j s → f j s = .error err) :
    forLoop f cnt lo s = .error err := by
  induction cnt generalizing lo s with
  | zero => omega
  | succ cnt ih =>
    show (f lo s >>= fun s => forLoop f cnt (lo + 1) s) = _
    by_cases e : lo = j
    · subst e
      rw [hf s h0, error_bind]
    · obtain ⟨s1, e1, h1⟩ := hs lo s (le_refl _) (by omega) h0
      rw [e1, ok_bind]
      exact ih h1 (by omega) (by omega) (fun i s a b => hs i s (by omega) b)

/-- What the memory-level run gives, in terms of the abstract one. -/
theorem solve_eq {N : Nat} {g : List InArc} (hg : WellFormedGraph N g) (hne : ∀ v < N, adjOf N g v ≠ []) (fl : ℚ → ℚ) (fuel : Nat) :
    solve fl fuel (2 * N) g.length (graphBlk g) =
      match csaRunF fl fuel (2 * N) g with
      | none => .error .outOfFuel
      | some s =>
        match storeResults (adjOf N g) N s with
        | none => .error .nullPointer
        | some out => .ok (out.map triple) := by
  have e2 : 2 * N / 2 = N := by omega
  have hh := adjOf_headLt hg
  obtain ⟨h0, e0, ps⟩ := parse_ok hg
  obtain ⟨h1, e1, st1, d1⟩ := initBest_ok (fl := fl) hh ps
  have idle := csaInitF_idle fl (adjOf N g) N
  have hm := mainLoopM_ok (fl := fl) (po := poF fl (2 * N)) (minEps := minEpsF fl (2 * N)) hh hne fuel fuel (fl (csaMaxCost g)) h1 _ st1 d1 idle
  unfold solve
  rw [e0, ok_bind]
  dsimp only
  rw [e2, e1, ok_bind, csaRunF_unfold hg]
  cases hF : mainLoopF fl (adjOf N g) N (poF fl (2 * N)) (minEpsF fl (2 * N)) fuel fuel (fl (csaMaxCost g)) (csaInitF fl (adjOf N g)) with
  | none =>
    rw [hF] at hm
    have hm' : mainLoopM fl N (poF fl (2 * N)) (minEpsF fl (2 * N)) fuel fuel (fl (csaMaxCost g)) h1 = .error .outOfFuel := hm
    rw [hm', error_bind]
  | some s =>
    rw [hF] at hm
    obtain ⟨h2, e2', st2, d2⟩ := hm
    rw [e2', ok_bind]
    dsimp only
    have idle' := mainLoopF_cons fuel fuel _ _ _ idle hF
    by_cases hall : ∀ v < N, ∃ k, s.mL v = some k
    · choose! f hf using hall
      obtain ⟨r, er, inv⟩ := storeM_ok st2 d2 hf (fun v hv => (idle'.mLR v _ (hf v hv)).2.1)
      rw [er, ok_bind]
      rw [readEdges_ok inv N 0 (by omega), storeResults_all hf, ← List.range_eq_range']
      simp
    · push Not at hall
      have hnone : ∃ j, j < N ∧ s.mL j = none ∧ ∀ i < j, s.mL i ≠ none := by
        classical
        have hex : ∃ v, v < N ∧ s.mL v = none := by
          obtain ⟨v, hv, hk⟩ := hall
          refine ⟨v, hv, ?_⟩
          cases hm : s.mL v with
          | none => rfl
          | some k => exact absurd hm (hk k)
        refine ⟨Nat.find hex, (Nat.find_spec hex).1, (Nat.find_spec hex).2, ?_⟩
        intro i hi hin
        exact Nat.find_min hex hi ⟨by have := (Nat.find_spec hex).1; omega, hin⟩
      obtain ⟨j, hj, hjn, hmin⟩ := hnone
      have hfail : forLoop (storeArc N h2) N 0 ⟨malloc Int N, malloc Int N, malloc Int N⟩ = .error .nullPointer := by
        refine forLoop_fail (j := j) (fun i r => r.a.size = N ∧ r.b.size = N ∧ r.c.size = N) ⟨rfl, rfl, rfl⟩ (by omega) (by omega) ?_ ?_
        · rintro i r - hi ⟨z1, z2, z3⟩
          obtain ⟨k, hk⟩ := Option.ne_none_iff_exists'.1 (hmin i hi)
          exact ⟨_, storeArc_ok st2 d2 (by omega) (idle'.mLR i k hk).2.1 hk (by omega) (by omega) (by omega), z1, z2, z3⟩
        · intro r _
          exact storeArc_null d2 hj hjn r
      have hst : storeResults (adjOf N g) N s = none := by
        cases hs : storeResults (adjOf N g) N s with
        | none => rfl
        | some out =>
          obtain ⟨k, hk⟩ := storeResults_matched hs j hj
          rw [hjn] at hk
          cases hk
      rw [hfail, error_bind, hst]

/-- An arc that leaves the graph is refused. -/
theorem parse_bad {N : Nat} {g : List InArc} (hg : ¬ WellFormedGraph N g) :
    parse (2 * N) g.length (graphBlk g) = .error .parseError := by
  classical
  have e2 : 2 * N / 2 = N := by omega
  have e3 : 2 * N - N = N := by omega
  unfold WellFormedGraph at hg
  push Not at hg
  have hex : ∃ i, ∃ h : i < g.length, ¬ (1 ≤ (g[i]).tail ∧ (g[i]).tail ≤ N ∧ N + 1 ≤ (g[i]).head ∧ (g[i]).head ≤ 2 * N) := by
    obtain ⟨a, ha, hb⟩ := hg
    obtain ⟨i, hi, rfl⟩ := List.getElem_of_mem ha
    exact ⟨i, hi, fun h => by have := hb h.1 h.2.1 h.2.2.1; omega⟩
  obtain ⟨hjl, hjb⟩ := Nat.find_spec hex
  have hmin : ∀ i, i < Nat.find hex → (h : i < g.length) → 1 ≤ (g[i]).tail ∧ (g[i]).tail ≤ N ∧ N + 1 ≤ (g[i]).head ∧ (g[i]).head ≤ 2 * N := by
    intro i hi h
    by_contra hc
    exact Nat.find_min hex hi ⟨h, hc⟩
  generalize Nat.find hex = j at hjl hjb hmin
  unfold parse
  dsimp only
  rw [e2, e3]
  obtain ⟨dg, ed, hdsz, hd⟩ := forLoop_inv (f := fun t (d : Blk Nat) => d.wr t 0) (cnt := N) (lo := 0) (s := malloc Nat N)
    (fun i d => d.size = N ∧ ∀ t < i, ∃ y, d.Has t y) ⟨rfl, fun t ht => by omega⟩ (by
      rintro i d - hi ⟨hs, hd⟩
      rw [Nat.zero_add] at hi
      refine ⟨_, Blk.wr_eq (by rw [hs]; exact hi) 0, hs, ?_⟩
      intro t ht
      rcases Nat.lt_succ_iff_lt_or_eq.1 ht with h1 | h1
      · obtain ⟨y, hy⟩ := hd t h1
        exact ⟨y, Blk.has_set_ne (by omega) hy⟩
      · subst h1; exact ⟨0, Blk.has_set (by rw [hs]; exact hi) _⟩)
  rw [ed, ok_bind]
  rw [Nat.zero_add] at hd
  have hfail : forLoop (readArc (2 * N) N (graphBlk g)) g.length 0 ⟨malloc TempArc g.length, 0, dg, 0⟩ = .error .parseError := by
    refine forLoop_fail (j := j) (fun i st => st.temp.size = g.length ∧ st.tempA = i ∧ ∀ t < N, ∃ y, st.degree.Has t y)
      ⟨rfl, rfl, hd⟩ (by omega) (by omega) ?_ ?_
    · rintro i st - hi ⟨hs, hp, hdg⟩
      have hi' : i < g.length := by omega
      obtain ⟨g1, g2, g3⟩ := graphBlk_has hi'
      obtain ⟨w1, w2, w3, w4⟩ := hmin i hi hi'
      unfold readArc
      rw [g1.rd, ok_bind, g2.rd, ok_bind, g3.rd, ok_bind]
      dsimp only
      rw [if_neg (by push Not; refine ⟨by omega, by omega, by omega, by omega⟩)]
      have et : (((g[i]).tail : Int) - 1).toNat = (g[i]).tail - 1 := by omega
      have hsz : st.tempA < st.temp.size := by omega
      obtain ⟨y, hy⟩ := hdg ((g[i]).tail - 1) (by omega)
      rw [et, Blk.wr_eq hsz, ok_bind, hy.rd, ok_bind, hy.wr, ok_bind]
      refine ⟨_, rfl, hs, by show st.tempA + 1 = i + 1; omega, ?_⟩
      intro t ht
      by_cases e : t = (g[i]).tail - 1
      · subst e; exact ⟨_, Blk.has_set hy.1 _⟩
      · obtain ⟨z, hz⟩ := hdg t ht
        exact ⟨z, Blk.has_set_ne e hz⟩
    · intro st _
      obtain ⟨g1, g2, g3⟩ := graphBlk_has hjl
      unfold readArc
      rw [g1.rd, ok_bind, g2.rd, ok_bind, g3.rd, ok_bind]
      dsimp only
      rw [if_pos]
      by_contra hc
      push Not at hc
      obtain ⟨c1, c2, c3, c4⟩ := hc
      exact hjb ⟨by omega, by omega, by omega, by omega⟩
  rw [hfail, error_bind]

end EdgeEval.CsaMem
