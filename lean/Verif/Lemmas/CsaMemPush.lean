import Verif.Lemmas.CsaMem

/-! # Memory-level solver: `double_push`, `refine` and the scaling loop -/

namespace EdgeEval.CsaMem

open EdgeEval

variable {adj : Nat → List Arc} {N : Nat}

/-! ## Part I of `double_push` -/

/-- A scan result with its arc as a pointer. -/
def toM (adj : Nat → List Arc) (v : Nat) (t : Scan) : ScanM := ⟨t.pref, t.second, off adj v + t.adm⟩

theorem scanStepM_ok {fl : ℚ → ℚ} {h : Heap} {p : Nat → ℚ} (st : Static adj N h) (hh : HeadLt adj N)
    (pr : ∀ w < N, h.price.Has w (p w)) {v k : Nat} (hv : v < N) (hk : k < (adj v).length) (t : Scan) :
    scanStepM fl h (off adj v + k) (toM adj v t) = .ok (toM adj v (scanStep (redCostF fl adj p v) t k)) := by
  unfold scanStepM
  rw [rcM_ok st hh pr hv hk, ok_bind]
  unfold scanStep toM
  dsimp only
  split
  · rfl
  · split <;> rfl

/-- `h'` is `h` where only the cache of node `v` may differ; it holds `L`, `nb` when `v` has many arcs. -/
def CacheSet (adj : Nat → List Arc) (v : Nat) (h h' : Heap) (L : List Nat) (nb : ℚ) : Prop :=
  ∃ b x, h' = { h with best := b, nextBest := x } ∧ b.size = h.best.size ∧ x.size = h.nextBest.size ∧
    (¬ (adj v).length < numBest + 1 → BestHas adj b v L ∧ x.Has v nb) ∧
    (∀ j y, (j < numBest * v ∨ numBest * v + numBest ≤ j) → h.best.Has j y → b.Has j y) ∧
    (∀ j y, j ≠ v → h.nextBest.Has j y → x.Has j y)

theorem CacheUpd.toSet {v : Nat} {h h' : Heap} {L : List Nat} {nb : ℚ} (c : CacheUpd adj v h h' L nb) :
    CacheSet adj v h h' L nb := by
  obtain ⟨b, x, e, h1, h2, h3, h4, h5, h6⟩ := c
  exact ⟨b, x, e, h1, h2, fun _ => ⟨h3, h4⟩, h5, h6⟩

theorem CacheSet.static {v : Nat} {h h' : Heap} {L : List Nat} {nb : ℚ} (c : CacheSet adj v h h' L nb) (st : Static adj N h) :
    Static adj N h' := by
  obtain ⟨b, x, rfl, h1, h2, _⟩ := c
  exact st.withCache h1 h2

theorem CacheSet.dyn {v : Nat} {h h' : Heap} {L : List Nat} {nb : ℚ} (c : CacheSet adj v h h' L nb) {s : CsaState}
    (d : Dyn adj N h s) (hidx : ∀ u < N, ¬ (adj u).length < numBest + 1 → IdxOK (adj u).length (s.best u)) :
    Dyn adj N h' { s with best := upd s.best v L, nextBest := upd s.nextBest v nb } := by
  obtain ⟨b, x, rfl, h1, h2, h3, h4, h5⟩ := c
  refine ⟨d.lm, d.rm, d.pr, ?_, ?_, d.top, d.stk, d.te⟩
  · intro u hu hm i y hy
    by_cases e : u = v
    · subst e
      simp only [upd, if_pos] at hy
      exact (h3 hm).1 i y hy
    · simp only [upd, if_neg e] at hy
      obtain ⟨x0, y0, z0, el, _⟩ := hidx u hu hm
      have hi : i < 3 := by
        by_contra hi
        rw [el, List.getElem?_eq_none (by simp; omega)] at hy
        cases hy
      exact h4 _ _ (by unfold numBest; omega) (d.bst u hu hm i y hy)
  · intro u hu hm
    by_cases e : u = v
    · subst e
      simp only [upd, if_pos]
      exact (h3 hm).2
    · simp only [upd, if_neg e]
      exact h5 u _ e (d.nb u hu hm)

theorem chooseFewM_ok {fl : ℚ → ℚ} {h : Heap} {p : Nat → ℚ} (st : Static adj N h) (hh : HeadLt adj N)
    (pr : ∀ w < N, h.price.Has w (p w)) {v : Nat} (hv : v < N) (hd0 : 0 < (adj v).length) (eps po : ℚ) :
    chooseFewM fl eps po v h = .ok (toM adj v (scanAllF fl (redCostF fl adj p v) (adj v).length eps po), h) := by
  unfold chooseFewM
  rw [(st.pout (v + 1) hv).rd, ok_bind, (st.first v hv).rd, ok_bind]
  have e0 := rcM_ok (fl := fl) st hh pr hv hd0
  rw [Nat.add_zero] at e0
  rw [e0, ok_bind]
  unfold forPtr
  have hoff : off adj (v + 1) = off adj v + (adj v).length := rfl
  rw [if_neg (by rw [hoff]; omega)]
  obtain ⟨s, e, hs⟩ := forLoop_inv (f := scanStepM fl h) (cnt := off adj (v + 1) - (off adj v + 1)) (lo := off adj v + 1)
    (s := ⟨redCostF fl adj p v 0, fl (redCostF fl adj p v 0 + fl (eps * fl (po + 1))), off adj v⟩)
    (fun i s => s = toM adj v ((List.range' 1 (i - (off adj v + 1))).foldl (scanStep (redCostF fl adj p v))
      ⟨redCostF fl adj p v 0, fl (redCostF fl adj p v 0 + fl (eps * fl (po + 1))), 0⟩))
    (by rw [Nat.sub_self]; rfl) (by
      rintro i s hi1 hi2 rfl
      obtain ⟨d, rfl⟩ : ∃ d, i = off adj v + (1 + d) := ⟨i - (off adj v + 1), by omega⟩
      rw [show off adj v + (1 + d) - (off adj v + 1) = d by omega, show off adj v + (1 + d) + 1 - (off adj v + 1) = d + 1 by omega]
      rw [List.range'_concat, List.foldl_append]
      refine ⟨_, scanStepM_ok st hh pr hv (by omega) _, ?_⟩
      simp)
  rw [e, ok_bind, hs]
  rw [show off adj v + 1 + (off adj (v + 1) - (off adj v + 1)) - (off adj v + 1) = (adj v).length - 1 by omega]
  rfl

theorem chooseBestM_ok {fl : ℚ → ℚ} {h : Heap} {p : Nat → ℚ} (st : Static adj N h) (hh : HeadLt adj N)
    (pr : ∀ w < N, h.price.Has w (p w)) {v : Nat} (hv : v < N) {L : List Nat} (hL : IdxOK (adj v).length L)
    (hb : BestHas adj h.best v L) : chooseBestM fl v h = .ok (toM adj v (scanBest (redCostF fl adj p v) L)) := by
  obtain ⟨x, y, z, rfl, _, _, _, hx, hy, hz⟩ := hL
  unfold chooseBestM
  rw [bestRd_ok (by decide) (hb 1 y rfl), ok_bind, rcM_ok st hh pr hv hy, ok_bind, bestRd_ok (by decide) (hb 0 x rfl), ok_bind,
    rcM_ok st hh pr hv hx, ok_bind, bestRd_ok (by decide) (hb 2 z rfl), ok_bind]
  have e : (if redCostF fl adj p v x > redCostF fl adj p v y then
      (⟨redCostF fl adj p v y, redCostF fl adj p v x, off adj v + y⟩ : ScanM)
      else ⟨redCostF fl adj p v x, redCostF fl adj p v y, off adj v + x⟩) =
      toM adj v (if redCostF fl adj p v x > redCostF fl adj p v y then ⟨redCostF fl adj p v y, redCostF fl adj p v x, y⟩
        else ⟨redCostF fl adj p v x, redCostF fl adj p v y, x⟩) := by
    split <;> rfl
  rw [e, scanStepM_ok st hh pr hv hz]
  rfl

theorem chooseBuiltM_ok {fl : ℚ → ℚ} {h : Heap} {p : Nat → ℚ} (st : Static adj N h) (hh : HeadLt adj N)
    (pr : ∀ w < N, h.price.Has w (p w)) {v : Nat} (hv : v < N) (hdeg : numBest + 1 ≤ (adj v).length) :
    ∃ h', chooseBuiltM fl v h = .ok (toM adj v
        ⟨redCostF fl adj p v ((bestBuild (redCostF fl adj p v) (adj v).length).1.getD 0 0),
          redCostF fl adj p v ((bestBuild (redCostF fl adj p v) (adj v).length).1.getD 1 0),
          (bestBuild (redCostF fl adj p v) (adj v).length).1.getD 0 0⟩, h') ∧
      CacheUpd adj v h h' (bestBuild (redCostF fl adj p v) (adj v).length).1 (bestBuild (redCostF fl adj p v) (adj v).length).2 := by
  obtain ⟨h1, e1, cu⟩ := bestBuildM_ok (fl := fl) st hh pr hv hdeg
  obtain ⟨x, y, z, e, _, _, _, hx, hy, hz⟩ := (bestBuild_ok (redCostF fl adj p v) (adj v).length hdeg).cache.idx
  refine ⟨h1, ?_, cu⟩
  have st1 := cu.toSet.static st
  have pr1 : ∀ w < N, h1.price.Has w (p w) := by
    obtain ⟨_, _, rfl, _⟩ := cu
    exact pr
  obtain ⟨_, _, rfl, _, _, hB, _⟩ := cu
  rw [e] at hB
  unfold chooseBuiltM
  rw [e1, ok_bind, bestRd_ok (by decide) (hB 1 y rfl), ok_bind, rcM_ok st1 hh pr1 hv hy, ok_bind,
    bestRd_ok (by decide) (hB 0 x rfl), ok_bind, rcM_ok st1 hh pr1 hv hx, ok_bind, e]
  rfl

theorem chooseM_ok {fl : ℚ → ℚ} {h : Heap} {s : CsaState} (st : Static adj N h) (hh : HeadLt adj N) (d : Dyn adj N h s)
    (hidx : ∀ u < N, ¬ (adj u).length < numBest + 1 → IdxOK (adj u).length (s.best u)) {v : Nat} (hv : v < N)
    (hd0 : 0 < (adj v).length) (eps po : ℚ) :
    ∃ h', chooseM fl eps po v h = .ok (toM adj v
        (chooseF fl (redCostF fl adj s.p v) (adj v).length eps po (s.best v) (s.nextBest v)).1, h') ∧
      CacheSet adj v h h' (chooseF fl (redCostF fl adj s.p v) (adj v).length eps po (s.best v) (s.nextBest v)).2.1
        (chooseF fl (redCostF fl adj s.p v) (adj v).length eps po (s.best v) (s.nextBest v)).2.2 := by
  unfold chooseM
  rw [(st.few v hv).rd, ok_bind]
  unfold chooseF
  by_cases hfew : (adj v).length < numBest + 1
  · rw [if_pos hfew, if_pos (by simpa using hfew), chooseFewM_ok st hh d.pr hv hd0]
    exact ⟨h, rfl, h.best, h.nextBest, rfl, rfl, rfl, fun hn => absurd hfew hn, fun j y _ hy => hy, fun j y _ hy => hy⟩
  · rw [if_neg hfew, if_neg (by simpa using hfew), chooseBestM_ok st hh d.pr hv (hidx v hv hfew) (d.bst v hv hfew), ok_bind,
      (d.nb v hv hfew).rd, ok_bind]
    by_cases hs : (scanBest (redCostF fl adj s.p v) (s.best v)).second > s.nextBest v
    · obtain ⟨h1, e1, cu⟩ := chooseBuiltM_ok (fl := fl) st hh d.pr hv (by omega)
      rw [if_pos (show (toM adj v (scanBest (redCostF fl adj s.p v) (s.best v))).second > s.nextBest v from hs)]
      simp only [if_pos hs]
      exact ⟨h1, e1, cu.toSet⟩
    · rw [if_neg (show ¬ (toM adj v (scanBest (redCostF fl adj s.p v) (s.best v))).second > s.nextBest v from hs)]
      simp only [if_neg hs]
      exact ⟨h, rfl, h.best, h.nextBest, rfl, rfl, rfl, fun hn => ⟨d.bst v hv hn, d.nb v hv hn⟩, fun j y _ hy => hy,
        fun j y _ hy => hy⟩

end EdgeEval.CsaMem
