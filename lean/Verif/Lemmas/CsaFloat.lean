import Verif.Model.CsaFloat
import Verif.Lemmas.CsaMain

/-!
# The solver with rounding: the matching

Nothing here depends on the rounding: for every function `fl` the two matched pointers describe one partial matching by
arcs of the graph.
-/

namespace EdgeEval

/-- Three distinct arcs of a node with `deg` arcs. -/
def IdxOK (deg : Nat) (best : List Nat) : Prop :=
  ∃ x y z, best = [x, y, z] ∧ x ≠ y ∧ x ≠ z ∧ y ≠ z ∧ x < deg ∧ y < deg ∧ z < deg

theorem CacheOK.idx {rc : Nat → ℚ} {deg : Nat} {best : List Nat} {nb : ℚ} (h : CacheOK rc deg best nb) :
    IdxOK deg best := by
  obtain ⟨x, y, z, e, h1, h2, h3, h4, h5, h6, _⟩ := h
  exact ⟨x, y, z, e, h1, h2, h3, h4, h5, h6⟩

/-- Invariant of a refine phase that does not mention prices. -/
structure Cons (adj : Nat → List Arc) (N : Nat) (s : CsaState) : Prop where
  mLR : ∀ v k, s.mL v = some k → v < N ∧ k < (adj v).length ∧ s.mR (hd adj v k) = some v
  mRL : ∀ w v, s.mR w = some v → ∃ k, s.mL v = some k ∧ hd adj v k = w
  act : ∀ v, v ∈ s.active ↔ v < N ∧ s.mL v = none
  nodup : s.active.Nodup
  excess : s.totalE = s.active.length
  idx : ∀ v, v < N → ¬ (adj v).length < numBest + 1 → IdxOK (adj v).length (s.best v)

/-- Invariant between phases. -/
structure IdleC (adj : Nat → List Arc) (N : Nat) (s : CsaState) : Prop where
  mLR : ∀ v k, s.mL v = some k → v < N ∧ k < (adj v).length ∧ s.mR (hd adj v k) = some v
  mRL : ∀ w v, s.mR w = some v → ∃ k, s.mL v = some k ∧ hd adj v k = w
  act : s.active = []
  idx : ∀ v, v < N → ¬ (adj v).length < numBest + 1 → IdxOK (adj v).length (s.best v)

theorem Cons.idle {adj N s} (inv : Cons adj N s) (h : s.totalE = 0) : IdleC adj N s :=
  ⟨inv.mLR, inv.mRL, List.length_eq_zero_iff.mp (inv.excess ▸ h), inv.idx⟩

theorem csaInitF_idle (fl : ℚ → ℚ) (adj : Nat → List Arc) (N : Nat) : IdleC adj N (csaInitF fl adj) := by
  refine ⟨by simp [csaInitF], by simp [csaInitF], rfl, ?_⟩
  intro v _ hfew
  simp only [csaInitF, if_neg hfew]
  exact (bestBuild_ok _ _ (by omega)).cache.idx

theorem refineInit_effect {adj N s} (h : IdleC adj N s) :
    (∀ v, (refineInit adj N s).mL v = none) ∧ (∀ w, (refineInit adj N s).mR w = none) ∧
    (refineInit adj N s).active = (List.range N).reverse ∧ (refineInit adj N s).totalE = N ∧
    (refineInit adj N s).p = s.p ∧ (refineInit adj N s).best = s.best ∧
    (refineInit adj N s).nextBest = s.nextBest := by
  obtain ⟨h1, h2, h3, h4⟩ := h
  have key : ∀ m, ∀ s' : CsaState, s' = (List.range m).foldl (refineInitStep adj) { s with totalE := 0 } →
      (∀ v, s'.mL v = if v < m then none else s.mL v) ∧
      (∀ w v, s'.mR w = some v → m ≤ v ∧ s.mR w = some v) ∧
      s'.active = (List.range m).reverse ∧ s'.totalE = m ∧
      s'.p = s.p ∧ s'.best = s.best ∧ s'.nextBest = s.nextBest := by
    intro m
    induction m with
    | zero =>
      rintro s' rfl
      exact ⟨by simp, by simp, by simp [h3], rfl, rfl, rfl, rfl⟩
    | succ m ih =>
      rintro s' rfl
      obtain ⟨a1, a2, a3, a4, a5, a6, a7⟩ := ih _ rfl
      rw [List.range_succ, List.foldl_append]
      simp only [List.foldl_cons, List.foldl_nil]
      generalize (List.range m).foldl (refineInitStep adj) { s with totalE := 0 } = t at *
      unfold refineInitStep
      cases hm : t.mL m with
      | none =>
        simp only
        refine ⟨?_, ?_, by simp [a3], by simp [a4], a5, a6, a7⟩
        · intro v
          rw [a1 v]
          by_cases hv : v < m
          · rw [if_pos hv, if_pos (by omega)]
          · rw [if_neg hv]
            by_cases hvm : v = m
            · subst hvm
              rw [if_pos (by omega)]
              rw [a1, if_neg (lt_irrefl _)] at hm
              exact hm
            · rw [if_neg (by omega)]
        · intro w v hw
          obtain ⟨b1, b2⟩ := a2 w v hw
          refine ⟨?_, b2⟩
          by_contra hlt
          have hvm : v = m := by omega
          subst hvm
          obtain ⟨k, hk, _⟩ := h2 w v b2
          rw [a1, if_neg (lt_irrefl _), hk] at hm; cases hm
      | some k =>
        simp only
        have hsm : s.mL m = some k := by rw [a1, if_neg (lt_irrefl _)] at hm; exact hm
        refine ⟨?_, ?_, by simp [a3], by simp [a4], a5, a6, a7⟩
        · intro v
          simp only [upd]
          by_cases hvm : v = m
          · subst hvm; rw [if_pos rfl, if_pos (by omega)]
          · rw [if_neg hvm, a1 v]
            by_cases hv : v < m
            · rw [if_pos hv, if_pos (by omega)]
            · rw [if_neg hv, if_neg (by omega)]
        · intro w v hw
          simp only [upd] at hw
          split at hw
          · cases hw
          · rename_i hne
            obtain ⟨b1, b2⟩ := a2 w v hw
            refine ⟨?_, b2⟩
            by_contra hlt
            have hvm : v = m := by omega
            subst hvm
            obtain ⟨k', hk', hk''⟩ := h2 w v b2
            rw [hsm] at hk'; cases hk'
            exact hne hk''.symm
  obtain ⟨a1, a2, a3, a4, a5, a6, a7⟩ := key N (refineInit adj N s) rfl
  have hL : ∀ v, (refineInit adj N s).mL v = none := by
    intro v
    rw [a1]
    split
    · rfl
    · rename_i hv
      cases hm : s.mL v with
      | none => rfl
      | some k => exact absurd (h1 v k hm).1 hv
  have hR : ∀ w, (refineInit adj N s).mR w = none := by
    intro w
    cases hm : (refineInit adj N s).mR w with
    | none => rfl
    | some v =>
      obtain ⟨b1, b2⟩ := a2 w v hm
      obtain ⟨k, hk, _⟩ := h2 w v b2
      exact absurd (h1 v k hk).1 (by omega)
  exact ⟨hL, hR, a3, a4, a5, a6, a7⟩

theorem refineInit_cons {adj N s} (h : IdleC adj N s) : Cons adj N (refineInit adj N s) := by
  obtain ⟨hL, hR, a3, a4, a5, a6, a7⟩ := refineInit_effect h
  refine ⟨?_, ?_, ?_, ?_, ?_, ?_⟩
  · intro v k h; rw [hL] at h; cases h
  · intro w v h; rw [hR] at h; cases h
  · intro v; rw [a3, hL]; simp
  · rw [a3]; exact List.nodup_reverse.mpr List.nodup_range
  · rw [a4, a3]; simp
  · intro v hv hfew; rw [a6]; exact h.idx v hv hfew

theorem scanFold_adm (rc : Nat → ℚ) (deg : Nat) (s : Scan) (hs : s.adm < deg) (l : List Nat) (hl : ∀ k ∈ l, k < deg) :
    (l.foldl (scanStep rc) s).adm < deg := by
  induction l generalizing s with
  | nil => exact hs
  | cons a l ih =>
    simp only [List.foldl_cons]
    refine ih _ ?_ (fun k hk => hl k (List.mem_cons_of_mem _ hk))
    unfold scanStep
    split
    · exact hl a List.mem_cons_self
    · split
      · exact hs
      · exact hs

theorem chooseF_idx (fl : ℚ → ℚ) (rc : Nat → ℚ) (deg : Nat) (eps po : ℚ) (best : List Nat) (nb : ℚ) (hd : 0 < deg)
    (hc : ¬ deg < numBest + 1 → IdxOK deg best) :
    (chooseF fl rc deg eps po best nb).1.adm < deg ∧
    (¬ deg < numBest + 1 → IdxOK deg (chooseF fl rc deg eps po best nb).2.1) := by
  unfold chooseF
  by_cases hfew : deg < numBest + 1
  · rw [if_pos hfew]
    refine ⟨?_, fun h => absurd hfew h⟩
    unfold scanAllF
    refine scanFold_adm rc deg _ hd _ ?_
    intro k hk
    simp only [List.mem_range'_1] at hk
    omega
  · rw [if_neg hfew]
    by_cases hs : (scanBest rc best).second > nb
    · simp only [hs, if_true]
      have hb := bestBuild_ok rc deg (by omega)
      refine ⟨?_, fun _ => hb.cache.idx⟩
      obtain ⟨x, y, z, e, _, _, _, hx, _⟩ := hb
      rw [e]; exact hx
    · simp only [hs, if_false]
      refine ⟨?_, hc⟩
      obtain ⟨x, y, z, e, hxy, hxz, hyz, hx, hy, hz⟩ := hc hfew
      subst e
      rcases (scanBest_ok rc x y z hxy hxz hyz).mem with h | h | h <;> rw [h] <;> assumption

/-- What a double push does: node `v` takes arc `k`, the price of its head becomes `pw`. -/
def pushTo (adj : Nat → List Arc) (v k : Nat) (pw : ℚ) (best : List Nat) (nb : ℚ) (s : CsaState) : CsaState :=
  match s.mR (hd adj v k) with
  | some u => ⟨upd s.p (hd adj v k) pw, upd (upd s.mL u none) v (some k), upd s.mR (hd adj v k) (some v),
      upd s.best v best, upd s.nextBest v nb, u :: s.active, s.totalE⟩
  | none => ⟨upd s.p (hd adj v k) pw, upd s.mL v (some k), upd s.mR (hd adj v k) (some v),
      upd s.best v best, upd s.nextBest v nb, s.active, s.totalE - 1⟩

theorem doublePushF_eq (fl : ℚ → ℚ) (adj : Nat → List Arc) (eps po : ℚ) (v : Nat) (s : CsaState) :
    doublePushF fl adj eps po v s =
      let c := chooseF fl (redCostF fl adj s.p v) (adj v).length eps po (s.best v) (s.nextBest v)
      pushTo adj v c.1.adm (fl (s.p (hd adj v c.1.adm) - fl (fl (c.1.second - c.1.pref) + eps))) c.2.1 c.2.2 s := by
  unfold doublePushF pushTo hd
  rcases hch : chooseF fl (redCostF fl adj s.p v) (adj v).length eps po (s.best v) (s.nextBest v) with ⟨sc, best', nb'⟩
  simp only [hch]
  cases s.mR (arcAt adj v sc.adm).head <;> rfl

theorem pushTo_p (adj : Nat → List Arc) (v k : Nat) (pw : ℚ) (best : List Nat) (nb : ℚ) (s : CsaState) :
    (pushTo adj v k pw best nb s).p = upd s.p (hd adj v k) pw := by
  unfold pushTo; split <;> rfl
theorem pushTo_best (adj : Nat → List Arc) (v k : Nat) (pw : ℚ) (best : List Nat) (nb : ℚ) (s : CsaState) :
    (pushTo adj v k pw best nb s).best = upd s.best v best := by
  unfold pushTo; split <;> rfl
theorem pushTo_nextBest (adj : Nat → List Arc) (v k : Nat) (pw : ℚ) (best : List Nat) (nb : ℚ) (s : CsaState) :
    (pushTo adj v k pw best nb s).nextBest = upd s.nextBest v nb := by
  unfold pushTo; split <;> rfl
theorem pushTo_mR (adj : Nat → List Arc) (v k : Nat) (pw : ℚ) (best : List Nat) (nb : ℚ) (s : CsaState) :
    (pushTo adj v k pw best nb s).mR = upd s.mR (hd adj v k) (some v) := by
  unfold pushTo; split <;> rfl

/-- After a push, a node is matched by the arc it had before, or is the pushed node. -/
theorem pushTo_mL {adj : Nat → List Arc} {N : Nat} {v k : Nat} {pw : ℚ} {best : List Nat} {nb : ℚ} {s : CsaState}
    (h1 : ∀ v k, s.mL v = some k → v < N ∧ k < (adj v).length ∧ s.mR (hd adj v k) = some v)
    {x j : Nat} (hx : (pushTo adj v k pw best nb s).mL x = some j) :
    (x = v ∧ j = k) ∨ (x ≠ v ∧ s.mL x = some j ∧ hd adj x j ≠ hd adj v k) := by
  unfold pushTo at hx
  by_cases hxv : x = v
  · left
    refine ⟨hxv, ?_⟩
    subst hxv
    split at hx
    · simp only [upd, if_true, Option.some.injEq] at hx; exact hx.symm
    · simp only [upd, if_true, Option.some.injEq] at hx; exact hx.symm
  · right
    refine ⟨hxv, ?_⟩
    split at hx
    · rename_i u hu
      simp only [upd, if_neg hxv] at hx
      by_cases hxu : x = u
      · rw [if_pos hxu] at hx; cases hx
      · rw [if_neg hxu] at hx
        refine ⟨hx, fun e => ?_⟩
        have := (h1 x j hx).2.2
        rw [e, hu] at this
        cases this; exact hxu rfl
    · rename_i hu
      simp only [upd, if_neg hxv] at hx
      refine ⟨hx, fun e => ?_⟩
      have := (h1 x j hx).2.2
      rw [e, hu] at this
      cases this

theorem pushTo_cons {adj : Nat → List Arc} {N v k : Nat} {pw : ℚ} {best : List Nat} {nb : ℚ} {s : CsaState}
    {rest : List Nat} (hact : s.active = v :: rest) (inv : Cons adj N s) (hk : k < (adj v).length)
    (hb : ¬ (adj v).length < numBest + 1 → IdxOK (adj v).length best) :
    Cons adj N (pushTo adj v k pw best nb { s with active := rest }) := by
  obtain ⟨i1, i2, i4, i5, i6, i7⟩ := inv
  have hv : v < N ∧ s.mL v = none := (i4 v).mp (by rw [hact]; exact List.mem_cons_self)
  have hrest : v ∉ rest := by rw [hact] at i5; exact (List.nodup_cons.mp i5).1
  have hrestnd : rest.Nodup := by rw [hact] at i5; exact (List.nodup_cons.mp i5).2
  have hinrest : ∀ x, x ∈ rest ↔ (x < N ∧ s.mL x = none) ∧ x ≠ v := by
    intro x
    have := i4 x
    rw [hact, List.mem_cons] at this
    constructor
    · intro hx
      exact ⟨this.mp (.inr hx), fun e => hrest (e ▸ hx)⟩
    · rintro ⟨hx, hxv⟩
      rcases this.mpr hx with h | h
      · exact absurd h hxv
      · exact h
  have h1 : ∀ x j, (pushTo adj v k pw best nb { s with active := rest }).mL x = some j →
      x < N ∧ j < (adj x).length ∧ (pushTo adj v k pw best nb { s with active := rest }).mR (hd adj x j) = some x := by
    intro x j hx
    rw [pushTo_mR]
    rcases pushTo_mL (s := { s with active := rest }) i1 hx with ⟨rfl, rfl⟩ | ⟨_, a, b⟩
    · exact ⟨hv.1, hk, by simp [upd]⟩
    · obtain ⟨c1, c2, c3⟩ := i1 x j a
      refine ⟨c1, c2, ?_⟩
      simp only [upd, if_neg b]; exact c3
  have hidx : ∀ x, x < N → ¬ (adj x).length < numBest + 1 →
      IdxOK (adj x).length ((pushTo adj v k pw best nb { s with active := rest }).best x) := by
    intro x hx hfew
    rw [pushTo_best]
    unfold upd
    by_cases hxv : x = v
    · subst hxv; rw [if_pos rfl]; exact hb hfew
    · rw [if_neg hxv]; exact i7 x hx hfew
  cases hmr : s.mR (hd adj v k) with
  | none =>
    have e : pushTo adj v k pw best nb { s with active := rest } =
        ⟨upd s.p (hd adj v k) pw, upd s.mL v (some k), upd s.mR (hd adj v k) (some v),
          upd s.best v best, upd s.nextBest v nb, rest, s.totalE - 1⟩ := by
      unfold pushTo; simp only [hmr]
    rw [e] at h1 hidx ⊢
    refine ⟨h1, ?_, ?_, hrestnd, ?_, hidx⟩
    · intro y x hy
      simp only [upd] at hy ⊢
      by_cases hyw : y = hd adj v k
      · subst hyw
        rw [if_pos rfl] at hy
        cases hy
        exact ⟨k, by rw [if_pos rfl], rfl⟩
      · rw [if_neg hyw] at hy
        obtain ⟨k', hk1, hk2⟩ := i2 y x hy
        refine ⟨k', ?_, hk2⟩
        rw [if_neg]
        · exact hk1
        · intro e; subst e; rw [hv.2] at hk1; cases hk1
    · intro x
      rw [hinrest x]
      simp only [upd]
      by_cases hxv : x = v
      · subst hxv; simp
      · rw [if_neg hxv]; simp [hxv]
    · simp only [i6, hact, List.length_cons, Nat.add_sub_cancel]
  | some u =>
    obtain ⟨ku, hku, hkuw⟩ := i2 _ u hmr
    have huv : u ≠ v := by intro e; subst e; rw [hv.2] at hku; cases hku
    have huN := (i1 u ku hku).1
    have hurest : u ∉ rest := by
      intro h
      have := (hinrest u).mp h
      rw [hku] at this; cases this.1.2
    have e : pushTo adj v k pw best nb { s with active := rest } =
        ⟨upd s.p (hd adj v k) pw, upd (upd s.mL u none) v (some k), upd s.mR (hd adj v k) (some v),
          upd s.best v best, upd s.nextBest v nb, u :: rest, s.totalE⟩ := by
      unfold pushTo; simp only [hmr]
    rw [e] at h1 hidx ⊢
    refine ⟨h1, ?_, ?_, List.nodup_cons.mpr ⟨hurest, hrestnd⟩, ?_, hidx⟩
    · intro y x hy
      simp only [upd] at hy ⊢
      by_cases hyw : y = hd adj v k
      · subst hyw
        rw [if_pos rfl] at hy
        cases hy
        exact ⟨k, by rw [if_pos rfl], rfl⟩
      · rw [if_neg hyw] at hy
        obtain ⟨k', hk1, hk2⟩ := i2 y x hy
        refine ⟨k', ?_, hk2⟩
        rw [if_neg, if_neg]
        · exact hk1
        · intro e; subst e; rw [hku] at hk1; cases hk1; exact hyw (hk2.symm.trans hkuw)
        · intro e; subst e; rw [hv.2] at hk1; cases hk1
    · intro x
      simp only [List.mem_cons, upd]
      rw [hinrest x]
      by_cases hxv : x = v
      · subst hxv; simp [Ne.symm huv]
      · rw [if_neg hxv]
        by_cases hxu : x = u
        · subst hxu; simp [huN]
        · rw [if_neg hxu]; simp [hxu, hxv]
    · simp only [i6, hact, List.length_cons]

theorem doublePushF_cons {fl : ℚ → ℚ} {adj : Nat → List Arc} {N : Nat} {eps po : ℚ} {s : CsaState} {v : Nat}
    {rest : List Nat} (hne : adj v ≠ []) (hact : s.active = v :: rest) (inv : Cons adj N s) :
    Cons adj N (doublePushF fl adj eps po v { s with active := rest }) := by
  have hv : v < N ∧ s.mL v = none := (inv.act v).mp (by rw [hact]; exact List.mem_cons_self)
  have hdeg : 0 < (adj v).length := List.length_pos_iff.mpr hne
  obtain ⟨h1, h2⟩ := chooseF_idx fl (redCostF fl adj s.p v) (adj v).length eps po (s.best v) (s.nextBest v) hdeg
    (fun h => inv.idx v hv.1 h)
  rw [doublePushF_eq]
  exact pushTo_cons hact inv h1 h2

theorem refineLoopF_cons {fl adj N eps po} (fuel : Nat) (s s' : CsaState) (inv : Cons adj N s)
    (h : refineLoopF fl adj eps po fuel s = some s') : Cons adj N s' ∧ s'.totalE = 0 := by
  induction fuel generalizing s with
  | zero => simp [refineLoopF] at h
  | succ f ih =>
    unfold refineLoopF at h
    split at h
    · rename_i h0; cases h; exact ⟨inv, h0⟩
    · split at h
      · cases h
      · rename_i v rest hact
        split at h
        · cases h
        · rename_i hne
          exact ih _ (doublePushF_cons hne hact inv) h

theorem mainLoopF_cons {fl adj N po minEps} (fuelR fuel : Nat) (eps : ℚ) (s s' : CsaState) (idle : IdleC adj N s)
    (h : mainLoopF fl adj N po minEps fuelR fuel eps s = some s') : IdleC adj N s' := by
  induction fuel generalizing eps s with
  | zero => simp [mainLoopF] at h
  | succ f ih =>
    unfold mainLoopF at h
    split at h
    · cases hr : refineF fl adj N (updateEpsilonF fl eps minEps) po fuelR s with
      | none => rw [hr] at h; cases h
      | some t =>
        rw [hr] at h
        have inv := refineLoopF_cons fuelR _ t (refineInit_cons idle) hr
        exact ih _ t (inv.1.idle inv.2) h
    · cases h; exact idle

/-- If results can be read, every left node is matched. -/
theorem storeResults_matched {adj : Nat → List Arc} {N : Nat} {s : CsaState} {out : List InArc}
    (h : storeResults adj N s = some out) (v : Nat) (hv : v < N) : ∃ k, s.mL v = some k := by
  unfold storeResults at h
  have : ∀ (l : List Nat) (out : List InArc), (l.mapM fun (v : Nat) => (s.mL v).map fun k =>
      (⟨v + 1, (arcAt adj v k).head + 1 + N, (arcAt adj v k).cost⟩ : InArc)) = some out →
      ∀ v ∈ l, ∃ k, s.mL v = some k := by
    intro l
    induction l with
    | nil => intro _ _ v hv; cases hv
    | cons x l ih =>
      intro out ho v hv
      rw [List.mapM_cons] at ho
      cases hx : s.mL x with
      | none => rw [hx] at ho; simp at ho
      | some k =>
        rcases List.mem_cons.mp hv with rfl | hv
        · exact ⟨k, hx⟩
        · rw [hx] at ho
          simp only [Option.map_some, Option.bind_eq_bind, Option.bind_some, Option.pure_def] at ho
          obtain ⟨o', h1, _⟩ := Option.bind_eq_some_iff.mp ho
          exact ih o' h1 v hv
  exact this _ _ h v (List.mem_range.mpr hv)

theorem idleC_pmat {adj N s} (inv : IdleC adj N s) (hm : ∀ v, v < N → ∃ k, s.mL v = some k)
    (hh : HeadLt adj N) : PMat adj N (fun v => (s.mL v).getD 0) := by
  have hget : ∀ v, v < N → s.mL v = some ((s.mL v).getD 0) := by
    intro v hv
    obtain ⟨k, hk⟩ := hm v hv
    rw [hk]; rfl
  refine ⟨fun v hv => (inv.mLR v _ (hget v hv)).2.1, fun v hv => hh v _ hv (inv.mLR v _ (hget v hv)).2.1, ?_⟩
  intro v v' hv hv' he
  have h1 := (inv.mLR v _ (hget v hv)).2.2
  have h2 := (inv.mLR v' _ (hget v' hv')).2.2
  rw [he, h2] at h1
  cases h1; rfl

theorem csaRunF_unfold {N : Nat} {g : List InArc} (hg : WellFormedGraph N g) (fl : ℚ → ℚ) (fuel : Nat) :
    csaRunF fl fuel (2 * N) g =
      mainLoopF fl (adjOf N g) N (poF fl (2 * N)) (minEpsF fl (2 * N)) fuel fuel (fl (csaMaxCost g))
        (csaInitF fl (adjOf N g)) := by
  unfold csaRunF
  rw [csaParse_ok hg]
  have e : 2 * N / 2 = N := by omega
  rw [e]
  rfl

theorem csaSolveF_unfold {N : Nat} {g : List InArc} (hg : WellFormedGraph N g) (fl : ℚ → ℚ) (fuel : Nat) :
    csaSolveF fl fuel (2 * N) g = (csaRunF fl fuel (2 * N) g).bind (storeResults (adjOf N g) N) := by
  unfold csaSolveF
  rw [csaParse_ok hg]
  have e : 2 * N / 2 = N := by omega
  rw [e]
  rfl

/-- Whatever the rounding: a result is a perfect matching, and its cost is that of the chosen arcs. -/
theorem csaSolveF_perfect {N : Nat} {g out : List InArc} (hg : WellFormedGraph N g) {fl : ℚ → ℚ} {fuel : Nat}
    (h : csaSolveF fl fuel (2 * N) g = some out) : IsPerfectMatching N g out ∧
    ∃ s, csaRunF fl fuel (2 * N) g = some s ∧ IdleC (adjOf N g) N s ∧ (∀ v, v < N → ∃ k, s.mL v = some k) ∧
      totalCost out = ∑ v ∈ Finset.range N, (arcAt (adjOf N g) v ((s.mL v).getD 0)).cost := by
  rw [csaSolveF_unfold hg] at h
  obtain ⟨s, h1, h2⟩ := Option.bind_eq_some_iff.mp h
  have h1' := h1
  rw [csaRunF_unfold hg] at h1'
  have idle := mainLoopF_cons _ _ _ _ _ (csaInitF_idle fl _ N) h1'
  have hm := storeResults_matched h2
  obtain ⟨out', e1, e2, _, e3⟩ := storeResults_spec hg hm (idleC_pmat idle hm (adjOf_headLt hg))
  rw [e1] at h2
  cases h2
  exact ⟨e2, s, h1, idle, hm, e3⟩

end EdgeEval
