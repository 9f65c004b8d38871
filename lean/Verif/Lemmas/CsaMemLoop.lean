import Verif.Lemmas.CsaMemPush

/-! # Memory-level solver: the loops -/

namespace EdgeEval.CsaMem

open EdgeEval

variable {adj : Nat → List Arc} {N : Nat}

/-! ## The stack -/

theorem push_ok {h : Heap} {s : CsaState} (st : Static adj N h) (d : Dyn adj N h s) (hlen : s.active.length < 2 * N) (v : Nat) :
    ∃ h', push v h = .ok h' ∧ Static adj N h' ∧ Dyn adj N h' { s with active := v :: s.active } := by
  unfold push
  have hsz : h.top < h.stack.size := by rw [d.top, st.szS]; exact hlen
  rw [Blk.wr_eq hsz, ok_bind]
  refine ⟨_, rfl, ⟨st.arcs, st.first, st.pout, st.few, st.pin, st.szB, st.szN, st.szS⟩, ?_⟩
  refine ⟨d.lm, d.rm, d.pr, d.bst, d.nb, by simp [d.top], ?_, d.te⟩
  intro i x hx
  simp only [List.reverse_cons] at hx
  by_cases hi : i < s.active.length
  · rw [List.getElem?_append_left (by simpa using hi)] at hx
    exact Blk.has_set_ne (by rw [d.top]; omega) (d.stk i x hx)
  · rw [List.getElem?_append_right (by simpa using hi)] at hx
    have hi' : i = s.active.length := by
      by_contra hne
      obtain ⟨e, he⟩ : ∃ e, i - s.active.reverse.length = e + 1 := ⟨i - s.active.length - 1, by rw [List.length_reverse]; omega⟩
      rw [he] at hx
      simp at hx
    rw [List.length_reverse, hi', Nat.sub_self, List.getElem?_cons_zero] at hx
    cases hx
    rw [hi', ← d.top]
    exact Blk.has_set hsz _

theorem pop_ok {h : Heap} {s : CsaState} (st : Static adj N h) (d : Dyn adj N h s) {v : Nat} {rest : List Nat}
    (hact : s.active = v :: rest) :
    ∃ h', pop h = .ok (v, h') ∧ Static adj N h' ∧ Dyn adj N h' { s with active := rest } := by
  unfold pop dec
  have ht : h.top = rest.length + 1 := by rw [d.top, hact, List.length_cons]
  rw [ht, if_neg (by omega), ok_bind, Nat.add_sub_cancel]
  have hv : h.stack.Has rest.length v := by
    refine d.stk _ _ ?_
    rw [hact, List.reverse_cons, List.getElem?_append_right (by simp)]
    simp
  rw [hv.rd, ok_bind]
  refine ⟨_, rfl, ⟨st.arcs, st.first, st.pout, st.few, st.pin, st.szB, st.szN, st.szS⟩, ?_⟩
  refine ⟨d.lm, d.rm, d.pr, d.bst, d.nb, rfl, ?_, d.te⟩
  intro i x hx
  simp only at hx
  refine d.stk i x ?_
  rw [hact, List.reverse_cons]
  have hi : i < rest.reverse.length := by
    by_contra hi
    rw [List.getElem?_eq_none (by omega)] at hx
    cases hx
  rw [List.getElem?_append_left hi]
  exact hx

/-! ## `double_push` -/

theorem matchM_ok {h : Heap} {s : CsaState} (st : Static adj N h) (d : Dyn adj N h s) {v w k : Nat} (hv : v < N) (hw : w < N) :
    ∃ h', matchM v w (off adj v + k) h = .ok h' ∧ Static adj N h' ∧
      Dyn adj N h' { s with mL := upd s.mL v (some k), mR := upd s.mR w (some v) } := by
  unfold matchM
  rw [(d.lm v hv).wr, ok_bind, (d.rm w hw).wr, ok_bind]
  refine ⟨_, rfl, ⟨st.arcs, st.first, st.pout, st.few, st.pin, st.szB, st.szN, st.szS⟩, ?_⟩
  refine ⟨?_, Blk.has_upd d.rm hw _, d.pr, d.bst, d.nb, d.top, d.stk, d.te⟩
  intro u hu
  have := Blk.has_upd d.lm hv (some (off adj v + k)) u hu
  unfold upd at this ⊢
  dsimp only
  by_cases e : u = v
  · subst e; rw [if_pos rfl] at this ⊢; exact this
  · rw [if_neg e] at this ⊢; exact this

theorem pushToM_ok {fl : ℚ → ℚ} {eps po gap : ℚ} {h : Heap} {s : CsaState} (st : Static adj N h) (hh : HeadLt adj N)
    (d : Dyn adj N h s) {v k : Nat} (hv : v < N) (hk : k < (adj v).length) (hlen : s.active.length < 2 * N) (hte : 0 < s.totalE)
    (hR : ∀ w u, s.mR w = some u → u < N) (best : List Nat) (nb : ℚ)
    (hbest : s.best v = best) (hnb : s.nextBest v = nb) :
    ∃ h', pushToM fl eps po v (hd adj v k) (off adj v + k) gap h (s.mR (hd adj v k)) = .ok (gap, h') ∧
      Static adj N h' ∧ Dyn adj N h' (pushTo adj v k (s.p (hd adj v k)) best nb s) := by
  have hw : hd adj v k < N := hh v k hv hk
  have eb : upd s.best v best = s.best := by
    funext i; unfold upd; split
    · rename_i e; rw [e, hbest]
    · rfl
  have en : upd s.nextBest v nb = s.nextBest := by
    funext i; unfold upd; split
    · rename_i e; rw [e, hnb]
    · rfl
  have ep : upd s.p (hd adj v k) (s.p (hd adj v k)) = s.p := by
    funext i; unfold upd; split
    · rename_i e; rw [e]
    · rfl
  unfold pushTo
  rw [eb, en, ep]
  cases hm : s.mR (hd adj v k) with
  | some u =>
    dsimp only [pushToM]
    have hu := hR _ _ hm
    rw [(st.pin _ hw).rd, ok_bind, if_pos rfl, (d.lm u hu).wr, ok_bind]
    have st1 : Static adj N { h with lMatched := h.lMatched.set u none } :=
      ⟨st.arcs, st.first, st.pout, st.few, st.pin, st.szB, st.szN, st.szS⟩
    have d1 : Dyn adj N { h with lMatched := h.lMatched.set u none } { s with mL := upd s.mL u none } := by
      refine ⟨?_, d.rm, d.pr, d.bst, d.nb, d.top, d.stk, d.te⟩
      intro x hx
      have := Blk.has_upd d.lm hu none x hx
      unfold upd at this ⊢
      dsimp only
      by_cases e : x = u
      · rw [if_pos e] at this ⊢; exact this
      · rw [if_neg e] at this ⊢; exact this
    obtain ⟨h2, e2, st2, d2⟩ := push_ok st1 d1 hlen u
    rw [e2, ok_bind]
    obtain ⟨h3, e3, st3, d3⟩ := matchM_ok (k := k) st2 d2 hv hw
    rw [e3, ok_bind]
    exact ⟨h3, rfl, st3, d3⟩
  | none =>
    dsimp only [pushToM]
    unfold dec
    rw [if_neg (by rw [d.te]; omega), ok_bind]
    have st1 : Static adj N { h with totalE := h.totalE - 1 } :=
      ⟨st.arcs, st.first, st.pout, st.few, st.pin, st.szB, st.szN, st.szS⟩
    have d1 : Dyn adj N { h with totalE := h.totalE - 1 } { s with totalE := s.totalE - 1 } :=
      ⟨d.lm, d.rm, d.pr, d.bst, d.nb, d.top, d.stk, by show h.totalE - 1 = s.totalE - 1; rw [d.te]⟩
    obtain ⟨h3, e3, st3, d3⟩ := matchM_ok (k := k) st1 d1 hv hw
    rw [e3, ok_bind]
    exact ⟨h3, rfl, st3, d3⟩

theorem pushTo_price (v k : Nat) (pw : ℚ) (best : List Nat) (nb : ℚ) (s : CsaState) (q : Nat → ℚ) (hq : q = upd s.p (hd adj v k) pw) :
    { pushTo adj v k (s.p (hd adj v k)) best nb s with p := q } = pushTo adj v k pw best nb s := by
  subst hq
  unfold pushTo
  cases s.mR (hd adj v k) <;> rfl

theorem pushTo_cache (v k : Nat) (pw : ℚ) (best : List Nat) (nb : ℚ) (s : CsaState) :
    pushTo adj v k pw best nb { s with best := upd s.best v best, nextBest := upd s.nextBest v nb } =
      pushTo adj v k pw best nb s := by
  have h1 : upd (upd s.best v best) v best = upd s.best v best := by
    funext i; unfold upd; split <;> rfl
  have h2 : upd (upd s.nextBest v nb) v nb = upd s.nextBest v nb := by
    funext i; unfold upd; split <;> rfl
  unfold pushTo
  dsimp only
  rw [h1, h2]

theorem doublePushM_ok {fl : ℚ → ℚ} {eps po : ℚ} {h : Heap} {s : CsaState} (st : Static adj N h) (hh : HeadLt adj N)
    (d : Dyn adj N h s) (hidx : ∀ u < N, ¬ (adj u).length < numBest + 1 → IdxOK (adj u).length (s.best u))
    {v : Nat} (hv : v < N) (hd0 : 0 < (adj v).length) (hlen : s.active.length < 2 * N) (hte : 0 < s.totalE)
    (hR : ∀ w u, s.mR w = some u → u < N) :
    ∃ h', doublePushM fl eps po v h = .ok h' ∧ Static adj N h' ∧ Dyn adj N h' (doublePushF fl adj eps po v s) := by
  obtain ⟨hk, _⟩ := chooseF_idx fl (redCostF fl adj s.p v) (adj v).length eps po (s.best v) (s.nextBest v) hd0
    (fun hm => hidx v hv hm)
  obtain ⟨h1, e1, cs⟩ := chooseM_ok (fl := fl) st hh d hidx hv hd0 eps po
  rw [doublePushF_eq]
  dsimp only
  unfold doublePushM
  rw [e1, ok_bind]
  generalize chooseF fl (redCostF fl adj s.p v) (adj v).length eps po (s.best v) (s.nextBest v) = c at *
  have st1 := cs.static st
  have d1 := cs.dyn d hidx
  have hw : hd adj v c.1.adm < N := hh v _ hv hk
  dsimp only [toM]
  rw [(st1.arcs v hv _ hk).rd, ok_bind, show (arcAt adj v c.1.adm).head = hd adj v c.1.adm from rfl, (d1.rm _ hw).rd, ok_bind]
  obtain ⟨h2, e2, st2, d2⟩ := pushToM_ok (fl := fl) (eps := eps) (po := po) (gap := fl (c.1.second - c.1.pref)) st1 hh d1 hv hk hlen hte hR
    c.2.1 c.2.2 (by simp [upd]) (by simp [upd])
  dsimp only at e2
  rw [e2, ok_bind]
  rw [pushTo_cache] at d2
  have hpr : h2.price.Has (hd adj v c.1.adm) (s.p (hd adj v c.1.adm)) := by
    have := d2.pr _ hw
    rw [pushTo_p] at this
    simpa [upd] using this
  dsimp only
  rw [hpr.rd, ok_bind, hpr.wr, ok_bind]
  refine ⟨_, rfl, ⟨st2.arcs, st2.first, st2.pout, st2.few, st2.pin, st2.szB, st2.szN, st2.szS⟩, ?_⟩
  rw [← pushTo_price v c.1.adm (fl (s.p (hd adj v c.1.adm) - fl (fl (c.1.second - c.1.pref) + eps))) c.2.1 c.2.2 s _ rfl]
  refine ⟨d2.lm, d2.rm, ?_, d2.bst, d2.nb, d2.top, d2.stk, d2.te⟩
  intro w hwN
  have hp0 : ∀ w < N, h2.price.Has w (s.p w) := by
    intro w hw'
    have := d2.pr w hw'
    rw [pushTo_p] at this
    unfold upd at this
    split at this
    · rename_i e; subst e; exact this
    · exact this
  exact Blk.has_upd hp0 hw _ w hwN

/-! ## `refine` -/

theorem unmatchArc_ok {h : Heap} {s : CsaState} (st : Static adj N h) (hh : HeadLt adj N) (d : Dyn adj N h s) {v : Nat} (hv : v < N)
    (hk : ∀ k, s.mL v = some k → k < (adj v).length) :
    ∃ h', unmatchArc v h ((s.mL v).map (off adj v + ·)) = .ok h' ∧ Static adj N h' ∧
      Dyn adj N h' (match s.mL v with
        | some k => { s with mR := upd s.mR (arcAt adj v k).head none, mL := upd s.mL v none }
        | none => s) := by
  cases hm : s.mL v with
  | none => exact ⟨h, rfl, st, d⟩
  | some k =>
    have hk' := hk k hm
    have hw : (arcAt adj v k).head < N := hh v k hv hk'
    dsimp only [unmatchArc, Option.map_some]
    rw [(st.arcs v hv k hk').rd, ok_bind, (st.pin _ hw).rd, ok_bind, if_pos rfl, (d.rm _ hw).wr, ok_bind, (d.lm v hv).wr, ok_bind]
    refine ⟨_, rfl, ⟨st.arcs, st.first, st.pout, st.few, st.pin, st.szB, st.szN, st.szS⟩, ?_⟩
    refine ⟨?_, Blk.has_upd d.rm hw _, d.pr, d.bst, d.nb, d.top, d.stk, d.te⟩
    intro x hx
    have := Blk.has_upd d.lm hv none x hx
    unfold upd at this ⊢
    dsimp only
    by_cases e : x = v
    · rw [if_pos e] at this ⊢; exact this
    · rw [if_neg e] at this ⊢; exact this

theorem unmatch_ok {h : Heap} {s : CsaState} (st : Static adj N h) (hh : HeadLt adj N) (d : Dyn adj N h s) {v : Nat} (hv : v < N)
    (hk : ∀ k, s.mL v = some k → k < (adj v).length) (hlen : s.active.length < 2 * N) :
    ∃ h', unmatch v h = .ok h' ∧ Static adj N h' ∧ Dyn adj N h' (refineInitStep adj s v) := by
  unfold unmatch
  rw [(d.lm v hv).rd, ok_bind]
  obtain ⟨h1, e1, st1, d1⟩ := unmatchArc_ok st hh d hv hk
  rw [e1, ok_bind]
  unfold refineInitStep
  generalize hs : (match s.mL v with
        | some k => { s with mR := upd s.mR (arcAt adj v k).head none, mL := upd s.mL v none }
        | none => s : CsaState) = s1 at *
  have hm : s1.mL v = none := by
    subst hs
    cases hm : s.mL v with
    | none => exact hm
    | some k => simp [upd]
  have hact : s1.active = s.active := by
    subst hs
    cases hm : s.mL v <;> rfl
  have hl := d1.lm v hv
  rw [hm] at hl
  rw [hl.rd, ok_bind]
  have st2 : Static adj N { h1 with totalE := h1.totalE + 1 } :=
    ⟨st1.arcs, st1.first, st1.pout, st1.few, st1.pin, st1.szB, st1.szN, st1.szS⟩
  have d2 : Dyn adj N { h1 with totalE := h1.totalE + 1 } { s1 with totalE := s1.totalE + 1 } :=
    ⟨d1.lm, d1.rm, d1.pr, d1.bst, d1.nb, d1.top, d1.stk, by show h1.totalE + 1 = s1.totalE + 1; rw [d1.te]⟩
  have hp := push_ok st2 d2 (by rw [← hact] at hlen; exact hlen) v
  subst hs
  exact hp

theorem refineInitStep_mL {s : CsaState} {v u k : Nat} (h : (refineInitStep adj s v).mL u = some k) : s.mL u = some k := by
  unfold refineInitStep at h
  cases hm : s.mL v with
  | none => rw [hm] at h; exact h
  | some j =>
    rw [hm] at h
    dsimp only [upd] at h
    split at h
    · cases h
    · exact h

theorem refineInitStep_active (s : CsaState) (v : Nat) : (refineInitStep adj s v).active = v :: s.active := by
  unfold refineInitStep
  cases s.mL v <;> rfl

theorem refineInitM_ok {h : Heap} {s : CsaState} (st : Static adj N h) (hh : HeadLt adj N) (d : Dyn adj N h s)
    (idle : IdleC adj N s) :
    ∃ h', forLoop unmatch N 0 { h with totalE := 0 } = .ok h' ∧ Static adj N h' ∧ Dyn adj N h' (refineInit adj N s) := by
  obtain ⟨h', e, st', d', _, _⟩ := forLoop_inv (f := unmatch) (cnt := N) (lo := 0) (s := { h with totalE := 0 })
    (fun i h' => Static adj N h' ∧ Dyn adj N h' ((List.range i).foldl (refineInitStep adj) { s with totalE := 0 }) ∧
      (∀ v k, ((List.range i).foldl (refineInitStep adj) { s with totalE := 0 }).mL v = some k → k < (adj v).length) ∧
      ((List.range i).foldl (refineInitStep adj) { s with totalE := 0 }).active.length = i)
    ⟨⟨st.arcs, st.first, st.pout, st.few, st.pin, st.szB, st.szN, st.szS⟩,
      ⟨d.lm, d.rm, d.pr, d.bst, d.nb, d.top, d.stk, rfl⟩, fun v k hk => (idle.mLR v k hk).2.1, by
        show s.active.length = 0
        rw [idle.act]; rfl⟩ (by
      rintro i h' - hi ⟨st', d', hk, hl⟩
      rw [Nat.zero_add] at hi
      obtain ⟨h'', e, st'', d''⟩ := unmatch_ok st' hh d' hi (hk i) (by rw [hl]; omega)
      rw [List.range_succ, List.foldl_append]
      refine ⟨h'', e, st'', d'', ?_, ?_⟩
      · intro v k hv
        exact hk v k (refineInitStep_mL hv)
      · show (refineInitStep adj _ i).active.length = i + 1
        rw [refineInitStep_active, List.length_cons, hl])
  rw [Nat.zero_add] at d'
  exact ⟨h', e, st', d'⟩

theorem cons_active_len {s : CsaState} (inv : Cons adj N s) : s.active.length ≤ N := by
  have : s.active ⊆ List.range N := fun x hx => List.mem_range.2 ((inv.act x).1 hx).1
  have := (inv.nodup.subperm this).length_le
  rwa [List.length_range] at this

/-- Outcome of a fuelled run at the memory level against the abstract one. -/
def Agrees (adj : Nat → List Arc) (N : Nat) (x : Except MErr Heap) : Option CsaState → Prop
  | some s => ∃ h, x = .ok h ∧ Static adj N h ∧ Dyn adj N h s
  | none => x = .error .outOfFuel

theorem refineLoopM_ok {fl : ℚ → ℚ} {eps po : ℚ} (hh : HeadLt adj N) (hne : ∀ v < N, adj v ≠ []) (fuel : Nat) (h : Heap) (s : CsaState)
    (st : Static adj N h) (d : Dyn adj N h s) (inv : Cons adj N s) :
    Agrees adj N (refineLoopM fl eps po fuel h) (refineLoopF fl adj eps po fuel s) := by
  induction fuel generalizing h s with
  | zero => rfl
  | succ fuel ih =>
    unfold refineLoopM refineLoopF
    by_cases h0 : s.totalE = 0
    · rw [if_pos h0, if_pos (by rw [d.te]; exact h0)]
      exact ⟨h, rfl, st, d⟩
    · rw [if_neg h0, if_neg (by rw [d.te]; exact h0)]
      cases hact : s.active with
      | nil =>
        have := inv.excess
        rw [hact] at this
        exact absurd this h0
      | cons v rest =>
        have hv := ((inv.act v).1 (by rw [hact]; exact List.mem_cons_self)).1
        dsimp only
        rw [if_neg (hne v hv)]
        obtain ⟨h1, e1, st1, d1⟩ := pop_ok st d hact
        rw [e1, ok_bind]
        have hl := cons_active_len inv
        rw [hact, List.length_cons] at hl
        obtain ⟨h2, e2, st2, d2⟩ := doublePushM_ok (fl := fl) (eps := eps) (po := po) st1 hh d1 inv.idx hv
          (List.length_pos_iff.2 (hne v hv)) (by show rest.length < 2 * N; omega) (by show 0 < s.totalE; omega)
          (fun w u hu => by
            obtain ⟨k, hk, _⟩ := inv.mRL w u hu
            exact (inv.mLR u k hk).1)
        dsimp only
        rw [e2, ok_bind]
        exact ih h2 _ st2 d2 (doublePushF_cons (hne v hv) hact inv)

theorem refineM_ok {fl : ℚ → ℚ} {eps po : ℚ} (hh : HeadLt adj N) (hne : ∀ v < N, adj v ≠ []) (fuel : Nat) (h : Heap) (s : CsaState)
    (st : Static adj N h) (d : Dyn adj N h s) (idle : IdleC adj N s) :
    Agrees adj N (refineM fl N eps po fuel h) (refineF fl adj N eps po fuel s) := by
  unfold refineM refineF
  obtain ⟨h1, e1, st1, d1⟩ := refineInitM_ok st hh d idle
  rw [e1, ok_bind]
  exact refineLoopM_ok hh hne fuel h1 _ st1 d1 (refineInit_cons idle)

theorem error_bind {α β : Type} (x : MErr) (f : α → Except MErr β) : ((Except.error x : Except MErr α) >>= f) = .error x := rfl

theorem mainLoopM_ok {fl : ℚ → ℚ} {po minEps : ℚ} (hh : HeadLt adj N) (hne : ∀ v < N, adj v ≠ []) (fuelR fuel : Nat) (eps : ℚ)
    (h : Heap) (s : CsaState) (st : Static adj N h) (d : Dyn adj N h s) (idle : IdleC adj N s) :
    Agrees adj N (mainLoopM fl N po minEps fuelR fuel eps h) (mainLoopF fl adj N po minEps fuelR fuel eps s) := by
  induction fuel generalizing eps h s with
  | zero => rfl
  | succ fuel ih =>
    unfold mainLoopM mainLoopF
    by_cases hc : eps > minEps
    · rw [if_pos hc, if_pos hc]
      have hr := refineM_ok (fl := fl) (eps := updateEpsilonF fl eps minEps) (po := po) hh hne fuelR h s st d idle
      cases hF : refineF fl adj N (updateEpsilonF fl eps minEps) po fuelR s with
      | none =>
        rw [hF] at hr
        have hr' : refineM fl N (updateEpsilonF fl eps minEps) po fuelR h = .error .outOfFuel := hr
        rw [hr', error_bind]
        rfl
      | some t =>
        rw [hF] at hr
        obtain ⟨h1, e1, st1, d1⟩ := hr
        rw [e1, ok_bind]
        have inv := refineLoopF_cons fuelR _ t (refineInit_cons idle) hF
        exact ih _ h1 t st1 d1 (inv.1.idle inv.2)
    · rw [if_neg hc, if_neg hc]
      exact ⟨h, rfl, st, d⟩

/-! ## The cache at the start -/

/-- The blocks right after `parse`. -/
structure Parsed (adj : Nat → List Arc) (N : Nat) (h : Heap) : Prop where
  static : Static adj N h
  lm : ∀ v < N, h.lMatched.Has v none
  rm : ∀ w < N, h.rMatched.Has w none
  pr : ∀ w < N, h.price.Has w 0
  top : h.top = 0
  te : h.totalE = 0

theorem initBest_ok {fl : ℚ → ℚ} {h : Heap} (hh : HeadLt adj N) (ps : Parsed adj N h) :
    ∃ h', forLoop (initBestM fl) N 0 h = .ok h' ∧ Static adj N h' ∧ Dyn adj N h' (csaInitF fl adj) := by
  obtain ⟨h', e, ps', hb⟩ := forLoop_inv (f := initBestM fl) (cnt := N) (lo := 0) (s := h)
    (fun i h' => Parsed adj N h' ∧ ∀ v < i, ¬ (adj v).length < numBest + 1 →
      BestHas adj h'.best v (bestBuild (redCostF fl adj (fun _ => 0) v) (adj v).length).1 ∧
      h'.nextBest.Has v (bestBuild (redCostF fl adj (fun _ => 0) v) (adj v).length).2)
    ⟨ps, fun v hv => by omega⟩ (by
      rintro i h' - hi ⟨ps', hb⟩
      rw [Nat.zero_add] at hi
      unfold initBestM
      rw [(ps'.static.few i hi).rd, ok_bind]
      by_cases hf : (adj i).length < numBest + 1
      · rw [if_pos (by simpa using hf)]
        refine ⟨h', rfl, ps', ?_⟩
        intro v hv hm
        rcases Nat.lt_succ_iff_lt_or_eq.1 hv with h1 | h1
        · exact hb v h1 hm
        · subst h1; exact absurd hf hm
      · rw [if_neg (by simpa using hf)]
        obtain ⟨h'', e, cu⟩ := bestBuildM_ok (fl := fl) (p := fun _ => 0) ps'.static hh ps'.pr hi (by omega)
        refine ⟨h'', e, ?_, ?_⟩
        · have st'' := cu.toSet.static ps'.static
          obtain ⟨b, x, rfl, _⟩ := cu
          exact ⟨st'', ps'.lm, ps'.rm, ps'.pr, ps'.top, ps'.te⟩
        · obtain ⟨b, x, rfl, _, _, h3, h4, h5, h6⟩ := cu
          intro v hv hm
          by_cases hvi : v = i
          · subst hvi
            exact ⟨h3, h4⟩
          · have hlt : v < i := by omega
            obtain ⟨g1, g2⟩ := hb v hlt hm
            refine ⟨?_, h6 v _ hvi g2⟩
            intro j y hy
            obtain ⟨x0, y0, z0, el, _⟩ := (bestBuild_ok (redCostF fl adj (fun _ => 0) v) (adj v).length (by omega)).cache.idx
            have hj : j < 3 := by
              by_contra hj
              rw [el, List.getElem?_eq_none (by simp; omega)] at hy
              cases hy
            exact h5 _ _ (by unfold numBest; omega) (g1 j y hy))
  refine ⟨h', e, ps'.static, ps'.lm, ps'.rm, ps'.pr, ?_, ?_, ps'.top, fun i x hx => by simp [csaInitF] at hx, ps'.te⟩
  · intro v hv hm
    simp only [csaInitF, if_neg hm]
    exact (hb v (by omega) hm).1
  · intro v hv hm
    simp only [csaInitF, if_neg hm]
    exact (hb v (by omega) hm).2

end EdgeEval.CsaMem
